import Verif.RISCV.OpSpec

/-!
# What the one operand operations compute (specification)

Written from sljitLir.h:1197-1331, independently of the emitted code.
-/

namespace Verif.RV

/-- Byte `i` of a word. -/
def byte (v : BitVec 64) (i : Nat) : BitVec 8 := v.extractLsb' (8 * i) 8

/-- `r` has the lower `n` bytes of `a` in reverse order. -/
def IsRev (n : Nat) (a r : BitVec 64) : Prop := ∀ i, i < n → byte r i = byte a (n - 1 - i)

/-- `n` is the number of leading zero bits. -/
def IsClz {w : Nat} (a : BitVec w) (n : Nat) : Prop :=
  n ≤ w ∧ (∀ i, i < n → a.getMsbD i = false) ∧ (n < w → a.getMsbD n = true)

/-- `n` is the number of trailing zero bits. -/
def IsCtz {w : Nat} (a : BitVec w) (n : Nat) : Prop :=
  n ≤ w ∧ (∀ i, i < n → a.getLsbD i = false) ∧ (n < w → a.getLsbD n = true)

/-- Result `r` of SLJIT_CLZ, SLJIT_CTZ, SLJIT_REV* on `a`. -/
def UnSpec (o : OpC) (is32 : Bool) (a r : BitVec 64) : Prop :=
  match o with
  | .clz => ∃ n, r = BitVec.ofNat 64 n ∧ if is32 then IsClz (a.setWidth 32) n else IsClz a n
  | .ctz => ∃ n, r = BitVec.ofNat 64 n ∧ if is32 then IsCtz (a.setWidth 32) n else IsCtz a n
  | .rev => if is32 then IsRev 4 a r ∧ r = (r.setWidth 32).signExtend 64 else IsRev 8 a r
  | .revU16 => IsRev 2 a r ∧ r = (r.setWidth 16).setWidth 64
  | .revS16 => IsRev 2 a r ∧ r = (r.setWidth 16).signExtend 64
  | .revU32 => IsRev 4 a r ∧ r = (r.setWidth 32).setWidth 64
  | .revS32 => IsRev 4 a r ∧ r = (r.setWidth 32).signExtend 64
  | _ => False

/-- Result of a move (sljitLir.h:1197-1260). -/
def movX (o : OpC) (a : BitVec 64) : BitVec 64 :=
  match o with
  | .movU8 => (a.setWidth 8).setWidth 64
  | .movS8 => (a.setWidth 8).signExtend 64
  | .movU16 => (a.setWidth 16).setWidth 64
  | .movS16 => (a.setWidth 16).signExtend 64
  | .movU32 => (a.setWidth 32).setWidth 64
  | .movS32 => (a.setWidth 32).signExtend 64
  | _ => a

end Verif.RV
