import Verif.RISCV.Ops

/-!
# What the integer operations compute (specification)

Written from the descriptions in sljitLir.h:1340-1560, independently of the emitted code: results modulo `2^w`, flags as
statements about the unbounded integers behind the operands.
-/

namespace Verif.RV

/-- Result of a binary operation on `w` bit operands; `cin` is the carry flag before the operation. -/
def val {w : Nat} (o : OpC) (a b : BitVec w) (cin : Bool) : BitVec w :=
  match o with
  | .add => BitVec.ofNat w (a.toNat + b.toNat)
  | .addc => BitVec.ofNat w (a.toNat + b.toNat + cin.toNat)
  | .sub => BitVec.ofInt w (a.toNat - b.toNat)
  | .subc => BitVec.ofInt w (a.toNat - b.toNat - cin.toNat)
  | .mul => BitVec.ofNat w (a.toNat * b.toNat)
  | .and => a &&& b
  | .or => a ||| b
  | .xor => a ^^^ b
  | .shl | .mshl => a <<< (b.toNat % w)
  | .lshr | .mlshr => a >>> (b.toNat % w)
  | .ashr | .mashr => a.sshiftRight (b.toNat % w)
  | .rotl => a.rotateLeft (b.toNat % w)
  | .rotr => a.rotateRight (b.toNat % w)
  | _ => a

/-- Value of the variable flag after the operation. -/
def flagVal {w : Nat} (o : OpC) (f : Flag) (a b : BitVec w) (cin : Bool) : Bool :=
  match f, o with
  | .carry, .add => decide (2 ^ w ≤ a.toNat + b.toNat)
  | .carry, .addc => decide (2 ^ w ≤ a.toNat + b.toNat + cin.toNat)
  | .carry, .sub => decide (a.toNat < b.toNat)
  | .carry, .subc => decide (a.toNat < b.toNat + cin.toNat)
  | .overflow, .add => decide (a.toInt + b.toInt < -2 ^ (w - 1) ∨ 2 ^ (w - 1) ≤ a.toInt + b.toInt)
  | .overflow, .sub => decide (a.toInt - b.toInt < -2 ^ (w - 1) ∨ 2 ^ (w - 1) ≤ a.toInt - b.toInt)
  | .overflow, .mul => decide (a.toInt * b.toInt < -2 ^ (w - 1) ∨ 2 ^ (w - 1) ≤ a.toInt * b.toInt)
  | .less, _ => decide (a.toNat < b.toNat)
  | .greater, _ => decide (b.toNat < a.toNat)
  | .sigLess, _ => decide (a.toInt < b.toInt)
  | .sigGreater, _ => decide (b.toInt < a.toInt)
  | _, _ => false

/-- A register that holds the result of a 32 bit operation ("all source registers must be the result of those
operations where this option was also set", sljitLir.h:1072-1075); the RV64 convention is sign extension
(SLJIT_UPPER_BITS_SIGN_EXTENDED, sljitConfigInternal.h:732). -/
def Sx (v : BitVec 64) : Prop := v = sx32 (lo32 v)

/-- Register image of the result. -/
def resX (op : Op) (a b : BitVec 64) (cin : Bool) : BitVec 64 :=
  if op.is32 then sx32 (val op.code (lo32 a) (lo32 b) cin) else val op.code a b cin

/-- Variable flag after the operation. -/
def flagX (op : Op) (a b : BitVec 64) (cin : Bool) : Bool :=
  if op.is32 then flagVal op.code op.flag (lo32 a) (lo32 b) cin else flagVal op.code op.flag a b cin

/-- The flag types that CHECK_FLAGS accepts for a binary operation (see `Verif.Generic.Flags`; sljitLir.h:1344-1560). -/
def Op.flagOk (op : Op) : Prop :=
  match op.code with
  | .add => op.flag = .none ∨ op.flag = .overflow ∨ op.flag = .carry
  | .addc | .subc => (op.flag = .none ∨ op.flag = .carry) ∧ op.setZ = false
  | .sub => True
  | .mul => (op.flag = .none ∨ op.flag = .overflow) ∧ op.setZ = false
  | .rotl | .rotr => op.flag = .none ∧ op.setZ = false
  | _ => op.flag = .none

end Verif.RV
