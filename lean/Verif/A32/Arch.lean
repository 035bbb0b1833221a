import Verif.Imm.A32

/-!
# A32 (architecture side)

Decoder and execution for the part of the A32 instruction set which sljit emits for integer operations, as the Arm Architecture Reference
Manual (ARMv7-A, DDI 0406, chapter A8) describes them: data processing with all shifter operands and flags, MOVW, MOVT, multiplications,
loads and stores of words, bytes and halfwords.  Nothing here comes from sljit.  Every other word, and everything which the manual calls
unpredictable, is refused (`none`); the program counter is no operand.  Loads and stores accept every address (the manual allows
unaligned LDR, STR, LDRH and STRH).
-/

namespace Verif.A32
open Verif.Imm.A32 (fld expand)

/-- Registers, memory (bytes) and the flags of the APSR. -/
structure St where
  r : BitVec 4 → BitVec 32
  m : BitVec 32 → BitVec 8
  n : Bool
  z : Bool
  c : Bool
  v : Bool

/-- Writing a register. -/
def St.set (s : St) (d : BitVec 4) (x : BitVec 32) : St := { s with r := fun q => if q = d then x else s.r q }

/-- Little-endian read of k bytes. -/
def rd (m : BitVec 32 → BitVec 8) (a : BitVec 32) : Nat → BitVec 32
  | 0 => 0#32
  | k + 1 => (rd m (a + 1#32) k <<< 8) ||| (m a).setWidth 32

/-- Little-endian write of k bytes. -/
def wr (m : BitVec 32 → BitVec 8) (a : BitVec 32) (x : BitVec 32) : Nat → BitVec 32 → BitVec 8
  | 0 => m
  | k + 1 => wr (fun q => if q = a then x.setWidth 8 else m q) (a + 1#32) (x >>> 8) k

/-- `Shift_C` for an amount n (A2.2.1): the result and the carry out. -/
def shiftC (ty : BitVec 2) (x : BitVec 32) (n : Nat) (c : Bool) : BitVec 32 × Bool :=
  if n = 0 then (x, c)
  else match ty.toNat with
    | 0 => (x <<< n, decide (n ≤ 32) && x.getLsbD (32 - n))
    | 1 => (x >>> n, x.getLsbD (n - 1))
    | 2 => (x.sshiftRight n, x.getLsbD (min (n - 1) 31))
    | _ => (x.rotateRight n, (x.rotateRight n).getLsbD 31)

/-- `DecodeImmShift` (A8.4.3); RRX is refused. -/
def immShift (ty : BitVec 2) (k : BitVec 5) : Option Nat :=
  if k = 0#5 then if ty = 0#2 then some 0 else if ty = 3#2 then none else some 32
  else some k.toNat

/-- The second operand of data processing instructions, given by the I bit and the low 12 bits: the value and the carry of the
shifter. -/
def op2 (i : Bool) (f : BitVec 12) (s : St) : Option (BitVec 32 × Bool) :=
  if i then some (expand f, if f.extractLsb' 8 4 = 0#4 then s.c else (expand f).getLsbD 31)
  else if f.extractLsb' 0 4 = 15#4 then none
  else if f.getLsbD 4 = false then
    (immShift (f.extractLsb' 5 2) (f.extractLsb' 7 5)).map fun n => shiftC (f.extractLsb' 5 2) (s.r (f.extractLsb' 0 4)) n s.c
  else if f.extractLsb' 8 4 = 15#4 then none
  else some (shiftC (f.extractLsb' 5 2) (s.r (f.extractLsb' 0 4)) ((s.r (f.extractLsb' 8 4)).setWidth 8).toNat s.c)

/-- `AddWithCarry` (A2.2.1): result, carry, overflow. -/
def awc (x y : BitVec 32) (c : Bool) : BitVec 32 × Bool × Bool :=
  let u := x.toNat + y.toNat + c.toNat
  let i := x.toInt + y.toInt + c.toNat
  (BitVec.ofNat 32 u, decide (2 ^ 32 ≤ u), decide (i < -2 ^ 31 ∨ 2 ^ 31 ≤ i))

/-- The result of a data processing instruction with its carry and overflow. -/
def dpRes (opc : BitVec 4) (a : BitVec 32) (b : BitVec 32 × Bool) (s : St) : BitVec 32 × Bool × Bool :=
  match opc.toNat with
  | 0 | 8 => (a &&& b.1, b.2, s.v)
  | 1 | 9 => (a ^^^ b.1, b.2, s.v)
  | 2 | 10 => awc a (~~~ b.1) true
  | 3 => awc (~~~ a) b.1 true
  | 4 | 11 => awc a b.1 false
  | 5 => awc a b.1 s.c
  | 6 => awc a (~~~ b.1) s.c
  | 7 => awc (~~~ a) b.1 s.c
  | 12 => (a ||| b.1, b.2, s.v)
  | 13 => (b.1, b.2, s.v)
  | 14 => (a &&& ~~~ b.1, b.2, s.v)
  | _ => (~~~ b.1, b.2, s.v)

/-- Instructions. -/
inductive Inst where
  /-- Data processing: bits 24-21, S, Rn, Rd, I, bits 11-0. -/
  | dp (opc : BitVec 4) (s : Bool) (n d : BitVec 4) (i : Bool) (f : BitVec 12)
  | movw (d : BitVec 4) (v : BitVec 16)
  | movt (d : BitVec 4) (v : BitVec 16)
  | mul (d n m : BitVec 4)
  | mla (d a n m : BitVec 4)
  | smull (hi lo n m : BitVec 4)
  /-- Loads and stores: bytes, sign extension, L, U, Rn, Rt and the offset: `some (m, k)` is Rm, LSL #k. -/
  | ldst (size : Nat) (sg l u : Bool) (n t : BitVec 4) (o : BitVec 12 ⊕ BitVec 4 × BitVec 5)
  deriving DecidableEq, Repr

/-- A bit. -/
def bit (w : BitVec 32) (k : Nat) : Bool := w.getLsbD k

/-- Multiplications, bits 7-4 are 1001 (A5.2.5). -/
def decMul (w : BitVec 32) : Option Inst :=
  if fld w 20 8 = 0x00#8 then if fld w 12 4 = 0#4 then some (.mul (fld w 16 4) (fld w 0 4) (fld w 8 4)) else none
  else if fld w 20 8 = 0x02#8 then some (.mla (fld w 16 4) (fld w 12 4) (fld w 0 4) (fld w 8 4))
  else if fld w 20 8 = 0x0c#8 then some (.smull (fld w 16 4) (fld w 12 4) (fld w 0 4) (fld w 8 4))
  else none

/-- Extra loads and stores (A5.2.8), P = 1 and W = 0.  Bits 6-5 are the kind; LDRD and STRD are refused. -/
def decExtra (w : BitVec 32) : Option Inst :=
  let l := bit w 20
  if bit w 24 = false ∨ bit w 21 = true then none
  else
    let o := if bit w 22 then some (.inl ((fld w 8 4).setWidth 12 <<< 4 ||| (fld w 0 4).setWidth 12))
      else if fld w 8 4 = 0#4 then some (.inr (fld w 0 4, 0#5)) else none
    o.bind fun o =>
      if fld w 5 2 = 1#2 then some (.ldst 2 false l (bit w 23) (fld w 16 4) (fld w 12 4) o)
      else if l = false then none
      else if fld w 5 2 = 2#2 then some (.ldst 1 true true (bit w 23) (fld w 16 4) (fld w 12 4) o)
      else some (.ldst 2 true true (bit w 23) (fld w 16 4) (fld w 12 4) o)

/-- The decoder (A5.1), without the condition. -/
def decode (w : BitVec 32) : Option Inst :=
  if fld w 25 3 = 0#3 ∧ bit w 4 = true ∧ bit w 7 = true then if fld w 5 2 = 0#2 then decMul w else decExtra w
  else if fld w 26 2 = 0#2 then
    if fld w 23 2 = 2#2 ∧ bit w 20 = false then
      if fld w 20 8 = 0x30#8 then some (.movw (fld w 12 4) ((fld w 16 4).setWidth 16 <<< 12 ||| (fld w 0 12).setWidth 16))
      else if fld w 20 8 = 0x34#8 then some (.movt (fld w 12 4) ((fld w 16 4).setWidth 16 <<< 12 ||| (fld w 0 12).setWidth 16))
      else none
    else some (.dp (fld w 21 4) (bit w 20) (fld w 16 4) (fld w 12 4) (bit w 25) (fld w 0 12))
  else if fld w 26 2 = 1#2 then
    if bit w 24 = false ∨ bit w 21 = true then none
    else if bit w 25 = false then
      some (.ldst (if bit w 22 then 1 else 4) false (bit w 20) (bit w 23) (fld w 16 4) (fld w 12 4) (.inl (fld w 0 12)))
    else if fld w 4 3 = 0#3 then
      some (.ldst (if bit w 22 then 1 else 4) false (bit w 20) (bit w 23) (fld w 16 4) (fld w 12 4) (.inr (fld w 0 4, fld w 7 5)))
    else none
  else none

/-- The opcodes 8-11 only set the flags. -/
def isTest (opc : BitVec 4) : Bool := fld (opc.setWidth 32) 2 2 = (2#2 : BitVec 2)

/-- Whether an instruction is executed (A8.3); the condition 15 is refused. -/
def condOk (c : BitVec 4) (s : St) : Option Bool :=
  match c.toNat with
  | 0 => some s.z
  | 1 => some (!s.z)
  | 2 => some s.c
  | 3 => some (!s.c)
  | 4 => some s.n
  | 5 => some (!s.n)
  | 6 => some s.v
  | 7 => some (!s.v)
  | 8 => some (s.c && !s.z)
  | 9 => some (!s.c || s.z)
  | 10 => some (s.n == s.v)
  | 11 => some (s.n != s.v)
  | 12 => some (!s.z && s.n == s.v)
  | 13 => some (s.z || s.n != s.v)
  | 14 => some true
  | _ => none

/-- Setting the flags. -/
def St.flags (s : St) (x : BitVec 32 × Bool × Bool) : St := { s with n := x.1.getLsbD 31, z := decide (x.1 = 0#32), c := x.2.1, v := x.2.2 }

/-- The address offset of a load or store. -/
def offs (s : St) : BitVec 12 ⊕ BitVec 4 × BitVec 5 → Option (BitVec 32)
  | .inl i => some (i.setWidth 32)
  | .inr (m, k) => if m = 15#4 then none else some (s.r m <<< k.toNat)

/-- Execution of an instruction whose condition holds. -/
def exec : Inst → St → Option St
  | .dp opc sf n d i f, s =>
    if n = 15#4 ∨ d = 15#4 then none
    else if (opc = 13#4 ∨ opc = 15#4) ∧ n ≠ 0#4 then none
    else if isTest opc = true ∧ d ≠ 0#4 then none
    else (op2 i f s).map fun b =>
      let x := dpRes opc (s.r n) b s
      let s' := if isTest opc then s else s.set d x.1
      if sf then s'.flags x else s'
  | .movw d v, s => if d = 15#4 then none else some (s.set d (v.setWidth 32))
  | .movt d v, s => if d = 15#4 then none else some (s.set d ((s.r d &&& 0xffff#32) ||| (v.setWidth 32 <<< 16)))
  | .mul d n m, s => if d = 15#4 ∨ n = 15#4 ∨ m = 15#4 then none else some (s.set d (s.r n * s.r m))
  | .mla d a n m, s => if d = 15#4 ∨ n = 15#4 ∨ m = 15#4 ∨ a = 15#4 then none else some (s.set d (s.r n * s.r m + s.r a))
  | .smull hi lo n m, s =>
    if hi = 15#4 ∨ lo = 15#4 ∨ n = 15#4 ∨ m = 15#4 ∨ hi = lo then none
    else
      let p : BitVec 64 := (s.r n).signExtend 64 * (s.r m).signExtend 64
      some ((s.set lo (p.setWidth 32)).set hi ((p >>> 32).setWidth 32))
  | .ldst k sg l u n t o, s =>
    if n = 15#4 ∨ t = 15#4 then none
    else (offs s o).map fun d =>
      let a := if u then s.r n + d else s.r n - d
      if l then s.set t (if sg then if k = 1 then ((rd s.m a k).setWidth 8).signExtend 32 else ((rd s.m a k).setWidth 16).signExtend 32 else rd s.m a k)
      else { s with m := wr s.m a (s.r t) k }

/-- One instruction word. -/
def step (w : BitVec 32) (s : St) : Option St :=
  (condOk (fld w 28 4) s).bind fun ok => (decode w).bind fun i => if ok then exec i s else some s

end Verif.A32
