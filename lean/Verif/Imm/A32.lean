/-!
# Immediates of A32 and T32 (architecture side)

The data processing instructions of A32 with an immediate or an unshifted register operand and without flag setting, MOVW and
MOVT of A32 and T32, and MOV/MVN (immediate) of T32, as the Arm Architecture Reference Manual describes them.  Nothing here comes
from sljit.  Every other word is refused (`none`).
-/

namespace Verif.Imm.A32

/-- A field of an instruction word. -/
def fld (w : BitVec 32) (lo n : Nat) : BitVec n := w.extractLsb' lo n

/-- `ARMExpandImm`: imm12 is a rotation and a byte. -/
def expand (imm12 : BitVec 12) : BitVec 32 :=
  ((imm12.extractLsb' 0 8).setWidth 32).rotateRight (2 * (imm12.extractLsb' 8 4).toNat)

/-- `ThumbExpandImm` for i:imm3:imm8.  A replicated zero byte is unpredictable. -/
def expandThumb (imm12 : BitVec 12) : Option (BitVec 32) :=
  let b : BitVec 32 := (imm12.extractLsb' 0 8).setWidth 32
  if imm12.extractLsb' 10 2 = 0#2 then
    if imm12.extractLsb' 8 2 = 0#2 then some b
    else if b = 0#32 then none
    else if imm12.extractLsb' 8 2 = 1#2 then some ((b <<< 16) ||| b)
    else if imm12.extractLsb' 8 2 = 2#2 then some ((b <<< 24) ||| (b <<< 8))
    else some ((b <<< 24) ||| (b <<< 16) ||| (b <<< 8) ||| b)
  else some (((imm12.extractLsb' 0 7).setWidth 32 ||| 0x80#32).rotateRight (imm12.extractLsb' 7 5).toNat)

/-- Registers and the carry flag. -/
structure St where
  r : BitVec 4 → BitVec 32
  c : Bool

/-- Writing a register. -/
def St.set (s : St) (d : BitVec 4) (v : BitVec 32) : St := { s with r := fun q => if q = d then v else s.r q }

/-- The second operand. -/
inductive Op2 where
  | imm (v : BitVec 32)
  | reg (m : BitVec 4)
  deriving DecidableEq, Repr

/-- Instructions. -/
inductive Inst where
  /-- Data processing: the opcode of bits 24-21. -/
  | dp (opc : BitVec 4) (n d : BitVec 4) (o : Op2)
  | movw (d : BitVec 4) (v : BitVec 16)
  | movt (d : BitVec 4) (v : BitVec 16)
  deriving DecidableEq, Repr

/-- A32 decoder: condition AL, S = 0.  The opcodes 8-11 without S are other instructions; of these MOVW and MOVT with an
immediate are decoded.  A register operand has no shift. -/
def decode (w : BitVec 32) : Option Inst :=
  if fld w 28 4 ≠ 14#4 ∨ fld w 20 1 ≠ 0#1 then none
  else if fld w 23 2 = 2#2 then
    if fld w 20 8 = 0x30#8 then some (.movw (fld w 12 4) ((fld w 16 4).setWidth 16 <<< 12 ||| (fld w 0 12).setWidth 16))
    else if fld w 20 8 = 0x34#8 then some (.movt (fld w 12 4) ((fld w 16 4).setWidth 16 <<< 12 ||| (fld w 0 12).setWidth 16))
    else none
  else if fld w 25 3 = 1#3 then some (.dp (fld w 21 4) (fld w 16 4) (fld w 12 4) (.imm (expand (fld w 0 12))))
  else if fld w 25 3 = 0#3 ∧ fld w 4 8 = 0#8 then some (.dp (fld w 21 4) (fld w 16 4) (fld w 12 4) (.reg (fld w 0 4)))
  else none

/-- The i:imm3:imm8 field of a T32 instruction. -/
def thumbField (w : BitVec 32) : BitVec 12 :=
  (fld w 26 1).setWidth 12 <<< 11 ||| (fld w 12 3).setWidth 12 <<< 8 ||| (fld w 0 8).setWidth 12

/-- T32 decoder (both halfwords in one word, the first one on top): MOV and MVN with a modified immediate (S = 0), MOVW, MOVT. -/
def decodeThumb (w : BitVec 32) : Option Inst :=
  let imm12 := thumbField w
  let imm16 : BitVec 16 := (fld w 16 4).setWidth 16 <<< 12 ||| imm12.setWidth 16
  if fld w 27 5 ≠ 0x1e#5 ∨ fld w 15 1 ≠ 0#1 then none
  else if fld w 16 10 = 0x04f#10 then (expandThumb imm12).map fun v => .dp 13#4 0#4 (fld w 8 4) (.imm v)
  else if fld w 16 10 = 0x06f#10 then (expandThumb imm12).map fun v => .dp 15#4 0#4 (fld w 8 4) (.imm v)
  else if fld w 20 6 = 0x24#6 then some (.movw (fld w 8 4) imm16)
  else if fld w 20 6 = 0x2c#6 then some (.movt (fld w 8 4) imm16)
  else none

/-- A carry as a number. -/
def cin (c : Bool) : BitVec 32 := if c then 1#32 else 0#32

/-- The result of a data processing instruction. -/
def dpVal (opc : BitVec 4) (a b : BitVec 32) (c : Bool) : Option (BitVec 32) :=
  match opc.toNat with
  | 0 => some (a &&& b)
  | 1 => some (a ^^^ b)
  | 2 => some (a - b)
  | 3 => some (b - a)
  | 4 => some (a + b)
  | 5 => some (a + b + cin c)
  | 6 => some (a - b - cin (!c))
  | 7 => some (b - a - cin (!c))
  | 12 => some (a ||| b)
  | 13 => some b
  | 14 => some (a &&& ~~~ b)
  | 15 => some (~~~ b)
  | _ => none

/-- The value of the second operand; the program counter is refused. -/
def Op2.val (o : Op2) (s : St) : Option (BitVec 32) :=
  match o with
  | .imm v => some v
  | .reg m => if m = 15#4 then none else some (s.r m)

/-- Execution; a destination or a source of 15 is refused (for MOV and MVN the field of the first operand is zero). -/
def exec : Inst → St → Option St
  | .dp opc n d o, s =>
    if d = 15#4 ∨ n = 15#4 then none
    else (o.val s).bind fun b => (dpVal opc (s.r n) b s.c).map fun v => s.set d v
  | .movw d v, s => if d = 15#4 then none else some (s.set d (v.setWidth 32))
  | .movt d v, s => if d = 15#4 then none else some (s.set d ((s.r d &&& 0xffff#32) ||| (v.setWidth 32 <<< 16)))

end Verif.Imm.A32
