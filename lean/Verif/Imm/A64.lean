import Batteries.Data.BitVec.Lemmas

/-!
# Immediates of A64 (architecture side)

The part of the A64 instruction set which loads constants, as the Arm Architecture Reference Manual describes it: the move wide
group (MOVN, MOVZ, MOVK), the logical group with an immediate (AND, ORR, EOR, ANDS) and `DecodeBitMasks`.  Nothing here comes
from sljit.  Every other word is refused (`none`).
-/

namespace Verif.Imm.A64

/-- A field of an instruction word. -/
def fld (w : BitVec 32) (lo n : Nat) : BitVec n := w.extractLsb' lo n

/-- The element size, S and R of `DecodeBitMasks(immN, imms, immr, TRUE, _)`: the highest set bit of `immN : NOT(imms)` selects
the size of the element, the bits of imms and immr below it are S and R.  No size at all, a size of one bit, and S with all
bits set are reserved. -/
def maskFields (n : BitVec 1) (imms immr : BitVec 6) : Option (Nat × Nat × Nat) :=
  let c := 64 * n.toNat + (63 - imms.toNat)
  let len := Nat.log2 c
  if c = 0 ∨ len = 0 then none
  else
    let e := 2 ^ len
    if imms.toNat % e = e - 1 then none else some (e, imms.toNat % e, immr.toNat % e)

/-- The value of a bitmask immediate: an element of e bits with its low S + 1 bits set is rotated right by R, then replicated.
So bit k of the result is bit (k + R) mod e of the element. -/
def wmask (e s r : Nat) : BitVec 64 := BitVec.ofFnLE fun k : Fin 64 => decide ((k.val + r) % e < s + 1)

/-- `DecodeBitMasks` for a logical immediate: the field of bits 22-10 of the instruction.  A 32 bit instruction uses the low half
of the result and reserves N = 1. -/
def bitMask (sf : BitVec 1) (f : BitVec 13) : Option (BitVec 64) :=
  if sf = 0#1 ∧ f.extractLsb' 12 1 = 1#1 then none
  else (maskFields (f.extractLsb' 12 1) (f.extractLsb' 0 6) (f.extractLsb' 6 6)).map fun (e, s, r) => wmask e s r

/-- Instructions.  A register number of 31 is the zero register as a source. -/
inductive Inst where
  /-- Move wide: opc 0 is MOVN, 2 is MOVZ, 3 is MOVK. -/
  | wide (sf : BitVec 1) (opc : BitVec 2) (hw : BitVec 2) (imm : BitVec 16) (rd : BitVec 5)
  /-- Logical with an immediate: opc 0 is AND, 1 is ORR, 2 is EOR, 3 is ANDS. -/
  | logic (sf : BitVec 1) (opc : BitVec 2) (mask : BitVec 64) (rn rd : BitVec 5)
  deriving DecidableEq, Repr

/-- The decoder. -/
def decode (w : BitVec 32) : Option Inst :=
  if fld w 23 6 = 0b100101#6 then
    if fld w 29 2 = 1#2 ∨ (fld w 31 1 = 0#1 ∧ fld w 22 1 = 1#1) then none
    else some (.wide (fld w 31 1) (fld w 29 2) (fld w 21 2) (fld w 5 16) (fld w 0 5))
  else if fld w 23 6 = 0b100100#6 then
    (bitMask (fld w 31 1) (fld w 10 13)).map fun m => .logic (fld w 31 1) (fld w 29 2) m (fld w 5 5) (fld w 0 5)
  else none

/-- The general registers X0-X30. -/
abbrev Regs := BitVec 5 → BitVec 64

/-- Reading a register operand; 31 is the zero register. -/
def get (x : Regs) (r : BitVec 5) : BitVec 64 := if r = 31#5 then 0#64 else x r

/-- Writing a register; a 32 bit result clears the upper half. -/
def put (x : Regs) (sf : BitVec 1) (r : BitVec 5) (v : BitVec 64) : Regs :=
  fun q => if q = r then (if sf = 1#1 then v else (v.setWidth 32).setWidth 64) else x q

/-- Execution.  A destination of 31 (the zero register or SP) is refused, and so are the flags of ANDS. -/
def exec : Inst → Regs → Option Regs
  | .wide sf opc hw imm rd, x =>
    if rd = 31#5 then none else
    let v := imm.setWidth 64 <<< (16 * hw.toNat)
    some (put x sf rd (
      if opc = 0#2 then ~~~ v
      else if opc = 2#2 then v
      else (x rd &&& ~~~ ((0xffff#64) <<< (16 * hw.toNat))) ||| v))
  | .logic sf opc m rn rd, x =>
    if rd = 31#5 ∨ opc = 3#2 then none else
    some (put x sf rd (if opc = 0#2 then get x rn &&& m else if opc = 1#2 then get x rn ||| m else get x rn ^^^ m))

/-- Execution of a sequence of instruction words. -/
def run : List (BitVec 32) → Regs → Option Regs
  | [], x => some x
  | w :: ws, x => (decode w).bind fun i => (exec i x).bind fun x' => run ws x'

end Verif.Imm.A64
