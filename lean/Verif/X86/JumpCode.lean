import Verif.X86.Ops

/-!
# Condition codes of the x86-64 backend

Model of get_jump_code (sljitNativeX86_common.c:601-669) for the integer conditions; the floating point ones are not modelled here.
-/

namespace Verif.X86

/-- The integer conditions, without the negated ones (sljitLir.h:1563-1606). -/
inductive JT where
  | equal | less | greater | sigLess | sigGreater | overflow | carry
  deriving DecidableEq

/-- get_jump_code, sljitNativeX86_common.c:601-669: `neg` is the type with the lowest bit set (SLJIT_NOT_EQUAL, SLJIT_GREATER_EQUAL,
SLJIT_LESS_EQUAL, SLJIT_SIG_GREATER_EQUAL, SLJIT_SIG_LESS_EQUAL, SLJIT_NOT_OVERFLOW, SLJIT_NOT_CARRY). -/
def jumpCode (t : JT) (neg : Bool) : Byte :=
  match t, neg with
  | .equal, false => 0x84#8
  | .equal, true => 0x85#8
  | .less, false | .carry, false => 0x82#8
  | .less, true | .carry, true => 0x83#8
  | .greater, false => 0x87#8
  | .greater, true => 0x86#8
  | .sigLess, false => 0x8c#8
  | .sigLess, true => 0x8d#8
  | .sigGreater, false => 0x8f#8
  | .sigGreater, true => 0x8e#8
  | .overflow, false => 0x80#8
  | .overflow, true => 0x81#8

end Verif.X86
