/-!
# load_immediate of LoongArch64

`La` is the architecture side: the instructions which build constants, as the LoongArch Reference Manual describes them.  `Loong` is
the model of sljitNativeLOONGARCH_64.c.
-/

namespace Verif.Imm.La

/-- A field of an instruction word. -/
def fld (w : BitVec 32) (lo n : Nat) : BitVec n := w.extractLsb' lo n

/-- Instructions. -/
inductive Inst where
  | addiD (rd rj : BitVec 5) (si12 : BitVec 12)
  | ori (rd rj : BitVec 5) (ui12 : BitVec 12)
  | lu12iW (rd : BitVec 5) (si20 : BitVec 20)
  | lu32iD (rd : BitVec 5) (si20 : BitVec 20)
  | lu52iD (rd rj : BitVec 5) (si12 : BitVec 12)
  deriving DecidableEq, Repr

/-- The decoder. -/
def decode (w : BitVec 32) : Option Inst :=
  if fld w 22 10 = 0b0000001011#10 then some (.addiD (fld w 0 5) (fld w 5 5) (fld w 10 12))
  else if fld w 22 10 = 0b0000001110#10 then some (.ori (fld w 0 5) (fld w 5 5) (fld w 10 12))
  else if fld w 22 10 = 0b0000001100#10 then some (.lu52iD (fld w 0 5) (fld w 5 5) (fld w 10 12))
  else if fld w 25 7 = 0b0001010#7 then some (.lu12iW (fld w 0 5) (fld w 5 20))
  else if fld w 25 7 = 0b0001011#7 then some (.lu32iD (fld w 0 5) (fld w 5 20))
  else none

/-- The general registers r0-r31. -/
abbrev Regs := BitVec 5 → BitVec 64

/-- Reading; r0 is zero. -/
def get (x : Regs) (r : BitVec 5) : BitVec 64 := if r = 0#5 then 0#64 else x r
/-- Writing; r0 stays zero. -/
def put (x : Regs) (r : BitVec 5) (v : BitVec 64) : Regs := fun q => if q = r then v else x q

/-- Execution. -/
def exec : Inst → Regs → Regs
  | .addiD rd rj i, x => put x rd (get x rj + i.signExtend 64)
  | .ori rd rj i, x => put x rd (get x rj ||| i.setWidth 64)
  | .lu12iW rd i, x => put x rd (i.signExtend 64 <<< 12)
  | .lu32iD rd i, x => put x rd ((i.signExtend 64 <<< 32) ||| (get x rd &&& 0xffffffff#64))
  | .lu52iD rd rj i, x => put x rd ((i.setWidth 64 <<< 52) ||| (get x rj &&& 0xfffffffffffff#64))

/-- Execution of a sequence of instruction words. -/
def run : List (BitVec 32) → Regs → Option Regs
  | [], x => some x
  | w :: ws, x => (decode w).bind fun i => run ws (exec i x)

end Verif.Imm.La

namespace Verif.Imm.Loong

/-- reg_map, sljitNativeLOONGARCH_64.c:47-49. -/
def regMap (r : Nat) : BitVec 5 :=
  BitVec.ofNat 5 ([0, 4, 5, 6, 7, 8, 9, 10, 11, 16, 17, 18, 19, 20, 22, 31, 30, 29, 28, 27, 26, 25, 24, 23, 3, 13, 1, 14, 12, 15].getD r 0)
/-- RD, RJ, IMM_I12, sljitNativeLOONGARCH_64.c:77-90. -/
def RD (r : Nat) : BitVec 32 := (regMap r).setWidth 32
@[inherit_doc RD] def RJ (r : Nat) : BitVec 32 := (regMap r).setWidth 32 <<< 5
@[inherit_doc RD] def IMM_I12 (imm : BitVec 64) : BitVec 32 := (imm.setWidth 32 &&& 0xfff#32) <<< 10
/-- Instruction words, sljitNativeLOONGARCH_64.c:101-121. -/
def ADDI_D : BitVec 32 := 0xb#32 <<< 22
@[inherit_doc ADDI_D] def ORI : BitVec 32 := 0xe#32 <<< 22
@[inherit_doc ADDI_D] def LU12I_W : BitVec 32 := 0xa#32 <<< 25
@[inherit_doc ADDI_D] def LU32I_D : BitVec 32 := 0xb#32 <<< 25
@[inherit_doc ADDI_D] def LU52I_D : BitVec 32 := 0xc#32 <<< 22
/-- sljitNativeLOONGARCH_64.c:37. -/
def TMP_ZERO : Nat := 0

/-- load_immediate, sljitNativeLOONGARCH_64.c:904-925: the instruction words. -/
def loadImmediate (dst : Nat) (imm : BitVec 64) : List (BitVec 32) :=
  let lu12i := LU12I_W ||| RD dst ||| ((((imm &&& 0xffffffff#64).sshiftRight 12) <<< 5).setWidth 32)
  let ori := if IMM_I12 imm ≠ 0#32 then [ORI ||| RD dst ||| RJ dst ||| IMM_I12 imm] else []
  let lu32i := LU32I_D ||| RD dst ||| ((((imm.sshiftRight 32) &&& 0xfffff#64) <<< 5).setWidth 32)
  if imm.sle 0x7ff#64 ∧ (-0x800#64).sle imm then [ADDI_D ||| RD dst ||| RJ TMP_ZERO ||| IMM_I12 imm]
  else if imm.sle 0x7fffffff#64 ∧ (-0x80000000#64).sle imm then lu12i :: ori
  else if imm.sle 0x7ffffffffffff#64 ∧ (-0x8000000000000#64).sle imm then lu12i :: (ori ++ [lu32i])
  else lu12i :: (ori ++ [lu32i, LU52I_D ||| RD dst ||| RJ dst ||| IMM_I12 (imm.sshiftRight 52)])

end Verif.Imm.Loong
