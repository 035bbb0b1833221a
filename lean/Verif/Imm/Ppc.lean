/-!
# load_immediate of PPC64

`Pp` is the architecture side (Power ISA): the fixed point instructions which build constants.  `Ppc` is the model of
sljitNativePPC_64.c.
-/

namespace Verif.Imm.Pp

/-- A field of an instruction word. -/
def fld (w : BitVec 32) (lo n : Nat) : BitVec n := w.extractLsb' lo n

/-- Instructions. -/
inductive Inst where
  | addi (rt ra : BitVec 5) (si : BitVec 16)
  | addis (rt ra : BitVec 5) (si : BitVec 16)
  | ori (ra rs : BitVec 5) (ui : BitVec 16)
  | oris (ra rs : BitVec 5) (ui : BitVec 16)
  /-- Rotate left doubleword immediate then clear right. -/
  | rldicr (ra rs : BitVec 5) (sh me : BitVec 6)
  deriving DecidableEq, Repr

/-- The decoder.  The six bit fields of the MD form are split: sh has its high bit in bit 1, me has its high bit in bit 5. -/
def decode (w : BitVec 32) : Option Inst :=
  if fld w 26 6 = 14#6 then some (.addi (fld w 21 5) (fld w 16 5) (fld w 0 16))
  else if fld w 26 6 = 15#6 then some (.addis (fld w 21 5) (fld w 16 5) (fld w 0 16))
  else if fld w 26 6 = 24#6 then some (.ori (fld w 16 5) (fld w 21 5) (fld w 0 16))
  else if fld w 26 6 = 25#6 then some (.oris (fld w 16 5) (fld w 21 5) (fld w 0 16))
  else if fld w 26 6 = 30#6 ∧ fld w 2 3 = 1#3 ∧ fld w 0 1 = 0#1 then
    some (.rldicr (fld w 16 5) (fld w 21 5) ((fld w 1 1).setWidth 6 <<< 5 ||| (fld w 11 5).setWidth 6)
      ((fld w 5 1).setWidth 6 <<< 5 ||| (fld w 6 5).setWidth 6))
  else none

/-- The general registers r0-r31. -/
abbrev Regs := BitVec 5 → BitVec 64

/-- The operand (RA|0). -/
def base (x : Regs) (r : BitVec 5) : BitVec 64 := if r = 0#5 then 0#64 else x r
/-- Writing a register. -/
def put (x : Regs) (r : BitVec 5) (v : BitVec 64) : Regs := fun q => if q = r then v else x q

/-- MASK(0, me): the me + 1 highest bits. -/
def mask0 (me : BitVec 6) : BitVec 64 := (BitVec.allOnes 64) <<< (63 - me.toNat)

/-- Execution. -/
def exec : Inst → Regs → Regs
  | .addi rt ra i, x => put x rt (base x ra + i.signExtend 64)
  | .addis rt ra i, x => put x rt (base x ra + (i.signExtend 64 <<< 16))
  | .ori ra rs i, x => put x ra (x rs ||| i.setWidth 64)
  | .oris ra rs i, x => put x ra (x rs ||| (i.setWidth 64 <<< 16))
  | .rldicr ra rs sh me, x => put x ra ((x rs).rotateLeft sh.toNat &&& mask0 me)

/-- Execution of a sequence of instruction words. -/
def run : List (BitVec 32) → Regs → Option Regs
  | [], x => some x
  | w :: ws, x => (decode w).bind fun i => run ws (exec i x)

/-- cntlzd: the number of leading zeros. -/
def cntlzd (v : BitVec 64) : Nat := if v = 0#64 then 64 else 63 - Nat.log2 v.toNat

end Verif.Imm.Pp

namespace Verif.Imm.Ppc

/-- reg_map, sljitNativePPC_common.c:107-109. -/
def regMap (r : Nat) : BitVec 5 :=
  BitVec.ofNat 5 ([0, 3, 4, 5, 6, 7, 8, 14, 15, 16, 17, 18, 19, 20, 21, 22, 23, 24, 25, 26, 27, 28, 29, 30, 1, 9, 10, 31, 12].getD r 0)
/-- TMP_ZERO, sljitNativePPC_common.c:96. -/
def TMP_ZERO : Nat := 27
/-- D, S, A, IMM, sljitNativePPC_common.c:118-128. -/
def D (r : Nat) : BitVec 32 := (regMap r).setWidth 32 <<< 21
@[inherit_doc D] def S (r : Nat) : BitVec 32 := (regMap r).setWidth 32 <<< 21
@[inherit_doc D] def A (r : Nat) : BitVec 32 := (regMap r).setWidth 32 <<< 16
@[inherit_doc D] def IMM (v : BitVec 64) : BitVec 32 := v.setWidth 32 &&& 0xffff#32
/-- Instruction words, sljitNativePPC_common.c:142-219. -/
def ADDI : BitVec 32 := 14#32 <<< 26
@[inherit_doc ADDI] def ADDIS : BitVec 32 := 15#32 <<< 26
@[inherit_doc ADDI] def ORI : BitVec 32 := 24#32 <<< 26
@[inherit_doc ADDI] def ORIS : BitVec 32 := 25#32 <<< 26
@[inherit_doc ADDI] def RLDICR : BitVec 32 := (30#32 <<< 26) ||| (2#32 <<< 1)
/-- RLDI_SH, RLDI_ME, sljitNativePPC_common.c:264-266. -/
def RLDI_SH (v : BitVec 32) : BitVec 32 := ((v &&& 0x1f#32) <<< 11) ||| ((v &&& 0x20#32) >>> 4)
@[inherit_doc RLDI_SH] def RLDI_ME (v : BitVec 32) : BitVec 32 := ((v &&& 0x1f#32) <<< 6) ||| (v &&& 0x20#32)

/-- PUSH_SLDI_NEG, sljitNativePPC_64.c:39-40.  The shift stays below 64 (the difference is on natural numbers). -/
def sldiNeg (reg shift : Nat) : BitVec 32 :=
  RLDICR ||| S reg ||| A reg ||| RLDI_SH (BitVec.ofNat 32 (63 - shift)) ||| RLDI_ME (BitVec.ofNat 32 shift)

/-- load_immediate after the leading zeros are counted, sljitNativePPC_64.c:69-120, with `shift` after the decrement. -/
def loadWide (reg : Nat) (imm : BitVec 64) (shift : Nat) : List (BitVec 32) :=
  let tmp := imm <<< shift
  if tmp &&& ~~~ 0xffff000000000000#64 = 0#64 then
    [ADDI ||| D reg ||| A 0 ||| (tmp >>> 48).setWidth 32, sldiNeg reg (shift + 15)]
  else if tmp &&& ~~~ 0xffffffff00000000#64 = 0#64 then
    [ADDIS ||| D reg ||| A 0 ||| (tmp >>> 48).setWidth 32, ORI ||| S reg ||| A reg ||| IMM (tmp >>> 32), sldiNeg reg (shift + 31)]
  else
    let shift := shift + 15
    let tmp2 := imm &&& BitVec.ofNat 64 (2 ^ (63 - shift) - 1)
    if tmp2 ≤ 0xffff#64 then
      [ADDI ||| D reg ||| A 0 ||| (tmp >>> 48).setWidth 32, sldiNeg reg shift, ORI ||| S reg ||| A reg ||| tmp2.setWidth 32]
    else if tmp2 ≤ 0xffffffff#64 then
      [ADDI ||| D reg ||| A 0 ||| IMM (tmp >>> 48), sldiNeg reg shift, ORIS ||| S reg ||| A reg ||| (tmp2 >>> 16).setWidth 32] ++
        (if imm &&& 0xffff#64 ≠ 0#64 then [ORI ||| S reg ||| A reg ||| IMM tmp2] else [])
    else
      let shift2 := Pp.cntlzd tmp2
      let tmp2 := tmp2 <<< shift2
      if tmp2 &&& ~~~ 0xffff000000000000#64 = 0#64 then
        [ADDI ||| D reg ||| A 0 ||| (tmp >>> 48).setWidth 32, sldiNeg reg (shift + (63 - (shift2 + 15))),
          ORI ||| S reg ||| A reg ||| (tmp2 >>> 48).setWidth 32, sldiNeg reg (shift2 + 15)]
      else
        [ADDIS ||| D reg ||| A 0 ||| (imm >>> 48).setWidth 32, ORI ||| S reg ||| A reg ||| IMM (imm.sshiftRight 32), sldiNeg reg 31,
          ORIS ||| S reg ||| A reg ||| IMM (imm.sshiftRight 16), ORI ||| S reg ||| A reg ||| IMM imm]

/-- load_immediate, sljitNativePPC_64.c:42-120: the instruction words.  `none` is the failed assertion of line 68.  ASM_SLJIT_CLZ is
cntlzd (lines 29-31). -/
def loadImmediate (reg : Nat) (imm : BitVec 64) : Option (List (BitVec 32)) :=
  if imm.sle 0x7fff#64 ∧ (-0x8000#64).sle imm then some [ADDI ||| D reg ||| A 0 ||| IMM imm]
  else if imm >>> 16 = 0#64 then some [ORI ||| S TMP_ZERO ||| A reg ||| IMM imm]
  else
    let low := if imm &&& 0xffff#64 ≠ 0#64 then [ORI ||| S reg ||| A reg ||| IMM imm] else []
    if imm.sle 0x7fffffff#64 ∧ (-0x80000000#64).sle imm then some ((ADDIS ||| D reg ||| A 0 ||| IMM (imm.sshiftRight 16)) :: low)
    else if imm >>> 32 = 0#64 then some ((ORIS ||| S TMP_ZERO ||| A reg ||| IMM (imm.sshiftRight 16)) :: low)
    else
      let shift := Pp.cntlzd (if (0#64).sle imm then imm else ~~~ imm)
      if shift = 0 then none else some (loadWide reg imm (shift - 1))

end Verif.Imm.Ppc
