import Verif.Loong.Api

/-! # sljit_emit_shift_into of the LoongArch64 backend -/

namespace Verif.LA
open Verif.RV (Op OpC Opd Sz)
open Verif.Imm.Loong (loadImmediate)

/-- XORI, OPC_2RI12(0xf) (sljitNativeLOONGARCH_64.c:117). -/
def XORI : BitVec 32 := 0xf#32 <<< 22

/-- emit_op_mem (sljitNativeLOONGARCH_64.c:1303-1327) for integers: getput_arg_fast, or the address in `tmp_r`. -/
def emitOpMem (t : MT) (load : Bool) (reg base idx : Nat) (argw : BitVec 64) : Emit :=
  let tmp := if load then reg else TMP_REG1
  if fastArg idx argw = true then pushMem t load reg base idx argw
  else if idx ≠ 0 then
    (if argw &&& 3#64 ≠ 0#64 then ins (SLLI_D ||| RD tmp ||| RJ idx ||| IMM_I12 (argw &&& 3#64)) else []) ++
    pushMem t load reg base tmp 0#64
  else
    loadImmediate tmp argw ++ (if base ≠ 0 then pushMem t load reg base tmp 0#64 else pushMem t load reg tmp 0 0#64)

/-- The end of sljit_emit_shift_into (sljitNativeLOONGARCH_64.c:2154-2174), with the shift amount in the register `src3`. -/
def shiftIntoTail (left is32 nonZero : Bool) (dst src1 src2 src3 : Nat) : Emit :=
  (if left then ins (INST SLL_W SLL_D is32 ||| RD dst ||| RJ src1 ||| RK src3)
   else ins (INST SRL_W SRL_D is32 ||| RD dst ||| RJ src1 ||| RK src3)) ++
  ((if nonZero then ins (SUBx is32 ||| RD TMP_REG2 ||| RJ TMP_ZERO ||| RK src3)
    else
      (if left then ins (INST SRLI_W SRLI_D is32 ||| RD TMP_REG1 ||| RJ src2 ||| IMM_I12 1#64)
       else ins (INST SLLI_W SLLI_D is32 ||| RD TMP_REG1 ||| RJ src2 ||| IMM_I12 1#64)) ++
      ins (XORI ||| RD TMP_REG2 ||| RJ src3 ||| IMM_I12 (if is32 then 31#64 else 63#64))) ++
  ((if left then ins (INST SRL_W SRL_D is32 ||| RD TMP_REG1 ||| RJ (if nonZero then src2 else TMP_REG1) ||| RK TMP_REG2)
    else ins (INST SLL_W SLL_D is32 ||| RD TMP_REG1 ||| RJ (if nonZero then src2 else TMP_REG1) ||| RK TMP_REG2)) ++
  ins (OR ||| RD dst ||| RJ dst ||| RK TMP_REG1)))

/-- sljit_emit_shift_into (sljitNativeLOONGARCH_64.c:2101-2175); `left` is SLJIT_SHL or SLJIT_MSHL, `nonZero` is
SLJIT_SHIFT_INTO_NON_ZERO. -/
def emitShiftInto (left is32 nonZero : Bool) (dst src1 src2 : Nat) (src3 : Opd) : Emit :=
  if src1 = src2 then emitOp2 ⟨if left then .rotl else .rotr, is32, false, .none⟩ (.reg dst) (.reg src1) src3
  else
    match src3 with
    | .imm v =>
      let v := v &&& (if is32 then 31#64 else 63#64)
      let u := (if is32 then 32#64 else 64#64) - v
      if v = 0#64 then []
      else
        (if left then ins (INST SLLI_W SLLI_D is32 ||| IMM_I12 v ||| RD dst ||| RJ src1)
         else ins (INST SRLI_W SRLI_D is32 ||| IMM_I12 v ||| RD dst ||| RJ src1)) ++
        ((if left then ins (INST SRLI_W SRLI_D is32 ||| IMM_I12 u ||| RD TMP_REG1 ||| RJ src2)
          else ins (INST SLLI_W SLLI_D is32 ||| IMM_I12 u ||| RD TMP_REG1 ||| RJ src2)) ++
        ins (OR ||| RD dst ||| RJ dst ||| RK TMP_REG1))
    | .mem b i w =>
      emitOpMem (.g (if is32 then .int else .word) false) true TMP_REG2 b i w ++
      shiftIntoTail left is32 nonZero dst src1 src2 TMP_REG2
    | .reg r =>
      if dst = r then
        ins (ADDIx is32 ||| RD TMP_REG2 ||| RJ r ||| IMM_I12 0#64) ++ shiftIntoTail left is32 nonZero dst src1 src2 TMP_REG2
      else shiftIntoTail left is32 nonZero dst src1 src2 r

end Verif.LA
