import Verif.Loong.Mem
import Verif.RISCV.Api

/-!
# The integer operation entry points of the LoongArch64 backend

ADJUST_LOCAL_OFFSET (sljitLir.c:341) adds SLJIT_LOCALS_OFFSET, which is 0 on LoongArch (sljitConfigInternal.h:781), so it is
not visible here.  `compiler->status_flags_state` only affects sljit_emit_op_flags, sljit_emit_jump and sljit_emit_select and is
left out.
-/

namespace Verif.LA
open Verif.RV (Op OpC Opd)

/-- `flags |= INT_DATA | SIGNED_DATA` when SLJIT_32 is set (sljitNativeLOONGARCH_64.c:2021-2027); WORD_DATA is 0. -/
def opData (op : Op) : MT := if op.is32 then .g .int true else .g .word false

/-- sljit_emit_op2 (sljitNativeLOONGARCH_64.c:2008-2071).  sljit_emit_op2u (2073-2083) is the same with `dst = .reg 0`.  The flags
CUMULATIVE_OP and IMM_OP and the masking of the shift amount are the same as on RISC-V (`Verif.RV.op2Flags`, `Verif.RV.shMask`). -/
def emitOp2 (op : Op) (dst src1 src2 : Opd) : Emit :=
  let src1 := if op.is32 then src1.s32 else src1
  let src2 := if op.is32 then src2.s32 else src2
  emitOp op (opData op) (Verif.RV.op2Flags op.code) ⟨none, 0#64⟩ dst src1 (Verif.RV.shMask op src2)

/-- sljit_emit_op2r (sljitNativeLOONGARCH_64.c:2083-2102): SLJIT_MULADD. -/
def emitMulAdd (is32 : Bool) (dst : Nat) (src1 src2 : Opd) : Emit :=
  emitOp2 ⟨.mul, is32, false, .none⟩ (.reg TMP_REG2) src1 src2 ++ ins (ADD_D ||| RD dst ||| RJ dst ||| RK TMP_REG2)

end Verif.LA
