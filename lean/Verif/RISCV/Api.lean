import Verif.RISCV.Mem

/-!
# The integer operation entry points of the RV64 backend

ADJUST_LOCAL_OFFSET (sljitLir.c:341) adds SLJIT_LOCALS_OFFSET, which is 0 on RISC-V (sljitConfigInternal.h:728), so it is
not visible here.  The argument checks and `CHECK_ERROR` are modelled in `Verif.Generic`.
-/

namespace Verif.RV

/-- `if (src == SLJIT_IMM) srcw = (sljit_s32)srcw`. -/
def Opd.s32 : Opd → Opd
  | .imm v => .imm (sx32 (lo32 v))
  | o => o

/-- `if (src2 == SLJIT_IMM) src2w &= mask`. -/
def Opd.mask (m : BitVec 64) : Opd → Opd
  | .imm v => .imm (v &&& m)
  | o => o

/-- `flags |= INT_DATA | SIGNED_DATA` when SLJIT_32 is set (sljitNativeRISCV_common.c:2684-2690); WORD_DATA is 0. -/
def opData (op : Op) : MT := if op.is32 then .g .int true else .g .word false

/-- CUMULATIVE_OP and IMM_OP of the switch in sljit_emit_op2 (sljitNativeRISCV_common.c:2692-2733). -/
def op2Flags : OpC → OF
  | .add | .addc | .and | .or | .xor => ⟨true, true, false⟩
  | .mul => ⟨true, false, false⟩
  | _ => ⟨false, true, false⟩

/-- The immediate shift amount is masked (sljitNativeRISCV_common.c:2719-2729). -/
def shMask (op : Op) (o : Opd) : Opd :=
  match op.code with
  | .shl | .mshl | .lshr | .mlshr | .ashr | .mashr | .rotl | .rotr => o.mask (if op.is32 then 0x1f#64 else 0x3f#64)
  | _ => o

/-- sljit_emit_op2 (sljitNativeRISCV_common.c:2671-2738).  sljit_emit_op2u (2740-2749) is the same with `dst = .reg 0`.
`compiler->status_flags_state` is not used by the RISC-V backend's code generation for integer flags and is left out. -/
def emitOp2 (cfg : Cfg) (op : Op) (dst src1 src2 : Opd) : Emit :=
  let src1 := if op.is32 then src1.s32 else src1
  let src2 := if op.is32 then src2.s32 else src2
  emitOp cfg op (opData op) (op2Flags op.code) ⟨none, 0#64⟩ dst src1 (shMask op src2)

/-- sljit_emit_op2r (sljitNativeRISCV_common.c:2751-2773): SLJIT_MULADD. -/
def emitMulAdd (cfg : Cfg) (is32 : Bool) (dst : Nat) (src1 src2 : Opd) : Emit :=
  emitOp2 cfg ⟨.mul, is32, false, .none⟩ (.reg TMP_REG2) src1 src2 ++
  w32 (ADD ||| WORD is32 ||| RD dst ||| RS1 dst ||| RS2 TMP_REG2)

/-- The opcodes of sljit_emit_op1 (sljitLir.h:1246-1310). -/
inductive Op1C
  | mov | movU8 | movS8 | movU16 | movS16 | movU32 | movS32 | mov32 | movP
  | clz | ctz | rev | revU16 | revS16 | revU32 | revS32
  deriving DecidableEq, Repr

/-- `(src == SLJIT_IMM) ? (sljit_u8)srcw : srcw` and the other casts of sljit_emit_op1
(sljitNativeRISCV_common.c:2632-2652). -/
def Opd.cast (f : BitVec 64 → BitVec 64) : Opd → Opd
  | .imm v => .imm (f v)
  | o => o

/-- sljit_emit_op1 (sljitNativeRISCV_common.c:2605-2669); `is32` is `op & SLJIT_32`.  The operand `TMP_ZERO, 0` is `.reg 0`. -/
def emitOp1 (cfg : Cfg) (o : Op1C) (is32 : Bool) (dst src : Opd) : Emit :=
  let mv : OF := ⟨false, false, true⟩
  let un : OF := ⟨false, false, false⟩
  let k : Cache := ⟨none, 0#64⟩
  match o with
  | .mov | .movP => emitOp cfg ⟨.mov, false, false, .none⟩ (.g .word false) mv k dst (.reg 0) src
  | .movU32 => emitOp cfg ⟨.movU32, false, false, .none⟩ (.g .int false) mv k dst (.reg 0) (src.cast fun v => (v.setWidth 32).setWidth 64)
  | .movS32 | .mov32 =>
    emitOp cfg ⟨.movS32, false, false, .none⟩ (.g .int true) mv k dst (.reg 0) (src.cast fun v => (v.setWidth 32).signExtend 64)
  | .movU8 => emitOp cfg ⟨.movU8, is32, false, .none⟩ (.g .byte false) mv k dst (.reg 0) (src.cast fun v => (v.setWidth 8).setWidth 64)
  | .movS8 => emitOp cfg ⟨.movS8, is32, false, .none⟩ (.g .byte true) mv k dst (.reg 0) (src.cast fun v => (v.setWidth 8).signExtend 64)
  | .movU16 => emitOp cfg ⟨.movU16, is32, false, .none⟩ (.g .half false) mv k dst (.reg 0) (src.cast fun v => (v.setWidth 16).setWidth 64)
  | .movS16 => emitOp cfg ⟨.movS16, is32, false, .none⟩ (.g .half true) mv k dst (.reg 0) (src.cast fun v => (v.setWidth 16).signExtend 64)
  | .clz => emitOp cfg ⟨.clz, is32, false, .none⟩ (if is32 then .g .int true else .g .word false) un k dst (.reg 0) src
  | .ctz => emitOp cfg ⟨.ctz, is32, false, .none⟩ (if is32 then .g .int true else .g .word false) un k dst (.reg 0) src
  | .rev => emitOp cfg ⟨.rev, is32, false, .none⟩ (if is32 then .g .int true else .g .word false) un k dst (.reg 0) src
  | .revU16 => emitOp cfg ⟨.revU16, is32, false, .none⟩ (.g .half false) un k dst (.reg 0) src
  | .revS16 => emitOp cfg ⟨.revS16, is32, false, .none⟩ (.g .half false) un k dst (.reg 0) src
  | .revU32 => emitOp cfg ⟨.revU32, true, false, .none⟩ (.g .int false) un k dst (.reg 0) src
  | .revS32 => emitOp cfg ⟨.revS32, true, false, .none⟩ (.g .int false) un k dst (.reg 0) src

end Verif.RV
