import Verif.Loong.Api

/-! # sljit_emit_op1 of the LoongArch64 backend -/

namespace Verif.LA
open Verif.RV (Opd OF Op1C Cache)

/-- sljit_emit_op1 (sljitNativeLOONGARCH_64.c:1951-2006); `is32` is `op & SLJIT_32`.  The operand `TMP_ZERO, 0` is `.reg 0`; the casts
of constants are `Opd.cast`. -/
def emitOp1 (o : Op1C) (is32 : Bool) (dst src : Opd) : Emit :=
  let mv : OF := ⟨false, false, true⟩
  let un : OF := ⟨false, false, false⟩
  let k : Cache := ⟨none, 0#64⟩
  match o with
  | .mov | .movP => emitOp ⟨.mov, false, false, .none⟩ (.g .word false) mv k dst (.reg 0) src
  | .movU32 => emitOp ⟨.movU32, false, false, .none⟩ (.g .int false) mv k dst (.reg 0) (src.cast fun v => (v.setWidth 32).setWidth 64)
  | .movS32 | .mov32 =>
    emitOp ⟨.movS32, false, false, .none⟩ (.g .int true) mv k dst (.reg 0) (src.cast fun v => (v.setWidth 32).signExtend 64)
  | .movU8 => emitOp ⟨.movU8, is32, false, .none⟩ (.g .byte false) mv k dst (.reg 0) (src.cast fun v => (v.setWidth 8).setWidth 64)
  | .movS8 => emitOp ⟨.movS8, is32, false, .none⟩ (.g .byte true) mv k dst (.reg 0) (src.cast fun v => (v.setWidth 8).signExtend 64)
  | .movU16 => emitOp ⟨.movU16, is32, false, .none⟩ (.g .half false) mv k dst (.reg 0) (src.cast fun v => (v.setWidth 16).setWidth 64)
  | .movS16 => emitOp ⟨.movS16, is32, false, .none⟩ (.g .half true) mv k dst (.reg 0) (src.cast fun v => (v.setWidth 16).signExtend 64)
  | .clz => emitOp ⟨.clz, is32, false, .none⟩ (if is32 then .g .int true else .g .word false) un k dst (.reg 0) src
  | .ctz => emitOp ⟨.ctz, is32, false, .none⟩ (if is32 then .g .int true else .g .word false) un k dst (.reg 0) src
  | .rev => emitOp ⟨.rev, is32, false, .none⟩ (if is32 then .g .int true else .g .word false) un k dst (.reg 0) src
  | .revU16 => emitOp ⟨.revU16, is32, false, .none⟩ (.g .half false) un k dst (.reg 0) src
  | .revS16 => emitOp ⟨.revS16, is32, false, .none⟩ (.g .half false) un k dst (.reg 0) src
  | .revU32 => emitOp ⟨.revU32, true, false, .none⟩ (.g .int false) un k dst (.reg 0) src
  | .revS32 => emitOp ⟨.revS32, true, false, .none⟩ (.g .int false) un k dst (.reg 0) src

end Verif.LA
