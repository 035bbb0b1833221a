import Verif.X86.JumpCode
import Verif.RISCV.Api2

/-!
# One operand operations, flags and conditional moves of the x86-64 backend

Model of the functions of sljitNativeX86_common.c and sljitNativeX86_64.c below sljit_emit_op0, sljit_emit_op1, sljit_emit_op_flags and
sljit_emit_select, for SLJIT_CONFIG_X86_64.  The processor has CMOV (all of them have it in 64 bit mode), so emit_cmov_generic is not modelled.
ADJUST_LOCAL_OFFSET is applied by the caller (see C16), allocation failures are not modelled.
-/

namespace Verif.X86
open Verif.RV (Op1C Op0)

/-- `dst_r = FAST_IS_REG(dst) ? dst : TMP_REG1`. -/
def dstR : Opd → Nat
  | .reg d => d
  | _ => TMP_REG1

/-- emit_mov_byte, sljitNativeX86_common.c:1547-1617. -/
def emitMovByte (win sign : Bool) (dst src : Opd) : Code :=
  match src with
  | .imm v => if dst.isReg then ins win false {} (.imm v) dst [0xc7#8] else ins win false { byteArg := true, noRexW := true } (.imm v) dst [0xc6#8]
  | _ =>
    (if dst.isMem ∧ src.isReg then some [] else groupf win false (if sign then 0xbe#8 else 0xb6#8) (dstR dst) src) +>
    if dst.isMem then ins win false { rex := true, noRexW := true } (.reg (if src.isReg then src.regNo else dstR dst)) dst [0x88#8] else some []

/-- emit_mov_half, sljitNativeX86_common.c:1643-1685. -/
def emitMovHalf (win sign : Bool) (dst src : Opd) : Code :=
  match src with
  | .imm v => if dst.isReg then ins win false {} (.imm v) dst [0xc7#8] else ins win false { halfArg := true, noRexW := true, pref := 0x66#8 } (.imm v) dst [0xc7#8]
  | _ =>
    (if dst.isMem ∧ src.isReg then some [] else groupf win false (if sign then 0xbf#8 else 0xb7#8) (dstR dst) src) +>
    if dst.isMem then ins win false { noRexW := true, pref := 0x66#8 } (.reg (if src.isReg then src.regNo else dstR dst)) dst [0x89#8] else some []

/-- `(sljit_sw)(sljit_s32)v`. -/
def sx32 (v : BitVec 64) : BitVec 64 := (v.setWidth 32).signExtend 64

/-- emit_mov_int, sljitNativeX86_64.c:1147-1198. -/
def emitMovInt (win sign : Bool) (dst src : Opd) : Code :=
  match src with
  | .imm v =>
    match dst with
    | .reg d =>
      if ¬ sign ∨ v.setWidth 32 ≤ 0x7fffffff#32 then some (doImm32 (if regMap win d ≤ 7#8 then 0#8 else REX_B) (0xb8#8 ||| regLmap win d) v)
      else ins win false {} (.imm (sx32 v)) dst [0xc7#8]
    | _ => ins win true {} (.imm (sx32 v)) dst [0xc7#8]
  | _ =>
    (if dst.isMem ∧ src.isReg then some []
      else if sign then ins win false {} (.reg (dstR dst)) src [0x63#8] else emitMov win true (.reg (dstR dst)) src) +>
    if dst.isMem then ins win true {} (.reg (if src.isReg then src.regNo else dstR dst)) dst [0x89#8] else some []

/-- The instruction extensions which are examined by emit_clz_ctz (cpu_feature_list). -/
structure Feat where
  lzcnt : Bool
  tzcnt : Bool

/-- emit_clz_ctz, sljitNativeX86_common.c:1725-1792, with CPU_FEATURE_CMOV. -/
def emitClzCtz (ft : Feat) (win m32 isClz : Bool) (dst src : Opd) : Code :=
  if (if isClz then ft.lzcnt else ft.tzcnt) then
    ins win m32 { size := 2, pref := 0xf3#8 } (.reg (dstR dst)) src [0x0f#8, if isClz then 0xbd#8 else 0xbc#8] +>
    if dst.isMem then emitMov win m32 dst (.reg TMP_REG1) else some []
  else
    let max : BitVec 64 := if isClz then (if m32 then 32 + 31 else 64 + 63) else if m32 then 32 else 64
    groupf win m32 (if isClz then 0xbd#8 else 0xbc#8) (dstR dst) src +>
    (emitMov win m32 (.reg TMP_REG2) (.imm max) +>
    (groupf win m32 0x44#8 (dstR dst) (.reg TMP_REG2) +>
    ((if isClz then insOr win m32 { binIns := true } (.imm (max >>> 1)) (.reg (dstR dst)) XOR.imm else some []) +>
    if dst.isMem then emitMov win m32 dst (.reg TMP_REG1) else some [])))

/-- The bytes of BSWAP in emit_bswap, sljitNativeX86_common.c:1822-1848. -/
def bswapIns (win m32 : Bool) (d : Nat) : List Byte :=
  let rex := (if ¬ m32 then REX_W else 0#8) ||| if regMap win d ≥ 8#8 then REX_B else 0#8
  (if rex ≠ 0#8 then [rex] else []) ++ [0x0f#8, 0xc8#8 ||| regLmap win d]

/-- emit_bswap, sljitNativeX86_common.c:1794-1886; m32 is compiler->mode32. -/
def emitBswap (win m32 : Bool) (op : Op1C) (dst src : Opd) : Code :=
  let half := op = .revU16 ∨ op = .revS16
  let m32 := if op = .revU32 ∨ op = .revS32 then true else m32
  let d := dstR dst
  let mov : Code := if src ≠ .reg d then (if half then emitMovHalf win false (.reg d) src else emitMov win m32 (.reg d) src) else some []
  let m32 := if src ≠ .reg d ∧ half then false else m32
  mov +> (some (bswapIns win m32 d) +>
  ((if half then insOr win m32 { shiftIns := true } (.imm (if m32 then 16#64 else 48#64)) (.reg d) (if op = .revU16 then 5#8 <<< 3 else 7#8 <<< 3) else some []) +>
  if dst.isMem then (if half then emitMovHalf win false dst (.reg TMP_REG1) else emitMov win m32 dst (.reg TMP_REG1))
  else if op = .revS32 then ins win false {} (.reg d) dst [0x63#8] else some []))

/-- `op` after the changes of sljit_emit_op1 for SLJIT_32, sljitNativeX86_common.c:1920-1932. -/
def castOp (op : Op1C) (is32 : Bool) (src : Opd) : Op1C :=
  if is32 ∧ src.isMem ∧ op = .movS32 then .movU32
  else if is32 ∧ src.isImm ∧ op = .movU32 then .movS32
  else op

/-- The casts of a constant source, sljitNativeX86_common.c:1934-1956. -/
def castImm (op : Op1C) : Opd → Opd
  | .imm v => .imm (match op with
    | .movU8 => (v.setWidth 8).setWidth 64
    | .movS8 => (v.setWidth 8).signExtend 64
    | .movU16 => (v.setWidth 16).setWidth 64
    | .movS16 => (v.setWidth 16).signExtend 64
    | .movU32 => (v.setWidth 32).setWidth 64
    | .movS32 => sx32 v
    | _ => v)
  | b => b

/-- sljit_emit_op1, sljitNativeX86_common.c:1888-2031.  TYPE_CAST_NEEDED(op): sljitLir.c:106-107. -/
def emitOp1 (ft : Feat) (win : Bool) (op : Op1C) (is32 : Bool) (dst src : Opd) : Code :=
  match op with
  | .clz => emitClzCtz ft win is32 true dst src
  | .ctz => emitClzCtz ft win is32 false dst src
  | .rev | .revU16 | .revS16 | .revU32 | .revS32 => emitBswap win is32 op dst src
  | _ =>
    if src.isReg ∧ src = dst ∧ (op = .mov ∨ op = .mov32 ∨ op = .movP) then some []
    else
      let op := castOp op is32 src
      let src := castImm op src
      match op with
      | .movU8 => emitMovByte win false dst src
      | .movS8 => emitMovByte win true dst src
      | .movU16 => emitMovHalf win false dst src
      | .movS16 => emitMovHalf win true dst src
      | .movU32 => emitMovInt win false dst src
      | .movS32 => emitMovInt win true dst src
      | .mov32 => emitMov win true dst src
      | _ => emitMov win false dst src

/-- SLJIT_R0 and SLJIT_R1. -/
def R0 : Nat := 1
@[inherit_doc R0] def R1 : Nat := 2

/-- sljit_emit_op0, sljitNativeX86_common.c:1409-1532, for SLJIT_NOP, the multiplications and the divisions. -/
def emitOp0 (win : Bool) (op : Op0) (is32 : Bool) : Code :=
  let div : Prop := op = .divmodUw ∨ op = .divmodSw ∨ op = .divUw ∨ op = .divSw
  let signed : Prop := op = .divmodSw ∨ op = .divSw
  match op with
  | .nop => some [0x90#8]
  | .lmulUw | .lmulSw | .divmodUw | .divmodSw | .divUw | .divSw =>
    (if div ∧ win then emitMov win is32 (.reg TMP_REG1) (.reg R1) else some []) +>
    ((if div ∧ ¬ signed then (if win then ins win is32 {} (.reg R1) (.reg R1) [XOR.rm] else ins win is32 {} (.reg TMP_REG1) (.reg TMP_REG1) [XOR.rm]) else some []) +>
    ((if signed then some (if ¬ is32 then [REX_W, 0x99#8] else [0x99#8]) else some []) +>
    (some (if win then
        (if ¬ is32 then [REX_W ||| if div then REX_B else 0#8] else if div then [REX_B] else []) ++
          [0xf7#8, 0xc0#8 ||| (if div then regLmap win TMP_REG1 else regLmap win R1) |||
            match op with | .lmulUw => 4#8 <<< 3 | .lmulSw => 5#8 <<< 3 | .divmodUw | .divUw => 6#8 <<< 3 | _ => 7#8 <<< 3]
      else
        (if ¬ is32 then [REX_W] else []) ++
          [0xf7#8, 0xc0#8 ||| regMap win R1 ||| match op with | .lmulUw => 4#8 <<< 3 | .lmulSw => 5#8 <<< 3 | .divmodUw | .divUw => 6#8 <<< 3 | _ => 7#8 <<< 3]) +>
    if win then (if op = .divUw ∨ op = .divSw then emitMov win is32 (.reg R1) (.reg TMP_REG1) else some [])
    else if op = .divUw ∨ op = .divSw then some [] else emitMov win is32 (.reg R1) (.reg TMP_REG1))))
  | _ => some []

/-- `cond_set`, SETcc reg: sljitNativeX86_common.c:3629-3636 and 3654-3659. -/
def setReg (win : Bool) (cc : Byte) (r : Nat) : List Byte :=
  (if regMap win r ≥ 4#8 then [if regMap win r ≤ 7#8 then REX else REX_B] else []) ++ [0x0f#8, cc + 0x10#8, 0xc0#8 ||| regLmap win r]

/-- SETcc and MOVZX, sljitNativeX86_common.c:3647-3664. -/
def setZx (win : Bool) (cc : Byte) (r : Nat) : List Byte :=
  setReg win cc r ++ [REX_W ||| (if regMap win r ≤ 7#8 then 0#8 else REX_B ||| REX_R), 0x0f#8, 0xb6#8, 0xc0#8 ||| regLmap win r <<< 3 ||| regLmap win r]

/-- OR reg8, TMP_REG1, sljitNativeX86_common.c:3639-3643. -/
def orReg (win : Bool) (d : Nat) : List Byte :=
  (if regMap win TMP_REG1 ≥ 4#8 ∨ regMap win d ≥ 4#8 then
    [REX ||| (if regMap win TMP_REG1 ≤ 7#8 then 0#8 else REX_R) ||| if regMap win d ≤ 7#8 then 0#8 else REX_B] else []) ++
  [0x08#8, 0xc0#8 ||| regLmap win TMP_REG1 <<< 3 ||| regLmap win d]

/-- sljit_emit_op_flags with SLJIT_MOV or SLJIT_MOV32 (`mov32`), sljitNativeX86_common.c:3596-3672. -/
def emitFlagsMov (win mov32 : Bool) (dst : Opd) (t : JT) (neg : Bool) : Code :=
  some (setZx win (jumpCode t neg) (dstR dst)) +> if dst.isReg then some [] else emitMov win mov32 dst (.reg TMP_REG1)

/-- sljit_emit_op_flags with SLJIT_AND, SLJIT_OR or SLJIT_XOR, sljitNativeX86_common.c:3596-3677. -/
def emitFlagsOp (win : Bool) (op : RV.Op) (dst : Opd) (t : JT) (neg : Bool) : Code :=
  if op.code = .or ∧ ¬ op.is32 ∧ ¬ hasFlags op ∧ dst.isReg then some (setReg win (jumpCode t neg) TMP_REG1 ++ orReg win (dstR dst))
  else some (setZx win (jumpCode t neg) TMP_REG1) +> emitOp2 win op dst dst (.reg TMP_REG1)

/-- The last instruction of sljit_emit_select, sljitNativeX86_64.c:1054-1062, with CMOV. -/
def emitCmov (win m32 : Bool) (t : JT) (neg : Bool) (dst : Nat) (src : Opd) : Code :=
  match src with
  | .imm _ => emitMov win m32 (.reg TMP_REG2) src +> groupf win m32 (jumpCode t neg - 0x40#8) dst (.reg TMP_REG2)
  | _ => groupf win m32 (jumpCode t neg - 0x40#8) dst src

/-- sljit_emit_select, sljitNativeX86_64.c:1027-1065. -/
def emitSelect (win m32 : Bool) (t : JT) (neg : Bool) (dst : Nat) (src1 : Opd) (src2 : Nat) : Code :=
  if dst ≠ src2 then
    if src1 = .reg dst then emitCmov win m32 t (!neg) dst (.reg src2)
    else if dependsOn src1 dst then emitMov win m32 (.reg dst) src1 +> emitCmov win m32 t (!neg) dst (.reg src2)
    else emitMov win m32 (.reg dst) (.reg src2) +> emitCmov win m32 t neg dst src1
  else emitCmov win m32 t neg dst src1

end Verif.X86
