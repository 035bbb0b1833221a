import Verif.RISCV.Api
import Verif.RISCV.Gen

/-!
# More entry points of the RV64 backend: op0, shift_into, cmp, op_flags, select

Model of sljitNativeRISCV_common.c:2555-2603, 2775-2856, 3352-3420, 3450-3578, 3642-3799.  As in `Api`, ADJUST_LOCAL_OFFSET
is not visible and the argument checks are elsewhere.
-/

namespace Verif.RV

/-- The opcodes of sljit_emit_op0 which are not traps (sljitLir.h:1161-1230). -/
inductive Op0
  | nop | lmulUw | lmulSw | divmodUw | divmodSw | divUw | divSw | memoryBarrier | endbr | skipFrames
  deriving DecidableEq, Repr

/-- SLJIT_R0 and SLJIT_R1. -/
def R0 : Nat := 1
def R1 : Nat := 2

/-- sljit_emit_op0 (sljitNativeRISCV_common.c:2555-2603) without SLJIT_BREAKPOINT. -/
def emitOp0 (cfg : Cfg) (o : Op0) (is32 : Bool) : Emit :=
  match o with
  | .nop => if cfg.c then w16 C_NOP else w32 NOP
  | .lmulUw =>
    w32 (ADDI ||| RD TMP_REG1 ||| RS1 R1 ||| IMM_I 0#64) ++
    (w32 (MULHU ||| RD R1 ||| RS1 R0 ||| RS2 R1) ++ w32 (MUL ||| RD R0 ||| RS1 R0 ||| RS2 TMP_REG1))
  | .lmulSw =>
    w32 (ADDI ||| RD TMP_REG1 ||| RS1 R1 ||| IMM_I 0#64) ++
    (w32 (MULH ||| RD R1 ||| RS1 R0 ||| RS2 R1) ++ w32 (MUL ||| RD R0 ||| RS1 R0 ||| RS2 TMP_REG1))
  | .divmodUw =>
    w32 (ADDI ||| RD TMP_REG1 ||| RS1 R0 ||| IMM_I 0#64) ++
    (w32 (DIVU ||| WORD is32 ||| RD R0 ||| RS1 R0 ||| RS2 R1) ++ w32 (REMU ||| WORD is32 ||| RD R1 ||| RS1 TMP_REG1 ||| RS2 R1))
  | .divmodSw =>
    w32 (ADDI ||| RD TMP_REG1 ||| RS1 R0 ||| IMM_I 0#64) ++
    (w32 (DIV ||| WORD is32 ||| RD R0 ||| RS1 R0 ||| RS2 R1) ++ w32 (REM ||| WORD is32 ||| RD R1 ||| RS1 TMP_REG1 ||| RS2 R1))
  | .divUw => w32 (DIVU ||| WORD is32 ||| RD R0 ||| RS1 R0 ||| RS2 R1)
  | .divSw => w32 (DIV ||| WORD is32 ||| RD R0 ||| RS1 R0 ||| RS2 R1)
  | .memoryBarrier => w32 (FENCE ||| 0x0ff00000#32)
  | .endbr | .skipFrames => []

/-- emit_op_mem for a whole memory operand; other operands never get there. -/
def opMem (cfg : Cfg) (t : MT) (load : Bool) (reg : Nat) : Opd → Emit
  | .mem b i w => emitOpMem cfg t load reg b i w
  | _ => []

/-- The end of sljit_emit_shift_into: the shift amount is in register `src3` (sljitNativeRISCV_common.c:2832-2855). -/
def shiftIntoTail (left is32 nonZero : Bool) (dst src1 src2 src3 : Nat) : Emit :=
  w32 ((if left then SLL else SRL) ||| WORD is32 ||| RD dst ||| RS1 src1 ||| RS2 src3) ++
  ((if nonZero then w32 (SUB ||| WORD is32 ||| RD TMP_REG2 ||| RS1 TMP_ZERO ||| RS2 src3)
    else w32 ((if left then SRLI else SLLI) ||| WORD is32 ||| RD TMP_REG1 ||| RS1 src2 ||| IMM_I 1#64) ++
      w32 (XORI ||| RD TMP_REG2 ||| RS1 src3 ||| IMM_I (if is32 then 31#64 else 63#64))) ++
  (w32 ((if left then SRL else SLL) ||| WORD is32 ||| RD TMP_REG1 ||| RS1 (if nonZero then src2 else TMP_REG1) ||| RS2 TMP_REG2) ++
  w32 (OR ||| RD dst ||| RS1 dst ||| RS2 TMP_REG1)))

/-- sljit_emit_shift_into (sljitNativeRISCV_common.c:2775-2856); `left` is SLJIT_SHL or SLJIT_MSHL, `nonZero` is
SLJIT_SHIFT_INTO_NON_ZERO. -/
def emitShiftInto (cfg : Cfg) (left is32 nonZero : Bool) (dst src1 src2 : Nat) (src3 : Opd) : Emit :=
  if src1 = src2 then emitOp2 cfg ⟨if left then .rotl else .rotr, is32, false, .none⟩ (.reg dst) (.reg src1) src3
  else
    match src3 with
    | .imm v =>
      let v := v &&& (if is32 then 31#64 else 63#64)
      if v = 0#64 then []
      else
        w32 ((if left then SLLI else SRLI) ||| WORD is32 ||| IMM_I v ||| RD dst ||| RS1 src1) ++
        (w32 ((if left then SRLI else SLLI) ||| WORD is32 ||| IMM_I ((if is32 then 32#64 else 64#64) - v) ||| RD TMP_REG1 ||| RS1 src2) ++
        w32 (OR ||| RD dst ||| RS1 dst ||| RS2 TMP_REG1))
    | .mem b i w =>
      emitOpMem cfg (.g (if is32 then .int else .word) false) true TMP_REG2 b i w ++
      shiftIntoTail left is32 nonZero dst src1 src2 TMP_REG2
    | .reg r =>
      if dst = r then
        w32 (ADDI ||| WORD is32 ||| RD TMP_REG2 ||| RS1 r ||| IMM_I 0#64) ++
        shiftIntoTail left is32 nonZero dst src1 src2 TMP_REG2
      else shiftIntoTail left is32 nonZero dst src1 src2 r

/-- get_jump_instruction (sljitNativeRISCV_common.c:3352-3399) as branch opcode and registers: the branch which skips the
jump.  `type` has the numbers of sljitLir.h:1720-1808; `.none` for an unconditional jump. -/
def jumpBr (type : Nat) : Br :=
  match type with
  | 0 => .b32 1#3 EQUAL_FLAG TMP_ZERO
  | 1 => .b32 0#3 EQUAL_FLAG TMP_ZERO
  | 2 | 4 | 6 | 8 | 10 | 12 | 15 | 16 | 24 | 31 | 18 | 26 | 28 | 21 | 35 | 33 | 23 => .b32 0#3 OTHER_FLAG TMP_ZERO
  | 3 | 5 | 7 | 9 | 11 | 13 | 14 | 17 | 25 | 30 | 19 | 27 | 29 | 20 | 34 | 32 | 22 => .b32 1#3 OTHER_FLAG TMP_ZERO
  | _ => .none

/-- The value of get_jump_instruction. -/
def jumpIns (type : Nat) : BitVec 32 :=
  match jumpBr type with
  | .b32 f3 a b => BRANCH f3 ||| RS1 a ||| RS2 b
  | _ => 0#32

/-- The operand loads of sljit_emit_cmp (sljitNativeRISCV_common.c:3467-3500): code, `src1` and `src2` at the end. -/
def cmpFetch (cfg : Cfg) (is32 : Bool) (src1 src2 : Opd) : Emit × Nat × Nat :=
  let t : MT := .g (if is32 then .int else .word) false
  let tmp := if src1.isReg then TMP_REG1 else TMP_REG2
  let (e1, k) : Emit × Cache := match src1 with
    | .mem b i w => emitOpMem2 cfg t true false ⟨none, 0#64⟩ TMP_REG1 b i w src2.memArg
    | _ => ([], ⟨none, 0#64⟩)
  let e2 : Emit := match src2 with
    | .mem b i w => (emitOpMem2 cfg t true src1.isMem k tmp b i w none).1
    | _ => []
  let (e3, r1) : Emit × Nat := match src1 with
    | .reg r => ([], r)
    | .mem .. => ([], TMP_REG1)
    | .imm v => if v ≠ 0#64 then (loadImm cfg TMP_REG1 v TMP_REG3, TMP_REG1) else ([], TMP_ZERO)
  let (e4, r2) : Emit × Nat := match src2 with
    | .reg r => ([], r)
    | .mem .. => ([], tmp)
    | .imm v => if v ≠ 0#64 then (loadImm cfg tmp v TMP_REG3, tmp) else ([], TMP_ZERO)
  (e1 ++ (e2 ++ (e3 ++ e4)), r1, r2)

/-- The branch of sljit_emit_cmp (sljitNativeRISCV_common.c:3507-3567); `type` is 0-9 (SLJIT_EQUAL to
SLJIT_SIG_LESS_EQUAL). -/
def cmpBr (cfg : Cfg) (type : Nat) (r1 r2 : Nat) : Br :=
  match type with
  | 0 =>
    if cfg.c = true ∧ r1 = TMP_ZERO ∧ C_IS_R3 r2 = true then .b16 true r2
    else if cfg.c = true ∧ r2 = TMP_ZERO ∧ C_IS_R3 r1 = true then .b16 true r1
    else .b32 1#3 r1 r2
  | 1 =>
    if cfg.c = true ∧ r1 = TMP_ZERO ∧ C_IS_R3 r2 = true then .b16 false r2
    else if cfg.c = true ∧ r2 = TMP_ZERO ∧ C_IS_R3 r1 = true then .b16 false r1
    else .b32 0#3 r1 r2
  | 2 => .b32 7#3 r1 r2
  | 3 => .b32 6#3 r1 r2
  | 4 => .b32 7#3 r2 r1
  | 5 => .b32 6#3 r2 r1
  | 6 => .b32 5#3 r1 r2
  | 7 => .b32 4#3 r1 r2
  | 8 => .b32 5#3 r2 r1
  | _ => .b32 4#3 r2 r1

/-- sljit_emit_cmp (sljitNativeRISCV_common.c:3450-3578): the instructions in front of the jump record and the branch. -/
def emitCmp (cfg : Cfg) (type : Nat) (is32 : Bool) (src1 src2 : Opd) : Emit × Br :=
  let (e, r1, r2) := cmpFetch cfg is32 src1 src2
  (e, cmpBr cfg type r1 r2)

/-- The first part of sljit_emit_op_flags: code, register with the condition and `invert`
(sljitNativeRISCV_common.c:3667-3716).  `addSub` is
`compiler->status_flags_state & (SLJIT_CURRENT_FLAGS_ADD | SLJIT_CURRENT_FLAGS_SUB)`. -/
def flagSrc (addSub : Bool) (dstR type : Nat) : Emit × Nat × Bool :=
  let inv := decide (type % 2 = 1)
  match type with
  | 0 | 1 => (w32 (SLTUI ||| RD dstR ||| RS1 EQUAL_FLAG ||| IMM_I 1#64), dstR, inv)
  | 10 | 11 =>
    if addSub then ([], OTHER_FLAG, inv)
    else (w32 (SLTUI ||| RD dstR ||| RS1 OTHER_FLAG ||| IMM_I 1#64), dstR, !inv)
  | 14 | 15 => ([], OTHER_FLAG, !inv)
  | 2 | 3 | 4 | 5 | 6 | 7 | 8 | 9 | 12 | 13 => ([], OTHER_FLAG, inv)
  | 17 | 25 | 30 | 19 | 27 | 29 | 20 | 34 | 32 | 22 => ([], OTHER_FLAG, true)
  | _ => ([], OTHER_FLAG, false)

/-- sljit_emit_op_flags (sljitNativeRISCV_common.c:3642-3731).  `code` is `.mov` (SLJIT_MOV, SLJIT_MOV32), `.and`, `.or` or
`.xor`; `is32` and `setZ` are SLJIT_32 and SLJIT_SET_Z. -/
def emitOpFlags (cfg : Cfg) (code : OpC) (is32 setZ addSub : Bool) (dst : Opd) (type : Nat) : Emit :=
  let t : MT := if is32 then .g .int true else .g .word false
  let mv := decide (code = .mov)
  let dstR := match dst with
    | .reg r => if mv then r else TMP_REG2
    | _ => TMP_REG2
  let (e0, k) : Emit × Cache := match mv, dst with
    | false, .mem b i w => emitOpMem2 cfg t true false ⟨none, 0#64⟩ TMP_REG1 b i w (some (b, i, w))
    | _, _ => ([], ⟨none, 0#64⟩)
  let (e1, r, inv) := flagSrc addSub dstR type
  let e2 := if inv then w32 (XORI ||| RD dstR ||| RS1 r ||| IMM_I 1#64) else []
  let r := if inv then dstR else r
  let e3 := if mv then
      match dst with
      | .mem b i w => emitOpMem cfg t false r b i w
      | _ => if r ≠ dstR then w32 (ADDI ||| RD dstR ||| RS1 r ||| IMM_I 0#64) else []
    else
      emitOp cfg ⟨code, is32, setZ, .none⟩ t ⟨true, true, false⟩ k dst (if dst.isMem then .reg TMP_REG1 else dst) (.reg r)
  e0 ++ (e1 ++ (e2 ++ e3))

/-- Replace the register `d` in an address by TMP_REG1 (sljitNativeRISCV_common.c:3770-3774). -/
def Opd.subst (d : Nat) : Opd → Opd
  | .mem b i w => .mem (if b = d then TMP_REG1 else b) (if i = d then TMP_REG1 else i) w
  | o => o

/-- ADDRESSING_DEPENDS_ON (sljitLir.c:919-920); a register number is never 0 here. -/
def Opd.dependsOn (d : Nat) : Opd → Bool
  | .mem b i _ => decide (b = d ∨ i = d)
  | _ => false

/-- The instructions under the branch of sljit_emit_select (sljitNativeRISCV_common.c:3785-3795). -/
def selectBody (cfg : Cfg) (is32 : Bool) (dst : Nat) (src1 : Opd) : Emit :=
  match src1 with
  | .mem b i w => emitOpMem cfg (.g (if is32 then .int else .word) false) true dst b i w
  | .imm v => loadImm cfg dst (if is32 then sx32 (lo32 v) else v) TMP_REG1
  | .reg r => w32 (ADDI ||| WORD is32 ||| RD dst ||| RS1 r ||| IMM_I 0#64)

/-- The branch of sljit_emit_select over `n` half words, its own two included
(sljitNativeRISCV_common.c:3797-3800). -/
def selectBr (type n : Nat) : BitVec 32 :=
  jumpIns type ||| (BitVec.ofNat 32 n &&& 0xf#32) <<< 8 ||| (BitVec.ofNat 32 n >>> 4) <<< 25

/-- sljit_emit_select (sljitNativeRISCV_common.c:3733-3799). -/
def emitSelect (cfg : Cfg) (type : Nat) (is32 : Bool) (dst : Nat) (src1 : Opd) (src2 : Nat) : Emit :=
  let (e0, src1, type) : Emit × Opd × Nat :=
    if dst ≠ src2 then
      if src1 = .reg dst then ([], .reg src2, type ^^^ 1)
      else
        (((if src1.dependsOn dst then w32 (ADDI ||| RD TMP_REG1 ||| RS1 dst ||| IMM_I 0#64) else []) ++
          w32 (ADDI ||| WORD is32 ||| RD dst ||| RS1 src2 ||| IMM_I 0#64)), src1.subst dst, type)
    else ([], src1, type)
  let body := selectBody cfg is32 dst src1
  e0 ++ (w32 (selectBr type (body.length + 2)) ++ body)

end Verif.RV
