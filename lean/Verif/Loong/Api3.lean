import Verif.Loong.Api2

/-! # sljit_emit_op_flags of the LoongArch64 backend -/

namespace Verif.LA
open Verif.RV (Op OpC Opd Sz Cache)

/-- emit_op_mem2 (sljitNativeLOONGARCH_64.c:1329-1334) for loads with `next_arg` a memory operand: emitted code and new cache. -/
def emitOpMem2 (t : MT) (k : Cache) (reg base idx : Nat) (argw : BitVec 64) (next : Option (Nat × Nat × BitVec 64)) : Emit × Cache :=
  if fastArg idx argw = true then (pushMem t true reg base idx argw, k) else getputArg t true false k reg base idx argw next

/-- The first part of sljit_emit_op_flags: code, register with the condition and `invert`
(sljitNativeLOONGARCH_64.c:3037-3082).  `addSub` is
`compiler->status_flags_state & (SLJIT_CURRENT_FLAGS_ADD | SLJIT_CURRENT_FLAGS_SUB)`. -/
def flagSrc (addSub : Bool) (dstR type : Nat) : Emit × Nat × Bool :=
  let inv := decide (type % 2 = 1)
  match type with
  | 0 | 1 => (ins (SLTUI ||| RD dstR ||| RJ EQUAL_FLAG ||| IMM_I12 1#64), dstR, inv)
  | 10 | 11 =>
    if addSub then ([], OTHER_FLAG, inv)
    else (ins (SLTUI ||| RD dstR ||| RJ OTHER_FLAG ||| IMM_I12 1#64), dstR, !inv)
  | 14 | 15 => (ins (SLTUI ||| RD dstR ||| RJ OTHER_FLAG ||| IMM_I12 1#64), dstR, !inv)
  | 2 | 3 | 4 | 5 | 6 | 7 | 8 | 9 | 12 | 13 => ([], OTHER_FLAG, inv)
  | 17 | 19 | 21 | 23 | 25 | 27 | 29 | 31 | 33 | 35 => ([], OTHER_FLAG, true)
  | _ => ([], OTHER_FLAG, false)

/-- sljit_emit_op_flags (sljitNativeLOONGARCH_64.c:3016-3103).  `code` is `.mov` (SLJIT_MOV, SLJIT_MOV32), `.and`, `.or` or
`.xor`; `is32` and `setZ` are SLJIT_32 and SLJIT_SET_Z. -/
def emitOpFlags (code : OpC) (is32 setZ addSub : Bool) (dst : Opd) (type : Nat) : Emit :=
  let t : MT := if is32 then .g .int true else .g .word false
  let mv := decide (code = .mov)
  let dstR := match dst with
    | .reg r => if mv then r else TMP_REG2
    | _ => TMP_REG2
  let (e0, k) : Emit × Cache := match mv, dst with
    | false, .mem b i w => emitOpMem2 t ⟨none, 0#64⟩ TMP_REG1 b i w (some (b, i, w))
    | _, _ => ([], ⟨none, 0#64⟩)
  let (e1, r, inv) := flagSrc addSub dstR type
  let e2 := if inv then ins (XORI ||| RD dstR ||| RJ r ||| IMM_I12 1#64) else []
  let r := if inv then dstR else r
  let e3 := if mv then
      match dst with
      | .mem b i w => emitOpMem t false r b i w
      | _ => if r ≠ dstR then ins (ADDI_D ||| RD dstR ||| RJ r ||| IMM_I12 0#64) else []
    else
      emitOp ⟨code, is32, setZ, .none⟩ t ⟨true, true, false⟩ k dst (if dst.isMem then .reg TMP_REG1 else dst) (.reg r)
  e0 ++ (e1 ++ (e2 ++ e3))

end Verif.LA
