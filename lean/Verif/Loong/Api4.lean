import Verif.Loong.Api3

/-! # sljit_emit_cmp, sljit_emit_jump and sljit_emit_select of the LoongArch64 backend -/

namespace Verif.LA
open Verif.RV (Opd Sz Cache)
open Verif.Imm.Loong

/-- Branches, OPC_2RI16 (sljitNativeLOONGARCH_64.c:99, 203-208). -/
def BEQ : BitVec 32 := 0x16#32 <<< 26
@[inherit_doc BEQ] def BNE : BitVec 32 := 0x17#32 <<< 26
@[inherit_doc BEQ] def BLT : BitVec 32 := 0x18#32 <<< 26
@[inherit_doc BEQ] def BGE : BitVec 32 := 0x19#32 <<< 26
@[inherit_doc BEQ] def BLTU : BitVec 32 := 0x1a#32 <<< 26
@[inherit_doc BEQ] def BGEU : BitVec 32 := 0x1b#32 <<< 26

/-- IMM_I16 (sljitNativeLOONGARCH_64.c:92). -/
def IMM_I16 (n : Nat) : BitVec 32 := (BitVec.ofNat 32 n &&& 0xffff#32) <<< 10

/-- get_jump_instruction (sljitNativeLOONGARCH_64.c:2756-2806); the branch goes over the jump, so its condition is the opposite. -/
def jumpIns (type : Nat) : BitVec 32 :=
  match type with
  | 0 => BNE ||| RJ EQUAL_FLAG ||| RD TMP_ZERO
  | 1 => BEQ ||| RJ EQUAL_FLAG ||| RD TMP_ZERO
  | 2 | 4 | 6 | 8 | 10 | 12 | 14 => BEQ ||| RJ OTHER_FLAG ||| RD TMP_ZERO
  | 3 | 5 | 7 | 9 | 11 | 13 | 15 => BNE ||| RJ OTHER_FLAG ||| RD TMP_ZERO
  | 16 | 24 | 18 | 26 | 28 | 20 | 22 | 30 | 32 | 34 => BEQ ||| RJ OTHER_FLAG ||| RD TMP_ZERO
  | 17 | 19 | 21 | 23 | 25 | 27 | 29 | 31 | 33 | 35 => BNE ||| RJ OTHER_FLAG ||| RD TMP_ZERO
  | _ => 0#32

/-- The operand loads of sljit_emit_cmp (sljitNativeLOONGARCH_64.c:2872-2903): code, `src1` and `src2` at the end.  MEM_USE_TMP2 is not set
for the second load (RISC-V sets it when src1 is in TMP_REG1). -/
def cmpFetch (is32 : Bool) (src1 src2 : Opd) : Emit × Nat × Nat :=
  let t : MT := .g (if is32 then .int else .word) false
  let tmp := if src1.isReg then TMP_REG1 else TMP_REG2
  let (e1, k) : Emit × Cache := match src1 with
    | .mem b i w => emitOpMem2 t ⟨none, 0#64⟩ TMP_REG1 b i w src2.memArg
    | _ => ([], ⟨none, 0#64⟩)
  let e2 : Emit := match src2 with
    | .mem b i w => (emitOpMem2 t k tmp b i w none).1
    | _ => []
  let (e3, r1) : Emit × Nat := match src1 with
    | .reg r => ([], r)
    | .mem .. => ([], TMP_REG1)
    | .imm v => if v ≠ 0#64 then (loadImmediate TMP_REG1 v, TMP_REG1) else ([], TMP_ZERO)
  let (e4, r2) : Emit × Nat := match src2 with
    | .reg r => ([], r)
    | .mem .. => ([], tmp)
    | .imm v => if v ≠ 0#64 then (loadImmediate tmp v, tmp) else ([], TMP_ZERO)
  (e1 ++ (e2 ++ (e3 ++ e4)), r1, r2)

/-- The branch of sljit_emit_cmp (sljitNativeLOONGARCH_64.c:2910-2945); `type` is 0-9 (SLJIT_EQUAL to SLJIT_SIG_LESS_EQUAL). -/
def cmpIns (type : Nat) (r1 r2 : Nat) : BitVec 32 :=
  match type with
  | 0 => BNE ||| RJ r1 ||| RD r2
  | 1 => BEQ ||| RJ r1 ||| RD r2
  | 2 => BGEU ||| RJ r1 ||| RD r2
  | 3 => BLTU ||| RJ r1 ||| RD r2
  | 4 => BGEU ||| RJ r2 ||| RD r1
  | 5 => BLTU ||| RJ r2 ||| RD r1
  | 6 => BGE ||| RJ r1 ||| RD r2
  | 7 => BLT ||| RJ r1 ||| RD r2
  | 8 => BGE ||| RJ r2 ||| RD r1
  | _ => BLT ||| RJ r2 ||| RD r1

/-- sljit_emit_cmp (sljitNativeLOONGARCH_64.c:2858-2957): the instructions in front of the branch and the branch, whose distance is
stored by sljit_generate_code; the jump itself follows. -/
def emitCmp (type : Nat) (is32 : Bool) (src1 src2 : Opd) : Emit × BitVec 32 :=
  let (e, r1, r2) := cmpFetch is32 src1 src2
  (e, cmpIns type r1 r2)

/-- ADDRESSING_DEPENDS_ON (sljitLir.c:919-920); a register number is never 0 here. -/
def dependsOn (d : Nat) : Opd → Bool
  | .mem b i _ => decide (b = d ∨ i = d)
  | _ => false

/-- Replace the register `d` in an address by TMP_REG1 (sljitNativeLOONGARCH_64.c:3127-3131). -/
def substTmp (d : Nat) : Opd → Opd
  | .mem b i w => .mem (if b = d then TMP_REG1 else b) (if i = d then TMP_REG1 else i) w
  | o => o

/-- The instructions under the branch of sljit_emit_select (sljitNativeLOONGARCH_64.c:3144-3151). -/
def selectBody (is32 : Bool) (dst : Nat) (src1 : Opd) : Emit :=
  match src1 with
  | .mem b i w => emitOpMem (.g (if is32 then .int else .word) false) true dst b i w
  | .imm v => loadImmediate dst (if is32 then Verif.RV.sx32 (Verif.RV.lo32 v) else v)
  | .reg r => ins (ADDI_D ||| RD dst ||| RJ r ||| IMM_I12 0#64)

/-- sljit_emit_select (sljitNativeLOONGARCH_64.c:3105-3155). -/
def emitSelect (type : Nat) (is32 : Bool) (dst : Nat) (src1 : Opd) (src2 : Nat) : Emit :=
  let (e0, src1, type) : Emit × Opd × Nat :=
    if dst ≠ src2 then
      if src1 = .reg dst then ([], .reg src2, type ^^^ 1)
      else
        (((if dependsOn dst src1 then ins (ADDI_D ||| RD TMP_REG1 ||| RJ dst ||| IMM_I12 0#64) else []) ++
          ins (ADDI_D ||| RD dst ||| RJ src2 ||| IMM_I12 0#64)), substTmp dst src1, type)
    else ([], src1, type)
  let body := selectBody is32 dst src1
  e0 ++ (ins (jumpIns type ||| IMM_I16 (body.length + 1)) ++ body)

end Verif.LA
