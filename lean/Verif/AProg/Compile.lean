import Verif.XProg.Compile
import Verif.A64.Gen
import Verif.A64.Frame

/-!
# A whole function on ARM64: the calls of a program, the flag state of the compiler, and the labels

The instruction sequences are the ones of `A64.Ops` and `A64.Frame`; this file adds how a sequence of API calls turns into the items that
sljit_generate_code works on.  The programs and their meaning are those of `Verif.Lir`.
-/

namespace Verif.ALir
open Verif.A64
open Verif.Imm.Arm64 (loadImmediate)
open Verif
open Verif.XLir (neg swapType cmpOp)

/-- Registers: `Verif.Lir` numbers them with SLJIT_NUMBER_OF_REGISTERS = 23 (SLJIT_S0 is 23, SLJIT_SP is 24), ARM64 has 26
(sljitConfigInternal.h, sljitLir.h:171-214).  The registers which are saved in the function `p` are numbered from above. -/
def ar (p : Frame) (r : Nat) : Nat := if r = 24 then 27 else if 24 ≤ r + p.sav then r + 3 else r

/-- Operands, with ADJUST_LOCAL_OFFSET (sljitLir.c:341-343): SLJIT_LOCALS_OFFSET is 16 (sljitConfigInternal.h:663, 810). -/
def ao (p : Frame) : RV.Opd → Opd
  | .reg r => .reg (ar p r)
  | .imm v => .imm v
  | .mem b i w => if b = 24 ∧ i = 0 then .mem 27 0 (w + 16#64) else .mem (ar p b) (ar p i) w

/-- The condition of a jump type below SLJIT_F_EQUAL (sljitLir.h:1720-1756): SLJIT_EQUAL = 0, SLJIT_LESS = 2, ... SLJIT_CARRY = 12. -/
def jt (type : Nat) : JT :=
  match type / 2 with
  | 0 => .equal
  | 1 => .less
  | 2 => .greater
  | 3 => .sigLess
  | 4 => .sigGreater
  | 5 => .overflow
  | _ => .carry

/-- get_cc (sljitNativeARM_64.c:2292-2379) of a type; `st` is `compiler->status_flags_state`. -/
def ccOf (st : FState) (type : Nat) : BitVec 4 := getCc st (jt type) (neg type)

/-- The instructions of a call without jump record; SLJIT_NOP: sljitNativeARM_64.c:1590-1591. -/
def emit (p : Frame) (st : FState) (ins : Lir.Ins) : Code :=
  match ins with
  | .op0 o is32 => if o = .nop then some [NOP] else emitOp0 o is32
  | .op1 o is32 dst src => emitOp1 o is32 (ao p dst) (ao p src)
  | .op2 op dst s1 s2 => emitOp2 op (ao p dst) (ao p s1) (ao p s2)
  | .op2u op s1 s2 => emitOp2u op (ao p s1) (ao p s2)
  | .shiftInto left is32 nz dst s1 s2 s3 => emitShiftInto is32 left nz (ar p dst) (ar p s1) (ar p s2) (ao p s3)
  | .opFlags code is32 setZ dst type =>
    if code = .mov then emitFlagsMov is32 (ao p dst) (ccOf st type)
    else emitFlagsOp ⟨code, is32, setZ, .none⟩ (ao p dst) (ccOf st type)
  | .select type is32 dst s1 s2 => emitSelect is32 (ar p dst) (ao p s1) (ar p s2) (ccOf st type)
  | .ret o is32 src => emitReturn p o is32 (ao p src)
  | .retVoid => some (emitReturnVoid p)
  | _ => some []

/-- A call that emits nothing leaves no trace. -/
def piece (ws : List (BitVec 32)) : List Item := if ws = [] then [] else [.code ws]

/-- emit_cmp_to0 (sljitNativeARM_64.c:2493-2528): the instructions in front of CBZ or CBNZ, and the register it tests. -/
def emitTo0 (is32 : Bool) : Opd → Code × Nat
  | .reg r => (some [], r)
  | .mem b i w => (emitOpMem ⟨if is32 then 2 else 3, false, false⟩ TMP_REG1 b i w TMP_REG1, TMP_REG1)
  | .imm v => (loadImmediate TMP_REG1 v, TMP_REG1)

/-- An operand which is the constant zero. -/
def zero : Opd → Bool
  | .imm v => decide (v = 0#64)
  | _ => false

/-- The operand that sljit_emit_cmp compares with zero by CBZ, if it does (sljitLir.c:3548-3560). -/
def to0 (type : Nat) (s1 s2 : Opd) : Option Opd :=
  if type ≤ 1 then (if zero s1 then some s2 else if zero s2 then some s1 else none) else none

/-- A constant. -/
def isImm : Opd → Bool
  | .imm _ => true
  | _ => false

/-- sljitLir.c:3563. -/
def swapped (s1 s2 : Opd) : Bool := isImm s1 && !isImm s2

/-- sljit_emit_cmp (sljitLir.c:3537-3611): the instructions, and what skips the jump. -/
def emitCmp (type : Nat) (is32 : Bool) (s1 s2 : Opd) : Code × Skip :=
  match to0 type s1 s2 with
  | some o => ((emitTo0 is32 o).1, .cbz is32 (decide (type = 0)) (emitTo0 is32 o).2)
  | none =>
    if swapped s1 s2 then (emitOp2u (cmpOp (swapType type) is32) s2 s1, .cc (ccOf .sub (swapType type)))
    else (emitOp2u (cmpOp type is32) s1 s2, .cc (ccOf .sub type))

/-- `compiler->status_flags_state` after a call (sljitNativeARM_64.c:2292-2379 uses it; emit_op_imm sets it, 897, 904, 1090-1106, 1145). -/
def next (p : Frame) (st : FState) : Lir.Ins → FState
  | .op2 op _ _ _ | .op2u op _ _ => stateAfter op.code st
  | .cmp type _ s1 s2 _ _ => if (to0 type (ao p s1) (ao p s2)).isSome then st else .sub
  | _ => st

/-- A function inside a compiler: the number of labels in front of its own ones, and the labels of the functions (sljit_set_label). -/
structure Ctx where
  lb : Nat
  fn : Nat → Tgt

/-- sljit_emit_icall with SLJIT_CALL (sljitNativeARM_64.c:2558-2584) and sljit_emit_ijump (2530-2556). -/
def emitIcall : Opd → Option (List Item)
  | .imm v => some [.jump ⟨none, true, false, .addr v⟩]
  | .reg r => some [.code [BLR ||| Imm.Arm64.RN r]]
  | .mem b i w => (emitOpMem ⟨3, false, false⟩ TMP_REG1 b i w TMP_REG1).map fun ws => [.code (ws ++ [BLR ||| Imm.Arm64.RN TMP_REG1])]

/-- The items of a call: sljit_emit_label (sljitNativeARM_64.c:2381-2395), sljit_emit_jump (2451-2475) and sljit_set_label,
sljit_emit_cmp, sljit_emit_call (2477-2491), sljit_emit_icall, or plain instructions. -/
def items (u : Ctx) (p : Frame) (st : FState) (ins : Lir.Ins) : Option (List Item) :=
  match ins with
  | .label => some [.label]
  | .jump none rew k => some [.jump ⟨none, false, rew, .label (u.lb + k)⟩]
  | .jump (some type) rew k => some [.jump ⟨some (.cc (ccOf st type)), false, rew, .label (u.lb + k)⟩]
  | .cmp type is32 s1 s2 rew k =>
    (emitCmp type is32 (ao p s1) (ao p s2)).1.map fun ws =>
      piece ws ++ [.jump ⟨some (emitCmp type is32 (ao p s1) (ao p s2)).2, false, rew, .label (u.lb + k)⟩]
  | .call _ _ rew (.fn f) => some [.jump ⟨none, true, rew, u.fn f⟩]
  | .call _ _ _ (.opd src) => emitIcall (ao p src)
  | ins => (emit p st ins).map piece

/-- The items of a sequence of calls. -/
def comp (u : Ctx) (p : Frame) : FState → List Lir.Ins → Option (List Item)
  | _, [] => some []
  | st, ins :: is => (items u p st ins).bind fun a => (comp u p (next p st ins) is).map fun b => a ++ b

/-- The flag state of the compiler after a sequence of calls. -/
def stOf (p : Frame) : FState → List Lir.Ins → FState
  | st, [] => st
  | st, ins :: is => stOf p (next p st ins) is

/-- sljit_emit_label returns the previous label when nothing has been emitted since (sljitNativeARM_64.c:2388-2389). -/
def dedup : (prev : Bool) → List Item → List Item
  | _, [] => []
  | prev, .label :: is => if prev then dedup true is else .label :: dedup true is
  | _, i :: is => i :: dedup false is

/-- The label which the n-th call of sljit_emit_label returns; `n` labels exist. -/
def lmap : (prev : Bool) → (n : Nat) → List Item → List Nat
  | _, _, [] => []
  | prev, n, .label :: is => if prev then (n - 1) :: lmap true n is else n :: lmap true (n + 1) is
  | _, n, _ :: is => lmap false n is

/-- Use the labels that were returned. -/
def ren (f : Nat → Nat) : Item → Item
  | .jump ⟨skip, call, rew, .label n⟩ => .jump ⟨skip, call, rew, .label (f n)⟩
  | .mov r (.label n) => .mov r (.label (f n))
  | i => i

/-- The items that the compiler holds after the calls which produce `raw`. -/
def link (raw : List Item) : List Item := (dedup false raw).map (ren fun n => (lmap false 0 raw).getD n 0)

/-- A function: the arguments of sljit_emit_enter, the calls of its body. -/
structure AFn where
  p : Frame
  args : List Bool
  body : List Lir.Ins

/-- The functions that are made with one compiler, each with a label in front of it: sljit_emit_label, sljit_emit_enter (sljitNativeARM_64.c:1246-1410), the calls of the
body.  `n` labels have been made before. -/
def mods (fn : Nat → Tgt) : (n : Nat) → FState → List AFn → Option (List Item)
  | _, _, [] => some []
  | n, st, f :: fs => (comp ⟨n + 1, fn⟩ f.p st f.body).bind fun b => (mods fn (n + 1 + Lir.nlab f.body) (stOf f.p st f.body) fs).map fun r =>
      .label :: (piece (emitEnter f.p false f.args) ++ b ++ r)

/-- The number of the label of a function. -/
def entry (fs : List AFn) (i : Nat) : Nat := ((fs.take i).map fun f => 1 + Lir.nlab f.body).sum

/-- The whole compiler; sljit_create_compiler clears `status_flags_state`. -/
def compileAll (fs : List AFn) : Option (List Item) := (mods (fun i => .label (entry fs i)) 0 .none fs).map link

/-- One function without a label: sljit_emit_enter and the calls of the body. -/
def raw (p : Frame) (args : List Bool) (P : List Lir.Ins) : Option (List Item) :=
  (comp ⟨0, fun _ => .label 0⟩ p .none P).map fun b => piece (emitEnter p false args) ++ b

/-- The whole function. -/
def compile (p : Frame) (args : List Bool) (P : List Lir.Ins) : Option (List Item) := (raw p args P).map link

end Verif.ALir
