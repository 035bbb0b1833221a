import Verif.Prog.Lir
import Verif.RISCV.Gen

/-!
# A whole function on RV64: the calls of a program, and the labels

The instruction sequences are the ones of `Api`, `Api2` and `Frame`; this file adds how a sequence of API calls turns into
the items that sljit_generate_code works on.
-/

namespace Verif.Lir
open Verif.RV

/-- `compiler->status_flags_state` after a call, as far as sljit_emit_op_flags looks at it: `true` when it has neither
SLJIT_CURRENT_FLAGS_ADD nor SLJIT_CURRENT_FLAGS_SUB (sljitNativeRISCV_common.c:2694-2707, 3679). -/
def mulNext (mul : Bool) (ins : Ins) : Bool :=
  let f (c : OpC) : Bool := match c with
    | .add | .addc | .sub | .subc => false
    | .mul => true
    | _ => mul
  match ins with
  | .op2 op _ _ _ => f op.code
  | .op2u op _ _ => f op.code
  | _ => mul

/-- The instructions of a call without jump record.  `.reg 0` is the destination of sljit_emit_op2u
(sljitNativeRISCV_common.c:2740-2749). -/
def emit (cfg : Cfg) (p : Frame) (mul : Bool) (ins : Ins) : Emit :=
  match ins with
  | .op0 o is32 => emitOp0 cfg o is32
  | .op1 o is32 dst src => emitOp1 cfg o is32 dst src
  | .op2 op dst s1 s2 => emitOp2 cfg op dst s1 s2
  | .op2u op s1 s2 => emitOp2 cfg op (.reg 0) s1 s2
  | .shiftInto left is32 nz dst s1 s2 s3 => emitShiftInto cfg left is32 nz dst s1 s2 s3
  | .opFlags code is32 setZ dst type => emitOpFlags cfg code is32 setZ (!mul) dst type
  | .select type is32 dst s1 s2 => emitSelect cfg type is32 dst s1 s2
  | .ret o is32 src => emitReturn cfg p o is32 src
  | .retVoid => emitReturnVoid cfg p
  | _ => []

/-- A call that emits nothing leaves no trace. -/
def piece (e : Emit) : List Item := if e = [] then [] else [.code e]

/-- A function inside a compiler: the number of labels in front of its own ones, and the labels of the functions (sljit_set_label). -/
structure Ctx where
  lb : Nat
  fn : Nat → Tgt

/-- sljit_emit_icall with SLJIT_CALL (sljitNativeRISCV_common.c:3614-3640), which leaves it to sljit_emit_ijump (3580-3612): a constant is the target of a jump
record. -/
def icall (cfg : Cfg) (p : Frame) : Opd → List Item
  | .imm v => [.jump ⟨.none, false, true, .addr v⟩]
  | src => [.code (emitICall cfg p false src)]

/-- The items of a call: sljit_emit_label, sljit_emit_jump and sljit_set_label (sljitNativeRISCV_common.c:3402-3431), sljit_emit_call (3433-3448),
sljit_emit_cmp (3450-3578), sljit_emit_icall, or plain instructions. -/
def items (u : Ctx) (cfg : Cfg) (p : Frame) (mul : Bool) (ins : Ins) : List Item :=
  match ins with
  | .label => [.label]
  | .jump none rew k => [.jump ⟨.none, rew, false, .label (u.lb + k)⟩]
  | .jump (some type) rew k => [.jump ⟨jumpBr type, rew, false, .label (u.lb + k)⟩]
  | .cmp type is32 s1 s2 rew k => piece (emitCmp cfg type is32 s1 s2).1 ++ [.jump ⟨(emitCmp cfg type is32 s1 s2).2, rew, false, .label (u.lb + k)⟩]
  | .call _ _ rew (.fn f) => [.jump ⟨.none, rew, true, u.fn f⟩]
  | .call _ _ _ (.opd src) => icall cfg p src
  | ins => piece (emit cfg p mul ins)

/-- The items of a sequence of calls. -/
def comp (u : Ctx) (cfg : Cfg) (p : Frame) : Bool → List Ins → List Item
  | _, [] => []
  | mul, ins :: is => items u cfg p mul ins ++ comp u cfg p (mulNext mul ins) is

/-- `status_flags_state` after some calls. -/
def mulAfter (mul : Bool) (P : List Ins) : Bool := P.foldl mulNext mul

/-- sljit_emit_label returns the previous label when nothing has been emitted since (sljitNativeRISCV_common.c:3261-3275,
`compiler->last_label->size == compiler->size`). -/
def dedup : (prev : Bool) → List Item → List Item
  | _, [] => []
  | prev, .label :: is => if prev then dedup true is else .label :: dedup true is
  | _, i :: is => i :: dedup false is

/-- The label which the n-th call of sljit_emit_label returns; `n` labels exist. -/
def lmap : (prev : Bool) → (n : Nat) → List Item → List Nat
  | _, _, [] => []
  | prev, n, .label :: is => if prev then (n - 1) :: lmap true n is else n :: lmap true (n + 1) is
  | _, n, _ :: is => lmap false n is

/-- Use the labels that were returned. -/
def ren (f : Nat → Nat) : Item → Item
  | .jump ⟨br, rew, call, .label n⟩ => .jump ⟨br, rew, call, .label (f n)⟩
  | .mov r (.label n) => .mov r (.label (f n))
  | i => i

/-- The items that the compiler holds after the calls which produce `raw`. -/
def link (raw : List Item) : List Item := (dedup false raw).map (ren fun n => (lmap false 0 raw).getD n 0)

/-- sljit_emit_enter and the calls of the body. -/
def raw (cfg : Cfg) (p : Frame) (regArg : Bool) (argTypes : Nat) (P : List Ins) : List Item :=
  piece (emitEnter cfg p regArg argTypes) ++ comp ⟨0, fun _ => .label 0⟩ cfg p true P

/-- A function: the parameters of sljit_emit_enter (the types of the arguments: a word in a saved register, or, for `true`, in a scratch register), the calls of its body. -/
structure RFn where
  p : Frame
  args : List Bool
  body : List Ins

/-- `arg_types` of sljit_emit_enter with SLJIT_ARG_RETURN(SLJIT_ARG_TYPE_W); SLJIT_ARG_TYPE_W is 1, SLJIT_ARG_TYPE_W_R is 9 (sljitLir.h:380-410). -/
def RFn.types (f : RFn) : Nat := 1 + 16 * f.args.foldr (fun a n => (if a then 9 else 1) + 16 * n) 0

/-- The functions that are made with one compiler, each with a label in front of it: sljit_emit_label, sljit_emit_enter (sljitNativeRISCV_common.c:1157-1277), the calls of the
body.  `n` labels have been made before. -/
def mods (cfg : Cfg) (fn : Nat → Tgt) : (n : Nat) → Bool → List RFn → List Item
  | _, _, [] => []
  | n, mul, f :: fs => .label :: (piece (emitEnter cfg f.p false f.types) ++ comp ⟨n + 1, fn⟩ cfg f.p mul f.body ++
      mods cfg fn (n + 1 + nlab f.body) (mulAfter mul f.body) fs)

/-- The number of the label of a function. -/
def entry (fs : List RFn) (i : Nat) : Nat := ((fs.take i).map fun f => 1 + nlab f.body).sum

/-- The whole compiler; sljit_create_compiler clears `status_flags_state`. -/
def compileAll (cfg : Cfg) (fs : List RFn) : List Item := link (mods cfg (fun i => .label (entry fs i)) 0 true fs)

/-- One function without a label. -/
def compile (cfg : Cfg) (p : Frame) (regArg : Bool) (argTypes : Nat) (P : List Ins) : List Item :=
  link (raw cfg p regArg argTypes P)

end Verif.Lir
