import Verif.Prog.Lir
import Verif.X86.Gen
import Verif.X86.Frame

/-!
# A whole function on x86-64 (System V): the calls of a program, and the labels

The instruction sequences are the ones of `Ops`, `Ops1` and `Frame`; this file adds how a sequence of API calls turns into
the items that sljit_generate_code works on.  The programs and their meaning are those of `Verif.Lir`.
-/

namespace Verif.XLir
open Verif.X86
open Verif

/-- Registers: `Verif.Lir` numbers them with SLJIT_NUMBER_OF_REGISTERS = 23 (SLJIT_S0 is 23, SLJIT_SP is 24), x86-64 has 13
(sljitConfigInternal.h, sljitLir.h:171-214). -/
def xr (r : Nat) : Nat := if r = 24 then 14 else if 13 < r then r - 10 else r

/-- Operands. -/
def xo : RV.Opd → Opd
  | .reg r => .reg (xr r)
  | .imm v => .imm v
  | .mem b i w => .mem (xr b) (xr i) w

/-- The condition of a jump type below SLJIT_F_EQUAL (sljitLir.h:1720-1756): SLJIT_EQUAL = 0, SLJIT_LESS = 2, ... SLJIT_CARRY = 12. -/
def jt (type : Nat) : JT :=
  match type / 2 with
  | 0 => .equal
  | 1 => .less
  | 2 => .greater
  | 3 => .sigLess
  | 4 => .sigGreater
  | 5 => .overflow
  | _ => .carry

/-- An odd type is the negation. -/
def neg (type : Nat) : Bool := decide (type % 2 = 1)

/-- The instructions of a call without jump record.  SLJIT_MOV32 is the 32 bit form of SLJIT_MOV in sljit_emit_op_flags
(sljitNativeX86_common.c:3596-3677); SLJIT_SHIFT_INTO_NON_ZERO has no effect on x86. -/
def emit (ft : Feat) (p : Frame) (ins : Lir.Ins) : Code :=
  match ins with
  | .op0 o is32 => emitOp0 false o is32
  | .op1 o is32 dst src => emitOp1 ft false o is32 (xo dst) (xo src)
  | .op2 op dst s1 s2 => emitOp2 false op (xo dst) (xo s1) (xo s2)
  | .op2u op s1 s2 => emitOp2u false op (xo s1) (xo s2)
  | .shiftInto left is32 _ dst s1 s2 s3 => emitShiftInto false is32 left (xr dst) (xr s1) (xr s2) (xo s3)
  | .opFlags code is32 setZ dst type =>
    if code = .mov then emitFlagsMov false is32 (xo dst) (jt type) (neg type)
    else emitFlagsOp false ⟨code, is32, setZ, .none⟩ (xo dst) (jt type) (neg type)
  | .select type is32 dst s1 s2 => emitSelect false is32 (jt type) (neg type) (xr dst) (xo s1) (xr s2)
  | .ret o is32 src => emitReturn ft false p o is32 (xo src)
  | .retVoid => emitReturnVoid false p
  | _ => some []

/-- A call that emits nothing leaves no trace. -/
def piece (bs : List Byte) : List Item := if bs = [] then [] else [.bytes bs]

/-- The condition and the operands of sljit_emit_cmp when src1 is an immediate and src2 is not (sljitLir.c:3553-3588). -/
def swapType (type : Nat) : Nat :=
  match type with
  | 2 => 4
  | 4 => 2
  | 3 => 5
  | 5 => 3
  | 6 => 8
  | 8 => 6
  | 7 => 9
  | 9 => 7
  | t => t

/-- sljitLir.c:3553. -/
def swapped (s1 s2 : Opd) : Bool := s1.isImm && !s2.isImm

/-- The flags of the subtraction (sljitLir.c:3590-3594): SLJIT_SET_Z, or the one of `condition & 0xfe`. -/
def cmpOp (type : Nat) (is32 : Bool) : RV.Op :=
  ⟨.sub, is32, decide (type ≤ 1), match type / 2 with | 1 => .less | 2 => .greater | 3 => .sigLess | 4 => .sigGreater | _ => .none⟩

/-- sljit_emit_cmp (sljitLir.c:3537-3611): the instructions, and the type of the jump. -/
def emitCmp (type : Nat) (is32 : Bool) (s1 s2 : Opd) : Code × Nat :=
  if swapped s1 s2 then (emitOp2u false (cmpOp (swapType type) is32) s2 s1, swapType type)
  else (emitOp2u false (cmpOp type is32) s1 s2, type)

/-- A function inside a compiler: the number of labels in front of its own ones, and the labels of the functions (sljit_set_label). -/
structure Ctx where
  lb : Nat
  fn : Nat → Tgt

/-- call_with_args without Windows (sljitNativeX86_64.c:788-815): `n` is word_arg_count, `src` the register with the address of the function, zero if there is none.
The second component is the value of `*src_ptr` afterwards. -/
def callArgs (n src : Nat) : Code × Nat :=
  if n = 0 then (some [], src)
  else if 3 ≤ n ∨ src = 3 then (emitMov false false (.reg TMP_REG1) (.reg 3) +> emitMov false false (.reg 3) (.reg 1), if src = 3 then TMP_REG1 else src)
  else (emitMov false false (.reg 3) (.reg 1), src)

/-- sljit_emit_ijump with a register, sljitNativeX86_common.c:3584-3592 (CALL_rm = 2 << 3), type SLJIT_CALL; mode32 is set. -/
def emitCallReg (r : Nat) : Code := (emitX86 false true {} (.reg 0) (.reg r)).map fun o => ((o.op [0xff#8]).or (2#8 <<< 3)).bytes

/-- sljit_emit_icall with SLJIT_CALL and `n` word arguments (sljitNativeX86_64.c:917-949) and sljit_emit_ijump (sljitNativeX86_common.c:3559-3594). -/
def emitIcall (n : Nat) : Opd → Option (List Item)
  | .imm v => (callArgs n 0).1.map fun bs => piece bs ++ [.jump ⟨38, false, .addr v⟩]
  | .reg r => ((callArgs n r).1 +> emitCallReg (callArgs n r).2).map piece
  | .mem b i w => (emitMov false false (.reg TMP_REG2) (.mem b i w) +> ((callArgs n TMP_REG2).1 +> emitCallReg (callArgs n TMP_REG2).2)).map piece

/-- The items of a call: sljit_emit_label (sljitNativeX86_common.c:3438-3458), sljit_emit_jump (3536-3557) and sljit_set_label,
sljit_emit_cmp, sljit_emit_call with SLJIT_CALL (sljitNativeX86_64.c:897-915), sljit_emit_icall, or plain instructions. -/
def items (u : Ctx) (ft : Feat) (p : Frame) (ins : Lir.Ins) : Option (List Item) :=
  match ins with
  | .label => some [.label]
  | .jump none rew k => some [.jump ⟨36, rew, .label (u.lb + k)⟩]
  | .jump (some type) rew k => some [.jump ⟨type, rew, .label (u.lb + k)⟩]
  | .cmp type is32 s1 s2 rew k =>
    (emitCmp type is32 (xo s1) (xo s2)).1.map fun bs => piece bs ++ [.jump ⟨(emitCmp type is32 (xo s1) (xo s2)).2, rew, .label (u.lb + k)⟩]
  | .call as _ rew (.fn f) => (callArgs as.length 0).1.map fun bs => piece bs ++ [.jump ⟨38, rew, u.fn f⟩]
  | .call as _ _ (.opd src) => emitIcall as.length (xo src)
  | ins => (emit ft p ins).map piece

/-- The items of a sequence of calls. -/
def comp (u : Ctx) (ft : Feat) (p : Frame) : List Lir.Ins → Option (List Item)
  | [] => some []
  | ins :: is => (items u ft p ins).bind fun a => (comp u ft p is).map fun b => a ++ b

/-- sljit_emit_label returns the previous label when nothing has been emitted since (sljitNativeX86_common.c:3446-3447). -/
def dedup : (prev : Bool) → List Item → List Item
  | _, [] => []
  | prev, .label :: is => if prev then dedup true is else .label :: dedup true is
  | _, i :: is => i :: dedup false is

/-- The label which the n-th call of sljit_emit_label returns; `n` labels exist. -/
def lmap : (prev : Bool) → (n : Nat) → List Item → List Nat
  | _, _, [] => []
  | prev, n, .label :: is => if prev then (n - 1) :: lmap true n is else n :: lmap true (n + 1) is
  | _, n, _ :: is => lmap false n is

/-- Use the labels that were returned. -/
def ren (f : Nat → Nat) : Item → Item
  | .jump ⟨type, rew, .label n⟩ => .jump ⟨type, rew, .label (f n)⟩
  | .mov r (.label n) => .mov r (.label (f n))
  | i => i

/-- The items that the compiler holds after the calls which produce `raw`. -/
def link (raw : List Item) : List Item := (dedup false raw).map (ren fun n => (lmap false 0 raw).getD n 0)

/-- A function: the arguments of sljit_emit_enter, the calls of its body. -/
structure XFn where
  p : Frame
  args : List Bool
  body : List Lir.Ins

/-- The functions that are made with one compiler, each with a label in front of it: sljit_emit_label, sljit_emit_enter (sljitNativeX86_64.c:457-630), the calls of the
body.  `n` labels have been made before. -/
def mods (ft : Feat) (fn : Nat → Tgt) : (n : Nat) → List XFn → Option (List Item)
  | _, [] => some []
  | n, f :: fs => (emitEnter false f.p false f.args).bind fun bs => (comp ⟨n + 1, fn⟩ ft f.p f.body).bind fun b =>
      (mods ft fn (n + 1 + Lir.nlab f.body) fs).map fun r => .label :: (piece bs ++ b ++ r)

/-- The number of the label of a function. -/
def entry (fs : List XFn) (i : Nat) : Nat := ((fs.take i).map fun f => 1 + Lir.nlab f.body).sum

/-- The whole compiler. -/
def compileAll (ft : Feat) (fs : List XFn) : Option (List Item) := (mods ft (fun i => .label (entry fs i)) 0 fs).map link

/-- One function without a label: sljit_emit_enter (sljitNativeX86_64.c:457-630) and the calls of the body. -/
def raw (ft : Feat) (p : Frame) (args : List Bool) (P : List Lir.Ins) : Option (List Item) :=
  (emitEnter false p false args).bind fun bs => (comp ⟨0, fun _ => .label 0⟩ ft p P).map fun b => piece bs ++ b

/-- The whole function. -/
def compile (ft : Feat) (p : Frame) (args : List Bool) (P : List Lir.Ins) : Option (List Item) := (raw ft p args P).map link

end Verif.XLir
