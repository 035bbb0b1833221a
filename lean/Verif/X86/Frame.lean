import Verif.X86.Ops1

/-!
# Function entry and return of the x86-64 backend

Model of sljit_emit_enter (sljitNativeX86_64.c:457-630), sljit_set_context (632-666), emit_stack_frame_release (668-747),
sljit_emit_return_void (749-758), sljit_emit_return_to (760-780) and sljit_emit_return (sljitLir.c:3469-3511) for integer values.
Sizes are natural numbers: `sljit_s32` does not overflow because local_size is at most SLJIT_MAX_LOCAL_SIZE (sljitLir.c:1444).
Not modelled: SLJIT_CONFIG_X86_CET (emit_endbranch emits nothing without it), and on Windows the floating point registers: the model
covers functions there which neither have floating point arguments nor declare saved floating point registers
(GET_SAVED_FLOAT_REGISTERS_SIZE is zero).  On other systems there are no saved floating point registers, and floating point arguments
are in FR0-FR3 already.
-/

namespace Verif.X86

/-- The arguments of sljit_emit_enter that determine the frame: ENTER_GET_REGS of `scratches` and `saveds`, SLJIT_KEPT_SAVEDS_COUNT of
`options`, and `local_size`. -/
structure Frame where
  kept : Nat
  scr : Nat
  sav : Nat
  locals : Nat
  deriving DecidableEq, Repr

/-- SLJIT_NUMBER_OF_SAVED_REGISTERS (sljitConfigInternal.h:621-629), SLJIT_S0 = SLJIT_NUMBER_OF_REGISTERS (617). -/
def nSaved (win : Bool) : Nat := if win then 8 else 6
@[inherit_doc nSaved] abbrev S0 : Nat := 13
/-- SLJIT_FIRST_SAVED_REG (sljitLir.h:208). -/
def firstSaved (win : Bool) : Nat := S0 - nSaved win + 1
/-- SLJIT_LOCALS_OFFSET (sljitConfigInternal.h:621-629). -/
def localsOffset (win : Bool) : Nat := if win then 32 else 0

/-- `for (i = hi; i >= lo; i--)` as a list. -/
def down (hi lo : Nat) : List Nat := (List.range (hi + 1 - lo)).map (hi - ·)

/-- The registers which are saved, in order (sljitNativeX86_64.c:499-519). -/
def Frame.regs (win : Bool) (p : Frame) : List Nat := down (S0 - p.kept) (S0 - p.sav + 1) ++ down p.scr (firstSaved win)

/-- PUSH_REG (sljitNativeX86_common.c, PUSH_r = 0x50) with its prefix, sljitNativeX86_64.c:501-507. -/
def pushReg (win : Bool) (r : Nat) : List Byte := (if regMap win r ≥ 8#8 then [REX_B] else []) ++ [0x50#8 + regLmap win r]
/-- POP_REG (POP_r = 0x58), sljitNativeX86_64.c:719-725. -/
def popReg (win : Bool) (r : Nat) : List Byte := (if regMap win r ≥ 8#8 then [REX_B] else []) ++ [0x58#8 + regLmap win r]

/-- GET_SAVED_REGISTERS_SIZE(scratches, saveds - kept, 1) (sljitLir.c:333-335, sljitNativeX86_64.c:497). -/
def Frame.savedSize (win : Bool) (p : Frame) : Nat :=
  ((if p.scr < S0 - nSaved win then 0 else p.scr - (S0 - nSaved win)) + (p.sav - p.kept) + 1) * 8

/-- `compiler->local_size`, sljitNativeX86_64.c:522, 585-586 and 648-664. -/
def Frame.localSize (win : Bool) (p : Frame) : Nat :=
  (p.locals + localsOffset win + p.savedSize win + 15) / 16 * 16 - p.savedSize win

/-- BINARY_IMM32(op, v, SLJIT_SP, 0), sljitNativeX86_common.c:1109-1114, compiler->mode32 = 0. -/
def spImm (win : Bool) (k : Bin) (v : Nat) : Code := insOr win false { binIns := true } (.imm (BitVec.ofNat 64 v)) (.reg SP) k.imm

/-- The register of a word argument, sljitNativeX86_64.c:539-569 (without floating point arguments on Windows). -/
def argSrc (win : Bool) (k : Nat) : Nat :=
  if win then (if k = 0 then 4 else if k = 1 then 2 else if k = 2 then 3 else TMP_REG1)
  else if k = 0 then 3 else if k = 1 then 2 else if k = 2 then TMP_REG1 else 4

/-- The moves of the word arguments, sljitNativeX86_64.c:536-582; one element for each word argument, true if SLJIT_ARG_TYPE_SCRATCH_REG
is set; k is word_arg_count, n is saved_arg_count. -/
def argMoves (win : Bool) (k n : Nat) : List Bool → Code
  | [] => some []
  | true :: as => (if argSrc win k ≠ R0 + k then emitMov win false (.reg (R0 + k)) (.reg (argSrc win k)) else some []) +> argMoves win (k + 1) n as
  | false :: as => emitMov win false (.reg (S0 - n)) (.reg (argSrc win k)) +> argMoves win (k + 1) (n + 1) as

/-- A load from the new part of the stack (to make the system extend it), sljitNativeX86_64.c:592-615. -/
def touch (win : Bool) (reg : Nat) (v : Nat) : Code := emitMov win false (.reg reg) (.mem SP 0 (- BitVec.ofNat 64 v))

/-- The loop for a large frame, sljitNativeX86_64.c:599-610: the jump is JNE_i8 with the displacement -21. -/
def touchLoop (win : Bool) (n : Nat) : Code :=
  emitMov win false (.reg TMP_REG1) (.imm (BitVec.ofNat 64 (n / 4096))) +>
  (touch win TMP_REG2 4096 +>
  (spImm win SUB 4096 +>
  (insOr win false { binIns := true } (.imm 1#64) (.reg TMP_REG1) SUB.imm +>
  some [0x75#8, -21#8])))

/-- Allocating `n` bytes of locals, sljitNativeX86_64.c:588-618. -/
def allocLocals (win : Bool) (n : Nat) : Code :=
  if ¬ win then (if n > 0 then spImm win SUB n else some [])
  else if n = 0 then some []
  else if n ≤ 4 * 4096 then
    (if n > 4096 then touch win TMP_REG1 4096 else some []) +>
    ((if n > 2 * 4096 then touch win TMP_REG1 (4096 * 2) else some []) +>
    ((if n > 3 * 4096 then touch win TMP_REG1 (4096 * 3) else some []) +>
    (touch win TMP_REG1 n +> spImm win SUB n)))
  else
    touchLoop win n +>
    (if n % 4096 > 0 then touch win TMP_REG1 (n % 4096) +> spImm win SUB (n % 4096) else some [])

/-- sljit_emit_enter, sljitNativeX86_64.c:457-630; `regArg` is SLJIT_ENTER_REG_ARG. -/
def emitEnter (win : Bool) (p : Frame) (regArg : Bool) (args : List Bool) : Code :=
  some ((p.regs win).flatMap (pushReg win)) +>
  ((if regArg then some [] else argMoves win 0 p.kept args) +>
  allocLocals win (p.localSize win))

/-- The pops of emit_stack_frame_release, sljitNativeX86_64.c:716-739: `upTo lo hi` is `for (i = lo; i <= hi; i++)`. -/
def upTo (lo hi : Nat) : List Nat := (List.range (hi + 1 - lo)).map (lo + ·)
@[inherit_doc upTo] def Frame.pops (win : Bool) (p : Frame) : List Nat := upTo (firstSaved win) p.scr ++ upTo (S0 + 1 - p.sav) (S0 - p.kept)

/-- emit_stack_frame_release, sljitNativeX86_64.c:668-747; `to` is is_return_to. -/
def emitRelease (win : Bool) (p : Frame) (to : Bool) : Code :=
  let short := to ∧ p.scr < firstSaved win ∧ p.sav = p.kept
  let n := if short then p.localSize win + 8 else p.localSize win
  (if n > 0 then spImm win ADD n else some []) +>
  (some ((p.pops win).flatMap (popReg win)) +>
  if to ∧ ¬ short then spImm win ADD 8 else some [])

/-- sljit_emit_return_void, sljitNativeX86_64.c:749-758: RET_near. -/
def emitReturnVoid (win : Bool) (p : Frame) : Code := emitRelease win p false +> some [0xc3#8]

/-- sljit_emit_ijump with a register, sljitNativeX86_common.c:3559-3592 (JMP_rm = 4 << 3), type SLJIT_JUMP; mode32 is set. -/
def emitJumpReg (win : Bool) (r : Nat) : Code := (emitX86 win true {} (.reg 0) (.reg r)).map fun o => ((o.op [0xff#8]).or (4#8 <<< 3)).bytes

/-- sljit_emit_return_to, sljitNativeX86_64.c:760-780, with a register or memory. -/
def emitReturnTo (win : Bool) (p : Frame) (src : Opd) : Code :=
  match src with
  | .reg r =>
    if firstSaved win ≤ r ∧ r ≤ S0 - p.kept then emitMov win false (.reg TMP_REG2) src +> (emitRelease win p true +> emitJumpReg win TMP_REG2)
    else emitRelease win p true +> emitJumpReg win r
  | .mem .. => emitMov win false (.reg TMP_REG2) src +> (emitRelease win p true +> emitJumpReg win TMP_REG2)
  | .imm _ => none

/-- sljit_emit_return, sljitLir.c:3469-3482 and 3498-3511: SLJIT_RETURN_REG is SLJIT_R0. -/
def emitReturn (ft : Feat) (win : Bool) (p : Frame) (op : RV.Op1C) (is32 : Bool) (src : Opd) : Code :=
  (if src = .reg R0 ∧ (op = .mov ∨ op = .movP) ∧ is32 = false then some [] else emitOp1 ft win op is32 (.reg R0) src) +> emitReturnVoid win p

end Verif.X86
