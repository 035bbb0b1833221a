import Verif.A64.Ops

/-!
# Function entry and return of the ARM64 backend

Model of sljit_emit_enter (sljitNativeARM_64.c:1246-1410), emit_stack_frame_release (1435-1535), sljit_emit_return_void (1537-1545),
sljit_emit_return_to (1547-1573), sljit_emit_ijump with a register (2530-2543) and sljit_emit_return (sljitLir.c:3469-3511) for integer values.
Sizes are natural numbers: `sljit_s32` does not overflow because local_size is at most SLJIT_MAX_LOCAL_SIZE (sljitLir.c:1444).
Not modelled: the stack probes on Windows (_WIN32).
-/

namespace Verif.A64
open Verif.Imm.Arm64 (regMap RD RN TMP_ZERO)

/-- The arguments of sljit_emit_enter that determine the frame: ENTER_GET_REGS and ENTER_GET_FLOAT_REGS of `scratches` and `saveds`,
SLJIT_KEPT_SAVEDS_COUNT of `options`, and `local_size`. -/
structure Frame where
  kept : Nat
  scr : Nat
  sav : Nat
  fscr : Nat
  fsav : Nat
  locals : Nat
  deriving DecidableEq, Repr

/-- SLJIT_S0, SLJIT_FS0, SLJIT_NUMBER_OF_SAVED_REGISTERS, SLJIT_NUMBER_OF_SAVED_FLOAT_REGISTERS (sljitConfigInternal.h:654-659),
SLJIT_SP, TMP_FP (sljitNativeARM_64.c:39-40). -/
abbrev S0 : Nat := 26
@[inherit_doc S0] abbrev FS0 : Nat := 30
@[inherit_doc S0] abbrev nSaved : Nat := 10
@[inherit_doc S0] abbrev nFSaved : Nat := 8
@[inherit_doc S0] abbrev SP : Nat := 27
@[inherit_doc S0] abbrev TMP_FP : Nat := 31
@[inherit_doc S0] abbrev R0 : Nat := 1
/-- SLJIT_FIRST_SAVED_REG (sljitLir.h:208), SLJIT_FIRST_SAVED_FLOAT_REG (259). -/
def firstSaved : Nat := S0 - nSaved + 1
@[inherit_doc firstSaved] def firstFSaved : Nat := FS0 - nFSaved + 1

/-- freg_map (sljitNativeARM_64.c:50-52). -/
def fregMap (r : Nat) : BitVec 5 :=
  ([0, 0, 1, 2, 3, 4, 5, 6, 7, 16, 17, 18, 19, 20, 21, 22, 23, 24, 25, 26, 27, 28, 29, 15, 14, 13, 12, 11, 10, 9, 8, 30, 31].getD r 0#5)

/-- Instruction words, sljitNativeARM_64.c:120-172. -/
def STP : BitVec 32 := 0xa9000000#32
@[inherit_doc STP] def STP_PRE : BitVec 32 := 0xa9800000#32
@[inherit_doc STP] def STP_F64 : BitVec 32 := 0x6d000000#32
@[inherit_doc STP] def STRI : BitVec 32 := 0xf9000000#32
@[inherit_doc STP] def STRI_F64 : BitVec 32 := 0xfd000000#32
@[inherit_doc STP] def LDP : BitVec 32 := 0xa9400000#32
@[inherit_doc STP] def LDP_POST : BitVec 32 := 0xa8c00000#32
@[inherit_doc STP] def LDP_F64 : BitVec 32 := 0x6d400000#32
@[inherit_doc STP] def LDRI : BitVec 32 := 0xf9400000#32
@[inherit_doc STP] def LDRI_F64 : BitVec 32 := 0xfd400000#32
@[inherit_doc STP] def LDRI_POST : BitVec 32 := 0xf8400400#32
@[inherit_doc STP] def RET : BitVec 32 := 0xd65f0000#32

/-- `for (i = hi; i >= lo; i--)` as a list. -/
def down (hi lo : Nat) : List Nat := (List.range (hi + 1 - lo)).map (hi - ·)

/-- The registers which are saved, in order; the two loops (sljitNativeARM_64.c:1283-1303, 1471-1491) share the variable `prev`. -/
def Frame.regs (p : Frame) : List Nat := down (S0 - p.kept) (S0 - p.sav + 1) ++ down p.scr firstSaved
/-- The same for the floating point registers (sljitNativeARM_64.c:1305-1327, 1493-1515). -/
def Frame.fregs (p : Frame) : List Nat := down FS0 (FS0 - p.fsav + 1) ++ down p.fscr firstFSaved

/-- Field of a register: RT or VT, RT2 or VT2. -/
def fT (vec : Bool) (r : Nat) : BitVec 32 := (if vec then fregMap r else regMap r).setWidth 32
@[inherit_doc fT] def fT2 (vec : Bool) (r : Nat) : BitVec 32 := (if vec then fregMap r else regMap r).setWidth 32 <<< 10

/-- A loop which stores or loads pairs: the words, the register left over (`prev` is -1 for none) and `offs`. -/
def pairLoop (ins : BitVec 32) (vec : Bool) : List Nat → Option Nat → BitVec 32 → List (BitVec 32) × Option Nat × BitVec 32
  | [], prev, offs => ([], prev, offs)
  | i :: is, none, offs => pairLoop ins vec is (some i) offs
  | i :: is, some r, offs =>
    let t := pairLoop ins vec is none (offs - (2#32 <<< 15))
    ((ins ||| fT vec r ||| fT2 vec i ||| RN SP ||| offs) :: t.1, t.2)

/-- Stores (sljitNativeARM_64.c:1281-1333) or loads (`ld`, 1468-1521) of the saved registers. -/
def saveWords (ld : Bool) (p : Frame) (offs : BitVec 32) : List (BitVec 32) :=
  let a := pairLoop (if ld then LDP else STP) false p.regs none offs
  let b := pairLoop (if ld then LDP_F64 else STP_F64) true p.fregs none a.2.2
  a.1 ++ b.1 ++
  (match b.2.1 with
    | some r => [(if ld then LDRI_F64 else STRI_F64) ||| fT true r ||| RN SP ||| (b.2.2 >>> 5) ||| (1#32 <<< 10)]
    | none => []) ++
  (match a.2.1 with
    | some r => [(if ld then LDRI else STRI) ||| fT false r ||| RN SP ||| (b.2.2 >>> 5) ||| (if b.2.1 = none then 1#32 <<< 10 else 0#32)]
    | none => [])

/-- `saved_regs_size` (sljitNativeARM_64.c:1264-1265; sljitLir.c:333-339). -/
def Frame.savedSize (p : Frame) : Nat :=
  ((if p.scr < S0 - nSaved then 0 else p.scr - (S0 - nSaved)) + (p.sav - p.kept) + 2) * 8 +
  ((if p.fscr < FS0 - nFSaved then 0 else p.fscr - (FS0 - nFSaved)) + p.fsav) * 8

/-- `compiler->local_size` (sljitNativeARM_64.c:1267-1268). -/
def Frame.total (p : Frame) : Nat := (p.locals + p.savedSize + 15) / 16 * 16

/-- `saved_regs_size` of a frame above 512 bytes (sljitNativeARM_64.c:1276). -/
def Frame.saved16 (p : Frame) : Nat := (p.savedSize - 16 + 15) / 16 * 16

/-- `(size - 2 * SSIZE_OF(sw)) << (15 - 3)`. -/
def offsOf (size : Nat) : BitVec 32 := (BitVec.ofNat 32 size - 16#32) <<< 12

/-- STP_PRE of the frame record, sljitNativeARM_64.c:1271-1272, 1398-1399. -/
def stpPre (n : Nat) : BitVec 32 := STP_PRE ||| RT TMP_FP ||| RT2 TMP_LR ||| RN SP ||| (((- BitVec.ofNat 32 (n / 8)) &&& 0x7f#32) <<< 15)

/-- SUBI or ADDI with the stack pointer, sljitNativeARM_64.c:1278, 1388, 1394, 1457-1465. -/
def spImm (sub : Bool) (n : Nat) : BitVec 32 := (if sub then SUBI else ADDI) ||| RD SP ||| RN SP ||| (BitVec.ofNat 32 n <<< 10)

/-- The moves of the word arguments (sljitNativeARM_64.c:1341-1355); one element for each word argument, true if SLJIT_ARG_TYPE_SCRATCH_REG is set;
k is `tmp` - SLJIT_R0, n is saved_arg_count. -/
def argMoves (k n : Nat) : List Bool → List (BitVec 32)
  | [] => []
  | true :: as => argMoves (k + 1) n as
  | false :: as => (MOV ||| RD (S0 - n) ||| RM (R0 + k)) :: argMoves (k + 1) (n + 1) as

/-- The rest of the frame (sljitNativeARM_64.c:1385-1402); `n` is local_size. -/
def allocRest (n : Nat) : List (BitVec 32) :=
  if n = 0 then []
  else
    (if n > 0xfff then [spImm true (n / 4096) ||| (1#32 <<< 22)] else []) ++
    (let m := if n > 0xfff then n % 4096 else n
     if m > 512 ∨ m = 0 then (if m ≠ 0 then [spImm true m] else []) ++ [STP ||| RT TMP_FP ||| RT2 TMP_LR ||| RN SP] else [stpPre m])

/-- sljit_emit_enter, sljitNativeARM_64.c:1246-1410; `regArg` is SLJIT_ENTER_REG_ARG. -/
def emitEnter (p : Frame) (regArg : Bool) (args : List Bool) : List (BitVec 32) :=
  (if p.total ≤ 512 then stpPre p.total :: saveWords false p (offsOf p.total)
   else spImm true p.saved16 :: saveWords false p (offsOf p.saved16)) ++
  (if regArg then [] else argMoves 0 0 args) ++
  allocRest (if p.total ≤ 512 then 0 else p.total - p.saved16) ++
  [ADDI ||| RD TMP_FP ||| RN SP]

/-- emit_stack_frame_release, sljitNativeARM_64.c:1435-1535; `rt` is is_return_to. -/
def emitRelease (p : Frame) (rt : Bool) : List (BitVec 32) :=
  let short := p.total > 512 ∧ p.total ≤ 512 + (if rt then 248 else 496)
  let n := if short then 512 else p.total
  (if rt then
    (if short then [LDRI_POST ||| RT TMP_FP ||| RN SP ||| (BitVec.ofNat 32 (p.total - 512) <<< 12)] else [LDRI ||| RT TMP_FP ||| RN SP])
  else
    (if short then [LDP_POST ||| RT TMP_FP ||| RT2 TMP_LR ||| RN SP ||| (BitVec.ofNat 32 (p.total - 512) <<< 12)]
     else [LDP ||| RT TMP_FP ||| RT2 TMP_LR ||| RN SP])) ++
  (if n > 512 then
    (if n - 512 > 0xfff then [spImm false ((n - 512) / 4096) ||| (1#32 <<< 22)] else []) ++
    [spImm false (if n - 512 > 0xfff then (n - 512) % 4096 else n - 512)]
  else []) ++
  (let m := if n > 512 then 512 else n
   saveWords true p (offsOf m) ++ [spImm false m])

/-- sljit_emit_return_void, sljitNativeARM_64.c:1537-1545. -/
def emitReturnVoid (p : Frame) : List (BitVec 32) := emitRelease p false ++ [RET ||| RN TMP_LR]

/-- sljit_emit_ijump with a register and the type SLJIT_JUMP, sljitNativeARM_64.c:2542: BR. -/
def emitJumpReg (r : Nat) : List (BitVec 32) := [0xd61f0000#32 ||| RN r]

/-- sljit_emit_return_to, sljitNativeARM_64.c:1547-1573, with a register or memory. -/
def emitReturnTo (p : Frame) (src : Opd) : Code :=
  match src with
  | .reg r =>
    if firstSaved ≤ r ∧ r ≤ S0 - p.kept then some ((MOV ||| RD TMP_REG1 ||| RM r) :: emitRelease p true ++ emitJumpReg TMP_REG1)
    else some (emitRelease p true ++ emitJumpReg r)
  | .mem base offs w => emitOpMem ⟨3, false, false⟩ TMP_REG1 base offs w TMP_REG1 +> some (emitRelease p true ++ emitJumpReg TMP_REG1)
  | .imm _ => none

/-- sljit_emit_return, sljitLir.c:3469-3482 and 3498-3511: SLJIT_RETURN_REG is SLJIT_R0. -/
def emitReturn (p : Frame) (op : RV.Op1C) (is32 : Bool) (src : Opd) : Code :=
  (if src = .reg R0 ∧ (op = .mov ∨ op = .movP) ∧ is32 = false then some [] else emitOp1 op is32 (.reg R0) src) +> some (emitReturnVoid p)

end Verif.A64
