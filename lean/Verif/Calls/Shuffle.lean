import Verif.Calls.Machine
/-
The argument shuffles before a call, on the machines where sljit's argument registers are not those of the C calling convention.
An `arg_types` descriptor is a natural number: the type of the result in bits 0-3, the type of argument n in bits 4n..4n+3
(sljitLir.h:394-456); SLJIT_ARG_MASK is 7.
-/

namespace Verif.Calls

/-- The type codes SLJIT_ARG_TYPE_F64 and SLJIT_ARG_TYPE_F32 (sljitLir.h:408-410). -/
def isFloat (t : Nat) : Bool := t == 4 || t == 5

/-- The counters of the first loop of call_with_args: reversed types, arguments, words, floats. -/
structure Scan where
  types : Nat
  args : Nat
  words : Nat
  floats : Nat
  deriving DecidableEq, Repr

/-- The first loop of call_with_args (sljitNativeMIPS_64.c:227-243, sljitNativePPC_64.c:519-539, sljitNativeX86_64.c:834-862;
`t` is `arg_types` after the first shift). -/
def scan (t : Nat) (c : Scan) : Scan :=
  if h : t = 0 then c
  else scan (t / 16) ⟨c.types * 16 + t % 8, c.args + 1, if isFloat (t % 8) then c.words else c.words + 1,
    if isFloat (t % 8) then c.floats + 1 else c.floats⟩
  termination_by t
  decreasing_by omega

/-! ## MIPS64 -/

namespace Mips

/-- reg_map (sljitNativeMIPS_common.c:97-99). -/
def regMap (r : Nat) : BitVec 32 := BitVec.ofNat 32
  (([0, 2, 5, 6, 7, 8, 9, 10, 11, 12, 13, 14, 15, 24, 23, 22, 21, 20, 19, 18, 17, 16, 29, 25, 4, 31, 3, 1] : List Nat).getD r 0)
/-- freg_map for 64 bit (sljitNativeMIPS_common.c:117-119). -/
def fregMap (r : Nat) : BitVec 32 := BitVec.ofNat 32
  (([0, 0, 13, 14, 15, 16, 17, 18, 19, 20, 21, 22, 23, 1, 2, 3, 4, 5, 6, 7, 8, 9, 31, 30, 29, 28, 27, 26, 25, 24, 12, 11, 10] : List Nat).getD r 0)
/-- S, D, DA, FS, FD (sljitNativeMIPS_common.c:127-136). -/
def S (r : Nat) : BitVec 32 := regMap r <<< 21
def D (r : Nat) : BitVec 32 := regMap r <<< 11
def DA (r : BitVec 32) : BitVec 32 := r <<< 11
def FS (r : Nat) : BitVec 32 := fregMap r <<< 11
def FD (r : Nat) : BitVec 32 := fregMap r <<< 6
/-- DADDU, MOV_fmt, FMT_S, FMT_D, NOP (sljitNativeMIPS_common.c:150-151, 197, 285, 365). -/
def DADDU : BitVec 32 := 45#32
def FMT_S : BitVec 32 := 16#32 <<< 21
def FMT_D : BitVec 32 := 17#32 <<< 21
def MOV_fmt (f : BitVec 32) : BitVec 32 := (17#32 <<< 26) ||| f ||| 6#32
def NOP : BitVec 32 := 0#32
/-- TMP_REG1 = PIC_ADDR_REG, TMP_FREG1 (sljitNativeMIPS_common.c:81-101; 21 registers and 29 float registers). -/
def PIC_ADDR_REG : Nat := 23
def TMP_FREG1 : Nat := 30

/-- The instruction selected for the last argument of `types` (sljitNativeMIPS_64.c:246-271), NOP when there is nothing to move. -/
def moveOf (t a w f : Nat) : BitVec 32 :=
  if t = 4 then
    if a ≠ f then MOV_fmt FMT_D ||| FS f ||| FD a
    else if a = 1 then MOV_fmt FMT_D ||| FS 1 ||| FD TMP_FREG1 else NOP
  else if t = 5 then
    if a ≠ f then MOV_fmt FMT_S ||| FS f ||| FD a
    else if a = 1 then MOV_fmt FMT_S ||| FS 1 ||| FD TMP_FREG1 else NOP
  else
    if a ≠ w then DADDU ||| S w ||| D a
    else if a = 1 then DADDU ||| S 1 ||| DA 4 else NOP

/-- The second loop (sljitNativeMIPS_64.c:245-281).  Result: the instructions pushed and the last one, left for the delay slot. -/
def moves (types a w f : Nat) (prev : BitVec 32) : List (BitVec 32) × BitVec 32 :=
  if h : types = 0 then ([], prev)
  else
    let t := types % 8
    let ins := moveOf t a w f
    let w' := if isFloat t then w else w - 1
    let f' := if isFloat t then f - 1 else f
    if ins ≠ NOP then
      let r := moves (types / 16) (a - 1) w' f' ins
      ((if prev ≠ NOP then [prev] else []) ++ r.1, r.2)
    else moves (types / 16) (a - 1) w' f' prev
  termination_by types
  decreasing_by all_goals omega

/-- call_with_args (sljitNativeMIPS_64.c:214-286); `prev` is `*ins_ptr`. -/
def callWithArgs (argTypes : Nat) (prev : BitVec 32) : List (BitVec 32) × BitVec 32 :=
  let c := scan (argTypes / 16) ⟨0, 0, 0, 0⟩
  moves c.types c.args c.words c.floats prev

/-- What is executed before the callee starts in sljit_emit_call without SLJIT_CALL_RETURN (sljitNativeMIPS_64.c:288-328): the
pushed moves and the delay slot of the JALR.  The load of the target address into PIC_ADDR_REG is not included: it is placed
between them when the code is generated and writes no other register. -/
def emitCall (regArg : Bool) (argTypes : Nat) : List (BitVec 32) :=
  if regArg then [NOP]
  else
    let r := callWithArgs argTypes NOP
    r.1 ++ [r.2]

/-- sljit_emit_icall of a register, without SLJIT_CALL_RETURN (sljitNativeMIPS_64.c:346-380): copy of the target, moves, delay
slot; the jump goes to the second component. -/
def emitICall (regArg : Bool) (argTypes src : Nat) : List (BitVec 32) × Nat :=
  if regArg then ([NOP], src)
  else
    let r := callWithArgs argTypes NOP
    ((DADDU ||| S src ||| D PIC_ADDR_REG) :: (r.1 ++ [r.2]), PIC_ADDR_REG)

end Mips

/-! ## PPC64 -/

namespace Ppc

/-- reg_map (sljitNativePPC_common.c:107-109). -/
def regMap (r : Nat) : BitVec 32 := BitVec.ofNat 32
  (([0, 3, 4, 5, 6, 7, 8, 14, 15, 16, 17, 18, 19, 20, 21, 22, 23, 24, 25, 26, 27, 28, 29, 30, 1, 9, 10, 31, 12] : List Nat).getD r 0)
/-- freg_map (sljitNativePPC_common.c:111-113), the first registers. -/
def fregMap (r : Nat) : Nat := ([0, 1, 2, 3, 4] : List Nat).getD r 0
/-- OR, S, A, B (sljitNativePPC_common.c:119-121, 214). -/
def OR : BitVec 32 := (31#32 <<< 26) ||| (444#32 <<< 1)
def S (r : Nat) : BitVec 32 := regMap r <<< 21
def A (r : Nat) : BitVec 32 := regMap r <<< 16
def B (r : Nat) : BitVec 32 := regMap r <<< 11
/-- TMP_CALL_REG with SLJIT_PASS_ENTRY_ADDR_TO_CALL (sljitNativePPC_common.c:98-102; 23 registers). -/
def TMP_CALL_REG : Nat := 28

/-- The copies of the target made by the first loop (sljitNativePPC_64.c:519-539), and the register which holds it after. -/
def saveSrc (t a w reg src : Nat) : List (BitVec 32) × Nat :=
  if h : t = 0 then ([], src)
  else if isFloat (t % 8) then saveSrc (t / 16) (a + 1) w reg src
  else if a + 1 ≠ w + 1 ∧ a + 1 = reg then
    let r := saveSrc (t / 16) (a + 1) (w + 1) reg TMP_CALL_REG
    ((OR ||| S reg ||| A TMP_CALL_REG ||| B reg) :: r.1, r.2)
  else saveSrc (t / 16) (a + 1) (w + 1) reg src
  termination_by t
  decreasing_by all_goals omega

/-- The second loop (sljitNativePPC_64.c:541-557). -/
def moves (types a w : Nat) : List (BitVec 32) :=
  if h : types = 0 then []
  else if isFloat (types % 8) then moves (types / 16) (a - 1) w
  else (if a ≠ w then [OR ||| S w ||| A a ||| B w] else []) ++ moves (types / 16) (a - 1) (w - 1)
  termination_by types
  decreasing_by all_goals omega

/-- call_with_args (sljitNativePPC_64.c:507-560).  `src` is the register holding the target, 0 when there is none. -/
def callWithArgs (argTypes src : Nat) : List (BitVec 32) × Nat :=
  let c := scan (argTypes / 16) ⟨0, 0, 0, 0⟩
  let r := saveSrc (argTypes / 16) 0 0 src src
  (r.1 ++ moves c.types c.args c.words, r.2)

/-- The argument part of sljit_emit_call (sljitNativePPC_common.c:2646-2667). -/
def emitCall (regArg : Bool) (argTypes : Nat) : List (BitVec 32) :=
  if regArg then [] else (callWithArgs argTypes 0).1

/-- The argument part of sljit_emit_icall of a register (sljitNativePPC_common.c:2714-2748): with SLJIT_CALL_RETURN `type` is
replaced by SLJIT_JUMP before it is compared to SLJIT_CALL_REG_ARG.  The copy of a saved register and the release of the frame,
which come first, are not included. -/
def emitICall (regArg ret : Bool) (argTypes src : Nat) : List (BitVec 32) × Nat :=
  let type : Nat := if ret then 36 else if regArg then 39 else 38
  if type ≠ 39 then callWithArgs argTypes src else ([], src)

end Ppc

/-! ## x86-64 -/

namespace X86

/-- reg_map (sljitNativeX86_common.c:93-95, 102-104): System V, then Windows. -/
def regMap (win : Bool) (r : Nat) : Nat :=
  (if win then [0, 0, 2, 8, 1, 11, 12, 5, 13, 14, 15, 7, 6, 3, 4, 9, 10]
   else [0, 0, 6, 7, 1, 8, 11, 10, 12, 5, 13, 14, 15, 3, 4, 2, 9] : List Nat).getD r 0
/-- reg_lmap (sljitNativeX86_common.c:97-99, 106-108). -/
def regLmap (win : Bool) (r : Nat) : Nat :=
  (if win then [0, 0, 2, 0, 1, 3, 4, 5, 5, 6, 7, 7, 6, 3, 4, 1, 2]
   else [0, 0, 6, 7, 1, 0, 3, 2, 4, 5, 5, 6, 7, 3, 4, 2, 1] : List Nat).getD r 0
/-- freg_map and freg_lmap (sljitNativeX86_common.c:112-118). -/
def fregMap (r : Nat) : Nat := ([0, 0, 1, 2, 3, 5, 6, 7, 8, 9, 10, 11, 12, 13, 14, 15, 4] : List Nat).getD r 0
def fregLmap (r : Nat) : Nat := ([0, 0, 1, 2, 3, 5, 6, 7, 0, 1, 2, 3, 4, 5, 6, 7, 4] : List Nat).getD r 0
/-- SLJIT_R0-R3, TMP_REG1, TMP_REG2 (sljitNativeX86_common.c:64, 86; 13 registers). -/
def R0 : Nat := 1
def R1 : Nat := 2
def R2 : Nat := 3
def R3 : Nat := 4
def TMP_REG1 : Nat := 15
def TMP_REG2 : Nat := 16

/-- emit_mov between registers (sljitNativeX86_common.c:1334-1339) through emit_x86_instruction (sljitNativeX86_64.c:61-226) with
`mode32 = 0`. -/
def movReg (win : Bool) (dst src : Nat) : List (BitVec 8) :=
  let rex := 0x48#8 ||| (if regMap win dst ≥ 8 then 0x41#8 else 0#8) ||| (if regMap win src ≥ 8 then 0x44#8 else 0#8)
  [rex, 0x89#8, (BitVec.ofNat 8 (regLmap win src) <<< 3) ||| 0xc0#8 ||| BitVec.ofNat 8 (regLmap win dst)]

/-- emit_sse2_load between registers (sljitNativeX86_common.c:3124-3155), the same way. -/
def movSse (single : Bool) (dst src : Nat) : List (BitVec 8) :=
  let rex := 0x48#8 ||| (if fregMap src ≥ 8 then 0x41#8 else 0#8) ||| (if fregMap dst ≥ 8 then 0x44#8 else 0#8)
  [if single then 0xf3#8 else 0xf2#8, rex, 0x0f#8, 0x10#8,
    (BitVec.ofNat 8 (fregLmap dst) <<< 3) ||| 0xc0#8 ||| BitVec.ofNat 8 (fregLmap src)]

/-- The loop counting the words (sljitNativeX86_64.c:799-803). -/
def countWords (t n : Nat) : Nat :=
  if h : t = 0 then n
  else countWords (t / 16) (if t % 8 < 4 then n + 1 else n)
  termination_by t
  decreasing_by omega

/-- call_with_args for System V (sljitNativeX86_64.c:788-815).  `src` is the register holding the target, 0 when there is none. -/
def callSysV (argTypes src : Nat) : List (List (BitVec 8)) × Nat :=
  let n := countWords (argTypes / 16) 0
  if n = 0 then ([], src)
  else if n ≥ 3 ∨ src = R2 then
    ([movReg false TMP_REG1 R2, movReg false R2 R0], if src = R2 then TMP_REG1 else src)
  else ([movReg false R2 R0], src)

/-- word_arg_regs (sljitNativeX86_64.c:827). -/
def wordArgRegs (a : Nat) : Nat := ([0, R3, R1, R2, TMP_REG1] : List Nat).getD a 0

/-- The first loop for Windows (sljitNativeX86_64.c:834-862): copies of the target, where it is after, and `data_trandfer`. -/
def winScan (t a w f src : Nat) (tr : Bool) (now : Nat) : List (List (BitVec 8)) × Nat × Bool :=
  if h : t = 0 then ([], now, tr)
  else if isFloat (t % 8) then winScan (t / 16) (a + 1) w (f + 1) src (if a + 1 ≠ f + 1 then true else tr) now
  else if a + 1 ≠ w + 1 ∨ a + 1 ≠ wordArgRegs (a + 1) then
    if src = wordArgRegs (a + 1) then
      let r := winScan (t / 16) (a + 1) (w + 1) f src true TMP_REG2
      (movReg true TMP_REG2 src :: r.1, r.2)
    else winScan (t / 16) (a + 1) (w + 1) f src true now
  else winScan (t / 16) (a + 1) (w + 1) f src tr now
  termination_by t
  decreasing_by all_goals omega

/-- The second loop for Windows (sljitNativeX86_64.c:867-890). -/
def winMoves (types a w f : Nat) : List (List (BitVec 8)) :=
  if h : types = 0 then []
  else if types % 8 = 4 then (if a ≠ f then [movSse false a f] else []) ++ winMoves (types / 16) (a - 1) w (f - 1)
  else if types % 8 = 5 then (if a ≠ f then [movSse true a f] else []) ++ winMoves (types / 16) (a - 1) w (f - 1)
  else (if a ≠ w ∨ a ≠ wordArgRegs a then [movReg true (wordArgRegs a) w] else []) ++ winMoves (types / 16) (a - 1) (w - 1) f
  termination_by types
  decreasing_by all_goals omega

/-- call_with_args for Windows (sljitNativeX86_64.c:819-893). -/
def callWin (argTypes src : Nat) : List (List (BitVec 8)) × Nat :=
  let c := scan (argTypes / 16) ⟨0, 0, 0, 0⟩
  let r := winScan (argTypes / 16) 0 0 0 src false src
  if r.2.2 then (r.1 ++ winMoves c.types c.args c.words c.floats, r.2.1) else (r.1, r.2.1)

/-- The argument part of sljit_emit_call and of sljit_emit_icall of a register (sljitNativeX86_64.c:897-949); `src` is 0 for
sljit_emit_call.  The copy of a saved register and the release of the frame of a tail call are not included. -/
def emitCall (win regArg : Bool) (argTypes src : Nat) : List (List (BitVec 8)) × Nat :=
  if regArg then ([], src) else if win then callWin argTypes src else callSysV argTypes src

end X86

/-! ## 32 bit ARM with VFP -/

namespace Arm

/-- reg_map, freg_map, freg_ebit_map (sljitNativeARM_32.c:66-84; sljitNativeARM_T2_32.c:48-66 has the same tables up to the order
of the saved registers, which are not involved). -/
def regMap (r : Nat) : BitVec 32 := BitVec.ofNat 32
  (([0, 0, 1, 2, 3, 11, 10, 9, 8, 7, 6, 5, 4, 13, 12, 14, 15] : List Nat).getD r 0)
def fregMap (r : Nat) : BitVec 32 := BitVec.ofNat 32
  (([0, 0, 1, 2, 3, 4, 5, 15, 14, 13, 12, 11, 10, 9, 8, 7, 6, 0, 1, 2, 3, 4, 5, 15, 14, 13, 12, 11, 10, 9, 8, 7, 6] : List Nat).getD r 0)
def fregEbit (r : Nat) : BitVec 32 := if r ≤ 16 then 0#32 else 1#32
/-- VM, VD, VN and VMOV_F32 (sljitNativeARM_32.c:91-93, 165). -/
def VM (r : Nat) : BitVec 32 := fregMap r ||| (fregEbit r <<< 5)
def VD (r : Nat) : BitVec 32 := (fregMap r <<< 12) ||| (fregEbit r <<< 22)
def VMOV_F32 : BitVec 32 := 0xeeb00a40#32
/-- SLJIT_32 (sljitLir.h). -/
def SLJIT_32 : BitVec 32 := 0x100#32
/-- EMIT_FPU_OPERATION (sljitNativeARM_32.c:1267-1268) with src2 = 0: VN(0) is 0. -/
def fpu (mode : BitVec 32) (dst src : Nat) : BitVec 32 := VMOV_F32 ||| mode ||| VD dst ||| VM src

/-- The loop of hardfloat_call_with_args (sljitNativeARM_32.c:3422-3448).  `thumb` selects the one of
sljitNativeARM_T2_32.c:2976-3003, which differs in the mode of the even half of an F32 register. -/
def moves (thumb : Bool) (t offset newOffset f32Offset : Nat) : List (BitVec 32) :=
  if h : t = 0 then []
  else if t % 8 = 4 then
    (if offset ≠ newOffset then [fpu SLJIT_32 newOffset offset] else []) ++ moves thumb (t / 16) (offset + 1) (newOffset + 1) f32Offset
  else if t % 8 = 5 then
    if f32Offset ≠ 0 then fpu 0x400000#32 f32Offset offset :: moves thumb (t / 16) (offset + 1) newOffset 0
    else (if offset ≠ newOffset then [fpu (if thumb then 0x400000#32 else 0#32) newOffset offset] else []) ++
      moves thumb (t / 16) (offset + 1) (newOffset + 1) newOffset
  else moves thumb (t / 16) offset newOffset f32Offset
  termination_by t
  decreasing_by all_goals omega

/-- hardfloat_call_with_args (sljitNativeARM_32.c:3413-3451, sljitNativeARM_T2_32.c:2967-3006); SLJIT_FR0 is 1. -/
def callWithArgs (thumb : Bool) (argTypes : Nat) : List (BitVec 32) := moves thumb (argTypes / 16) 1 1 0

/-- The argument part of sljit_emit_call and sljit_emit_icall (sljitNativeARM_32.c:3497-3505, 3603-3611; sljitNativeARM_T2_32.c:3047-3057,
3145-3153): with SLJIT_CALL_RETURN `type` is replaced by SLJIT_JUMP before it is compared to SLJIT_CALL_REG_ARG.  The release of the
frame, which comes first, is not included. -/
def emitCall (thumb regArg ret : Bool) (argTypes : Nat) : List (BitVec 32) :=
  let type : Nat := if ret then 36 else if regArg then 39 else 38
  if type ≠ 39 then callWithArgs thumb argTypes else []

/-- The loop over the arguments in sljit_emit_enter (sljitNativeARM_32.c:1417-1450): instructions pushed and the `remap` array,
last element first. -/
def enterMoves (t offset oldOffset f32Offset words saved : Nat) (remap : List (BitVec 32)) : List (BitVec 32) × List (BitVec 32) :=
  if h : t = 0 then ([], remap)
  else if t % 8 = 4 then
    enterMoves (t / 16) (offset + 1) (oldOffset + 1) f32Offset words saved
      ((if offset ≠ oldOffset then [fpu SLJIT_32 offset oldOffset] else []) ++ remap)
  else if t % 8 = 5 then
    if f32Offset ≠ 0 then enterMoves (t / 16) (offset + 1) oldOffset 0 words saved (fpu 0x20#32 offset f32Offset :: remap)
    else enterMoves (t / 16) (offset + 1) (oldOffset + 1) oldOffset words saved
      ((if offset ≠ oldOffset then [fpu 0#32 offset oldOffset] else []) ++ remap)
  else if t / 8 % 2 = 0 then
    let r := enterMoves (t / 16) offset oldOffset f32Offset (words + 1) (saved + 1) remap
    ((0xe1a00000#32 ||| (regMap (12 - saved) <<< 12) ||| regMap (1 + words)) :: r.1, r.2)
  else enterMoves (t / 16) offset oldOffset f32Offset (words + 1) saved remap
  termination_by t
  decreasing_by all_goals omega

/-- The argument part of sljit_emit_enter (sljitNativeARM_32.c:1412-1456): the remapping is pushed from its last element. -/
def enterArgs (argTypes : Nat) : List (BitVec 32) :=
  let r := enterMoves (argTypes / 16) 1 1 0 0 0 []
  r.1 ++ r.2

end Arm

end Verif.Calls
