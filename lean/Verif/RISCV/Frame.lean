import Verif.RISCV.Api2

/-!
# Function entry and return of the RV64 backend

Model of sljit_emit_enter (sljitNativeRISCV_common.c:1157-1277), sljit_set_context (1281-1307), emit_stack_frame_release
(1311-1385), sljit_emit_return_void (1388-1395), sljit_emit_return_to (1397-1419), sljit_emit_ijump and sljit_emit_icall
with a register or memory target (3580-3640).  Sizes are natural numbers: `sljit_s32` does not overflow because local_size is
at most SLJIT_MAX_LOCAL_SIZE (checked, sljitLir.c:1444).  Vector registers are not saved by the backend.
-/

namespace Verif.RV

/-- The arguments of sljit_emit_enter that determine the frame: ENTER_GET_REGS and ENTER_GET_FLOAT_REGS of `scratches` and
`saveds`, SLJIT_KEPT_SAVEDS_COUNT of `options`, and `local_size`. -/
structure Frame where
  kept : Nat
  scr : Nat
  sav : Nat
  fscr : Nat
  fsav : Nat
  locals : Nat
  deriving DecidableEq, Repr

/-- SLJIT_S0, SLJIT_FIRST_SAVED_REG, SLJIT_FS0, SLJIT_FIRST_SAVED_FLOAT_REG (sljitLir.h:188, 208, 244, 259 with
sljitConfigInternal.h:714-718). -/
abbrev FIRST_SAVED_REG : Nat := 12
abbrev SLJIT_FS0 : Nat := 30
abbrev FIRST_SAVED_FREG : Nat := 19

/-- `for (i = hi; i >= lo; i--)` as a list. -/
def down (hi lo : Nat) : List Nat := (List.range (hi + 1 - lo)).map (hi - ·)

/-- The integer registers saved after the return address, in order (sljitNativeRISCV_common.c:1209-1224, 1341-1356). -/
def Frame.regs (p : Frame) : List Nat := down (SLJIT_S0 - p.kept) (SLJIT_S0 - p.sav + 1) ++ down p.scr FIRST_SAVED_REG

/-- The float registers saved, in order (sljitNativeRISCV_common.c:1232-1247, 1364-1379). -/
def Frame.fregs (p : Frame) : List Nat := down SLJIT_FS0 (SLJIT_FS0 - p.fsav + 1) ++ down p.fscr FIRST_SAVED_FREG

/-- `compiler->local_size` (sljitNativeRISCV_common.c:1172-1184): GET_SAVED_REGISTERS_SIZE (sljitLir.c:333-335, 11 scratch
registers are not saved) with one extra word and GET_SAVED_FLOAT_REGISTERS_SIZE (18 scratch registers), rounded up to 16. -/
def Frame.total (p : Frame) : Nat :=
  (p.locals + ((if p.scr < 11 then 0 else p.scr - 11) + (p.sav - p.kept) + 1) * 8 +
    ((if p.fscr < 18 then 0 else p.fscr - 18) + p.fsav) * 8 + 15) / 16 * 16

/-- The checks on the counts in check_sljit_emit_enter (sljitLir.c:1433-1446; the vector counts are left out); `scratches` and
`saveds` are the packed arguments, ENTER_GET_REGS and ENTER_GET_FLOAT_REGS their first two bytes (sljitLir.c:138-139). -/
def checkCounts (kept scratches saveds locals : Nat) : Bool :=
  decide (kept ≤ 3 ∧ kept ≤ saveds ∧ scratches < 0x1000000 ∧ saveds < 0x1000000 ∧ scratches % 256 ≤ 23 ∧ saveds % 256 ≤ 12 ∧
    scratches % 256 + saveds % 256 ≤ 23 ∧ scratches / 256 % 256 ≤ 30 ∧ saveds / 256 % 256 ≤ 12 ∧
    scratches / 256 % 256 + saveds / 256 % 256 ≤ 30 ∧ locals ≤ 1048576)

/-- The frame described by the arguments of sljit_emit_enter. -/
def frameOf (kept scratches saveds locals : Nat) : Frame :=
  ⟨kept, scratches % 256, saveds % 256, scratches / 256 % 256, saveds / 256 % 256, locals⟩

/-- `compiler->local_size` as the signed C expression (sljitNativeRISCV_common.c:1172-1183). -/
def Frame.totalC (p : Frame) : Int :=
  ((p.locals : Int) + ((if p.scr < 11 then 0 else (p.scr : Int) - 11) + ((p.sav : Int) - p.kept) + 1) * 8 +
    ((if p.fscr < 18 then 0 else (p.fscr : Int) - 18) + p.fsav) * 8 + 15) / 16 * 16

/-- The immediate field of C_ADDI16SP, from the low bits of the value (sljitNativeRISCV_common.c:1192, 1383). -/
def imm16sp (v : BitVec 16) : BitVec 16 :=
  ((v &&& 0x10#16) <<< 2) ||| ((v &&& 0x20#16) >>> 3) ||| ((v &&& 0x40#16) >>> 1) ||| ((v &&& 0x180#16) >>> 4)

/-- The store of a register at `offset(sp)` (sljitNativeRISCV_common.c:1204-1207, 1212-1215, 1220-1223). -/
def stackStore (cfg : Cfg) (r off : Nat) : Emit :=
  if cfg.c = true ∧ off ≤ 0x1f8 then w16 (C_SDSP ||| C_ST64_SP (BitVec.ofNat 64 off) ||| C_RS2 r)
  else w32 (SD ||| RS1 SLJIT_SP ||| RS2 r ||| IMM_S (BitVec.ofNat 64 off))

/-- The store of a float register (sljitNativeRISCV_common.c:1235-1238, 1243-1246). -/
def stackFStore (cfg : Cfg) (r off : Nat) : Emit :=
  if cfg.c = true ∧ off ≤ 0x1f8 then w16 (C_FSDSP ||| C_FRS2 r ||| C_ST64_SP (BitVec.ofNat 64 off))
  else w32 (FSD ||| RS1 SLJIT_SP ||| FRS2 r ||| IMM_S (BitVec.ofNat 64 off))

/-- The load of a register (sljitNativeRISCV_common.c:1335-1338, 1344-1347, 1352-1355). -/
def stackLoad (cfg : Cfg) (r off : Nat) : Emit :=
  if cfg.c = true ∧ off ≤ 0x1f8 then w16 (C_LDSP ||| C_LD64_SP (BitVec.ofNat 64 off) ||| C_RD r)
  else w32 (LD ||| RD r ||| RS1 SLJIT_SP ||| IMM_I (BitVec.ofNat 64 off))

/-- The load of a float register (sljitNativeRISCV_common.c:1367-1370, 1375-1378). -/
def stackFLoad (cfg : Cfg) (r off : Nat) : Emit :=
  if cfg.c = true ∧ off ≤ 0x1f8 then w16 (C_FLDSP ||| C_FRD r ||| C_LD64_SP (BitVec.ofNat 64 off))
  else w32 (FLD ||| FRD r ||| RS1 SLJIT_SP ||| IMM_I (BitVec.ofNat 64 off))

/-- A save or restore loop: `offset -= 8` before each access. -/
def slots (f : Nat → Nat → Emit) : List Nat → Nat → Emit
  | [], _ => []
  | r :: rs, off => f r (off - 8) ++ slots f rs (off - 8)

/-- The first adjustment of the stack pointer; a large rest goes to TMP_REG1 (sljitNativeRISCV_common.c:1186-1202).
STACK_MAX_DISTANCE is 2048 here; `IMM_I(2048)` is the encoding of -2048. -/
def enterSp (cfg : Cfg) (n : Nat) : Emit :=
  if n ≤ 2048 then
    if cfg.c = true ∧ n ≤ 0x200 then w16 (C_ADDI16SP ||| (imm16sp (-(BitVec.ofNat 16 n)) ||| 0x1000#16))
    else w32 (ADDI ||| RD SLJIT_SP ||| RS1 SLJIT_SP ||| IMM_I (-(BitVec.ofNat 64 n)))
  else
    w32 (ADDI ||| RD SLJIT_SP ||| RS1 SLJIT_SP ||| IMM_I 2048#64) ++
    (if n - 2048 > 2048 then loadImm cfg TMP_REG1 (BitVec.ofNat 64 (n - 2048)) TMP_REG3 else [])

/-- `offset` before the return address is stored, plus 8. -/
def enterTop (n : Nat) : Nat := if n ≤ 2048 then n else 2048

/-- The second adjustment of the stack pointer (sljitNativeRISCV_common.c:1249-1252). -/
def enterSp2 (n : Nat) : Emit :=
  if n ≤ 2048 then []
  else if n - 2048 > 2048 then w32 (SUB ||| RD SLJIT_SP ||| RS1 SLJIT_SP ||| RS2 TMP_REG1)
  else w32 (ADDI ||| RD SLJIT_SP ||| RS1 SLJIT_SP ||| IMM_I (-(BitVec.ofNat 64 (n - 2048))))

/-- The argument loop (sljitNativeRISCV_common.c:1257-1275); `t` is `arg_types` after the first shift. -/
def argMoves (cfg : Cfg) (t tmp saved : Nat) : Emit :=
  if h : t = 0 then []
  else if t % 8 < 4 then
    (if t / 8 % 2 = 0 then
      (if cfg.c then w16 (C_MV ||| C_RD (SLJIT_S0 - saved) ||| C_RS2 tmp)
       else w32 (ADDI ||| RD (SLJIT_S0 - saved) ||| RS1 tmp ||| IMM_I 0#64)) ++ argMoves cfg (t / 16) (tmp + 1) (saved + 1)
     else argMoves cfg (t / 16) (tmp + 1) saved)
  else argMoves cfg (t / 16) tmp saved
  termination_by t
  decreasing_by all_goals omega

/-- sljit_emit_enter (sljitNativeRISCV_common.c:1157-1277). -/
def emitEnter (cfg : Cfg) (p : Frame) (regArg : Bool) (argTypes : Nat) : Emit :=
  enterSp cfg p.total ++
  (slots (stackStore cfg) (TMP_REG2 :: p.regs) (enterTop p.total) ++
  (slots (stackFStore cfg) p.fregs (enterTop p.total - 8 * (p.regs.length + 1)) ++
  (enterSp2 p.total ++
  (if regArg then [] else argMoves cfg (argTypes / 16) R0 0))))

/-- The first adjustment on return (sljitNativeRISCV_common.c:1316-1327); STACK_MAX_DISTANCE is 2032 here. -/
def releaseSp (cfg : Cfg) (n : Nat) : Emit :=
  if n > 2032 then
    if n - 2032 > 2032 then
      loadImm cfg TMP_REG2 (BitVec.ofNat 64 (n - 2032)) TMP_REG3 ++ w32 (ADD ||| RD SLJIT_SP ||| RS1 SLJIT_SP ||| RS2 TMP_REG2)
    else w32 (ADDI ||| RD SLJIT_SP ||| RS1 SLJIT_SP ||| IMM_I (BitVec.ofNat 64 (n - 2032)))
  else []

/-- The last adjustment (sljitNativeRISCV_common.c:1381-1386). -/
def releaseSp2 (cfg : Cfg) (n : Nat) : Emit :=
  if cfg.c = true ∧ n ≤ 0x1f0 then w16 (C_ADDI16SP ||| imm16sp (BitVec.ofNat 16 n))
  else w32 (ADDI ||| RD SLJIT_SP ||| RS1 SLJIT_SP ||| IMM_I (BitVec.ofNat 64 n))

/-- `local_size` after the first adjustment. -/
def releaseTop (n : Nat) : Nat := if n > 2032 then 2032 else n

/-- emit_stack_frame_release (sljitNativeRISCV_common.c:1311-1386).  With `is_return_to` the slot of the return address is
skipped. -/
def emitRelease (cfg : Cfg) (p : Frame) (returnTo : Bool) : Emit :=
  releaseSp cfg p.total ++
  ((if returnTo then [] else stackLoad cfg TMP_REG2 (releaseTop p.total - 8)) ++
  (slots (stackLoad cfg) p.regs (releaseTop p.total - 8) ++
  (slots (stackFLoad cfg) p.fregs (releaseTop p.total - 8 * (p.regs.length + 1)) ++
  releaseSp2 cfg (releaseTop p.total))))

/-- sljit_emit_return_void (sljitNativeRISCV_common.c:1388-1395). -/
def emitReturnVoid (cfg : Cfg) (p : Frame) : Emit :=
  emitRelease cfg p false ++ w32 (JALR ||| RD TMP_ZERO ||| RS1 TMP_REG2 ||| IMM_I 0#64)

/-- sljit_emit_return with an integer move (sljitLir.c:3498-3511, emit_mov_before_return 3469-3482). -/
def emitReturn (cfg : Cfg) (p : Frame) (o : Op1C) (is32 : Bool) (src : Opd) : Emit :=
  (if src = .reg R0 ∧ ((o = .mov ∧ is32 = false) ∨ o = .movP) then [] else emitOp1 cfg o is32 (.reg R0) src) ++ emitReturnVoid cfg p

/-- The jump of sljit_emit_ijump to a register (sljitNativeRISCV_common.c:3594-3597); `link` is `type >= SLJIT_FAST_CALL`. -/
def ijumpReg (cfg : Cfg) (link : Bool) (r : Nat) : Emit :=
  if cfg.c then w16 ((if link then C_JALR else C_JR) ||| C_RD r)
  else w32 (JALR ||| RD (if link then TMP_REG2 else TMP_ZERO) ||| RS1 r ||| IMM_I 0#64)

/-- sljit_emit_ijump with a target in a register or in memory (sljitNativeRISCV_common.c:3580-3597); a constant target is a
jump record (`Verif.RISCV.Gen`). -/
def emitIJump (cfg : Cfg) (link : Bool) (src : Opd) : Emit :=
  match src with
  | .mem b i w => emitOpMem cfg (.g .word false) true TMP_REG1 b i w ++ ijumpReg cfg link TMP_REG1
  | .reg r => ijumpReg cfg link r
  | .imm _ => []

/-- The registers restored by the release are moved away first (sljitNativeRISCV_common.c:1407, 3630). -/
def Frame.restored (p : Frame) (r : Nat) : Bool := decide (FIRST_SAVED_REG ≤ r ∧ r ≤ SLJIT_S0 - p.kept)

/-- The part of sljit_emit_return_to and of sljit_emit_icall with SLJIT_CALL_RETURN in front of the release: code and register with
the target (sljitNativeRISCV_common.c:1403-1411, 3623-3634). -/
def targetReg (cfg : Cfg) (p : Frame) (src : Opd) : Emit × Nat :=
  match src with
  | .mem b i w => (emitOpMem cfg (.g .word false) true TMP_REG1 b i w, TMP_REG1)
  | .reg r => if p.restored r then (w32 (ADDI ||| RD TMP_REG1 ||| RS1 r ||| IMM_I 0#64), TMP_REG1) else ([], r)
  | .imm _ => ([], 0)

/-- sljit_emit_return_to (sljitNativeRISCV_common.c:1397-1419). -/
def emitReturnTo (cfg : Cfg) (p : Frame) (src : Opd) : Emit :=
  (targetReg cfg p src).1 ++ (emitRelease cfg p true ++ ijumpReg cfg false (targetReg cfg p src).2)

/-- sljit_emit_icall (sljitNativeRISCV_common.c:3614-3640); `ret` is SLJIT_CALL_RETURN. -/
def emitICall (cfg : Cfg) (p : Frame) (ret : Bool) (src : Opd) : Emit :=
  if ret then (targetReg cfg p src).1 ++ (emitRelease cfg p false ++ ijumpReg cfg false (targetReg cfg p src).2)
  else emitIJump cfg true src

end Verif.RV
