import Verif.RISCV.Ops

/-!
# Memory operands and operand set-up (model of sljitNativeRISCV_common.c:1430-1720 and 2429-2553, RV64)

The cache fields of the compiler (`cache_arg`, `cache_argw`) describe the contents of TMP_REG3.  `sljit_sw` subtractions
on offsets are modelled with wrap around (in C they are undefined on overflow).
-/

namespace Verif.RV

/-- WORD_DATA, BYTE_DATA, HALF_DATA, INT_DATA (sljitNativeRISCV_common.c:1105-1108). -/
inductive Sz | word | byte | half | int
  deriving DecidableEq, Repr

/-- `flags & MEM_MASK` without LOAD_DATA: an integer size with SIGNED_DATA, DOUBLE_DATA or SINGLE_DATA
(sljitNativeRISCV_common.c:1104-1115). -/
inductive MT
  | g (sz : Sz) (signed : Bool)
  | double
  | single
  deriving DecidableEq, Repr

/-- `flags <= GPR_REG`. -/
def MT.gpr : MT → Bool
  | .g _ _ => true
  | _ => false

def LB : BitVec 32 := F3 0x0 ||| OPC 0x3
def LH : BitVec 32 := F3 0x1 ||| OPC 0x3
def LBU : BitVec 32 := F3 0x4 ||| OPC 0x3
def LHU : BitVec 32 := F3 0x5 ||| OPC 0x3
def LWU : BitVec 32 := F3 0x6 ||| OPC 0x3
def SB : BitVec 32 := F3 0x0 ||| OPC 0x23
def SH : BitVec 32 := F3 0x1 ||| OPC 0x23
def FLW : BitVec 32 := F3 0x2 ||| OPC 0x7

/-- data_transfer_insts for RV64 (sljitNativeRISCV_common.c:1430-1453). -/
def dataTransfer (t : MT) (load : Bool) : BitVec 32 :=
  match t, load with
  | .g .word _, false => SD
  | .g .word _, true => LD
  | .g .byte _, false => SB
  | .g .byte false, true => LBU
  | .g .byte true, true => LB
  | .g .half _, false => SH
  | .g .half false, true => LHU
  | .g .half true, true => LH
  | .g .int _, false => SW
  | .g .int false, true => LWU
  | .g .int true, true => LW
  | .double, false => FSD
  | .double, true => FLD
  | .single, false => FSW
  | .single, true => FLW

/-- `(sljit_u16)((flags & LOAD_DATA) << 15)`. -/
def loadBit (load : Bool) : BitVec 16 := if load then 0x8000#16 else 0#16

/-- The compressed forms of push_mem_inst (sljitNativeRISCV_common.c:1466-1526, RV64 branches). -/
def pushMemC (t : MT) (load : Bool) (reg base : Nat) (off : BitVec 64) : Option (BitVec 16) :=
  if base = SLJIT_SP then
    if off &&& 3#64 = 0#64 ∧ off.toInt ≤ 0xfc ∧ t = .g .int true ∧ load = true then
      some (C_LWSP ||| C_RD reg ||| C_LD32_SP off)
    else if off &&& 3#64 = 0#64 ∧ off.toInt ≤ 0xfc ∧ (t = .g .int true ∨ t = .g .int false) ∧ load = false then
      some (C_SWSP ||| C_RS2 reg ||| C_ST32_SP off)
    else if off &&& 7#64 = 0#64 ∧ off.toInt ≤ 0x1f8 ∧ (t = .g .word true ∨ t = .g .word false) ∧ load = true then
      some (C_LDSP ||| C_RD reg ||| C_LD64_SP off)
    else if off &&& 7#64 = 0#64 ∧ off.toInt ≤ 0x1f8 ∧ (t = .g .word true ∨ t = .g .word false) ∧ load = false then
      some (C_SDSP ||| C_RS2 reg ||| C_ST64_SP off)
    else if off &&& 7#64 = 0#64 ∧ off.toInt ≤ 0x1f8 ∧ t = .double ∧ load = true then
      some (C_FLDSP ||| C_FRD reg ||| C_LD64_SP off)
    else if off &&& 7#64 = 0#64 ∧ off.toInt ≤ 0x1f8 ∧ t = .double ∧ load = false then
      some (C_FSDSP ||| C_FRS2 reg ||| C_ST64_SP off)
    else none
  else if C_IS_R3 base = true ∧ (if t.gpr then C_IS_R3 reg else C_IS_FR3 reg) = true then
    if off &&& 3#64 = 0#64 ∧ off.toInt ≤ 0x7c ∧ t = .g .int true then
      some ((C_SW ^^^ loadBit load) ||| C_RS1_R3 base ||| C_RS2_R3 reg ||| C_MEM32 off)
    else if off &&& 7#64 = 0#64 ∧ off.toInt ≤ 0xf8 ∧ (t = .g .word true ∨ t = .g .word false) then
      some ((C_SD ^^^ loadBit load) ||| C_RS1_R3 base ||| C_RS2_R3 reg ||| C_MEM64 off)
    else if off &&& 7#64 = 0#64 ∧ off.toInt ≤ 0xf8 ∧ t = .double then
      some ((C_FSD ^^^ loadBit load) ||| C_RS1_R3 base ||| C_FRS2_R3 reg ||| C_MEM64 off)
    else none
  else none

/-- push_mem_inst (sljitNativeRISCV_common.c:1457-1536). -/
def pushMem (cfg : Cfg) (t : MT) (load : Bool) (reg base : Nat) (off : BitVec 64) : Emit :=
  match (if cfg.c = true ∧ 0 ≤ off.toInt then pushMemC t load reg base off else none) with
  | some h => w16 h
  | none =>
    if load then
      w32 (dataTransfer t load ||| RS1 base ||| ((if t.gpr then RD reg else FRD reg) ||| IMM_I off))
    else
      w32 (dataTransfer t load ||| RS1 base ||| ((if t.gpr then RS2 reg else FRS2 reg) ||| IMM_S off))

/-- An operand `(arg, argw)`: a register (FAST_IS_REG), SLJIT_IMM, or SLJIT_MEM with base register, offset register
(0 if none) and displacement or shift (sljitLir.h:986-1020). -/
inductive Opd
  | reg (r : Nat)
  | imm (v : BitVec 64)
  | mem (base idx : Nat) (w : BitVec 64)
  deriving DecidableEq, Repr

/-- `argw <= SIMM_MAX && argw >= SIMM_MIN`. -/
def fits12 (i : BitVec 64) : Bool := decide (i.toInt ≤ SIMM_MAX) && decide (SIMM_MIN ≤ i.toInt)

/-- The test of getput_arg_fast (sljitNativeRISCV_common.c:1543). -/
def fastArg (idx : Nat) (w : BitVec 64) : Bool := decide (idx = 0) && fits12 w

/-- `cache_arg`, `cache_argw`: `none` is `cache_arg == 0`. -/
structure Cache where
  arg : Option (Nat × Nat)
  argw : BitVec 64
  deriving DecidableEq, Repr

/-- TO_ARGW_HI (sljitNativeRISCV_common.c:1554). -/
def toArgwHi (w : BitVec 64) : BitVec 64 :=
  (w &&& ~~~0xfff#64) + (if w &&& 0x800#64 ≠ 0#64 then 0x1000#64 else 0#64)

/-- can_cache (sljitNativeRISCV_common.c:1558-1579). -/
def canCache (arg : Nat × Nat) (argw : BitVec 64) (next : Nat × Nat) (nextw : BitVec 64) : Bool :=
  if arg.2 ≠ 0 then
    (argw &&& 3#64) != 0#64 && (argw &&& 3#64) == (nextw &&& 3#64) && (arg == next || arg.2 == next.2)
  else if arg = next then
    fits12 (nextw - argw) || toArgwHi argw == toArgwHi nextw
  else false

/-- `arg == next_arg` of getput_arg. -/
def nextSame (base idx : Nat) : Option (Nat × Nat × BitVec 64) → Bool
  | some (b, i, _) => decide (b = base ∧ i = idx)
  | none => false
/-- `next_argw` of getput_arg; 0 if the next argument is not a memory operand (sljitNativeRISCV_common.c:1590-1593). -/
def nextW : Option (Nat × Nat × BitVec 64) → BitVec 64
  | some (_, _, w) => w
  | none => 0#64

/-- What getput_arg emits before its final push_mem_inst, the new cache, and the base register and offset of that
instruction (sljitNativeRISCV_common.c:1582-1682).  `next` is `none` if `next_arg` is not a memory operand. -/
def getputAddr (cfg : Cfg) (tmp2 : Bool) (k : Cache) (base idx : Nat) (argw : BitVec 64)
    (next : Option (Nat × Nat × BitVec 64)) : Emit × Cache × Nat × BitVec 64 :=
  let tmp := if tmp2 then TMP_REG2 else TMP_REG1
  let nextIs := nextSame base idx next
  let nextw := nextW next
  if idx ≠ 0 then
    let argw := argw &&& 3#64
    if cfg.zba = true then
      let ins := if argw = 1#64 then SH1ADD else if argw = 2#64 then SH2ADD else if argw = 3#64 then SH3ADD else ADD
      (w32 (ins ||| RD tmp ||| RS1 idx ||| RS2 base), k, tmp, 0#64)
    else if argw = k.argw ∧ k.arg = some (base, idx) then ([], k, TMP_REG3, 0#64)
    else if argw = k.argw ∧ k.arg = some (0, idx) then
      if nextIs = true ∧ argw = nextw &&& 3#64 then
        (w32 (ADD ||| RD TMP_REG3 ||| RS1 TMP_REG3 ||| RS2 base), ⟨some (base, idx), argw⟩, TMP_REG3, 0#64)
      else (w32 (ADD ||| RD tmp ||| RS1 base ||| RS2 TMP_REG3), k, tmp, 0#64)
    else
      let e := if argw ≠ 0#64 then w32 (SLLI ||| RD TMP_REG3 ||| RS1 idx ||| IMM_I argw) else []
      let k1 : Cache := if argw ≠ 0#64 then ⟨some (0, idx), argw⟩ else k
      let r := if argw = 0#64 then idx else TMP_REG3
      if nextIs = true ∧ argw = nextw &&& 3#64 then
        (e ++ w32 (ADD ||| RD TMP_REG3 ||| RS1 base ||| RS2 r), ⟨some (base, idx), argw⟩, TMP_REG3, 0#64)
      else (e ++ w32 (ADD ||| RD tmp ||| RS1 base ||| RS2 r), k1, tmp, 0#64)
  else if k.arg = some (base, 0) ∧ fits12 (argw - k.argw) = true then ([], k, TMP_REG3, argw - k.argw)
  else
    let hi := toArgwHi argw
    let (e, kw, off, argw) : Emit × BitVec 64 × BitVec 64 × BitVec 64 :=
      if k.arg = some (0, 0) ∧ fits12 (argw - k.argw) = true then ([], k.argw, argw - k.argw, argw)
      else if next.isSome = true ∧ fits12 (nextw - argw) = true ∧ hi ≠ toArgwHi nextw then
        (loadImm cfg TMP_REG3 argw tmp, argw, 0#64, argw)
      else (loadImm cfg TMP_REG3 hi tmp, hi, argw &&& 0xfff#64, hi)
    if base = 0 then (e, ⟨some (0, 0), kw⟩, TMP_REG3, off)
    else if nextIs = true ∧ fits12 (nextw - argw) = true then
      (e ++ w32 (ADD ||| RD TMP_REG3 ||| RS1 TMP_REG3 ||| RS2 base), ⟨some (base, 0), kw⟩, TMP_REG3, off)
    else (e ++ w32 (ADD ||| RD tmp ||| RS1 TMP_REG3 ||| RS2 base), ⟨some (0, 0), kw⟩, tmp, off)

/-- getput_arg (sljitNativeRISCV_common.c:1582-1682): emitted code and new cache. -/
def getputArg (cfg : Cfg) (t : MT) (load tmp2 : Bool) (k : Cache) (reg base idx : Nat) (argw : BitVec 64)
    (next : Option (Nat × Nat × BitVec 64)) : Emit × Cache :=
  let (e, k', r, off) := getputAddr cfg tmp2 k base idx argw next
  (e ++ pushMem cfg t load reg r off, k')

/-- emit_op_mem (sljitNativeRISCV_common.c:1684-1714). -/
def emitOpMem (cfg : Cfg) (t : MT) (load : Bool) (reg base idx : Nat) (argw : BitVec 64) : Emit :=
  if fastArg idx argw = true then pushMem cfg t load reg base argw
  else
    let tmp := if t.gpr = true ∧ load = true then reg else TMP_REG1
    if idx ≠ 0 then
      let argw := argw &&& 3#64
      (if argw ≠ 0#64 then
        w32 (SLLI ||| RD tmp ||| RS1 idx ||| IMM_I argw) ++ w32 (ADD ||| RD tmp ||| RS1 tmp ||| RS2 base)
       else w32 (ADD ||| RD tmp ||| RS1 base ||| RS2 idx)) ++
      pushMem cfg t load reg tmp 0#64
    else
      loadImm cfg tmp (toArgwHi argw) TMP_REG3 ++
      ((if base ≠ 0 then w32 (ADD ||| RD tmp ||| RS1 tmp ||| RS2 base) else []) ++
      pushMem cfg t load reg tmp (argw &&& 0xfff#64))

/-- emit_op_mem2 (sljitNativeRISCV_common.c:1716-1721); `next` as in `getputAddr`, `tmp2` is MEM_USE_TMP2. -/
def emitOpMem2 (cfg : Cfg) (t : MT) (load tmp2 : Bool) (k : Cache) (reg base idx : Nat) (argw : BitVec 64)
    (next : Option (Nat × Nat × BitVec 64)) : Emit × Cache :=
  if fastArg idx argw = true then (pushMem cfg t load reg base argw, k)
  else getputArg cfg t load tmp2 k reg base idx argw next

/-! ## emit_op -/

/-- The bits CUMULATIVE_OP, IMM_OP and MOVE_OP of `flags`. -/
structure OF where
  cumulative : Bool
  immOp : Bool
  moveOp : Bool
  deriving DecidableEq, Repr

def Opd.isReg : Opd → Bool
  | .reg _ => true
  | _ => false
def Opd.isMem : Opd → Bool
  | .mem _ _ _ => true
  | _ => false
def Opd.memArg : Opd → Option (Nat × Nat × BitVec 64)
  | .mem b i w => some (b, i, w)
  | _ => none
/-- A memory operand that getput_arg_fast refuses. -/
def Opd.slow : Opd → Bool
  | .mem _ i w => !fastArg i w
  | _ => false

/-- `src == SLJIT_IMM && w != 0 && w <= SIMM_MAX && w >= SIMM_MIN`. -/
def Opd.smallImm : Opd → Option (BitVec 64)
  | .imm v => if v ≠ 0#64 ∧ fits12 v = true then some v else none
  | _ => none

/-- The operand swap of emit_op (sljitNativeRISCV_common.c:2465-2481): the SRC2_IMM value, and the first and second
sources. -/
def immSwap (fl : OF) (src1 src2 : Opd) : Option (BitVec 64) × Opd × Opd :=
  if fl.immOp = true then
    match src2.smallImm with
    | some v => (some v, src1, src2)
    | none =>
      match fl.cumulative, src1.smallImm with
      | true, some v => (some v, src2, .imm v)
      | _, _ => (none, src1, src2)
  else (none, src1, src2)

/-- "Source 1" (sljitNativeRISCV_common.c:2484-2501): code and `src1_r`. -/
def emitSrc1 (cfg : Cfg) (t : MT) (src1 : Opd) : Emit × Nat :=
  match src1 with
  | .reg r => ([], r)
  | .imm v => if v ≠ 0#64 then (loadImm cfg TMP_REG1 v TMP_REG3, TMP_REG1) else ([], TMP_ZERO)
  | .mem b i w => (if fastArg i w = true then pushMem cfg t true TMP_REG1 b w else [], TMP_REG1)

/-- "Source 2" (sljitNativeRISCV_common.c:2504-2530) without SRC2_IMM: code and `src2_r`. -/
def emitSrc2 (cfg : Cfg) (t : MT) (tmp : Nat) (src2 : Opd) : Emit × Nat :=
  match src2 with
  | .reg r => ([], r)
  | .imm v => if v ≠ 0#64 then (loadImm cfg tmp v TMP_REG3, tmp) else ([], TMP_ZERO)
  | .mem b i w => (if fastArg i w = true then pushMem cfg t true tmp b w else [], tmp)

/-- getput_arg for a load, with a whole operand. -/
def loadSlow (cfg : Cfg) (t : MT) (tmp2 : Bool) (k : Cache) (reg : Nat) (src next : Opd) : Emit × Cache :=
  match src with
  | .mem b i w => getputArg cfg t true tmp2 k reg b i w next.memArg
  | _ => ([], k)

/-- The slow loads (sljitNativeRISCV_common.c:2532-2545). -/
def emitSlow (cfg : Cfg) (t : MT) (k : Cache) (dst src1 src2 : Opd) (src1R tmp : Nat) : Emit × Cache :=
  match src1.slow, src2.slow with
  | true, true =>
    let cc (a b : Opd) : Bool := match a, b with
      | .mem b1 i1 w1, .mem b2 i2 w2 => canCache (b1, i1) w1 (b2, i2) w2
      | _, _ => false
    if dst.slow = true ∧ cc src2 src1 = false ∧ cc src2 dst = true then
      let (e1, k1) := loadSlow cfg t false k TMP_REG1 src1 src2
      let (e2, k2) := loadSlow cfg t true k1 TMP_REG2 src2 dst
      (e1 ++ e2, k2)
    else
      let (e1, k1) := loadSlow cfg t false k TMP_REG2 src2 src1
      let (e2, k2) := loadSlow cfg t false k1 TMP_REG1 src1 dst
      (e1 ++ e2, k2)
  | true, false => loadSlow cfg t false k TMP_REG1 src1 dst
  | false, true => loadSlow cfg t (decide (src1R = TMP_REG1)) k tmp src2 dst
  | false, false => ([], k)

/-- The store at the end of emit_op (sljitNativeRISCV_common.c:2549-2555). -/
def emitStore (cfg : Cfg) (t : MT) (k : Cache) (dstR : Nat) (dst : Opd) : Emit :=
  match dst with
  | .mem b i w =>
    if fastArg i w = true then pushMem cfg t false dstR b w else (getputArg cfg t false false k dstR b i w none).1
  | _ => []

/-- `dst_r` (sljitNativeRISCV_common.c:2436, 2448-2456): TMP_REG2 unless the destination is a register. -/
def dstR0 (dst : Opd) : Nat := match dst with | .reg r => if r = 0 then TMP_REG2 else r | _ => TMP_REG2

/-- emit_op (sljitNativeRISCV_common.c:2429-2558).  `dst = .reg 0` is the unused destination; the cache is reset on entry
unless ALT_KEEP_CACHE is set, so it is an argument here. -/
def emitOp (cfg : Cfg) (op : Op) (t : MT) (fl : OF) (k : Cache) (dst src1 src2 : Opd) : Emit :=
  let unused := decide (dst = .reg 0)
  let regDest := dst.isReg && !unused
  let dstR0 := dstR0 dst
  let tmp := if regDest = true ∧ fl.moveOp = true then dstR0
    else if op.code.isOp2 = true ∧ src1.isReg = true then TMP_REG1 else TMP_REG2
  let (si, src1, src2) := immSwap fl src1 src2
  let (e1, src1R) := emitSrc1 cfg t src1
  match si with
  | some v =>
    let (e2, k) := emitSlow cfg t k dst src1 (.imm v) src1R tmp
    e1 ++ (e2 ++ (emitSingle cfg op ⟨unused, regDest, false⟩ dstR0 src1R (.imm v) ++ emitStore cfg t k dstR0 dst))
  | none =>
    let (e2, src2R) := emitSrc2 cfg t tmp src2
    let zero := decide (src2 = .imm 0#64) && fl.moveOp
    let dstR := if fl.moveOp = true ∧ regDest = false ∧ src2.isReg = true then src2R
      else if zero = true ∧ dst.isMem = true then 0 else dstR0
    let op := if zero = true ∧ dst.isMem = false then { op with code := .mov, is32 := false, setZ := false, flag := .none } else op
    let (e3, k) := emitSlow cfg t k dst src1 src2 src1R tmp
    e1 ++ (e2 ++ (e3 ++ (emitSingle cfg op ⟨unused, regDest, src2.isReg⟩ dstR src1R (.reg src2R) ++
      emitStore cfg t k dstR dst)))

end Verif.RV
