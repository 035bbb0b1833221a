import Verif.X86.Emit
import Verif.RISCV.OpSpec

/-!
# Integer operations of the x86-64 backend

Model of the functions of sljitNativeX86_common.c which emit moves, two operand operations and shifts, for SLJIT_CONFIG_X86_64.
CHECK_EXTRA_REGS is empty in this configuration (sljitNativeX86_common.c:88-91) and ADJUST_LOCAL_OFFSET is applied by the caller
(see C16).  Allocation failures are not modelled.
-/

namespace Verif.X86
open Verif.RV (OpC Flag)

/-- Emitted bytes; `none` is a failed assertion. -/
abbrev Code := Option (List Byte)

/-- One emitter after another. -/
def cat (a b : Code) : Code := a.bind fun x => b.map fun y => x ++ y
@[inherit_doc cat] infixl:65 " +> " => cat

/-- `inst = emit_x86_instruction(...); inst[0] = opc[0]; ...`. -/
def ins (win m32 : Bool) (fl : Ins) (a b : Opd) (opc : List Byte) : Code := (emitX86 win m32 fl a b).map fun o => (o.op opc).bytes
/-- `inst = emit_x86_instruction(...); inst[1] |= x`. -/
def insOr (win m32 : Bool) (fl : Ins) (a b : Opd) (x : Byte) : Code := (emitX86 win m32 fl a b).map fun o => (o.or x).bytes

/-- emit_mov, sljitNativeX86_common.c:1328-1386. -/
def emitMov (win m32 : Bool) (dst src : Opd) : Code :=
  match src with
  | .reg r => ins win m32 {} (.reg r) dst [0x89#8]
  | .imm v =>
    match dst with
    | .reg d =>
      if ¬ m32 then
        if ¬ isHalf v then some (loadImm64 win d v) else ins win m32 {} (.imm v) dst [0xc7#8]
      else some (doImm32 (if regMap win d ≥ 8#8 then REX_B else 0#8) (0xb8#8 ||| regLmap win d) v)
    | _ =>
      if ¬ m32 ∧ ¬ isHalf v then some (loadImm64 win TMP_REG1 v) +> ins win m32 {} (.reg TMP_REG1) dst [0x89#8]
      else ins win m32 {} (.imm v) dst [0xc7#8]
  | .mem .. =>
    match dst with
    | .reg d => ins win m32 {} (.reg d) src [0x8b#8]
    | _ => ins win m32 {} (.reg TMP_REG1) src [0x8b#8] +> ins win m32 {} (.reg TMP_REG1) dst [0x89#8]

/-- BINARY_OPCODE, sljitNativeX86_common.c:1107: the four opcodes of a binary operation. -/
structure Bin where
  eax : Byte
  rm : Byte
  mr : Byte
  imm : Byte
  deriving DecidableEq

/-- sljitNativeX86_common.c:173-352. -/
def ADD : Bin := ⟨0x05#8, 0x03#8, 0x01#8, 0#8 <<< 3⟩
@[inherit_doc ADD] def OR : Bin := ⟨0x0d#8, 0x0b#8, 0x09#8, 1#8 <<< 3⟩
@[inherit_doc ADD] def ADC : Bin := ⟨0x15#8, 0x13#8, 0x11#8, 2#8 <<< 3⟩
@[inherit_doc ADD] def SBB : Bin := ⟨0x1d#8, 0x1b#8, 0x19#8, 3#8 <<< 3⟩
@[inherit_doc ADD] def AND : Bin := ⟨0x25#8, 0x23#8, 0x21#8, 4#8 <<< 3⟩
@[inherit_doc ADD] def SUB : Bin := ⟨0x2d#8, 0x2b#8, 0x29#8, 5#8 <<< 3⟩
@[inherit_doc ADD] def XOR : Bin := ⟨0x35#8, 0x33#8, 0x31#8, 6#8 <<< 3⟩
@[inherit_doc ADD] def CMP : Bin := ⟨0x3d#8, 0x3b#8, 0x39#8, 7#8 <<< 3⟩

/-- BINARY_IMM, sljitNativeX86_common.c:1118-1130, with BINARY_IMM32 (1109-1114). -/
def binImm (win m32 : Bool) (k : Bin) (v : BitVec 64) (arg : Opd) : Code :=
  if isHalf v ∨ m32 then insOr win m32 { binIns := true } (.imm v) arg k.imm
  else
    let t := if arg.isReg then TMP_REG2 else TMP_REG1
    some (loadImm64 win t v) +> ins win m32 {} (.reg t) arg [k.mr]

/-- BINARY_EAX_IMM, sljitNativeX86_common.c:1132-1133. -/
def eaxImm (m32 : Bool) (op : Byte) (v : BitVec 64) : Code := some (doImm32 (if ¬ m32 then REX_W else 0#8) op v)

/-- The condition of the short form for SLJIT_R0, e.g. sljitNativeX86_common.c:2048. -/
def useEax (m32 : Bool) (dst : Opd) (v : BitVec 64) : Prop := dst = .reg 1 ∧ ¬ isByte v ∧ (m32 ∨ isHalf v)
instance (m32 : Bool) (dst : Opd) (v : BitVec 64) : Decidable (useEax m32 dst v) := by unfold useEax; infer_instance

/-- The body shared by the first two cases of emit_cum_binary (sljitNativeX86_common.c:2045-2075, 2079-2107) and the first case of
emit_non_cum_binary (2152-2181): dst = dst op src. -/
def inPlace (win m32 : Bool) (k : Bin) (dst src : Opd) : Code :=
  match src with
  | .imm v => if useEax m32 dst v then eaxImm m32 k.eax v else binImm win m32 k v dst
  | _ =>
    match dst with
    | .reg d => ins win m32 {} (.reg d) src [k.rm]
    | _ =>
      match src with
      | .reg r => ins win m32 {} (.reg r) dst [k.mr]
      | _ => emitMov win m32 (.reg TMP_REG1) src +> ins win m32 {} (.reg TMP_REG1) dst [k.mr]

/-- `dst = src1; dst = dst op src2` of the general versions, sljitNativeX86_common.c:2111-2121, 2124-2133. -/
def viaReg (win m32 : Bool) (k : Bin) (d : Nat) (src1 src2 : Opd) : Code :=
  emitMov win m32 (.reg d) src1 +>
    match src2 with
    | .imm v => binImm win m32 k v (.reg d)
    | _ => ins win m32 {} (.reg d) src2 [k.rm]

/-- emit_cum_binary, sljitNativeX86_common.c:2033-2138. -/
def cumBinary (win m32 : Bool) (k : Bin) (dst src1 src2 : Opd) : Code :=
  if dst = src1 then inPlace win m32 k dst src2
  else if dst = src2 then inPlace win m32 k dst src1
  else match dst with
  | .reg d => viaReg win m32 k d src1 src2
  | _ => viaReg win m32 k TMP_REG1 src1 src2 +> emitMov win m32 dst (.reg TMP_REG1)

/-- emit_non_cum_binary, sljitNativeX86_common.c:2140-2211. -/
def nonCumBinary (win m32 : Bool) (k : Bin) (dst src1 src2 : Opd) : Code :=
  if dst = src1 then inPlace win m32 k dst src2
  else if dst.isReg ∧ dst ≠ src2 then
    match dst with
    | .reg d => viaReg win m32 k d src1 src2
    | _ => none
  else viaReg win m32 k TMP_REG1 src1 src2 +> emitMov win m32 dst (.reg TMP_REG1)

/-- emit_unary, sljitNativeX86_common.c:1687-1718. -/
def unary (win m32 : Bool) (x : Byte) (dst src : Opd) : Code :=
  let one (b : Opd) : Code := (emitX86 win m32 {} (.reg 0) b).map fun o => ((o.op [0xf7#8]).or x).bytes
  if dst = src then one dst
  else match dst with
  | .reg d => emitMov win m32 (.reg d) src +> one (.reg d)
  | _ => emitMov win m32 (.reg TMP_REG1) src +> one (.reg TMP_REG1) +> emitMov win m32 dst (.reg TMP_REG1)

/-- emit_groupf, sljitNativeX86_common.c:3124-3133, for operations of two bytes without a prefix. -/
def groupf (win m32 : Bool) (op : Byte) (d : Nat) (src : Opd) : Code := ins win m32 { size := 2 } (.reg d) src [0x0f#8, op]

/-- ADDRESSING_DEPENDS_ON, sljitLir.c:919-920. -/
def dependsOn : Opd → Nat → Bool
  | .mem base offs _, r => base == r || offs == r
  | _, _ => false

/-- The multiplication by a constant in emit_mul, sljitNativeX86_common.c:2233-2239, 2251-2267 and 2273-2306: `d = src * v`. -/
def mulImm (win m32 : Bool) (d : Nat) (src : Opd) (v : BitVec 64) : Code :=
  if isByte v then ins win m32 {} (.reg d) src [0x6b#8] +> some (toLe 1 v)
  else if isHalf v then ins win m32 {} (.reg d) src [0x69#8] +> some (toLe 4 v)
  else (if .reg d ≠ src then emitMov win m32 (.reg d) src else some []) +> some (loadImm64 win TMP_REG2 v) +> groupf win m32 0xaf#8 d (.reg TMP_REG2)

/-- The multiplication of emit_mul into `d` (dst_r), sljitNativeX86_common.c:2220-2315. -/
def mulInto (win m32 : Bool) (d : Nat) (src1 src2 : Opd) : Code :=
  if .reg d = src1 ∧ ¬ src2.isImm then groupf win m32 0xaf#8 d src2
  else if .reg d = src2 ∧ ¬ src1.isImm then groupf win m32 0xaf#8 d src1
  else match src1, src2 with
  | .imm v, .imm u => emitMov win m32 (.reg d) (.imm u) +> mulImm win m32 d (.reg d) v
  | .imm v, _ => mulImm win m32 d src2 v
  | _, .imm v => mulImm win m32 d src1 v
  | _, _ =>
    let t := if dependsOn src2 d then TMP_REG1 else d
    emitMov win m32 (.reg t) src1 +> groupf win m32 0xaf#8 t src2

/-- emit_mul, sljitNativeX86_common.c:2213-2318. -/
def emitMul (win m32 : Bool) (dst src1 src2 : Opd) : Code :=
  mulInto win m32 (match dst with | .reg d => d | _ => TMP_REG1) src1 src2 +>
  if dst.isMem then emitMov win m32 dst (.reg TMP_REG1) else some []

/-- The address of the LEA in emit_lea_binary, sljitNativeX86_common.c:2336-2368; `none` is SLJIT_ERR_UNSUPPORTED. -/
def leaAddr (m32 : Bool) (src1 src2 : Opd) : Option (Nat × Nat × BitVec 64) :=
  match src1, src2 with
  | .reg r, .reg q => some (r, q, 0#64)
  | .reg r, .imm v => if m32 ∨ isHalf v then some (r, 0, (v.setWidth 32).signExtend 64) else none
  | .imm v, .reg r => if m32 ∨ isHalf v then some (r, 0, (v.setWidth 32).signExtend 64) else none
  | _, _ => none

/-- emit_lea_binary, sljitNativeX86_common.c:2320-2375; `none` is SLJIT_ERR_UNSUPPORTED. -/
def leaBinary (win m32 : Bool) (dst src1 src2 : Opd) : Option Code :=
  if dst = src1 ∨ dst = src2 then none
  else
    let d := match dst with | .reg d => d | _ => TMP_REG1
    (leaAddr m32 src1 src2).map fun a =>
      ins win m32 {} (.reg d) (.mem a.1 a.2.1 a.2.2) [0x8d#8] +> if d = TMP_REG1 then emitMov win m32 dst (.reg TMP_REG1) else some []

/-- emit_cmp_binary, sljitNativeX86_common.c:2377-2426. -/
def cmpBinary (win m32 : Bool) (src1 src2 : Opd) : Code :=
  match src1, src2 with
  | .reg r, .imm v => if useEax m32 src1 v then eaxImm m32 CMP.eax v else binImm win m32 CMP v (.reg r)
  | .reg r, _ => ins win m32 {} (.reg r) src2 [CMP.rm]
  | .mem .., .reg r => ins win m32 {} (.reg r) src1 [CMP.mr]
  | .imm _, .imm v => emitMov win m32 (.reg TMP_REG1) src1 +> binImm win m32 CMP v (.reg TMP_REG1)
  | .mem .., .imm v => binImm win m32 CMP v src1
  | _, _ => emitMov win m32 (.reg TMP_REG1) src1 +> ins win m32 {} (.reg TMP_REG1) src2 [CMP.rm]

/-- TEST with a constant, sljitNativeX86_common.c:2456-2466 (and 2487-2497, 2516-2526): t is the register for a long one. -/
def testImm (win m32 : Bool) (v : BitVec 64) (arg : Opd) (t : Nat) : Code :=
  if isHalf v ∨ m32 then ins win m32 {} (.imm v) arg [0xf7#8]
  else some (loadImm64 win t v) +> ins win m32 {} (.reg t) arg [0x85#8]

/-- emit_test_binary, sljitNativeX86_common.c:2428-2535. -/
def testBinary (win m32 : Bool) (src1 src2 : Opd) : Code :=
  match src1, src2 with
  | .imm _, .imm v => emitMov win m32 (.reg TMP_REG1) src1 +> testImm win m32 v (.reg TMP_REG1) TMP_REG2
  | _, .imm v =>
    if useEax m32 src1 v then eaxImm m32 0xa9#8 v else testImm win m32 v src1 (if src1.isReg then TMP_REG2 else TMP_REG1)
  | .imm v, _ => if useEax m32 src2 v then eaxImm m32 0xa9#8 v else testImm win m32 v src2 TMP_REG1
  | .reg r, _ => ins win m32 {} (.reg r) src2 [0x85#8]
  | _, .reg r => ins win m32 {} (.reg r) src1 [0x85#8]
  | _, _ => emitMov win m32 (.reg TMP_REG1) src1 +> ins win m32 {} (.reg TMP_REG1) src2 [0x85#8]

/-- SLJIT_PREF_SHIFT_REG as an operand. -/
def PREF : Opd := .reg PREF_SHIFT_REG

/-- `inst = emit_x86_instruction(compiler, 1 | EX86_SHIFT_INS, ...); inst[1] |= mode`. -/
def shiftIns (win m32 : Bool) (mode : Byte) (src2 dst : Opd) : Code := insOr win m32 { shiftIns := true } src2 dst mode

/-- The number of a register operand. -/
def Opd.regNo : Opd → Nat
  | .reg d => d
  | _ => 0

/-- emit_shift, sljitNativeX86_common.c:2537-2642. -/
def emitShift (win m32 : Bool) (mode : Byte) (dst src1 src2 : Opd) : Code :=
  if src2.isImm ∨ src2 = PREF then
    if dst = src1 then shiftIns win m32 mode src2 dst
    else if dst = PREF ∧ src2 = PREF then
      emitMov win m32 (.reg TMP_REG1) src1 +> shiftIns win m32 mode PREF (.reg TMP_REG1) +> emitMov win m32 PREF (.reg TMP_REG1)
    else if dst.isReg then emitMov win m32 dst src1 +> shiftIns win m32 mode src2 dst
    else emitMov win m32 (.reg TMP_REG1) src1 +> shiftIns win m32 mode src2 (.reg TMP_REG1) +> emitMov win m32 dst (.reg TMP_REG1)
  else if dst = PREF then
    emitMov win m32 (.reg TMP_REG1) src1 +> emitMov win m32 PREF src2 +> shiftIns win m32 mode PREF (.reg TMP_REG1) +>
      emitMov win m32 PREF (.reg TMP_REG1)
  else if dst.isReg ∧ dst ≠ src2 ∧ dst ≠ .reg TMP_REG1 ∧ ¬ dependsOn src2 dst.regNo then
    (if src1 ≠ dst then emitMov win m32 dst src1 else some []) +> emitMov win false (.reg TMP_REG1) PREF +> emitMov win m32 PREF src2 +>
      shiftIns win m32 mode PREF dst +> emitMov win false PREF (.reg TMP_REG1)
  else
    emitMov win m32 (.reg TMP_REG1) src1 +> emitMov win false (.reg TMP_REG2) PREF +> emitMov win m32 PREF src2 +>
      shiftIns win m32 mode PREF (.reg TMP_REG1) +> emitMov win false PREF (.reg TMP_REG2) +>
      if dst ≠ .reg TMP_REG1 then emitMov win m32 dst (.reg TMP_REG1) else some []

/-- emit_shift_with_flags, sljitNativeX86_common.c:2644-2678. -/
def shiftWithFlags (win m32 : Bool) (mode : Byte) (setFlags : Bool) (dst src1 src2 : Opd) : Code :=
  match src2 with
  | .imm v =>
    let v := v &&& if m32 then 0x1f#64 else 0x3f#64
    if v ≠ 0#64 then emitShift win m32 mode dst src1 (.imm v)
    else if ¬ setFlags then emitMov win m32 dst src1
    else cumBinary win m32 OR dst src1 (.imm 0#64)
  | _ =>
    if ¬ setFlags then emitShift win m32 mode dst src1 src2
    else
      (if ¬ dst.isReg then cmpBinary win m32 src1 (.imm 0#64) else some []) +> emitShift win m32 mode dst src1 src2 +>
        if dst.isReg then cmpBinary win m32 dst (.imm 0#64) else some []

/-- HAS_FLAGS(op). -/
def hasFlags (op : RV.Op) : Bool := op.setZ || op.flag != .none

/-- The LEA of SLJIT_ADD, sljitNativeX86_common.c:2706-2709. -/
def addLea (win m32 fl : Bool) (dst src1 src2 : Opd) : Option Code := if fl then none else leaBinary win m32 dst src1 src2

/-- The LEA of SLJIT_SUB with a constant, sljitNativeX86_common.c:2720-2724. -/
def subLea (win m32 fl : Bool) (dst src1 src2 : Opd) : Option Code :=
  if fl then none else
  match src2 with
  | .imm v => leaBinary win m32 dst src1 (.imm (-v))
  | _ => none

/-- sljit_emit_op2, sljitNativeX86_common.c:2680-2766. -/
def emitOp2 (win : Bool) (op : RV.Op) (dst src1 src2 : Opd) : Code :=
  let m32 := op.is32
  let fl := hasFlags op
  match op.code with
  | .add =>
    match addLea win m32 fl dst src1 src2 with
    | some c => c
    | none => cumBinary win m32 ADD dst src1 src2
  | .addc => cumBinary win m32 ADC dst src1 src2
  | .sub =>
    if src1 = .imm 0#64 then unary win m32 (3#8 <<< 3) dst src2
    else
      match subLea win m32 fl dst src1 src2 with
      | some c => c
      | none =>
        if ¬ fl ∧ dst.isReg ∧ src2 = dst then nonCumBinary win m32 SUB dst dst src1 +> unary win m32 (3#8 <<< 3) dst dst
        else nonCumBinary win m32 SUB dst src1 src2
  | .subc => nonCumBinary win m32 SBB dst src1 src2
  | .mul => emitMul win m32 dst src1 src2
  | .and => cumBinary win m32 AND dst src1 src2
  | .or => cumBinary win m32 OR dst src1 src2
  | .xor =>
    if ¬ fl ∧ src2 = .imm (-1#64) then unary win m32 (2#8 <<< 3) dst src1
    else if ¬ fl ∧ src1 = .imm (-1#64) then unary win m32 (2#8 <<< 3) dst src2
    else cumBinary win m32 XOR dst src1 src2
  | .shl | .mshl => shiftWithFlags win m32 (4#8 <<< 3) fl dst src1 src2
  | .lshr | .mlshr => shiftWithFlags win m32 (5#8 <<< 3) fl dst src1 src2
  | .ashr | .mashr => shiftWithFlags win m32 (7#8 <<< 3) fl dst src1 src2
  | .rotl => shiftWithFlags win m32 (0#8 <<< 3) false dst src1 src2
  | .rotr => shiftWithFlags win m32 (1#8 <<< 3) false dst src1 src2
  | _ => some []

/-- sljit_emit_op2u, sljitNativeX86_common.c:2768-2795. -/
def emitOp2u (win : Bool) (op : RV.Op) (src1 src2 : Opd) : Code :=
  match op.code with
  | .sub => cmpBinary win op.is32 src1 src2
  | .and => testBinary win op.is32 src1 src2
  | _ => emitOp2 win op (.reg TMP_REG1) src1 src2

/-- sljit_emit_op2r with SLJIT_MULADD, sljitNativeX86_common.c:2797-2827. -/
def emitMulAdd (win m32 : Bool) (dst : Nat) (src1 src2 : Opd) : Code :=
  emitMul win m32 (.reg TMP_REG1) src1 src2 +> ins win m32 {} (.reg TMP_REG1) (.reg dst) [ADD.mr]

/-- The SHLD or SHRD instruction at the end of sljit_emit_shift_into, sljitNativeX86_common.c:2978-2990. -/
def emitDbl (win m32 left : Bool) (src2 src1 : Nat) : Opd → Code
  | .imm v => groupf win m32 (if left then 0xa4#8 else 0xac#8) src2 (.reg src1) +> some (toLe 1 v)
  | _ => groupf win m32 (if left then 0xa5#8 else 0xad#8) src2 (.reg src1)

/-- The count of sljit_emit_shift_into, sljitNativeX86_common.c:2859-2868. -/
def maskCount (m32 : Bool) : Opd → Opd
  | .imm v => .imm (v &&& if m32 then 0x1f#64 else 0x3f#64)
  | b => b

/-- sljit_emit_shift_into, sljitNativeX86_common.c:2829-3012.  `left`: SLJIT_SHL and SLJIT_MSHL, otherwise SLJIT_LSHR and SLJIT_MLSHR (the plain and
the M variants are not distinguished).  SLJIT_SHIFT_INTO_NON_ZERO is not used. -/
def emitShiftInto (win m32 left : Bool) (dst src1 src2 : Nat) (src3 : Opd) : Code :=
  let src3 := maskCount m32 src3
  if src3 = .imm 0#64 then some []
  else if src1 = src2 then emitShift win m32 (if left then 0x00#8 else 0x08#8) (.reg dst) (.reg src1) src3
  else if dst = PREF_SHIFT_REG ∧ ¬ src3.isImm ∧ (src3 ≠ PREF ∨ src1 ≠ PREF_SHIFT_REG) then
    emitMov win m32 (.reg TMP_REG1) (.reg src1) +>
    (if src3 ≠ PREF then emitMov win m32 PREF src3 else some []) +>
    emitDbl win m32 left src2 TMP_REG1 src3 +>
    emitMov win m32 (.reg dst) (.reg TMP_REG1)
  else
    -- the count is loaded into SLJIT_PREF_SHIFT_REG, which is saved in TMP_REG1
    let load : Prop := ¬ src3.isImm ∧ src3 ≠ PREF
    let early : Prop := src2 = PREF_SHIFT_REG ∧ load
    (if early then emitMov win false (.reg TMP_REG1) PREF else some []) +>
    (if dst ≠ src1 ∧ .reg dst ≠ src3 then emitMov win m32 (.reg dst) (.reg src1) else some []) +>
    (if load then (if early then some [] else emitMov win false (.reg TMP_REG1) PREF) +> emitMov win m32 PREF src3 else some []) +>
    (if dst ≠ src1 ∧ .reg dst = src3 then emitMov win m32 (.reg dst) (.reg src1) else some []) +>
    emitDbl win m32 left (if early then TMP_REG1 else src2) dst src3 +>
    (if load then emitMov win false PREF (.reg TMP_REG1) else some [])

end Verif.X86
