import Verif.A64.Arch
import Verif.Imm.Arm64
import Verif.RISCV.Api2

/-!
# Integer operations of the ARM64 backend

Model of emit_op_imm, emit_op_mem, sljit_emit_op0, sljit_emit_op1, sljit_emit_op2, sljit_emit_op2u, sljit_emit_op2r,
sljit_emit_shift_into, sljit_emit_op_flags, sljit_emit_select and get_cc of sljitNativeARM_64.c.  What is emitted is a list of instruction
words.  Allocation failures are not modelled here (see C08, C10).  SLJIT_ASSERT is not modelled (a release build); `none` is
SLJIT_UNREACHABLE or a register number outside of reg_map.  ADJUST_LOCAL_OFFSET is not modelled: displacements are those after it.
-/

namespace Verif.A64
open Verif.Imm.Arm64 (regMap RD RN TMP_ZERO W_OP ORRI logicalImm loadImmediate)
open Verif (RV.OpC RV.Op RV.Flag RV.Op1C RV.Op0)

/-- RM, RT2 and RT, sljitNativeARM_64.c:56-59. -/
def RM (r : Nat) : BitVec 32 := (regMap r).setWidth 32 <<< 16
@[inherit_doc RM] def RT2 (r : Nat) : BitVec 32 := (regMap r).setWidth 32 <<< 10
@[inherit_doc RM] def RT (r : Nat) : BitVec 32 := (regMap r).setWidth 32
/-- sljitNativeARM_64.c:37-39, SLJIT_NUMBER_OF_REGISTERS is 26. -/
def TMP_REG1 : Nat := 28
@[inherit_doc TMP_REG1] def TMP_REG2 : Nat := 29
@[inherit_doc TMP_REG1] def TMP_LR : Nat := 30

/-- Instruction words, sljitNativeARM_64.c:70-185. -/
def ADC : BitVec 32 := 0x9a000000#32
@[inherit_doc ADC] def ADD : BitVec 32 := 0x8b000000#32
@[inherit_doc ADC] def ADDI : BitVec 32 := 0x91000000#32
@[inherit_doc ADC] def AND : BitVec 32 := 0x8a000000#32
@[inherit_doc ADC] def ANDI : BitVec 32 := 0x92000000#32
@[inherit_doc ADC] def ASRV : BitVec 32 := 0x9ac02800#32
@[inherit_doc ADC] def CLZ : BitVec 32 := 0xdac01000#32
@[inherit_doc ADC] def CSEL : BitVec 32 := 0x9a800000#32
@[inherit_doc ADC] def CSINC : BitVec 32 := 0x9a800400#32
@[inherit_doc ADC] def EOR : BitVec 32 := 0xca000000#32
@[inherit_doc ADC] def EORI : BitVec 32 := 0xd2000000#32
@[inherit_doc ADC] def EXTR : BitVec 32 := 0x93c00000#32
@[inherit_doc ADC] def LSLV : BitVec 32 := 0x9ac02000#32
@[inherit_doc ADC] def LSRV : BitVec 32 := 0x9ac02400#32
@[inherit_doc ADC] def MADD : BitVec 32 := 0x9b000000#32
@[inherit_doc ADC] def ORN : BitVec 32 := 0xaa200000#32
@[inherit_doc ADC] def ORR : BitVec 32 := 0xaa000000#32
@[inherit_doc ADC] def RBIT : BitVec 32 := 0xdac00000#32
@[inherit_doc ADC] def REV : BitVec 32 := 0xdac00c00#32
@[inherit_doc ADC] def REV16 : BitVec 32 := 0xdac00400#32
@[inherit_doc ADC] def RORV : BitVec 32 := 0x9ac02c00#32
@[inherit_doc ADC] def SBC : BitVec 32 := 0xda000000#32
@[inherit_doc ADC] def SBFM : BitVec 32 := 0x93400000#32
@[inherit_doc ADC] def SDIV : BitVec 32 := 0x9ac00c00#32
@[inherit_doc ADC] def SMADDL : BitVec 32 := 0x9b200000#32
@[inherit_doc ADC] def SMULH : BitVec 32 := 0x9b403c00#32
@[inherit_doc ADC] def STRB : BitVec 32 := 0x38206800#32
@[inherit_doc ADC] def STRBI : BitVec 32 := 0x39000000#32
@[inherit_doc ADC] def STURBI : BitVec 32 := 0x38000000#32
@[inherit_doc ADC] def SUB : BitVec 32 := 0xcb000000#32
@[inherit_doc ADC] def SUBI : BitVec 32 := 0xd1000000#32
@[inherit_doc ADC] def SUBS : BitVec 32 := 0xeb000000#32
@[inherit_doc ADC] def UBFM : BitVec 32 := 0xd3400000#32
@[inherit_doc ADC] def UDIV : BitVec 32 := 0x9ac00800#32
@[inherit_doc ADC] def UMULH : BitVec 32 := 0x9bc03c00#32
/-- MOV, sljitNativeARM_64.c:191. -/
def MOV : BitVec 32 := ORR ||| RN TMP_ZERO

/-- Operands: a register, a constant, [base + w] or [base + (offs << w)]; base = 0 or offs = 0 is no register (sljitLir.h:983-1019). -/
inductive Opd where
  | reg (r : Nat)
  | imm (v : BitVec 64)
  | mem (base offs : Nat) (w : BitVec 64)
  deriving DecidableEq, Repr

/-- What a function emits. -/
abbrev Code := Option (List (BitVec 32))

/-- `FAIL_IF(a); return b`. -/
def Code.cat (a b : Code) : Code := a.bind fun x => b.map fun y => x ++ y

@[inherit_doc] infixr:65 " +> " => Code.cat

/-- INT_OP, SET_FLAGS and UNUSED_RETURN of emit_op_imm, sljitNativeARM_64.c:841-843. -/
structure Fl where
  int : Bool
  set : Bool
  unused : Bool
  deriving DecidableEq, Repr

/-- inv_bits, sljitNativeARM_64.c:857. -/
def Fl.inv (f : Fl) : BitVec 32 := if f.int then W_OP else 0#32
/-- inv_bits after CHECK_FLAGS, sljitNativeARM_64.c:845-850. -/
def Fl.chk (f : Fl) (bits : BitVec 32) : BitVec 32 := if f.set then f.inv ||| bits else f.inv
/-- dst after CHECK_FLAGS. -/
def Fl.dst (f : Fl) (d : Nat) : Nat := if f.set ∧ f.unused then TMP_ZERO else d

/-- The operations of emit_op_imm with two arguments. -/
inductive Bin where
  | op (o : RV.OpC)
  | muladd
  deriving DecidableEq, Repr

/-- set_flags of emit_op_imm, sljitNativeARM_64.c:1150-1153. -/
def setFlags (f : Fl) (inv : BitVec 32) (dst : Nat) : List (BitVec 32) :=
  if f.set then [(SUBS ^^^ inv) ||| RD TMP_ZERO ||| RN dst ||| RM TMP_ZERO] else []

/-- emit_op_imm with two registers, sljitNativeARM_64.c:1077-1153, operations with two arguments. -/
def regOp (op : Bin) (f : Fl) (dst a1 a2 : Nat) : Code :=
  let inv := f.inv
  match op with
  | .op .add => some [(ADD ^^^ f.chk (1#32 <<< 29)) ||| RD (f.dst dst) ||| RN a1 ||| RM a2]
  | .op .addc => some [(ADC ^^^ f.chk (1#32 <<< 29)) ||| RD (f.dst dst) ||| RN a1 ||| RM a2]
  | .op .sub => some [(SUB ^^^ f.chk (1#32 <<< 29)) ||| RD (f.dst dst) ||| RN a1 ||| RM a2]
  | .op .subc => some [(SBC ^^^ f.chk (1#32 <<< 29)) ||| RD (f.dst dst) ||| RN a1 ||| RM a2]
  | .op .mul =>
    if f.set = false then some [(MADD ^^^ inv) ||| RD dst ||| RN a1 ||| RM a2 ||| RT2 TMP_ZERO]
    else if f.int then
      some [SMADDL ||| RD dst ||| RN a1 ||| RM a2 ||| (31#32 <<< 10),
        ADD ||| RD TMP_LR ||| RN TMP_ZERO ||| RM dst ||| (2#32 <<< 22) ||| (31#32 <<< 10),
        SUBS ||| RD TMP_ZERO ||| RN TMP_LR ||| RM dst ||| (2#32 <<< 22) ||| (63#32 <<< 10)]
    else
      some [SMULH ||| RD TMP_LR ||| RN a1 ||| RM a2,
        MADD ||| RD dst ||| RN a1 ||| RM a2 ||| RT2 TMP_ZERO,
        SUBS ||| RD TMP_ZERO ||| RN TMP_LR ||| RM dst ||| (2#32 <<< 22) ||| (63#32 <<< 10)]
  | .op .and => some [(AND ^^^ f.chk (3#32 <<< 29)) ||| RD (f.dst dst) ||| RN a1 ||| RM a2]
  | .op .or => some (((ORR ^^^ inv) ||| RD dst ||| RN a1 ||| RM a2) :: setFlags f inv dst)
  | .op .xor => some (((EOR ^^^ inv) ||| RD dst ||| RN a1 ||| RM a2) :: setFlags f inv dst)
  | .op .shl | .op .mshl => some (((LSLV ^^^ inv) ||| RD dst ||| RN a1 ||| RM a2) :: setFlags f inv dst)
  | .op .lshr | .op .mlshr => some (((LSRV ^^^ inv) ||| RD dst ||| RN a1 ||| RM a2) :: setFlags f inv dst)
  | .op .ashr | .op .mashr => some (((ASRV ^^^ inv) ||| RD dst ||| RN a1 ||| RM a2) :: setFlags f inv dst)
  | .op .rotl =>
    some [(SUB ^^^ inv) ||| RD TMP_REG2 ||| RN TMP_ZERO ||| RM a2, (RORV ^^^ inv) ||| RD dst ||| RN a1 ||| RM TMP_REG2]
  | .op .rotr => some [(RORV ^^^ inv) ||| RD dst ||| RN a1 ||| RM a2]
  | .muladd => some [(MADD ^^^ inv) ||| RD dst ||| RN a1 ||| RM a2 ||| RT2 dst]
  | _ => none

/-- The cases of SLJIT_ADD and SLJIT_SUB with a constant, sljitNativeARM_64.c:904-938: `imm` is the constant to add.  `none`: break.  The
negation of the smallest constant overflows in C, here it wraps. -/
def addForm (sub : Bool) (f : Fl) (dst reg : Nat) (imm : BitVec 64) : Option (List (BitVec 32)) :=
  let c := f.chk (1#32 <<< 29)
  let d := f.dst dst
  let i := imm.setWidth 32
  let nimm := -imm
  let j := nimm.setWidth 32
  if imm = 0#64 then some [((if sub then SUBI else ADDI) ^^^ c) ||| RD d ||| RN reg]
  else if 0 < imm.toInt ∧ imm.toInt ≤ 0xfff then some [(ADDI ^^^ c) ||| RD d ||| RN reg ||| (i <<< 10)]
  else if 0 < nimm.toInt ∧ nimm.toInt ≤ 0xfff then some [(SUBI ^^^ c) ||| RD d ||| RN reg ||| (j <<< 10)]
  else if 0 < imm.toInt ∧ imm.toInt ≤ 0xffffff ∧ imm &&& 0xfff#64 = 0#64 then some [(ADDI ^^^ c) ||| RD d ||| RN reg ||| ((i >>> 12) <<< 10) ||| (1#32 <<< 22)]
  else if 0 < nimm.toInt ∧ nimm.toInt ≤ 0xffffff ∧ nimm &&& 0xfff#64 = 0#64 then some [(SUBI ^^^ c) ||| RD d ||| RN reg ||| ((j >>> 12) <<< 10) ||| (1#32 <<< 22)]
  else if 0 < imm.toInt ∧ imm.toInt ≤ 0xffffff ∧ f.set = false then
    some [(ADDI ^^^ f.inv) ||| RD dst ||| RN reg ||| ((i >>> 12) <<< 10) ||| (1#32 <<< 22), (ADDI ^^^ f.inv) ||| RD dst ||| RN dst ||| ((i &&& 0xfff#32) <<< 10)]
  else if 0 < nimm.toInt ∧ nimm.toInt ≤ 0xffffff ∧ f.set = false then
    some [(SUBI ^^^ f.inv) ||| RD dst ||| RN reg ||| ((j >>> 12) <<< 10) ||| (1#32 <<< 22), (SUBI ^^^ f.inv) ||| RD dst ||| RN dst ||| ((j &&& 0xfff#32) <<< 10)]
  else none

/-- The inst_bits of a bitfield move with a constant count: the N bit, immr and imms, sljitNativeARM_64.c:973-1003. -/
def bfBits (int : Bool) (immr imms : BitVec 32) : BitVec 32 :=
  (if int then 0#32 else 1#32 <<< 22) ||| (immr <<< 16) ||| (imms <<< 10)

/-- emit_op_imm with one constant, sljitNativeARM_64.c:874-1028; `first` is ARG1_IMM.  `none`: break, no form with a constant;
`some none`: SLJIT_UNREACHABLE in logical_imm. -/
def immForm (op : Bin) (f : Fl) (dst reg : Nat) (imm : BitVec 64) (first : Bool) : Option Code :=
  let len := if f.int then 16 else 32
  let mask : BitVec 32 := if f.int then 0x1f#32 else 0x3f#32
  let i := imm.setWidth 32
  match op with
  | .op .sub => if first then none else (addForm true f dst reg (-imm)).map some
  | .op .add => (addForm false f dst reg imm).map some
  | .op .and =>
    match logicalImm imm len true with
    | none => some none
    | some b => if b = 0#32 then none else some (some [(ANDI ^^^ f.chk (3#32 <<< 29)) ||| RD (f.dst dst) ||| RN reg ||| b])
  | .op .or =>
    match logicalImm imm len true with
    | none => some none
    | some b => if b = 0#32 then none else some (some ((((b ||| ORRI) ^^^ f.inv) ||| RD dst ||| RN reg) :: setFlags f f.inv dst))
  | .op .xor =>
    if imm = -1#64 then some (some (((ORN ^^^ f.inv) ||| RD dst ||| RN TMP_ZERO ||| RM reg) :: setFlags f f.inv dst))
    else match logicalImm imm len true with
    | none => some none
    | some b => if b = 0#32 then none else some (some ((((b ||| EORI) ^^^ f.inv) ||| RD dst ||| RN reg) :: setFlags f f.inv dst))
  | .op .shl | .op .mshl =>
    if first then none
    else
      let k := i &&& mask
      let inv := f.inv ||| (f.inv >>> 9)
      some (some (((UBFM ^^^ inv) ||| RD dst ||| RN reg ||| bfBits f.int (-k &&& mask) (mask - k)) :: setFlags f inv dst))
  | .op .lshr | .op .mlshr =>
    if first then none
    else
      let inv := f.inv ||| (f.inv >>> 9)
      some (some (((UBFM ^^^ inv) ||| RD dst ||| RN reg ||| bfBits f.int (i &&& mask) mask) :: setFlags f inv dst))
  | .op .ashr | .op .mashr =>
    if first then none
    else
      let inv := f.inv ||| (f.inv >>> 9) ||| (1#32 <<< 30)
      some (some (((UBFM ^^^ inv) ||| RD dst ||| RN reg ||| bfBits f.int (i &&& mask) mask) :: setFlags f inv dst))
  | .op .rotl =>
    if first then none else some (some [(EXTR ^^^ (f.inv ||| (f.inv >>> 9))) ||| RD dst ||| RN reg ||| RM reg ||| ((-i &&& mask) <<< 10)])
  | .op .rotr =>
    if first then none else some (some [(EXTR ^^^ (f.inv ||| (f.inv >>> 9))) ||| RD dst ||| RN reg ||| RM reg ||| ((i &&& mask) <<< 10)])
  | _ => none

/-- emit_op_imm with one constant, sljitNativeARM_64.c:874-1046. -/
def oneImm (op : Bin) (f : Fl) (dst reg : Nat) (imm : BitVec 64) (first : Bool) : Code :=
  match immForm op f dst reg imm first with
  | some c => c
  | none =>
    if first then
      if imm = 0#64 then regOp op f dst TMP_ZERO reg else loadImmediate TMP_REG1 imm +> regOp op f dst TMP_REG1 reg
    else
      if imm = 0#64 then regOp op f dst reg TMP_ZERO else loadImmediate TMP_REG2 imm +> regOp op f dst reg TMP_REG2

/-- Arguments of emit_op_imm. -/
inductive Arg where
  | reg (r : Nat)
  | imm (v : BitVec 64)
  deriving DecidableEq, Repr

/-- emit_op_imm, sljitNativeARM_64.c:852-1154, operations with two arguments. -/
def emitOpImm (op : Bin) (f : Fl) (dst : Nat) (arg1 arg2 : Arg) : Code :=
  match arg1, arg2 with
  | .imm u, .imm v =>
    if u = 0#64 ∧ op ≠ .op .add ∧ op ≠ .op .sub then oneImm op f dst TMP_ZERO v false
    else loadImmediate TMP_REG1 u +> oneImm op f dst TMP_REG1 v false
  | .reg a, .imm v => oneImm op f dst a v false
  | .imm u, .reg b => oneImm op f dst b u true
  | .reg a, .reg b => regOp op f dst a b

/-- Type of a transfer: MEM_SIZE_SHIFT, STORE and SIGNED, sljitNativeARM_64.c:1156-1164. -/
structure Ty where
  size : Nat
  sg : Bool
  store : Bool
  deriving DecidableEq, Repr

/-- `type` of emit_op_mem, sljitNativeARM_64.c:1169-1173. -/
def Ty.bits (t : Ty) : BitVec 32 :=
  (BitVec.ofNat 32 t.size <<< 30) ||| (if t.store then 0#32 else if t.sg then 0x800000#32 else 0x400000#32)

/-- emit_op_mem, sljitNativeARM_64.c:1166-1240, for [base + argw] or [base + (offs << argw)].  Sums of sljit_sw wrap here (in C,
`argw + 0x100` on line 1216 overflows for the largest displacements). -/
def emitOpMem (t : Ty) (reg base offs : Nat) (argw : BitVec 64) (tmp : Nat) : Code :=
  let i := argw.setWidth 32
  if offs ≠ 0 then
    let k := argw &&& 3#64
    if k = 0#64 ∨ k.toNat = t.size then
      some [STRB ||| t.bits ||| RT reg ||| RN base ||| RM offs ||| (if k ≠ 0#64 then 1#32 <<< 12 else 0#32)]
    else some [ADD ||| RD tmp ||| RN base ||| RM offs ||| (k.setWidth 32 <<< 10), STRBI ||| t.bits ||| RT reg ||| RN tmp]
  else if base = 0 then
    loadImmediate tmp (argw &&& ~~~ (0xfff#64 <<< t.size)) +>
      some [STRBI ||| t.bits ||| RT reg ||| RN tmp ||| (((argw.sshiftRight t.size) &&& 0xfff#64).setWidth 32 <<< 10)]
  else if argw &&& ((1#64 <<< t.size) - 1#64) = 0#64 ∧ 0 ≤ argw.toInt ∧ (argw.sshiftRight t.size).toInt ≤ 0xfff then
    some [STRBI ||| t.bits ||| RT reg ||| RN base ||| (i <<< (10 - t.size))]
  else if argw &&& ((1#64 <<< t.size) - 1#64) = 0#64 ∧ 0 ≤ argw.toInt ∧ argw.toInt ≤ 0xffffff then
    some [ADDI ||| (1#32 <<< 22) ||| RD tmp ||| RN base ||| ((i >>> 12) <<< 10),
      STRBI ||| t.bits ||| RT reg ||| RN tmp ||| (((i &&& 0xfff#32) >>> t.size) <<< 10)]
  else if argw &&& ((1#64 <<< t.size) - 1#64) = 0#64 ∧ argw.toInt < -256 ∧ -0xfff000 ≤ argw.toInt then
    some [SUBI ||| (1#32 <<< 22) ||| RD tmp ||| RN base ||| (((-i + 0xfff#32) >>> 12) <<< 10),
      STRBI ||| t.bits ||| RT reg ||| RN tmp ||| ((((0x1000#32 + i) &&& 0xfff#32) >>> t.size) <<< 10)]
  else if argw.toInt ≤ 0xff ∧ -0x100 ≤ argw.toInt then
    some [STURBI ||| t.bits ||| RT reg ||| RN base ||| ((i &&& 0x1ff#32) <<< 12)]
  else if (argw + 0x100#64) &&& 0xfff#64 ≤ 0x1ff#64 ∧ argw.toInt ≤ 0xfff0ff ∧ -0xfff100 ≤ argw.toInt then
    if 0 ≤ argw.toInt then
      let i := if i &&& 0x100#32 ≠ 0#32 then i + 0x1000#32 else i
      some [ADDI ||| (1#32 <<< 22) ||| RD tmp ||| RN base ||| ((i >>> 12) <<< 10), STURBI ||| t.bits ||| RT reg ||| RN tmp ||| ((i &&& 0x1ff#32) <<< 12)]
    else
      let i := if i &&& 0x100#32 = 0#32 then i - 0x1000#32 else i
      some [SUBI ||| (1#32 <<< 22) ||| RD tmp ||| RN base ||| (((-i) >>> 12) <<< 10), STURBI ||| t.bits ||| RT reg ||| RN tmp ||| ((i &&& 0x1ff#32) <<< 12)]
  else loadImmediate tmp argw +> some [STRB ||| t.bits ||| RT reg ||| RN base ||| RM tmp]

/-- An operand in memory is loaded into tmp, sljitNativeARM_64.c:1749-1757; what else is an argument of emit_op_imm. -/
def loadArg (size tmp : Nat) : Opd → Code × Arg
  | .reg r => (some [], .reg r)
  | .imm v => (some [], .imm v)
  | .mem base offs w => (emitOpMem ⟨size, false, false⟩ tmp base offs w tmp, .reg tmp)

/-- mem_flags of WORD_SIZE or INT_SIZE. -/
def szOf (int : Bool) : Nat := if int then 2 else 3

/-- HAS_FLAGS, sljitLir.c:190-191. -/
def hasFlags (op : RV.Op) : Bool := op.setZ || decide (op.flag ≠ .none)

/-- sljit_emit_op2, sljitNativeARM_64.c:1723-1773; `unused` is dst == TMP_REG2. -/
def op2 (op : Bin) (int set : Bool) (dst src1 src2 : Opd) : Code :=
  let dstR := match dst with | .reg d => d | _ => TMP_REG1
  let f : Fl := ⟨int, set, decide (dst = .reg TMP_REG2)⟩
  let l1 := loadArg (szOf int) TMP_REG1 src1
  let l2 := loadArg (szOf int) TMP_REG2 src2
  l1.1 +> l2.1 +> emitOpImm op f dstR l1.2 l2.2 +>
    match dst with
    | .mem base offs w => emitOpMem ⟨szOf int, false, true⟩ dstR base offs w TMP_REG2
    | _ => some []

/-- sljit_emit_op2 of a binary operation. -/
def emitOp2 (op : RV.Op) (dst src1 src2 : Opd) : Code := op2 (.op op.code) op.is32 (hasFlags op) dst src1 src2

/-- sljit_emit_op2u, sljitNativeARM_64.c:1775-1784. -/
def emitOp2u (op : RV.Op) (src1 src2 : Opd) : Code := emitOp2 op (.reg TMP_REG2) src1 src2

/-- sljit_emit_op2r with SLJIT_MULADD, sljitNativeARM_64.c:1786-1801. -/
def emitMulAdd (int : Bool) (dst : Nat) (src1 src2 : Opd) : Code := op2 .muladd int false (.reg dst) src1 src2

/-- The register of src3 in sljit_emit_shift_into, sljitNativeARM_64.c:1843-1849; constants are handled before. -/
def intoCount (int : Bool) (dst : Nat) : Opd → Code × Nat
  | .reg r => if dst = r then (some [MOV ||| RD TMP_REG2 ||| RM r], TMP_REG2) else (some [], r)
  | .mem base offs w => (emitOpMem ⟨szOf int, false, false⟩ TMP_REG2 base offs w TMP_REG2, TMP_REG2)
  | .imm _ => (none, 0)

/-- sljit_emit_shift_into, sljitNativeARM_64.c:1803-1875; `nz` is SLJIT_SHIFT_INTO_NON_ZERO. -/
def emitShiftInto (int left nz : Bool) (dst src1 src2 : Nat) (src3 : Opd) : Code :=
  if src1 = src2 then op2 (.op (if left then .rotl else .rotr)) int false (.reg dst) (.reg src1) src3
  else
    let inv : BitVec 32 := if int then W_OP else 0#32
    match src3 with
    | .imm v =>
      let mask : BitVec 32 := if int then 0x1f#32 else 0x3f#32
      let k := v.setWidth 32 &&& mask
      if k = 0#32 then some []
      else
        let k := if left then (k ^^^ mask) + 1#32 else k
        some [(EXTR ^^^ (inv ||| (inv >>> 9))) ||| RD dst ||| RN (if left then src1 else src2) ||| RM (if left then src2 else src1) ||| (k <<< 10)]
    | _ =>
      let (c, r3) := intoCount int dst src3
      let sh := (if left then LSLV else LSRV) ^^^ inv
      let sh' := (if left then LSRV else LSLV) ^^^ inv
      let tail (r : Nat) : List (BitVec 32) := [sh' ||| RD TMP_REG1 ||| RN r ||| RM TMP_REG2, (ORR ^^^ inv) ||| RD dst ||| RN dst ||| RM TMP_REG1]
      c +> some ((sh ||| RD dst ||| RN src1 ||| RM r3) ::
        if nz then ((SUB ^^^ inv) ||| RD TMP_REG2 ||| RN TMP_ZERO ||| RM r3) :: tail src2
        else
          let one := if left then (if int then bfBits true 1#32 31#32 else bfBits false 1#32 63#32)
            else (if int then bfBits true 31#32 30#32 else bfBits false 63#32 62#32)
          ((UBFM ^^^ (inv ||| (inv >>> 9))) ||| RD TMP_REG1 ||| RN src2 ||| one) ::
          ((EORI ^^^ inv) ||| RD TMP_REG2 ||| RN r3 ||| (if int then 4#32 <<< 10 else (5#32 <<< 10) ||| (1#32 <<< 22))) :: tail TMP_REG1)

/-- emit_op_imm with two registers, sljitNativeARM_64.c:1050-1102: operations with one argument (arg2). -/
def regOp1 (op : RV.Op1C) (int : Bool) (dst a : Nat) : List (BitVec 32) :=
  let inv : BitVec 32 := if int then W_OP else 0#32
  let inv9 := inv ||| (inv >>> 9)
  match op with
  | .mov | .movP => if dst = a then [] else [MOV ||| RD dst ||| RM a]
  | .movU8 => [(UBFM ^^^ inv9) ||| RD dst ||| RN a ||| (7#32 <<< 10)]
  | .movS8 => [(SBFM ^^^ inv9) ||| RD dst ||| RN a ||| (7#32 <<< 10)]
  | .movU16 => [(UBFM ^^^ inv9) ||| RD dst ||| RN a ||| (15#32 <<< 10)]
  | .movS16 => [(SBFM ^^^ inv9) ||| RD dst ||| RN a ||| (15#32 <<< 10)]
  | .mov32 => if dst = a then [] else [(MOV ^^^ W_OP) ||| RD dst ||| RM a]
  | .movU32 => [(MOV ^^^ W_OP) ||| RD dst ||| RM a]
  | .movS32 => [SBFM ||| (1#32 <<< 22) ||| RD dst ||| RN a ||| (31#32 <<< 10)]
  | .clz => [(CLZ ^^^ inv) ||| RD dst ||| RN a]
  | .ctz => [(RBIT ^^^ inv) ||| RD dst ||| RN a, (CLZ ^^^ inv) ||| RD dst ||| RN dst]
  | .rev => [(REV ^^^ (inv ||| (inv >>> 21))) ||| RD dst ||| RN a]
  | .revU16 | .revS16 =>
    ((REV16 ^^^ 0x80000000#32) ||| RD dst ||| RN a) ::
      if dst = TMP_REG1 ∨ (a = TMP_REG2 ∧ op = .revU16) then []
      else [((if op = .revU16 then UBFM else SBFM) ^^^ inv9) ||| RD dst ||| RN dst ||| (15#32 <<< 10)]
  | .revU32 | .revS32 =>
    ((REV ^^^ 0x80000400#32) ||| RD dst ||| RN a) ::
      if op = .revU32 ∨ dst = TMP_REG1 then [] else [SBFM ||| (1#32 <<< 22) ||| RD dst ||| RN dst ||| (31#32 <<< 10)]

/-- SLJIT_MOV .. SLJIT_MOV_P. -/
def isMov (op : RV.Op1C) : Bool :=
  match op with
  | .clz | .ctz | .rev | .revU16 | .revS16 | .revU32 | .revS32 => false
  | _ => true

/-- mem_flags of sljit_emit_op1, sljitNativeARM_64.c:1637-1674, 1690-1707: size and SIGNED. -/
def memTy (op : RV.Op1C) (int : Bool) : Nat × Bool :=
  match op with
  | .mov | .movP => (3, false)
  | .movU8 => (0, false)
  | .movS8 => (0, true)
  | .movU16 => (1, false)
  | .movS16 => (1, true)
  | .movU32 => (2, false)
  | .movS32 | .mov32 => (2, true)
  | .revU16 | .revS16 => (1, false)
  | .revU32 | .revS32 => (2, false)
  | _ => (szOf int, false)

/-- The casts of a constant source, sljitNativeARM_64.c:1641-1669. -/
def castImm (op : RV.Op1C) (v : BitVec 64) : BitVec 64 :=
  match op with
  | .movU8 => (v.setWidth 8).setWidth 64
  | .movS8 => (v.setWidth 8).signExtend 64
  | .movU16 => (v.setWidth 16).setWidth 64
  | .movS16 => (v.setWidth 16).signExtend 64
  | .movU32 => (v.setWidth 32).setWidth 64
  | .movS32 | .mov32 => (v.setWidth 32).signExtend 64
  | _ => v

/-- The store at the end of sljit_emit_op1, sljitNativeARM_64.c:1683-1685, 1718-1719. -/
def store1 (op : RV.Op1C) (int : Bool) (r : Nat) : Opd → Code
  | .mem base offs w => emitOpMem ⟨(memTy op int).1, (memTy op int).2, true⟩ r base offs w TMP_REG2
  | _ => some []

/-- sljit_emit_op1, sljitNativeARM_64.c:1616-1721.  A constant source of the operations after the moves is passed to emit_op_imm as the
register SLJIT_IMM (0x7f), outside of reg_map: `none`. -/
def emitOp1 (op : RV.Op1C) (int : Bool) (dst src : Opd) : Code :=
  let dstR := match dst with | .reg d => d | _ => TMP_REG1
  let ty : Ty := ⟨(memTy op int).1, (memTy op int).2, false⟩
  if isMov op then
    match dst, src with
    | .reg d, .reg r => some (regOp1 op int d r)
    | _, .imm v => loadImmediate dstR (castImm op v) +> store1 op int dstR dst
    | _, .reg r => store1 op int r dst
    | _, .mem base offs w => emitOpMem ty dstR base offs w TMP_REG2 +> store1 op int dstR dst
  else
    match src with
    | .imm _ => none
    | .reg r => some (regOp1 op int dstR r) +> store1 op int dstR dst
    | .mem base offs w => emitOpMem ty TMP_REG2 base offs w TMP_REG2 +> some (regOp1 op int dstR TMP_REG2) +> store1 op int dstR dst

/-- sljit_emit_op0, sljitNativeARM_64.c:1579-1614 (breakpoints, nops and barriers, which change nothing here, are not modelled: `none`). -/
def emitOp0 (op : RV.Op0) (int : Bool) : Code :=
  let inv : BitVec 32 := if int then W_OP else 0#32
  match op with
  | .lmulUw | .lmulSw =>
    some [MOV ||| RD TMP_REG1 ||| RM 1, MADD ||| RD 1 ||| RN 1 ||| RM 2 ||| RT2 TMP_ZERO,
      (if op = .lmulUw then UMULH else SMULH) ||| RD 2 ||| RN TMP_REG1 ||| RM 2]
  | .divmodUw | .divmodSw =>
    some [(MOV ^^^ inv) ||| RD TMP_REG1 ||| RM 1, ((if op = .divmodUw then UDIV else SDIV) ^^^ inv) ||| RD 1 ||| RN 1 ||| RM 2,
      (MADD ^^^ inv) ||| RD 2 ||| RN 1 ||| RM 2 ||| RT2 TMP_ZERO, (SUB ^^^ inv) ||| RD 2 ||| RN TMP_REG1 ||| RM 2]
  | .divUw | .divSw => some [((if op = .divUw then UDIV else SDIV) ^^^ inv) ||| RD 1 ||| RN 1 ||| RM 2]
  | .endbr | .skipFrames => some []
  | _ => none

/-! ## Conditions -/

/-- status_flags_state: SLJIT_CURRENT_FLAGS_ADD, SLJIT_CURRENT_FLAGS_SUB or none of them. -/
inductive FState where
  | none | add | sub
  deriving DecidableEq, Repr

/-- status_flags_state after emit_op_imm, sljitNativeARM_64.c:896, 903, 1102-1144. -/
def stateAfter (op : RV.OpC) (old : FState) : FState :=
  match op with
  | .add | .addc => .add
  | .sub | .subc => .sub
  | .mul => .none
  | _ => old

/-- The integer conditions, without the negated ones (sljitLir.h:1563-1606). -/
inductive JT where
  | equal | less | greater | sigLess | sigGreater | overflow | carry
  deriving DecidableEq, Repr

/-- get_cc, sljitNativeARM_64.c:2292-2379, integer conditions; `neg` is the type with the lowest bit set. -/
def getCc (st : FState) (t : JT) (neg : Bool) : BitVec 4 :=
  match t, neg with
  | .equal, false => 0x1#4
  | .equal, true => 0x0#4
  | .carry, false => if st = .add then 0x3#4 else 0x2#4
  | .less, false => 0x2#4
  | .carry, true => if st = .add then 0x2#4 else 0x3#4
  | .less, true => 0x3#4
  | .greater, false => 0x9#4
  | .greater, true => 0x8#4
  | .sigLess, false => 0xa#4
  | .sigLess, true => 0xb#4
  | .sigGreater, false => 0xd#4
  | .sigGreater, true => 0xc#4
  | .overflow, false => if st = .none then 0x0#4 else 0x7#4
  | .overflow, true => if st = .none then 0x1#4 else 0x6#4

/-- `cc << 12`. -/
def ccBits (cc : BitVec 4) : BitVec 32 := cc.setWidth 32 <<< 12

/-- sljit_emit_op_flags with SLJIT_MOV and SLJIT_MOV32, sljitNativeARM_64.c:2586-2606. -/
def emitFlagsMov (mov32 : Bool) (dst : Opd) (cc : BitVec 4) : Code :=
  let dstR := match dst with | .reg d => d | _ => TMP_REG1
  some [CSINC ||| ccBits cc ||| RD dstR ||| RN TMP_ZERO ||| RM TMP_ZERO] +>
    match dst with
    | .mem base offs w => emitOpMem ⟨szOf mov32, false, true⟩ TMP_REG1 base offs w TMP_REG2
    | _ => some []

/-- sljit_emit_op_flags with SLJIT_AND, SLJIT_OR and SLJIT_XOR, sljitNativeARM_64.c:2608-2632. -/
def emitFlagsOp (op : RV.Op) (dst : Opd) (cc : BitVec 4) : Code :=
  let dstR := match dst with | .reg d => d | _ => TMP_REG1
  let l := loadArg (szOf op.is32) TMP_REG1 dst
  l.1 +> some [CSINC ||| ccBits cc ||| RD TMP_REG2 ||| RN TMP_ZERO ||| RM TMP_ZERO] +>
    emitOpImm (.op op.code) ⟨op.is32, hasFlags op, false⟩ dstR l.2 (.reg TMP_REG2) +>
    match dst with
    | .mem base offs w => emitOpMem ⟨szOf op.is32, false, true⟩ TMP_REG1 base offs w TMP_REG2
    | _ => some []

/-- sljit_emit_select, sljitNativeARM_64.c:2634-2662. -/
def emitSelect (int : Bool) (dst : Nat) (src1 : Opd) (src2 : Nat) (cc : BitVec 4) : Code :=
  let inv : BitVec 32 := if int then W_OP else 0#32
  let l : Code × Nat := match src1 with
    | .reg r => (some [], r)
    | .imm v => (loadImmediate TMP_REG2 (if int then (v.setWidth 32).signExtend 64 else v), TMP_REG2)
    | .mem base offs w => (emitOpMem ⟨3, false, false⟩ TMP_REG2 base offs w TMP_REG2, TMP_REG2)
  l.1 +> some [(CSEL ^^^ inv) ||| ccBits cc ||| RD dst ||| RN src2 ||| RM l.2]

end Verif.A64
