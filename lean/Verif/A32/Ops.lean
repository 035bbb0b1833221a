import Verif.A32.Arch
import Verif.Imm.Arm32
import Verif.RISCV.Ops

/-!
# Binary operations of the ARM32 backend

Model of emit_single_op, emit_op_mem, emit_op, sljit_emit_op2, sljit_emit_op2u, sljit_emit_op2r, sljit_emit_shift_into and get_cc of
sljitNativeARM_32.c.  What is emitted is a list of instruction words and constant pool loads (`Item`, Imm/Arm32.lean).  Allocation
failures are not modelled here (see C08, C10).  SLJIT_ASSERT is not modelled (a release build); `none` is SLJIT_UNREACHABLE or a register
number outside of reg_map.
-/

namespace Verif.A32
open Verif.Imm.Arm32 (regMap RM RD RN TMP_REG1 TMP_REG2 SRC2_IMM getImm computeImm Item loadImmediate)
open Verif.Imm.Arm32 (ADC ADD AND BIC EOR MOV MVN ORR RSB RSC SBC SUB)
open Verif (RV.OpC RV.Op RV.Flag)

/-- RM8, sljitNativeARM_32.c:87. -/
def RM8 (r : Nat) : BitVec 32 := (regMap r).setWidth 32 <<< 8
/-- Instruction words, sljitNativeARM_32.c:105-192. -/
def CMN : BitVec 32 := 0xe1600000#32
@[inherit_doc CMN] def CMP : BitVec 32 := 0xe1400000#32
@[inherit_doc CMN] def TST : BitVec 32 := 0xe1000000#32
@[inherit_doc CMN] def MLA : BitVec 32 := 0xe0200090#32
@[inherit_doc CMN] def MUL : BitVec 32 := 0xe0000090#32
@[inherit_doc CMN] def SMULL : BitVec 32 := 0xe0c00090#32
/-- sljitNativeARM_32.c:1281. -/
def SET_FLAGS : BitVec 32 := 1#32 <<< 20

/-- Operands: a register, a constant, [base + w] or [base + (offs << w)]; base = 0 or offs = 0 is no register (sljitLir.h:983-1019). -/
inductive Opd where
  | reg (r : Nat)
  | imm (v : BitVec 32)
  | mem (base offs : Nat) (w : BitVec 32)
  deriving DecidableEq, Repr

/-- The last argument of emit_single_op: a register or the immediate field with SRC2_IMM. -/
inductive S2 where
  | reg (r : Nat)
  | imm (w : BitVec 32)
  deriving DecidableEq, Repr

/-- `(src2 & SRC2_IMM) ? src2 : RM(src2)`, e.g. sljitNativeARM_32.c:1747. -/
def S2.enc : S2 → BitVec 32
  | .reg r => RM r
  | .imm w => w

/-- The flags of emit_single_op which matter for binary operations, sljitNativeARM_32.c:1273-1281. -/
structure Fl where
  set : Bool
  inv : Bool
  swap : Bool
  unused : Bool
  deriving DecidableEq, Repr

/-- `flags & SET_FLAGS`. -/
def Fl.s (f : Fl) : BitVec 32 := if f.set then SET_FLAGS else 0#32

/-- shift_type and is_masked of emit_single_op, sljitNativeARM_32.c:1802-1830. -/
def shiftKind : RV.OpC → Option (BitVec 32 × Bool)
  | .shl => some (0#32, false)
  | .mshl => some (0#32, true)
  | .lshr => some (1#32, false)
  | .mlshr => some (1#32, true)
  | .ashr => some (2#32, false)
  | .mashr => some (2#32, true)
  | .rotl | .rotr => some (3#32, false)
  | _ => none

/-- The shifts of emit_single_op, sljitNativeARM_32.c:1819-1857; `k` is compiler->shift_imm. -/
def emitShift (op : RV.OpC) (f : Fl) (k : BitVec 32) (dst src1 src2 : Nat) : Option (List Item) :=
  (shiftKind op).map fun (ty, masked) =>
    let pre : List Item := if op = .rotl ∧ k = 0x20#32 then [.ins (RSB ||| SRC2_IMM ||| RD TMP_REG2 ||| RN src2 ||| 0#32)] else []
    let src2 := if op = .rotl ∧ k = 0x20#32 then TMP_REG2 else src2
    let k := if op = .rotl ∧ k ≠ 0x20#32 then (-k) &&& 0x1f#32 else k
    if k ≠ 0x20#32 then
      if k ≠ 0#32 then pre ++ [.ins (MOV ||| f.s ||| RD dst ||| (k <<< 7) ||| (ty <<< 5) ||| RM src2)]
      else pre ++ [.ins (MOV ||| f.s ||| RD dst ||| RM src2)]
    else
      let msk : List Item := if masked then [.ins (AND ||| RD TMP_REG2 ||| RN src2 ||| SRC2_IMM ||| 0x1f#32)] else []
      let src2 := if masked then TMP_REG2 else src2
      pre ++ msk ++ [.ins (MOV ||| f.s ||| RD dst ||| RM8 src2 ||| (ty <<< 5) ||| 0x10#32 ||| RM src1)]

/-- emit_single_op, sljitNativeARM_32.c:1668-1858, for the binary operations; `k` is compiler->shift_imm. -/
def emitSingle (op : RV.OpC) (f : Fl) (k : BitVec 32) (dst src1 : Nat) (src2 : S2) : Option (List Item) :=
  match op with
  | .add =>
    if f.unused = true ∧ f.swap = false then some [.ins (CMN ||| SET_FLAGS ||| RN src1 ||| src2.enc)]
    else some [.ins (ADD ||| f.s ||| RD dst ||| RN src1 ||| src2.enc)]
  | .addc => some [.ins (ADC ||| f.s ||| RD dst ||| RN src1 ||| src2.enc)]
  | .sub =>
    if f.unused = true ∧ f.swap = false then some [.ins (CMP ||| SET_FLAGS ||| RN src1 ||| src2.enc)]
    else some [.ins ((if f.swap then RSB else SUB) ||| f.s ||| RD dst ||| RN src1 ||| src2.enc)]
  | .subc => some [.ins ((if f.swap then RSC else SBC) ||| f.s ||| RD dst ||| RN src1 ||| src2.enc)]
  | .mul =>
    match src2 with
    | .imm _ => none
    | .reg src2 =>
      if f.set = false then some [.ins (MUL ||| RN dst ||| RM8 src2 ||| RM src1)]
      else
        let reg := if dst = TMP_REG1 then TMP_REG2 else TMP_REG1
        some [.ins (SMULL ||| RN reg ||| RD dst ||| RM8 src2 ||| RM src1), .ins (CMP ||| SET_FLAGS ||| RN reg ||| RM dst ||| 0xfc0#32)]
  | .and =>
    if f.unused = true ∧ f.inv = false then some [.ins (TST ||| SET_FLAGS ||| RN src1 ||| src2.enc)]
    else some [.ins ((if f.inv then BIC else AND) ||| f.s ||| RD dst ||| RN src1 ||| src2.enc)]
  | .or => some [.ins (ORR ||| f.s ||| RD dst ||| RN src1 ||| src2.enc)]
  | .xor =>
    if f.inv then some [.ins (MVN ||| f.s ||| RD dst ||| RM src1)]
    else some [.ins (EOR ||| f.s ||| RD dst ||| RN src1 ||| src2.enc)]
  | _ =>
    match src2 with
    | .imm _ => none
    | .reg src2 => emitShift op f k dst src1 src2

/-- The type of a data transfer, the index of data_transfer_insts (sljitNativeARM_32.c:1216-1221): size, SIGNED, LOAD_DATA. -/
structure Ty where
  size : Nat
  sg : Bool
  load : Bool
  deriving DecidableEq, Repr

/-- data_transfer_insts, sljitNativeARM_32.c:1235-1255; size 0 is a word, 1 a byte, 2 a halfword (preloads are not modelled). -/
def transferInst (t : Ty) : BitVec 32 :=
  match t.load, t.sg, t.size with
  | false, _, 0 => 0xe5000000#32
  | false, _, 1 => 0xe5400000#32
  | false, _, _ => 0xe10000b0#32
  | true, _, 0 => 0xe5100000#32
  | true, false, 1 => 0xe5500000#32
  | true, false, _ => 0xe11000b0#32
  | true, true, 1 => 0xe11000d0#32
  | true, true, _ => 0xe11000f0#32

/-- IS_TYPE1_TRANSFER, sljitNativeARM_32.c:1262-1263. -/
def isType1 (t : Ty) : Bool := transferInst t &&& 0x04000000#32 ≠ 0#32
/-- TYPE2_TRANSFER_IMM, sljitNativeARM_32.c:1264-1265. -/
def type2Imm (imm : BitVec 32) : BitVec 32 := (imm &&& 0xf#32) ||| ((imm &&& 0xf0#32) <<< 4) ||| (1#32 <<< 22)
/-- EMIT_DATA_TRANSFER, sljitNativeARM_32.c:1257-1258. -/
def dataTransfer (t : Ty) (add : Bool) (target base : Nat) (arg : BitVec 32) : BitVec 32 :=
  transferInst t ||| (if add then 1#32 <<< 23 else 0#32) ||| RD target ||| RN base ||| arg

/-- `(tmp <= sign ? 0 : sign)` for tmp = x & (sign | mask), rounded: sljitNativeARM_32.c:2058-2059, 2096-2097, 2108-2109.  The addition
of sljit_sw wraps here (in C it overflows for the largest constants). -/
def roundOff (sign mask x : BitVec 32) : BitVec 32 := (x + (if x &&& (sign ||| mask) ≤ sign then 0#32 else sign)) &&& ~~~ mask

/-- An offset which fits, sljitNativeARM_32.c:2118-2131. -/
def opMemNear (t : Ty) (reg base : Nat) (argw : BitVec 32) : List Item :=
  if (0#32).sle argw then [.ins (dataTransfer t true reg base (if isType1 t then argw else type2Imm argw))]
  else [.ins (dataTransfer t false reg base (if isType1 t then -argw else type2Imm (-argw)))]

/-- emit_op_mem after the choice of the base, sljitNativeARM_32.c:2118-2136. -/
def opMemEnd (v6 : Bool) (t : Ty) (reg base : Nat) (argw : BitVec 32) (tmp : Nat) (mask : BitVec 32) : List Item :=
  if argw.sle mask ∧ (-mask).sle argw then opMemNear t reg base argw
  else loadImmediate v6 tmp argw ++ [.ins (dataTransfer t true reg base (RM tmp ||| (if isType1 t then 1#32 <<< 25 else 0#32)))]

/-- emit_op_mem, sljitNativeARM_32.c:2048-2137, for [base + argw] or [base + (offs << argw)]. -/
def emitOpMem (v6 : Bool) (t : Ty) (reg base offs : Nat) (argw : BitVec 32) (tmp : Nat) : List Item :=
  let mask : BitVec 32 := if isType1 t then 0xfff#32 else 0xff#32
  let sign : BitVec 32 := if isType1 t then 0x1000#32 else 0x100#32
  if base = 0 then
    let a := roundOff sign mask argw
    loadImmediate v6 tmp a ++ opMemNear t reg tmp (argw - a)
  else if offs ≠ 0 then
    let k := argw &&& 3#32
    if k ≠ 0#32 ∧ isType1 t = false then
      [.ins (ADD ||| RD tmp ||| RN base ||| RM offs ||| (k <<< 7)), .ins (dataTransfer t true reg tmp (type2Imm 0#32))]
    else [.ins (dataTransfer t true reg base (RM offs ||| (if isType1 t then 1#32 <<< 25 else 0#32) ||| (k <<< 7)))]
  else if mask.slt argw ∧ getImm (roundOff sign mask argw) ≠ 0#32 then
    .ins (ADD ||| RD tmp ||| RN base ||| getImm (roundOff sign mask argw)) ::
      opMemEnd v6 t reg tmp (argw - roundOff sign mask argw) tmp mask
  else if argw.slt (-mask) ∧ getImm (roundOff sign mask (-argw)) ≠ 0#32 then
    .ins (SUB ||| RD tmp ||| RN base ||| getImm (roundOff sign mask (-argw))) ::
      opMemEnd v6 t reg tmp (argw + roundOff sign mask (-argw)) tmp mask
  else opMemEnd v6 t reg base argw tmp mask

/-- The words of emit_op: WORD_SIZE and WORD_SIZE | LOAD_DATA. -/
def wordTy (load : Bool) : Ty := ⟨0, false, load⟩

/-- ALLOW_IMM, ALLOW_INV_IMM, ALLOW_NEG_IMM, ALLOW_DOUBLE_IMM, sljitNativeARM_32.c:1224-1228. -/
structure Inp where
  imm : Bool
  inv : Bool
  neg : Bool
  dbl : Bool
  deriving DecidableEq, Repr

/-- neg_op of emit_op, sljitNativeARM_32.c:2167-2186. -/
def negOp : RV.OpC → Option RV.OpC
  | .add => some .sub
  | .addc => some .subc
  | .sub => some .add
  | .subc => some .addc
  | _ => none

/-- What the immediate selection of emit_op yields: op, flags, src1 and src2_reg (`none` is zero). -/
structure Pick where
  op : RV.OpC
  inv : Bool
  swap : Bool
  src1 : Opd
  s2 : Option S2
  deriving DecidableEq, Repr

/-- The second operand in the do-while block of emit_op, sljitNativeARM_32.c:2193-2213; `none`: no break. -/
def pick2 (op : RV.OpC) (neg : Option RV.OpC) (inp : Inp) (src1 src2 : Opd) : Option Pick :=
  match src2 with
  | .imm w =>
    if getImm w ≠ 0#32 then some ⟨op, false, false, src1, some (.imm (getImm w))⟩
    else if inp.inv = true ∧ getImm (~~~ w) ≠ 0#32 then some ⟨op, true, false, src1, some (.imm (getImm (~~~ w)))⟩
    else
      match neg with
      | none => none
      | some no =>
        let n := if no = .add ∨ no = .sub then -w else ~~~ w
        if getImm n ≠ 0#32 then some ⟨no, false, false, src1, some (.imm (getImm n))⟩ else none
  | _ => none

/-- The first operand in the do-while block of emit_op, sljitNativeARM_32.c:2215-2246. -/
def pick1 (op : RV.OpC) (neg : Option RV.OpC) (inp : Inp) (src1 src2 : Opd) : Option Pick :=
  match src1 with
  | .imm w =>
    if getImm w ≠ 0#32 then some ⟨op, false, true, src2, some (.imm (getImm w))⟩
    else if inp.inv = true ∧ getImm (~~~ w) ≠ 0#32 then some ⟨op, true, true, src2, some (.imm (getImm (~~~ w)))⟩
    else
      match neg with
      | some .sub => if getImm (-w) ≠ 0#32 then some ⟨.sub, false, false, src2, some (.imm (getImm (-w)))⟩ else none
      | some .subc => if getImm (-w) ≠ 0#32 then some ⟨.subc, false, false, src2, some (.imm (getImm (-w)))⟩ else none
      | _ => none
  | _ => none

/-- The do-while block of emit_op, sljitNativeARM_32.c:2189-2247. -/
def pick (op : RV.OpC) (neg : Option RV.OpC) (inp : Inp) (src1 src2 : Opd) : Pick :=
  if inp.imm then (pick2 op neg inp src1 src2).getD ((pick1 op neg inp src1 src2).getD ⟨op, false, false, src1, none⟩)
  else ⟨op, false, false, src1, none⟩

/-- FAST_IS_REG. -/
def Opd.isReg : Opd → Bool
  | .reg _ => true
  | _ => false

/-- `compute_imm(w)`, then for operations with neg_op `compute_imm(-w)`: the operation and the two immediates
(sljitNativeARM_32.c:2305-2311, 2332-2338). -/
def double (op : RV.OpC) (neg : Option RV.OpC) (w : BitVec 32) : Option (RV.OpC × BitVec 32 × BitVec 32) :=
  match computeImm w with
  | some (i1, i2) => some (op, i1, i2)
  | none =>
    match neg with
    | none => none
    | some no => (computeImm (-w)).map fun (i1, i2) => (no, i1, i2)

/-- `a` then `b`. -/
def cat (a : Option (List Item)) (b : Option (List Item)) : Option (List Item) := a.bind fun x => b.map fun y => x ++ y

/-- The operation after the operands are in registers or immediates, and the store of the result (sljitNativeARM_32.c:2351-2357). -/
def opEnd (v6 : Bool) (op : RV.OpC) (f : Fl) (k : BitVec 32) (dst : Opd) (dr src1 : Nat) (src2 : S2) : Option (List Item) :=
  cat (emitSingle op f k dr src1 src2)
    (match dst with
      | .mem base offs w => some (emitOpMem v6 (wordTy false) dr base offs w TMP_REG1)
      | _ => some [])

/-- The register of the destination, sljitNativeARM_32.c:2250. -/
def dstReg : Opd → Nat
  | .reg d => d
  | _ => TMP_REG2

/-- emit_op after src1 is in a register and src2 is a constant, sljitNativeARM_32.c:2292-2327; `t2` is src2_tmp_reg. -/
def op2Imm (v6 : Bool) (neg : Option RV.OpC) (inp : Inp) (op : RV.OpC) (f : Fl) (k : BitVec 32) (dst : Opd) (src1 t2 : Nat) (w : BitVec 32) :
    Option (List Item) :=
  let dr := dstReg dst
  if inp.dbl then
    match double op neg w with
    | some (op, i1, i2) =>
      cat (emitSingle op f k dr src1 (.imm i1))
        (opEnd v6 (if op = .addc then .add else if op = .subc then .sub else op) f k dst dr dr (.imm i2))
    | none => cat (some (loadImmediate v6 t2 w)) (opEnd v6 op f k dst dr src1 (.reg t2))
  else cat (some (loadImmediate v6 t2 w)) (opEnd v6 op f k dst dr src1 (.reg t2))

/-- emit_op with a constant src1 and src2 in a register, ALLOW_DOUBLE_IMM, sljitNativeARM_32.c:2329-2349. -/
def op1Imm (v6 : Bool) (neg : Option RV.OpC) (op : RV.OpC) (f : Fl) (k : BitVec 32) (dst : Opd) (w : BitVec 32) (src2 : Nat) : Option (List Item) :=
  let dr := dstReg dst
  match double op neg w with
  | some (op, i1, i2) =>
    cat (emitSingle op f k dr src2 (.imm i1)) (opEnd v6 (if op = .addc then .add else op) f k dst dr dr (.imm i2))
  | none => cat (some (loadImmediate v6 TMP_REG1 w)) (opEnd v6 op f k dst dr TMP_REG1 (.reg src2))

/-- emit_op after the immediate selection, sljitNativeARM_32.c:2249-2357; `set` is HAS_FLAGS(op). -/
def emitRest (v6 : Bool) (neg : Option RV.OpC) (inp : Inp) (set : Bool) (k : BitVec 32) (dst : Opd) (p : Pick) (src2 : Opd) : Option (List Item) :=
  let f : Fl := ⟨set, p.inv, p.swap, decide (dst = .reg TMP_REG1)⟩
  let dr := dstReg dst
  let t2 := if p.src1.isReg then TMP_REG1 else TMP_REG2
  let ld2 : List Item := match p.s2, src2 with
    | none, .mem base offs w => emitOpMem v6 (wordTy true) t2 base offs w TMP_REG1
    | _, _ => []
  let s2 : Option S2 := match p.s2, src2 with
    | none, .mem _ _ _ => some (.reg t2)
    | x, _ => x
  cat (some ld2) <|
    match p.src1 with
    | .imm w =>
      if inp.dbl = false ∨ s2 ≠ none ∨ p.op = .sub ∨ p.op = .subc then
        cat (some (loadImmediate v6 TMP_REG1 w))
          (match s2, src2 with
            | some x, _ => opEnd v6 p.op f k dst dr TMP_REG1 x
            | none, .imm w2 => op2Imm v6 neg inp p.op f k dst TMP_REG1 t2 w2
            | none, .reg r => opEnd v6 p.op f k dst dr TMP_REG1 (.reg r)
            | none, .mem _ _ _ => none)
      else
        match src2 with
        | .reg r => op1Imm v6 neg p.op f k dst w r
        | .imm w2 => cat (some (loadImmediate v6 TMP_REG1 w)) (op2Imm v6 neg inp p.op f k dst TMP_REG1 t2 w2)
        | .mem _ _ _ => none
    | src1 =>
      cat (match src1 with
          | .mem base offs w => some (emitOpMem v6 (wordTy true) TMP_REG1 base offs w TMP_REG1)
          | _ => some [])
        (let r1 := match src1 with
            | .reg r => r
            | _ => TMP_REG1
          match s2, src2 with
          | some x, _ => opEnd v6 p.op f k dst dr r1 x
          | none, .imm w2 => op2Imm v6 neg inp p.op f k dst r1 t2 w2
          | none, .reg r => opEnd v6 p.op f k dst dr r1 (.reg r)
          | none, .mem _ _ _ => none)

/-- HAS_FLAGS(op). -/
def hasFlags (op : RV.Op) : Bool := op.setZ || decide (op.flag ≠ .none)

/-- emit_op, sljitNativeARM_32.c:2139-2357, for binary operations. -/
def emitOp (v6 : Bool) (op : RV.OpC) (set : Bool) (inp : Inp) (k : BitVec 32) (dst src1 src2 : Opd) : Option (List Item) :=
  let inp := if set then { inp with dbl := false } else inp
  let neg := if inp.neg then negOp op else none
  emitRest v6 neg inp set k dst (pick op neg inp src1 src2) src2

/-- sljit_emit_op2, sljitNativeARM_32.c:2502-2556 (ADJUST_LOCAL_OFFSET is in the operands already; shift_imm matters only for shifts). -/
def emitOp2 (v6 : Bool) (op : RV.Op) (dst src1 src2 : Opd) : Option (List Item) :=
  match op.code with
  | .add | .addc | .sub | .subc => emitOp v6 op.code (hasFlags op) ⟨true, false, true, true⟩ 0#32 dst src1 src2
  | .or => emitOp v6 op.code (hasFlags op) ⟨true, false, false, true⟩ 0#32 dst src1 src2
  | .xor => emitOp v6 op.code (hasFlags op) ⟨true, decide (src1 = .imm (-1#32) ∨ src2 = .imm (-1#32)), false, true⟩ 0#32 dst src1 src2
  | .mul => emitOp v6 op.code (hasFlags op) ⟨false, false, false, false⟩ 0#32 dst src1 src2
  | .and => emitOp v6 op.code (hasFlags op) ⟨true, true, false, false⟩ 0#32 dst src1 src2
  | .shl | .mshl | .lshr | .mlshr | .ashr | .mashr | .rotl | .rotr =>
    match src2 with
    | .imm w => emitOp v6 op.code (hasFlags op) ⟨false, false, false, false⟩ (w &&& 0x1f#32) dst (.reg TMP_REG1) src1
    | _ => emitOp v6 op.code (hasFlags op) ⟨false, false, false, false⟩ 0x20#32 dst src1 src2
  | _ => some []

/-- sljit_emit_op2u, sljitNativeARM_32.c:2558-2567. -/
def emitOp2u (v6 : Bool) (op : RV.Op) (src1 src2 : Opd) : Option (List Item) := emitOp2 v6 op (.reg TMP_REG1) src1 src2

/-- Loading a source of sljit_emit_op2r, which has no immediates (emit_op with inp_flags 0, sljitNativeARM_32.c:2269-2293): the code and the register. -/
def loadSrc (v6 : Bool) (t : Nat) : Opd → List Item × Nat
  | .reg r => ([], r)
  | .imm w => (loadImmediate v6 t w, t)
  | .mem base offs w => (emitOpMem v6 (wordTy true) t base offs w TMP_REG1, t)

/-- sljit_emit_op2r (SLJIT_MULADD), sljitNativeARM_32.c:2569-2586 with emit_op 2269-2293 and emit_single_op 1837-1838: a second source in the
memory is loaded first, a constant one last. -/
def emitMulAdd (v6 : Bool) (dst : Nat) (src1 src2 : Opd) : List Item :=
  let t2 := if src1.isReg then TMP_REG1 else TMP_REG2
  let (c1, r1) := loadSrc v6 TMP_REG1 src1
  let (c2, r2) := loadSrc v6 t2 src2
  (match src2 with
    | .mem _ _ _ => c2 ++ c1
    | _ => c1 ++ c2) ++ [.ins (MLA ||| RN dst ||| RD dst ||| RM8 r2 ||| RM r1)]

/-- sljit_emit_shift_into, sljitNativeARM_32.c:2588-2640; `masked`: SLJIT_MSHL or SLJIT_MLSHR. -/
def emitShiftInto (v6 : Bool) (left masked : Bool) (dst src1 src2 : Nat) (src3 : Opd) : Option (List Item) :=
  if src1 = src2 then emitOp2 v6 ⟨if left then .rotl else .rotr, false, false, .none⟩ (.reg dst) (.reg src1) src3
  else
    let t1 : BitVec 32 := (if left then 0#32 else 1#32) <<< 5
    let t2 : BitVec 32 := (if left then 1#32 else 0#32) <<< 5
    match src3 with
    | .imm w =>
      let k := w &&& 0x1f#32
      if k = 0#32 then some []
      else some [.ins (MOV ||| RD dst ||| RM src1 ||| t1 ||| (k <<< 7)),
        .ins (ORR ||| RD dst ||| RN dst ||| RM src2 ||| t2 ||| (((k ^^^ 0x1f#32) + 1#32) <<< 7))]
    | src3 =>
      let ld : List Item := match src3 with
        | .mem base offs w => emitOpMem v6 (wordTy true) TMP_REG2 base offs w TMP_REG2
        | _ => []
      let r3 := match src3 with
        | .reg r => r
        | _ => TMP_REG2
      let m := masked || decide (dst = r3)
      let msk : List Item := if m then [.ins (AND ||| SRC2_IMM ||| RD TMP_REG2 ||| RN r3 ||| 0x1f#32)] else []
      let r3 := if m then TMP_REG2 else r3
      some (ld ++ msk ++ [.ins (MOV ||| RD dst ||| RM8 r3 ||| t1 ||| 0x10#32 ||| RM src1),
        .ins (MOV ||| RD TMP_REG1 ||| RM src2 ||| t2 ||| (1#32 <<< 7)),
        .ins (EOR ||| SRC2_IMM ||| RD TMP_REG2 ||| RN r3 ||| 0x1f#32),
        .ins (ORR ||| RD dst ||| RN dst ||| RM8 TMP_REG2 ||| t2 ||| 0x10#32 ||| RM TMP_REG1)])

/-- compiler->status_flags_state: SLJIT_CURRENT_FLAGS_ADD, SLJIT_CURRENT_FLAGS_SUB or neither. -/
inductive FState where
  | none | add | sub
  deriving DecidableEq, Repr

/-- status_flags_state after sljit_emit_op2 (sljitNativeARM_32.c:1771, 2167-2185); other operations keep it. -/
def stateAfter (op : RV.OpC) (old : FState) : FState :=
  match op with
  | .add | .addc => .add
  | .sub | .subc => .sub
  | .mul => .none
  | _ => old

/-- The integer conditions, without the negated ones (sljitLir.h:1563-1606). -/
inductive JT where
  | equal | less | greater | sigLess | sigGreater | overflow | carry
  deriving DecidableEq, Repr

/-- get_cc, sljitNativeARM_32.c:3072-3147, integer conditions: bits 31-28; `neg` is the type with the lowest bit set. -/
def getCc (st : FState) (t : JT) (neg : Bool) : BitVec 4 :=
  match t, neg with
  | .equal, false => 0#4
  | .equal, true => 1#4
  | .carry, false => if st = .add then 2#4 else 3#4
  | .less, false => 3#4
  | .carry, true => if st = .add then 3#4 else 2#4
  | .less, true => 2#4
  | .greater, false => 8#4
  | .greater, true => 9#4
  | .sigLess, false => 11#4
  | .sigLess, true => 10#4
  | .sigGreater, false => 12#4
  | .sigGreater, true => 13#4
  | .overflow, false => if st = .none then 1#4 else 6#4
  | .overflow, true => if st = .none then 0#4 else 7#4

end Verif.A32
