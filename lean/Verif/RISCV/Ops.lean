import Verif.RISCV.LoadImm

/-!
# Integer operations on registers (model of `emit_single_op`, sljitNativeRISCV_common.c:1722-2427)

`WORD` is `(op & SLJIT_32) >> 5`, the boolean `op.is32`.  `flags` is reduced to the three bits that `emit_single_op`
reads besides SRC2_IMM: UNUSED_DEST, REG_DEST and REG2_SOURCE (`SF`); SRC2_IMM is the constructor of the second source.
`SLJIT_ASSERT`s emit nothing.
-/

namespace Verif.RV

/-- `GET_OPCODE(op)` for the operations handled by emit_single_op (sljitLir.h:1246-1440). -/
inductive OpC
  | mov | movU8 | movS8 | movU16 | movS16 | movU32 | movS32
  | clz | ctz | rev | revU16 | revS16 | revU32 | revS32
  | add | addc | sub | subc | mul | and | or | xor
  | shl | mshl | lshr | mlshr | ashr | mashr | rotl | rotr
  deriving DecidableEq, Repr

/-- `GET_FLAG_TYPE(op)`: the values that an operation may carry after CHECK_FLAGS; SLJIT_SET_GREATER_EQUAL is
SLJIT_SET(SLJIT_LESS) and so on (sljitLir.h:1120-1160). -/
inductive Flag
  | none | less | greater | sigLess | sigGreater | overflow | carry
  deriving DecidableEq, Repr

/-- The `op` argument: opcode, SLJIT_32, SLJIT_SET_Z, variable flag. -/
structure Op where
  code : OpC
  is32 : Bool
  setZ : Bool
  flag : Flag
  deriving DecidableEq, Repr

/-- The second source of emit_single_op: a register, or an immediate (flags & SRC2_IMM). -/
inductive S2
  | reg (r : Nat)
  | imm (v : BitVec 64)
  deriving DecidableEq, Repr

/-- The bits of `flags` read by emit_single_op (sljitNativeRISCV_common.c:1124-1128). -/
structure SF where
  unused : Bool
  regDest : Bool
  reg2Src : Bool
  deriving DecidableEq, Repr

/-- `src2 <= SIMM16_MAX && src2 >= SIMM16_MIN`. -/
def fits6 (i : BitVec 64) : Bool := decide (i.toInt ≤ SIMM16_MAX) && decide (SIMM16_MIN ≤ i.toInt)

/-- `C_MV`/`ADDI` register copy, the pattern used at :2020-2023, :2070-2073, :2100-2103, :2207-2210, :2245-2248. -/
def emitCopy (cfg : Cfg) (dst src : Nat) : Emit :=
  if cfg.c then w16 (C_MV ||| C_RD dst ||| C_RS2 src) else w32 (ADDI ||| RD dst ||| RS1 src ||| IMM_I 0#64)

/-- emit_add (sljitNativeRISCV_common.c:1733-1751). -/
def emitAdd (cfg : Cfg) (w : Bool) (dst src1 src2 : Nat) : Emit :=
  let (src1, src2) := if dst = src2 then (dst, src1) else (src1, src2)
  if cfg.c = true ∧ dst = src1 ∧ w = false ∧ src2 ≠ 0 then w16 (C_ADD ||| C_RD dst ||| C_RS2 src2)
  else if cfg.c = true ∧ dst = src1 ∧ w = true ∧ C_IS_R3 dst = true ∧ C_IS_R3 src2 = true then
    w16 (C_ADDW ||| C_RS1_R3 dst ||| C_RS2_R3 src2)
  else w32 (ADD ||| WORD w ||| RD dst ||| RS1 src1 ||| RS2 src2)

/-- The `ADDI`/`C_ADDI` pair of SLJIT_ADD, ADDC, SUB, SUBC (:2033-2036, :2088-2091, :2185-2188, :2220-2223,
:2269-2272). -/
def emitAddImm (cfg : Cfg) (w : Bool) (dst src1 : Nat) (i : BitVec 64) : Emit :=
  if cfg.c = true ∧ dst = src1 ∧ fits6 i = true then w16 (C_ADDI_W w ||| C_RD dst ||| C_IMM_I i)
  else w32 (ADDI ||| WORD w ||| RD dst ||| RS1 src1 ||| IMM_I i)

/-- The `SUB`/`C_SUB` pair (:2196-2199, :2237-2240, :2277-2280). -/
def emitSubReg (cfg : Cfg) (w : Bool) (dst src1 src2 : Nat) : Emit :=
  if cfg.c = true ∧ dst = src1 ∧ C_IS_R3 dst = true ∧ C_IS_R3 src2 = true then
    w16 (C_SUB_W w ||| C_RS1_R3 dst ||| C_RS2_R3 src2)
  else w32 (SUB ||| WORD w ||| RD dst ||| RS1 src1 ||| RS2 src2)

/-- `IMM_EXTEND(v)` (sljitNativeRISCV_common.c:1730). -/
def immExt (w : Bool) (v : BitVec 64) : BitVec 64 := if w then v else 32#64 + v

/-- EQUAL_FLAG preparation for the overflow computation with an immediate (:2018-2026, :2205-2213). -/
def emitOvImm (cfg : Cfg) (src1 : Nat) (i : BitVec 64) : Emit :=
  if 0 ≤ i.toInt then emitCopy cfg EQUAL_FLAG src1
  else w32 (XORI ||| RD EQUAL_FLAG ||| RS1 src1 ||| IMM_I (-1#64))

/-- The end of the overflow computation (:2067-2077, :2242-2252). -/
def emitOvTail (cfg : Cfg) (op : Op) (dst : Nat) : Emit :=
  w32 (XOR ||| RD TMP_REG1 ||| RS1 dst ||| RS2 EQUAL_FLAG) ++
  ((if op.setZ = true then emitCopy cfg EQUAL_FLAG dst else []) ++
  (w32 (SRLI ||| WORD op.is32 ||| RD TMP_REG1 ||| RS1 TMP_REG1 ||| IMM_I (immExt op.is32 31#64)) ++
  w32 (XOR ||| RD OTHER_FLAG ||| RS1 TMP_REG1 ||| RS2 OTHER_FLAG)))

/-- `carry_src_r` of SLJIT_ADD and ADDC with a register as second source (:2050-2058, :2093-2106): the register the
sum is compared to; `alt` is the register that receives a copy when both sources are the destination. -/
def carrySrc (dst src1 src2 alt : Nat) : Nat :=
  if src1 ≠ dst then src1 else if src2 ≠ dst then src2 else alt

/-- SLJIT_ADD (sljitNativeRISCV_common.c:2012-2081). -/
def emitAddOp (cfg : Cfg) (op : Op) (fl : SF) (dst src1 : Nat) (src2 : S2) : Emit :=
  let w := op.is32
  match src2 with
  | .imm i =>
    (if op.flag = .overflow then emitOvImm cfg src1 i
     else if op.setZ = true then w32 (ADDI ||| WORD w ||| RD EQUAL_FLAG ||| RS1 src1 ||| IMM_I i) else []) ++
    ((if fl.unused = false ∨ op.flag ≠ .none then emitAddImm cfg w dst src1 i else []) ++
    ((if op.flag = .overflow ∨ op.flag = .carry then w32 (SLTUI ||| RD OTHER_FLAG ||| RS1 dst ||| IMM_I i) else []) ++
    (if op.flag = .overflow then emitOvTail cfg op dst else [])))
  | .reg b =>
    (if op.flag = .overflow then w32 (XOR ||| RD EQUAL_FLAG ||| RS1 src1 ||| RS2 b)
     else if op.setZ = true then w32 (ADD ||| WORD w ||| RD EQUAL_FLAG ||| RS1 src1 ||| RS2 b) else []) ++
    ((if (op.flag = .overflow ∨ op.flag = .carry) ∧ src1 = dst ∧ b = dst then
        w32 (ADDI ||| RD OTHER_FLAG ||| RS1 src1 ||| IMM_I 0#64) else []) ++
    ((if fl.unused = false ∨ op.flag ≠ .none then emitAdd cfg w dst src1 b else []) ++
    ((if op.flag = .overflow ∨ (op.flag = .carry ∧ carrySrc dst src1 b OTHER_FLAG ≠ 0) then
        w32 (SLTU ||| RD OTHER_FLAG ||| RS1 dst ||| RS2 (carrySrc dst src1 b OTHER_FLAG)) else []) ++
    (if op.flag = .overflow then emitOvTail cfg op dst else []))))

/-- The end of SLJIT_ADDC (:2116-2127); `cy` is `carry_src_r != 0`. -/
def emitAddcTail (cfg : Cfg) (w : Bool) (cy : Bool) (dst : Nat) : Emit :=
  (if cfg.c = true ∧ w = false then w16 (C_ADD ||| C_RD dst ||| C_RS2 OTHER_FLAG)
   else w32 (ADD ||| WORD w ||| RD dst ||| RS1 dst ||| RS2 OTHER_FLAG)) ++
  (if cy = true then
    w32 (SLTU ||| RD OTHER_FLAG ||| RS1 dst ||| RS2 OTHER_FLAG) ++
    w32 (OR ||| RD OTHER_FLAG ||| RS1 OTHER_FLAG ||| RS2 EQUAL_FLAG)
   else [])

/-- SLJIT_ADDC (sljitNativeRISCV_common.c:2083-2128). -/
def emitAddcOp (cfg : Cfg) (op : Op) (dst src1 : Nat) (src2 : S2) : Emit :=
  let w := op.is32
  match src2 with
  | .imm i =>
    emitAddImm cfg w dst src1 i ++
    ((if op.flag = .carry then w32 (SLTUI ||| RD EQUAL_FLAG ||| RS1 dst ||| IMM_I i) else []) ++
    emitAddcTail cfg w (op.flag == .carry) dst)
  | .reg b =>
    (if op.flag = .carry ∧ src1 = dst ∧ b = dst then emitCopy cfg EQUAL_FLAG src1 else []) ++
    (emitAdd cfg w dst src1 b ++
    ((if op.flag = .carry ∧ carrySrc dst src1 b EQUAL_FLAG ≠ 0 then
        w32 (SLTU ||| RD EQUAL_FLAG ||| RS1 dst ||| RS2 (carrySrc dst src1 b EQUAL_FLAG)) else []) ++
    emitAddcTail cfg w (op.flag == .carry && carrySrc dst src1 b EQUAL_FLAG != 0) dst))

/-- The `src2 == SIMM_MIN` prologue of SLJIT_SUB and SUBC (:2131-2135, :2256-2260). -/
def subMin (src2 : S2) : Emit × S2 :=
  match src2 with
  | .imm i => if i.toInt = SIMM_MIN then (w32 (ADDI ||| RD TMP_REG2 ||| RS1 TMP_ZERO ||| IMM_I i), .reg TMP_REG2) else ([], .imm i)
  | .reg b => ([], .reg b)

/-- SLJIT_SUB with one of the comparison flags: the immediate is moved to a register unless the flag is LESS or
SIG_LESS (:2140-2177). -/
def subCmpLoad (cfg : Cfg) (op : Op) (src1 : Nat) (src2 : S2) : Emit × S2 :=
  match src2 with
  | .imm i =>
    if op.flag = .less ∨ op.flag = .sigLess then ([], .imm i)
    else
      let reg := if src1 = TMP_REG1 then TMP_REG2 else TMP_REG1
      (if cfg.c = true ∧ fits6 i = true then w16 (C_LI ||| C_RD reg ||| C_IMM_I i)
       else w32 (ADDI ||| RD reg ||| RS1 TMP_ZERO ||| IMM_I i), .reg reg)
  | .reg b => ([], .reg b)

/-- The comparison of SLJIT_SUB (:2141-2147, :2163-2176). -/
def subCmp (op : Op) (src1 : Nat) (src2 : S2) : Emit :=
  match src2, op.flag with
  | .imm i, .less => w32 (SLTUI ||| RD OTHER_FLAG ||| RS1 src1 ||| IMM_I i)
  | .imm i, .sigLess => w32 (SLTI ||| RD OTHER_FLAG ||| RS1 src1 ||| IMM_I i)
  | .reg b, .less => w32 (SLTU ||| RD OTHER_FLAG ||| RS1 src1 ||| RS2 b)
  | .reg b, .greater => w32 (SLTU ||| RD OTHER_FLAG ||| RS1 b ||| RS2 src1)
  | .reg b, .sigLess => w32 (SLT ||| RD OTHER_FLAG ||| RS1 src1 ||| RS2 b)
  | .reg b, .sigGreater => w32 (SLT ||| RD OTHER_FLAG ||| RS1 b ||| RS2 src1)
  | _, _ => []

/-- The `is_handled` part of SLJIT_SUB (:2179-2202). -/
def subHandled (cfg : Cfg) (op : Op) (fl : SF) (dst src1 : Nat) (src2 : S2) : Emit :=
  let w := op.is32
  match src2 with
  | .imm i =>
    (if op.setZ = true then w32 (ADDI ||| WORD w ||| RD EQUAL_FLAG ||| RS1 src1 ||| IMM_I (-i)) else []) ++
    (if fl.unused = false then emitAddImm cfg w dst src1 (-i) else [])
  | .reg b =>
    (if op.setZ = true then w32 (SUB ||| WORD w ||| RD EQUAL_FLAG ||| RS1 src1 ||| RS2 b) else []) ++
    (if fl.unused = false then emitSubReg cfg w dst src1 b else [])

/-- The rest of SLJIT_SUB (:2204-2253). -/
def subRest (cfg : Cfg) (op : Op) (fl : SF) (dst src1 : Nat) (src2 : S2) : Emit :=
  let w := op.is32
  match src2 with
  | .imm i =>
    (if op.flag = .overflow then emitOvImm cfg src1 i
     else if op.setZ = true then w32 (ADDI ||| WORD w ||| RD EQUAL_FLAG ||| RS1 src1 ||| IMM_I (-i)) else []) ++
    ((if op.flag = .overflow ∨ op.flag = .carry then w32 (SLTUI ||| RD OTHER_FLAG ||| RS1 src1 ||| IMM_I i) else []) ++
    ((if fl.unused = false ∨ op.flag ≠ .none then emitAddImm cfg w dst src1 (-i) else []) ++
    (if op.flag = .overflow then emitOvTail cfg op dst else [])))
  | .reg b =>
    (if op.flag = .overflow then w32 (XOR ||| RD EQUAL_FLAG ||| RS1 src1 ||| RS2 b)
     else if op.setZ = true then w32 (SUB ||| WORD w ||| RD EQUAL_FLAG ||| RS1 src1 ||| RS2 b) else []) ++
    ((if op.flag = .overflow ∨ op.flag = .carry then w32 (SLTU ||| RD OTHER_FLAG ||| RS1 src1 ||| RS2 b) else []) ++
    ((if fl.unused = false ∨ op.flag ≠ .none then emitSubReg cfg w dst src1 b else []) ++
    (if op.flag = .overflow then emitOvTail cfg op dst else [])))

/-- The flag types LESS .. SIG_LESS_EQUAL. -/
def Flag.isCmp : Flag → Bool
  | .less | .greater | .sigLess | .sigGreater => true
  | _ => false

/-- SLJIT_SUB (sljitNativeRISCV_common.c:2130-2253). -/
def emitSubOp (cfg : Cfg) (op : Op) (fl : SF) (dst src1 : Nat) (src2 : S2) : Emit :=
  (subMin src2).1 ++
  (if op.flag.isCmp = true then
    (subCmpLoad cfg op src1 (subMin src2).2).1 ++
    (subCmp op src1 (subCmpLoad cfg op src1 (subMin src2).2).2 ++
    subHandled cfg op fl dst src1 (subCmpLoad cfg op src1 (subMin src2).2).2)
   else subRest cfg op fl dst src1 (subMin src2).2)

/-- The part of SLJIT_SUBC after the `src2 == SIMM_MIN` prologue (:2262-2294). -/
def subcRest (cfg : Cfg) (op : Op) (dst src1 : Nat) (src2 : S2) : Emit :=
  let w := op.is32
  (match src2 with
   | .imm i =>
     (if op.flag = .carry then w32 (SLTUI ||| RD EQUAL_FLAG ||| RS1 src1 ||| IMM_I i) else []) ++
     emitAddImm cfg w dst src1 (-i)
   | .reg b =>
     (if op.flag = .carry then w32 (SLTU ||| RD EQUAL_FLAG ||| RS1 src1 ||| RS2 b) else []) ++
     emitSubReg cfg w dst src1 b) ++
  ((if op.flag = .carry then w32 (SLTU ||| RD TMP_REG1 ||| RS1 dst ||| RS2 OTHER_FLAG) else []) ++
  (w32 (SUB ||| WORD w ||| RD dst ||| RS1 dst ||| RS2 OTHER_FLAG) ++
  (if op.flag = .carry then w32 (OR ||| RD OTHER_FLAG ||| RS1 EQUAL_FLAG ||| RS2 TMP_REG1) else [])))

/-- SLJIT_SUBC (sljitNativeRISCV_common.c:2255-2295). -/
def emitSubcOp (cfg : Cfg) (op : Op) (dst src1 : Nat) (src2 : S2) : Emit :=
  (subMin src2).1 ++ subcRest cfg op dst src1 (subMin src2).2

/-- SLJIT_MUL (sljitNativeRISCV_common.c:2297-2320). -/
def emitMulOp (op : Op) (dst src1 src2 : Nat) : Emit :=
  if op.flag ≠ .overflow then w32 (MUL ||| WORD op.is32 ||| RD dst ||| RS1 src1 ||| RS2 src2)
  else if op.is32 = true then
    w32 (MUL ||| RD OTHER_FLAG ||| RS1 src1 ||| RS2 src2) ++
    (w32 (MUL ||| WORD true ||| RD dst ||| RS1 src1 ||| RS2 src2) ++
    w32 (SUB ||| RD OTHER_FLAG ||| RS1 dst ||| RS2 OTHER_FLAG))
  else
    w32 (MULH ||| RD EQUAL_FLAG ||| RS1 src1 ||| RS2 src2) ++
    (w32 (MUL ||| RD dst ||| RS1 src1 ||| RS2 src2) ++
    (w32 (SRAI ||| RD OTHER_FLAG ||| RS1 dst ||| IMM_I 63#64) ++
    w32 (SUB ||| RD OTHER_FLAG ||| RS1 EQUAL_FLAG ||| RS2 OTHER_FLAG)))

/-- EMIT_LOGICAL (sljitNativeRISCV_common.c:1860-1884); `cimm` is `op_c_imm`, 0 when there is none. -/
def emitLogical (cfg : Cfg) (op : Op) (fl : SF) (oimm oreg : BitVec 32) (cimm creg : BitVec 16) (dst src1 : Nat) (src2 : S2) :
    Emit :=
  match src2 with
  | .imm i =>
    (if op.setZ = true then w32 (oimm ||| RD EQUAL_FLAG ||| RS1 src1 ||| IMM_I i) else []) ++
    (if fl.unused = false then
      (if cimm ≠ 0#16 ∧ cfg.c = true ∧ dst = src1 ∧ fits6 i = true ∧ C_IS_R3 dst = true then
        w16 (cimm ||| C_RS1_R3 dst ||| C_IMM_I i)
       else w32 (oimm ||| RD dst ||| RS1 src1 ||| IMM_I i))
     else [])
  | .reg b =>
    let (src1, b) := if dst = b then (dst, src1) else (src1, b)
    (if op.setZ = true then w32 (oreg ||| RD EQUAL_FLAG ||| RS1 src1 ||| RS2 b) else []) ++
    (if fl.unused = false then
      (if cfg.c = true ∧ dst = src1 ∧ C_IS_R3 dst = true ∧ C_IS_R3 b = true then
        w16 (creg ||| C_RS1_R3 dst ||| C_RS2_R3 b)
       else w32 (oreg ||| RD dst ||| RS1 src1 ||| RS2 b))
     else [])

/-- The instruction that writes the destination of a shift by an immediate (:2404-2416). -/
def emitShImm (cfg : Cfg) (w : Bool) (oimm : BitVec 32) (dst src1 : Nat) (i : BitVec 64) : Emit :=
  if cfg.c = true ∧ w = false ∧ dst = src1 ∧ oimm = SLLI then w16 (C_SLLI ||| C_RD dst ||| C_IMM_I i)
  else if cfg.c = true ∧ w = false ∧ dst = src1 ∧ C_IS_R3 dst = true then
    w16 ((if oimm = SRLI then C_SRLI else C_SRAI) ||| C_RS1_R3 dst ||| C_IMM_I i)
  else w32 (oimm ||| WORD w ||| RD dst ||| RS1 src1 ||| IMM_I i)

/-- Shifts: selection of `op_imm`, `op_reg` (:2334-2350) and the common tail (:2399-2426). -/
def emitShift (cfg : Cfg) (op : Op) (fl : SF) (oimm oreg : BitVec 32) (dst src1 : Nat) (src2 : S2) : Emit :=
  let w := op.is32
  match src2 with
  | .imm i =>
    (if op.setZ = true then w32 (oimm ||| WORD w ||| RD EQUAL_FLAG ||| RS1 src1 ||| IMM_I i) else []) ++
    (if fl.unused = true then [] else emitShImm cfg w oimm dst src1 i)
  | .reg b =>
    (if op.setZ = true then w32 (oreg ||| WORD w ||| RD EQUAL_FLAG ||| RS1 src1 ||| RS2 b) else []) ++
    (if fl.unused = true then [] else w32 (oreg ||| WORD w ||| RD dst ||| RS1 src1 ||| RS2 b))

/-- SLJIT_ROTL, SLJIT_ROTR (sljitNativeRISCV_common.c:2352-2395). -/
def emitRot (cfg : Cfg) (op : Op) (dst src1 : Nat) (src2 : S2) : Emit :=
  let w := op.is32
  let left := op.code == .rotl
  match src2 with
  | .imm i =>
    let rest := (if w then 32#64 else 64#64) - i
    if cfg.zbb = true then
      w32 (RORI ||| WORD w ||| RD dst ||| RS1 src1 ||| IMM_I (if left = true then rest else i))
    else
      (if left = true then w32 (SLLI ||| WORD w ||| RD OTHER_FLAG ||| RS1 src1 ||| IMM_I i)
       else w32 (SRLI ||| WORD w ||| RD OTHER_FLAG ||| RS1 src1 ||| IMM_I i)) ++
      ((if left = true then w32 (SRLI ||| WORD w ||| RD dst ||| RS1 src1 ||| IMM_I rest)
        else w32 (SLLI ||| WORD w ||| RD dst ||| RS1 src1 ||| IMM_I rest)) ++
      w32 (OR ||| RD dst ||| RS1 dst ||| RS2 OTHER_FLAG))
  | .reg b =>
    if cfg.zbb = true then
      (if left = true then w32 (ROL ||| WORD w ||| RD dst ||| RS1 src1 ||| RS2 b)
       else w32 (ROR ||| WORD w ||| RD dst ||| RS1 src1 ||| RS2 b))
    else if b = TMP_ZERO then
      (if dst ≠ src1 then w32 (ADDI ||| WORD w ||| RD dst ||| RS1 src1 ||| IMM_I 0#64) else [])
    else
      w32 (SUB ||| WORD w ||| RD EQUAL_FLAG ||| RS1 TMP_ZERO ||| RS2 b) ++
      ((if left = true then w32 (SLL ||| WORD w ||| RD OTHER_FLAG ||| RS1 src1 ||| RS2 b)
        else w32 (SRL ||| WORD w ||| RD OTHER_FLAG ||| RS1 src1 ||| RS2 b)) ++
      ((if left = true then w32 (SRL ||| WORD w ||| RD dst ||| RS1 src1 ||| RS2 EQUAL_FLAG)
        else w32 (SLL ||| WORD w ||| RD dst ||| RS1 src1 ||| RS2 EQUAL_FLAG)) ++
      w32 (OR ||| RD dst ||| RS1 dst ||| RS2 OTHER_FLAG)))

/-- Binary operations of emit_single_op (sljitNativeRISCV_common.c:2012-2427).  An immediate second source never
reaches SLJIT_MUL (asserted, :2298); the model emits nothing there.  The `default` case is SLJIT_UNREACHABLE. -/
def emitSingle2 (cfg : Cfg) (op : Op) (fl : SF) (dst src1 : Nat) (src2 : S2) : Emit :=
  match op.code with
  | .add => emitAddOp cfg op fl dst src1 src2
  | .addc => emitAddcOp cfg op dst src1 src2
  | .sub => emitSubOp cfg op fl dst src1 src2
  | .subc => emitSubcOp cfg op dst src1 src2
  | .mul => match src2 with | .reg b => emitMulOp op dst src1 b | .imm _ => []
  | .and => emitLogical cfg op fl ANDI AND C_ANDI C_AND dst src1 src2
  | .or => emitLogical cfg op fl ORI OR 0#16 C_OR dst src1 src2
  | .xor => emitLogical cfg op fl XORI XOR 0#16 C_XOR dst src1 src2
  | .shl | .mshl => emitShift cfg op fl SLLI SLL dst src1 src2
  | .lshr | .mlshr => emitShift cfg op fl SRLI SRL dst src1 src2
  | .ashr | .mashr => emitShift cfg op fl SRAI SRA dst src1 src2
  | .rotl | .rotr => emitRot cfg op dst src1 src2
  | _ => []

/-! ## Unary operations -/

/-- emit_clz_ctz (sljitNativeRISCV_common.c:1753-1795); `SSIZE_OF(ins)` is 4. -/
def emitClzCtz (op : Op) (dst src : Nat) : Emit :=
  let w := op.is32
  let clz := op.code == .clz
  let size := if w then 32#64 else 64#64
  w32 (ADDI ||| WORD w ||| RD OTHER_FLAG ||| RS1 TMP_ZERO ||| IMM_I size) ++
  ((if src ≠ TMP_REG2 then w32 (ADDI ||| WORD w ||| RD TMP_REG2 ||| RS1 src ||| IMM_I 0#64) else []) ++
  (w32 (BEQ ||| RS1 TMP_REG2 ||| RS2 TMP_ZERO ||| ((if clz then 16#32 else 20#32) <<< 7) ||| (32#32 <<< 20)) ++
  (w32 (ADDI ||| WORD w ||| RD OTHER_FLAG ||| RS1 TMP_ZERO ||| IMM_I 0#64) ++
  ((if clz then w32 (BLT ||| RS1 TMP_REG2 ||| RS2 TMP_ZERO ||| (8#32 <<< 7) ||| (32#32 <<< 20))
    else w32 (ANDI ||| RD TMP_REG1 ||| RS1 TMP_REG2 ||| IMM_I 1#64) ++
      w32 (BNE ||| RS1 TMP_REG1 ||| RS2 TMP_ZERO ||| (8#32 <<< 7) ||| (32#32 <<< 20))) ++
  (w32 (ADDI ||| WORD w ||| RD TMP_REG1 ||| RS1 TMP_ZERO ||| IMM_I size) ++
  (w32 (ADDI ||| WORD w ||| RD EQUAL_FLAG ||| RS1 TMP_REG2 ||| IMM_I 0#64) ++
  (w32 (SRLI ||| WORD w ||| RD TMP_REG1 ||| RS1 TMP_REG1 ||| IMM_I 1#64) ++
  (w32 ((if clz then SRL else SLL) ||| WORD w ||| RD TMP_REG2 ||| RS1 EQUAL_FLAG ||| RS2 TMP_REG1) ++
  (w32 (BNE ||| RS1 TMP_REG2 ||| RS2 TMP_ZERO ||| (0xfe000e80#32 - (8#32 <<< 7))) ++
  (w32 (ADDI ||| WORD w ||| RD TMP_REG2 ||| RS1 TMP_REG1 ||| IMM_I (-1#64)) ++
  (w32 ((if clz then SRL else SLL) ||| WORD w ||| RD TMP_REG2 ||| RS1 EQUAL_FLAG ||| RS2 TMP_REG2) ++
  (w32 (OR ||| RD OTHER_FLAG ||| RS1 OTHER_FLAG ||| RS2 TMP_REG1) ++
  (w32 (BEQ ||| RS1 TMP_REG2 ||| RS2 TMP_ZERO ||| (0xfe000e80#32 - (20#32 <<< 7))) ++
  w32 (ADDI ||| WORD w ||| RD dst ||| RS1 OTHER_FLAG ||| IMM_I 0#64))))))))))))))

/-- emit_rev for RV64 (sljitNativeRISCV_common.c:1797-1842); `LUI | RD | 0x10000` is written with the constant as it is
in the source. -/
def emitRev (op : Op) (dst src : Nat) : Emit :=
  if op.is32 = false then
    w32 (LUI ||| RD OTHER_FLAG ||| 0x10000#32) ++
    (w32 (SRLI ||| RD TMP_REG1 ||| RS1 src ||| IMM_I 32#64) ++
    (w32 (ADDI ||| RD OTHER_FLAG ||| RS1 OTHER_FLAG ||| IMM_I 0xfff#64) ++
    (w32 (SLLI ||| RD dst ||| RS1 src ||| IMM_I 32#64) ++
    (w32 (SLLI ||| RD EQUAL_FLAG ||| RS1 OTHER_FLAG ||| IMM_I 32#64) ++
    (w32 (OR ||| RD dst ||| RS1 dst ||| RS2 TMP_REG1) ++
    (w32 (OR ||| RD OTHER_FLAG ||| RS1 OTHER_FLAG ||| RS2 EQUAL_FLAG) ++
    (w32 (SRLI ||| RD TMP_REG1 ||| RS1 dst ||| IMM_I 16#64) ++
    (w32 (AND ||| RD dst ||| RS1 dst ||| RS2 OTHER_FLAG) ++
    (w32 (AND ||| RD TMP_REG1 ||| RS1 TMP_REG1 ||| RS2 OTHER_FLAG) ++
    (w32 (SLLI ||| RD EQUAL_FLAG ||| RS1 OTHER_FLAG ||| IMM_I 8#64) ++
    (w32 (SLLI ||| RD dst ||| RS1 dst ||| IMM_I 16#64) ++
    (w32 (XOR ||| RD OTHER_FLAG ||| RS1 OTHER_FLAG ||| RS2 EQUAL_FLAG) ++
    (w32 (OR ||| RD dst ||| RS1 dst ||| RS2 TMP_REG1) ++
    (w32 (SRLI ||| RD TMP_REG1 ||| RS1 dst ||| IMM_I 8#64) ++
    (w32 (AND ||| RD dst ||| RS1 dst ||| RS2 OTHER_FLAG) ++
    (w32 (AND ||| RD TMP_REG1 ||| RS1 TMP_REG1 ||| RS2 OTHER_FLAG) ++
    (w32 (SLLI ||| RD dst ||| RS1 dst ||| IMM_I 8#64) ++
    w32 (OR ||| RD dst ||| RS1 dst ||| RS2 TMP_REG1))))))))))))))))))
  else
    w32 (SRLI ||| WORD true ||| RD TMP_REG1 ||| RS1 src ||| IMM_I 16#64) ++
    (w32 (LUI ||| RD OTHER_FLAG ||| 0xff0000#32) ++
    (w32 (SLLI ||| WORD true ||| RD dst ||| RS1 src ||| IMM_I 16#64) ++
    (w32 (ORI ||| RD OTHER_FLAG ||| RS1 OTHER_FLAG ||| IMM_I 0xff#64) ++
    (w32 (OR ||| RD dst ||| RS1 dst ||| RS2 TMP_REG1) ++
    (w32 (SRLI ||| WORD true ||| RD TMP_REG1 ||| RS1 dst ||| IMM_I 8#64) ++
    (w32 (AND ||| RD dst ||| RS1 dst ||| RS2 OTHER_FLAG) ++
    (w32 (AND ||| RD TMP_REG1 ||| RS1 TMP_REG1 ||| RS2 OTHER_FLAG) ++
    (w32 (SLLI ||| WORD (op.code == .revS32) ||| RD dst ||| RS1 dst ||| IMM_I 8#64) ++
    w32 (OR ||| RD dst ||| RS1 dst ||| RS2 TMP_REG1)))))))))

/-- emit_rev16 (sljitNativeRISCV_common.c:1844-1858). -/
def emitRev16 (op : Op) (dst src : Nat) : Emit :=
  let w := op.is32
  let size := if w then 32#64 else 64#64
  w32 (SRLI ||| WORD w ||| RD TMP_REG1 ||| RS1 src ||| IMM_I 8#64) ++
  (w32 (SLLI ||| WORD w ||| RD dst ||| RS1 src ||| IMM_I (size - 8#64)) ++
  (w32 (ANDI ||| RD TMP_REG1 ||| RS1 TMP_REG1 ||| IMM_I 0xff#64) ++
  (w32 ((if op.code = .revU16 then SRLI else SRAI) ||| WORD w ||| RD dst ||| RS1 dst ||| IMM_I (size - 16#64)) ++
  w32 (OR ||| RD dst ||| RS1 dst ||| RS2 TMP_REG1))))

/-- The two shifts of the extending moves: `SLLI`, then `o2`, by `IMM_EXTEND(n)` (sljitNativeRISCV_common.c:1731, :1924,
:1937, :1950). -/
def emitExt (op : Op) (o2 : BitVec 32) (dst src : Nat) (n : BitVec 64) : Emit :=
  w32 (SLLI ||| WORD op.is32 ||| RD dst ||| RS1 src ||| IMM_I (if op.is32 then n else 32#64 + n)) ++
  w32 (o2 ||| WORD op.is32 ||| RD dst ||| RS1 dst ||| IMM_I (if op.is32 then n else 32#64 + n))

/-- Unary operations of emit_single_op for RV64 (sljitNativeRISCV_common.c:1897-2012).  `src1` is TMP_ZERO and the second
source is a register (asserted). -/
def emitSingle1 (cfg : Cfg) (op : Op) (fl : SF) (dst src : Nat) : Emit :=
  let rr := fl.regDest && fl.reg2Src
  match op.code with
  | .mov =>
    if dst = src then []
    else if cfg.c = false then w32 (ADDI ||| RD dst ||| RS1 src ||| IMM_I 0#64)
    else if src = 0 then w16 (C_LI ||| C_RD dst)
    else w16 (C_MV ||| C_RD dst ||| C_RS2 src)
  | .movU8 => if rr = true then w32 (ANDI ||| RD dst ||| RS1 src ||| IMM_I 0xff#64) else []
  | .movS8 =>
    if cfg.zbb = true then w32 (SEXTB ||| RD dst ||| RS1 src)
    else if rr = true then emitExt op SRAI dst src 24#64 else []
  | .movU16 =>
    if cfg.zbb = true then w32 (ZEXTH ||| RD dst ||| RS1 src)
    else if rr = true then emitExt op SRLI dst src 16#64 else []
  | .movS16 =>
    if cfg.zbb = true then w32 (SEXTH ||| RD dst ||| RS1 src)
    else if rr = true then emitExt op SRAI dst src 16#64 else []
  | .movU32 =>
    if rr = true then
      w32 (SLLI ||| RD dst ||| RS1 src ||| IMM_I 32#64) ++ w32 (SRLI ||| RD dst ||| RS1 dst ||| IMM_I 32#64)
    else []
  | .movS32 =>
    if rr = true then
      (if cfg.c = true ∧ dst = src then w16 (C_ADDIW ||| C_RD dst)
       else w32 (ADDI ||| 0x8#32 ||| RD dst ||| RS1 src ||| IMM_I 0#64))
    else []
  | .clz | .ctz =>
    if cfg.zbb = true then w32 ((if op.code = .clz then CLZ else CTZ) ||| WORD op.is32 ||| RD dst ||| RS1 src)
    else emitClzCtz op dst src
  | .rev | .revS32 | .revU32 =>
    if cfg.zbb = true then
      w32 (REV8 ||| RD dst ||| RS1 src) ++
      (if op.is32 = true ∨ op.code ≠ .rev then
        w32 ((if op.code = .revU32 then SRLI else SRAI) ||| RD dst ||| RS1 dst ||| IMM_I 32#64) else [])
    else emitRev op dst src
  | .revU16 | .revS16 =>
    if cfg.zbb = true then
      w32 (REV8 ||| RD dst ||| RS1 src) ++
      w32 ((if op.code = .revU16 then SRLI else SRAI) ||| RD dst ||| RS1 dst ||| IMM_I 48#64)
    else emitRev16 op dst src
  | _ => []

/-- `GET_OPCODE(op) >= SLJIT_OP2_BASE` (sljitLir.h:1343). -/
def OpC.isOp2 : OpC → Bool
  | .add | .addc | .sub | .subc | .mul | .and | .or | .xor
  | .shl | .mshl | .lshr | .mlshr | .ashr | .mashr | .rotl | .rotr => true
  | _ => false

/-- emit_single_op (sljitNativeRISCV_common.c:1886-2427). -/
def emitSingle (cfg : Cfg) (op : Op) (fl : SF) (dst src1 : Nat) (src2 : S2) : Emit :=
  if op.code.isOp2 = true then emitSingle2 cfg op fl dst src1 src2
  else match src2 with | .reg r => emitSingle1 cfg op fl dst r | .imm _ => []

end Verif.RV
