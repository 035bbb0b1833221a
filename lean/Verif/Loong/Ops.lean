import Verif.Loong.Encode
import Verif.RISCV.Mem

/-!
# emit_single_op of sljitNativeLOONGARCH_64.c:1366-1782

The operation, its flags and the operands (`Op`, `Flag`, `S2`, `SF`) are the data types of the RISC-V model: they describe
the API arguments, not the target.  `flags` is reduced to UNUSED_DEST, REG_DEST, REG2_SOURCE (`SF`); SRC2_IMM is the
constructor of the second source.  `SLJIT_ASSERT`s emit nothing.
-/

namespace Verif.LA
open Verif.RV (Op OpC Flag S2 SF)

/-- I12_MIN (sljitNativeLOONGARCH_64.c:359). -/
def I12_MIN : Int := -2048

/-- INST(ADD, op), INST(ADDI, op), INST(SUB, op), ... (sljitNativeLOONGARCH_64.c:373). -/
def ADDx (w : Bool) : BitVec 32 := INST ADD_W ADD_D w
@[inherit_doc ADDx] def ADDIx (w : Bool) : BitVec 32 := INST ADDI_W ADDI_D w
@[inherit_doc ADDx] def SUBx (w : Bool) : BitVec 32 := INST SUB_W SUB_D w
@[inherit_doc ADDx] def SRLIx (w : Bool) : BitVec 32 := INST SRLI_W SRLI_D w
@[inherit_doc ADDx] def MULx (w : Bool) : BitVec 32 := INST MUL_W MUL_D w
@[inherit_doc ADDx] def ROTRx (w : Bool) : BitVec 32 := INST ROTR_W ROTR_D w
@[inherit_doc ADDx] def ROTRIx (w : Bool) : BitVec 32 := INST ROTRI_W ROTRI_D w

/-- `IMM_EXTEND(v)` (sljitNativeLOONGARCH_64.c:1336). -/
def immExt (w : Bool) (v : BitVec 64) : BitVec 64 := if w then v else 32#64 + v

/-- EQUAL_FLAG preparation for the overflow computation with an immediate (sljitNativeLOONGARCH_64.c:1461-1466, 1615-1620). -/
def emitOvImm (w : Bool) (src1 : Nat) (i : BitVec 64) : Emit :=
  if 0 ≤ i.toInt then ins (ADDIx w ||| RD EQUAL_FLAG ||| RJ src1 ||| IMM_I12 0#64)
  else
    ins (ADDIx w ||| RD EQUAL_FLAG ||| RJ TMP_ZERO ||| IMM_I12 (-1#64)) ++
    ins (XOR ||| RD EQUAL_FLAG ||| RJ src1 ||| RK EQUAL_FLAG)

/-- The end of the overflow computation of SLJIT_ADD (sljitNativeLOONGARCH_64.c:1506-1510). -/
def emitAddOvTail (op : Op) (dst : Nat) : Emit :=
  ins (XOR ||| RD TMP_REG1 ||| RJ dst ||| RK EQUAL_FLAG) ++
  ((if op.setZ = true then ins (ADDx op.is32 ||| RD EQUAL_FLAG ||| RJ dst ||| IMM_I12 0#64) else []) ++
  (ins (SRLIx op.is32 ||| RD TMP_REG1 ||| RJ TMP_REG1 ||| IMM_I12 (immExt op.is32 31#64)) ++
  ins (XOR ||| RD OTHER_FLAG ||| RJ TMP_REG1 ||| RK OTHER_FLAG)))

/-- The end of the overflow computation of SLJIT_SUB (sljitNativeLOONGARCH_64.c:1647-1651). -/
def emitSubOvTail (op : Op) (dst : Nat) : Emit :=
  ins (XOR ||| RD TMP_REG1 ||| RJ dst ||| RK EQUAL_FLAG) ++
  ((if op.setZ = true then ins (ADDIx op.is32 ||| RD EQUAL_FLAG ||| RJ dst ||| IMM_I12 0#64) else []) ++
  (ins (SRLIx op.is32 ||| RD TMP_REG1 ||| RJ TMP_REG1 ||| IMM_I12 (immExt op.is32 31#64)) ++
  ins (XOR ||| RD OTHER_FLAG ||| RJ TMP_REG1 ||| RK OTHER_FLAG)))

/-- `carry_src_r` of SLJIT_ADD and ADDC with a register as second source (sljitNativeLOONGARCH_64.c:1479-1488, 1518-1527): the
register the sum is compared to; `alt` is the register that receives a copy when both sources are the destination. -/
def carrySrc (dst src1 src2 alt : Nat) : Nat :=
  if src1 ≠ dst then src1 else if src2 ≠ dst then src2 else alt

/-- SLJIT_ADD (sljitNativeLOONGARCH_64.c:1454-1510). -/
def emitAddOp (op : Op) (fl : SF) (dst src1 : Nat) (src2 : S2) : Emit :=
  let w := op.is32
  match src2 with
  | .imm i =>
    (if op.flag = .overflow then emitOvImm w src1 i
     else if op.setZ = true then ins (ADDIx w ||| RD EQUAL_FLAG ||| RJ src1 ||| IMM_I12 i) else []) ++
    ((if fl.unused = false ∨ op.flag ≠ .none then ins (ADDIx w ||| RD dst ||| RJ src1 ||| IMM_I12 i) else []) ++
    ((if op.flag = .overflow ∨ op.flag = .carry then ins (SLTUI ||| RD OTHER_FLAG ||| RJ dst ||| IMM_I12 i) else []) ++
    (if op.flag = .overflow then emitAddOvTail op dst else [])))
  | .reg b =>
    (if op.flag = .overflow then ins (XOR ||| RD EQUAL_FLAG ||| RJ src1 ||| RK b)
     else if op.setZ = true then ins (ADDx w ||| RD EQUAL_FLAG ||| RJ src1 ||| RK b) else []) ++
    ((if (op.flag = .overflow ∨ op.flag = .carry) ∧ src1 = dst ∧ b = dst then
        ins (ADDIx w ||| RD OTHER_FLAG ||| RJ src1 ||| IMM_I12 0#64) else []) ++
    ((if fl.unused = false ∨ op.flag ≠ .none then ins (ADDx w ||| RD dst ||| RJ src1 ||| RK b) else []) ++
    ((if op.flag = .overflow ∨ (op.flag = .carry ∧ carrySrc dst src1 b OTHER_FLAG ≠ 0) then
        ins (SLTU ||| RD OTHER_FLAG ||| RJ dst ||| RK (carrySrc dst src1 b OTHER_FLAG)) else []) ++
    (if op.flag = .overflow then emitAddOvTail op dst else []))))

/-- The end of SLJIT_ADDC (sljitNativeLOONGARCH_64.c:1540-1548); `cy` is `carry_src_r != 0`. -/
def emitAddcTail (cy : Bool) (dst : Nat) : Emit :=
  ins (ADD_D ||| RD dst ||| RJ dst ||| RK OTHER_FLAG) ++
  (if cy = true then
    ins (SLTU ||| RD OTHER_FLAG ||| RJ dst ||| RK OTHER_FLAG) ++
    ins (OR ||| RD OTHER_FLAG ||| RJ OTHER_FLAG ||| RK EQUAL_FLAG)
   else [])

/-- SLJIT_ADDC (sljitNativeLOONGARCH_64.c:1512-1548): ADDI_D and ADD_D are used for SLJIT_32 as well. -/
def emitAddcOp (op : Op) (dst src1 : Nat) (src2 : S2) : Emit :=
  match src2 with
  | .imm i =>
    ins (ADDI_D ||| RD dst ||| RJ src1 ||| IMM_I12 i) ++
    ((if op.flag = .carry then ins (SLTUI ||| RD EQUAL_FLAG ||| RJ dst ||| IMM_I12 i) else []) ++
    emitAddcTail (op.flag == .carry) dst)
  | .reg b =>
    (if op.flag = .carry ∧ src1 = dst ∧ b = dst then ins (ADDI_D ||| RD EQUAL_FLAG ||| RJ src1 ||| IMM_I12 0#64) else []) ++
    (ins (ADD_D ||| RD dst ||| RJ src1 ||| RK b) ++
    ((if op.flag = .carry ∧ carrySrc dst src1 b EQUAL_FLAG ≠ 0 then
        ins (SLTU ||| RD EQUAL_FLAG ||| RJ dst ||| RK (carrySrc dst src1 b EQUAL_FLAG)) else []) ++
    emitAddcTail (op.flag == .carry && carrySrc dst src1 b EQUAL_FLAG != 0) dst))

/-- The `src2 == I12_MIN` prologue of SLJIT_SUB (sljitNativeLOONGARCH_64.c:1551-1555). -/
def subMin (src2 : S2) : Emit × S2 :=
  match src2 with
  | .imm i => if i.toInt = I12_MIN then (ins (ADDI_D ||| RD TMP_REG2 ||| RJ TMP_ZERO ||| IMM_I12 i), .reg TMP_REG2) else ([], .imm i)
  | .reg b => ([], .reg b)

/-- The `src2 == I12_MIN` prologue of SLJIT_SUBC (sljitNativeLOONGARCH_64.c:1654-1658). -/
def subcMin (w : Bool) (src2 : S2) : Emit × S2 :=
  match src2 with
  | .imm i => if i.toInt = I12_MIN then (ins (ADDIx w ||| RD TMP_REG2 ||| RJ TMP_ZERO ||| IMM_I12 i), .reg TMP_REG2) else ([], .imm i)
  | .reg b => ([], .reg b)

/-- SLJIT_SUB with one of the comparison flags: the immediate is moved to a register unless the flag is LESS or
SIG_LESS (sljitNativeLOONGARCH_64.c:1559-1577). -/
def subCmpLoad (op : Op) (src1 : Nat) (src2 : S2) : Emit × S2 :=
  match src2 with
  | .imm i =>
    if op.flag = .less ∨ op.flag = .sigLess then ([], .imm i)
    else
      let reg := if src1 = TMP_REG1 then TMP_REG2 else TMP_REG1
      (ins (ADDI_D ||| RD reg ||| RJ TMP_ZERO ||| IMM_I12 i), .reg reg)
  | .reg b => ([], .reg b)

/-- The comparison of SLJIT_SUB (sljitNativeLOONGARCH_64.c:1560-1566, 1579-1592). -/
def subCmp (op : Op) (src1 : Nat) (src2 : S2) : Emit :=
  match src2, op.flag with
  | .imm i, .less => ins (SLTUI ||| RD OTHER_FLAG ||| RJ src1 ||| IMM_I12 i)
  | .imm i, .sigLess => ins (SLTI ||| RD OTHER_FLAG ||| RJ src1 ||| IMM_I12 i)
  | .reg b, .less => ins (SLTU ||| RD OTHER_FLAG ||| RJ src1 ||| RK b)
  | .reg b, .greater => ins (SLTU ||| RD OTHER_FLAG ||| RJ b ||| RK src1)
  | .reg b, .sigLess => ins (SLT ||| RD OTHER_FLAG ||| RJ src1 ||| RK b)
  | .reg b, .sigGreater => ins (SLT ||| RD OTHER_FLAG ||| RJ b ||| RK src1)
  | _, _ => []

/-- The `is_handled` part of SLJIT_SUB (sljitNativeLOONGARCH_64.c:1595-1608). -/
def subHandled (op : Op) (fl : SF) (dst src1 : Nat) (src2 : S2) : Emit :=
  let w := op.is32
  match src2 with
  | .imm i =>
    (if op.setZ = true then ins (ADDIx w ||| RD EQUAL_FLAG ||| RJ src1 ||| IMM_I12 (-i)) else []) ++
    (if fl.unused = false then ins (ADDIx w ||| RD dst ||| RJ src1 ||| IMM_I12 (-i)) else [])
  | .reg b =>
    (if op.setZ = true then ins (SUBx w ||| RD EQUAL_FLAG ||| RJ src1 ||| RK b) else []) ++
    (if fl.unused = false then ins (SUBx w ||| RD dst ||| RJ src1 ||| RK b) else [])

/-- The rest of SLJIT_SUB (sljitNativeLOONGARCH_64.c:1610-1651). -/
def subRest (op : Op) (fl : SF) (dst src1 : Nat) (src2 : S2) : Emit :=
  let w := op.is32
  match src2 with
  | .imm i =>
    (if op.flag = .overflow then emitOvImm w src1 i
     else if op.setZ = true then ins (ADDIx w ||| RD EQUAL_FLAG ||| RJ src1 ||| IMM_I12 (-i)) else []) ++
    ((if op.flag = .overflow ∨ op.flag = .carry then ins (SLTUI ||| RD OTHER_FLAG ||| RJ src1 ||| IMM_I12 i) else []) ++
    ((if fl.unused = false ∨ op.flag ≠ .none then ins (ADDIx w ||| RD dst ||| RJ src1 ||| IMM_I12 (-i)) else []) ++
    (if op.flag = .overflow then emitSubOvTail op dst else [])))
  | .reg b =>
    (if op.flag = .overflow then ins (XOR ||| RD EQUAL_FLAG ||| RJ src1 ||| RK b)
     else if op.setZ = true then ins (SUBx w ||| RD EQUAL_FLAG ||| RJ src1 ||| RK b) else []) ++
    ((if op.flag = .overflow ∨ op.flag = .carry then ins (SLTU ||| RD OTHER_FLAG ||| RJ src1 ||| RK b) else []) ++
    ((if fl.unused = false ∨ op.flag ≠ .none then ins (SUBx w ||| RD dst ||| RJ src1 ||| RK b) else []) ++
    (if op.flag = .overflow then emitSubOvTail op dst else [])))

/-- SLJIT_SUB (sljitNativeLOONGARCH_64.c:1550-1651). -/
def emitSubOp (op : Op) (fl : SF) (dst src1 : Nat) (src2 : S2) : Emit :=
  (subMin src2).1 ++
  (if op.flag.isCmp = true then
    (subCmpLoad op src1 (subMin src2).2).1 ++
    (subCmp op src1 (subCmpLoad op src1 (subMin src2).2).2 ++
    subHandled op fl dst src1 (subCmpLoad op src1 (subMin src2).2).2)
   else subRest op fl dst src1 (subMin src2).2)

/-- The part of SLJIT_SUBC after the `src2 == I12_MIN` prologue (sljitNativeLOONGARCH_64.c:1660-1682). -/
def subcRest (op : Op) (dst src1 : Nat) (src2 : S2) : Emit :=
  let w := op.is32
  (match src2 with
   | .imm i =>
     (if op.flag = .carry then ins (SLTUI ||| RD EQUAL_FLAG ||| RJ src1 ||| IMM_I12 i) else []) ++
     ins (ADDIx w ||| RD dst ||| RJ src1 ||| IMM_I12 (-i))
   | .reg b =>
     (if op.flag = .carry then ins (SLTU ||| RD EQUAL_FLAG ||| RJ src1 ||| RK b) else []) ++
     ins (SUBx w ||| RD dst ||| RJ src1 ||| RK b)) ++
  ((if op.flag = .carry then ins (SLTU ||| RD TMP_REG1 ||| RJ dst ||| RK OTHER_FLAG) else []) ++
  (ins (SUBx w ||| RD dst ||| RJ dst ||| RK OTHER_FLAG) ++
  (if op.flag = .carry then ins (OR ||| RD OTHER_FLAG ||| RJ EQUAL_FLAG ||| RK TMP_REG1) else [])))

/-- SLJIT_SUBC (sljitNativeLOONGARCH_64.c:1653-1682). -/
def emitSubcOp (op : Op) (dst src1 : Nat) (src2 : S2) : Emit :=
  (subcMin op.is32 src2).1 ++ subcRest op dst src1 (subcMin op.is32 src2).2

/-- SLJIT_MUL (sljitNativeLOONGARCH_64.c:1684-1699). -/
def emitMulOp (op : Op) (dst src1 src2 : Nat) : Emit :=
  if op.flag ≠ .overflow then ins (MULx op.is32 ||| RD dst ||| RJ src1 ||| RK src2)
  else if op.is32 = true then
    ins (MUL_D ||| RD OTHER_FLAG ||| RJ src1 ||| RK src2) ++
    (ins (MUL_W ||| RD dst ||| RJ src1 ||| RK src2) ++
    ins (SUB_D ||| RD OTHER_FLAG ||| RJ dst ||| RK OTHER_FLAG))
  else
    ins (MULH_D ||| RD EQUAL_FLAG ||| RJ src1 ||| RK src2) ++
    (ins (MUL_D ||| RD dst ||| RJ src1 ||| RK src2) ++
    (ins (SRAI_D ||| RD OTHER_FLAG ||| RJ dst ||| IMM_I12 63#64) ++
    ins (SUB_D ||| RD OTHER_FLAG ||| RJ EQUAL_FLAG ||| RK OTHER_FLAG)))

/-- EMIT_LOGICAL (sljitNativeLOONGARCH_64.c:1339-1360). -/
def emitLogical (op : Op) (fl : SF) (oreg : BitVec 32) (dst src1 : Nat) (src2 : S2) : Emit :=
  match src2 with
  | .imm i =>
    (if op.setZ = true then
      ins (ADDI_D ||| RD EQUAL_FLAG ||| RJ TMP_ZERO ||| IMM_I12 i) ++ ins (oreg ||| RD EQUAL_FLAG ||| RJ src1 ||| RK EQUAL_FLAG)
     else []) ++
    (if fl.unused = false then
      (if dst = src1 then
        ins (ADDI_D ||| RD TMP_REG1 ||| RJ TMP_ZERO ||| IMM_I12 i) ++ ins (oreg ||| RD dst ||| RJ src1 ||| RK TMP_REG1)
       else
        ins (ADDI_D ||| RD dst ||| RJ TMP_ZERO ||| IMM_I12 i) ++ ins (oreg ||| RD dst ||| RJ src1 ||| RK dst))
     else [])
  | .reg b =>
    (if op.setZ = true then ins (oreg ||| RD EQUAL_FLAG ||| RJ src1 ||| RK b) else []) ++
    (if fl.unused = false then ins (oreg ||| RD dst ||| RJ src1 ||| RK b) else [])

/-- Shifts: `op_imm`, `op_reg` and the common tail (sljitNativeLOONGARCH_64.c:1713-1738, 1767-1781). -/
def emitShift (op : Op) (fl : SF) (oimm oreg : BitVec 32) (dst src1 : Nat) (src2 : S2) : Emit :=
  match src2 with
  | .imm i =>
    (if op.setZ = true then ins (oimm ||| RD EQUAL_FLAG ||| RJ src1 ||| IMM_I12 i) else []) ++
    (if fl.unused = true then [] else ins (oimm ||| RD dst ||| RJ src1 ||| IMM_I12 i))
  | .reg b =>
    (if op.setZ = true then ins (oreg ||| RD EQUAL_FLAG ||| RJ src1 ||| RK b) else []) ++
    (if fl.unused = true then [] else ins (oreg ||| RD dst ||| RJ src1 ||| RK b))

/-- SLJIT_ROTL, SLJIT_ROTR (sljitNativeLOONGARCH_64.c:1740-1760). -/
def emitRot (op : Op) (dst src1 : Nat) (src2 : S2) : Emit :=
  let w := op.is32
  let left := op.code == .rotl
  match src2 with
  | .imm i =>
    let rest := (if w then 32#64 else 64#64) - i
    ins (ROTRIx w ||| RD dst ||| RJ src1 ||| IMM_I12 (if left = true then rest else i))
  | .reg b =>
    if b = TMP_ZERO then
      (if dst ≠ src1 then ins (ADDIx w ||| RD dst ||| RJ src1 ||| IMM_I12 0#64) else [])
    else if left = true then
      ins (SUBx w ||| RD OTHER_FLAG ||| RJ TMP_ZERO ||| RK b) ++ ins (ROTRx w ||| RD dst ||| RJ src1 ||| RK OTHER_FLAG)
    else ins (ROTRx w ||| RD dst ||| RJ src1 ||| RK b)

/-- Binary operations of emit_single_op (sljitNativeLOONGARCH_64.c:1454-1781).  An immediate second source never
reaches SLJIT_MUL (asserted, :1685); the model emits nothing there.  The `default` case is SLJIT_UNREACHABLE. -/
def emitSingle2 (op : Op) (fl : SF) (dst src1 : Nat) (src2 : S2) : Emit :=
  match op.code with
  | .add => emitAddOp op fl dst src1 src2
  | .addc => emitAddcOp op dst src1 src2
  | .sub => emitSubOp op fl dst src1 src2
  | .subc => emitSubcOp op dst src1 src2
  | .mul => match src2 with | .reg b => emitMulOp op dst src1 b | .imm _ => []
  | .and => emitLogical op fl AND dst src1 src2
  | .or => emitLogical op fl OR dst src1 src2
  | .xor => emitLogical op fl XOR dst src1 src2
  | .shl | .mshl => emitShift op fl (INST SLLI_W SLLI_D op.is32) (INST SLL_W SLL_D op.is32) dst src1 src2
  | .lshr | .mlshr => emitShift op fl (INST SRLI_W SRLI_D op.is32) (INST SRL_W SRL_D op.is32) dst src1 src2
  | .ashr | .mashr => emitShift op fl (INST SRAI_W SRAI_D op.is32) (INST SRA_W SRA_D op.is32) dst src1 src2
  | .rotl | .rotr => emitRot op dst src1 src2
  | _ => []

/-- Unary operations of emit_single_op (sljitNativeLOONGARCH_64.c:1374-1452).  `src1` is TMP_ZERO and the second source is a
register (asserted). -/
def emitSingle1 (op : Op) (fl : SF) (dst src : Nat) : Emit :=
  let rr := fl.regDest && fl.reg2Src
  match op.code with
  | .mov => if dst ≠ src then ins (ADDx op.is32 ||| RD dst ||| RJ src ||| IMM_I12 0#64) else []
  | .movU8 => if rr = true then ins (ANDI ||| RD dst ||| RJ src ||| IMM_I12 0xff#64) else []
  | .movS8 => if rr = true then ins (EXT_W_B ||| RD dst ||| RJ src) else []
  | .movU16 => if rr = true then ins (INST BSTRPICK_W BSTRPICK_D op.is32 ||| RD dst ||| RJ src ||| 15#32 <<< 16) else []
  | .movS16 => if rr = true then ins (EXT_W_H ||| RD dst ||| RJ src) else []
  | .movU32 => if rr = true then ins (BSTRPICK_D ||| RD dst ||| RJ src ||| 31#32 <<< 16) else []
  | .movS32 => if rr = true then ins (SLLI_W ||| RD dst ||| RJ src ||| IMM_I12 0#64) else []
  | .clz => ins (INST CLZ_W CLZ_D op.is32 ||| RD dst ||| RJ src)
  | .ctz => ins (INST CTZ_W CTZ_D op.is32 ||| RD dst ||| RJ src)
  | .rev => ins (INST REVB_2W REVB_D op.is32 ||| RD dst ||| RJ src)
  | .revS16 => ins (REVB_2H ||| RD dst ||| RJ src) ++ ins (EXT_W_H ||| RD dst ||| RJ dst)
  | .revU16 => ins (REVB_2H ||| RD dst ||| RJ src) ++ ins (INST BSTRPICK_W BSTRPICK_D op.is32 ||| RD dst ||| RJ dst ||| 15#32 <<< 16)
  | .revS32 => ins (REVB_2W ||| RD dst ||| RJ src) ++ ins (SLLI_W ||| RD dst ||| RJ dst ||| IMM_I12 0#64)
  | .revU32 => ins (REVB_2W ||| RD dst ||| RJ src) ++ ins (BSTRPICK_D ||| RD dst ||| RJ dst ||| 31#32 <<< 16)
  | _ => []

/-- emit_single_op (sljitNativeLOONGARCH_64.c:1366-1782). -/
def emitSingle (op : Op) (fl : SF) (dst src1 : Nat) (src2 : S2) : Emit :=
  if op.code.isOp2 = true then emitSingle2 op fl dst src1 src2
  else match src2 with | .reg r => emitSingle1 op fl dst r | .imm _ => []

end Verif.LA
