/-!
# The status flag part of the argument checker

`last_flags` of the compiler, as maintained by the `check_sljit_*` functions of sljitLir.c when SLJIT_ARGUMENT_CHECKS is
enabled.  The checks of the operands are in `Verif.Generic.Operands`; here every operand is assumed to be accepted.
-/

namespace Verif.Generic.Flags

/-- `sljit_s32` arguments. -/
abbrev W := BitVec 32

/-- VARIABLE_FLAG_MASK (sljitLir.c:97), SLJIT_SET_Z and SLJIT_32 (sljitLir.h:1161, :1096), ALL_STATUS_FLAGS_MASK (:98),
SLJIT_REWRITABLE_JUMP (sljitLir.h:1815). -/
notation "VARIABLE_FLAG_MASK" => (0xf800#32)
notation "SET_Z" => (0x200#32)
notation "OP_32" => (0x100#32)
notation "ALL_STATUS_FLAGS_MASK" => (0xfa00#32)
notation "REWRITABLE_JUMP" => (0x10000#32)

/-- Conditions (sljitLir.h:1719-1811). -/
notation "COND_CARRY" => (12#32)
notation "COND_OVERFLOW" => (10#32)

/-- SLJIT_CHECK_OPCODE (sljitLir.c:1382). -/
def checkOpcode (op flags : W) : W := op &&& ~~~(OP_32 ||| ALL_STATUS_FLAGS_MASK ||| flags)

/-- GET_OPCODE, GET_FLAG_TYPE, GET_FLAG_TYPE_MASK (sljitLir.c:99-101). -/
def opcode (op : W) : W := op &&& 0xff#32
def flagType (op : W) : W := op >>> 10
def flagTypeMask (op : W) : W := (op >>> 10) &&& 0x3e#32

/-- Opcodes (sljitLir.h:1167-1597). -/
notation "OP_ADD" => (64#32)
notation "OP_ADDC" => (65#32)
notation "OP_SUB" => (66#32)
notation "OP_SUBC" => (67#32)
notation "OP_MUL" => (68#32)
notation "OP_AND" => (69#32)
notation "OP_XOR" => (71#32)
notation "OP_MASHR" => (77#32)
notation "OP_ROTR" => (79#32)
notation "OP_MOV" => (32#32)
notation "OP_MOV32" => (39#32)
notation "OP_CLZ" => (41#32)
notation "OP_REV_S32" => (47#32)
notation "OP_CMP_F64" => (152#32)

/-- Calls of the API.
`op1`, `op0`, `opSrc`, `opDst`, `op2`, `cmpF` (SLJIT_CMP_F64 by sljit_emit_fop1), `jump`, `op2cmpz`, `opFlags`, `select`
(also sljit_emit_fselect), `atomicStore`, `shiftInto`: the functions of these names.
`label`: sljit_emit_label and sljit_emit_aligned_label.  `mulAdd`: sljit_emit_op2r.  `cmp`: sljit_emit_cmp.
`fcmp`: sljit_emit_fcmp.  `call`: sljit_emit_call and sljit_emit_icall.  `ijump`: sljit_emit_ijump.
`reset`: sljit_emit_enter, sljit_set_context, sljit_emit_return, sljit_emit_op_custom, sljit_emit_atomic_load.
`fop`: other float operations.  `quiet`: functions which do not change flags (sljit_emit_mem, sljit_emit_const,
sljit_emit_op_addr, sljit_emit_fset32, ...).  `setCurrent`: sljit_set_current_flags. -/
inductive Call
  | op0 (op : W) | op1 (op : W) | op2 (op : W) (unset : Bool) | mulAdd | shiftInto | opSrc (op : W) | opDst (op : W)
  | cmpF (op : W) | fop | label | jump (type : W) | call | cmp | fcmp (type : W) | op2cmpz (op : W) | ijump
  | opFlags (op type : W) | select (type : W) | atomicStore (op : W) | reset | quiet | setCurrent (f : W)

/-- check_sljit_emit_op2_operation (sljitLir.c:1834-1874). -/
def op2Operation (lf op : W) : Bool :=
  let c := opcode op
  if OP_AND ≤ c ∧ c ≤ OP_MASHR then op &&& VARIABLE_FLAG_MASK == 0
  else if c = OP_MUL then op &&& SET_Z == 0 && (op &&& VARIABLE_FLAG_MASK == 0 || flagType op == COND_OVERFLOW)
  else if c = OP_ADD then op &&& VARIABLE_FLAG_MASK == 0 || flagType op == COND_CARRY || flagType op == COND_OVERFLOW
  else if c = OP_SUB then op &&& VARIABLE_FLAG_MASK == 0 || (2#32 ≤ flagType op && flagType op ≤ COND_OVERFLOW) || flagType op == COND_CARRY
  else if c = OP_ADDC ∨ c = OP_SUBC then
    (op &&& VARIABLE_FLAG_MASK == 0 || flagType op == COND_CARRY) && lf &&& 0xff#32 == COND_CARRY && op &&& OP_32 == lf &&& OP_32
  else op &&& ALL_STATUS_FLAGS_MASK == 0

/-- CHECK_UNORDERED (sljitLir.c:2431-2438). `arm`: the x86 and ARM variant. -/
def checkUnordered (arm : Bool) (type lf : W) : Bool :=
  arm && (type &&& 0xfe#32 == 23#32 && 22#32 ≤ lf &&& 0xff#32 && lf &&& 0xff#32 ≤ 35#32)

/-- The condition check of sljit_emit_jump (sljitLir.c:2452-2461); the same code is in sljit_emit_select (:2715-2722) and
sljit_emit_fselect (:2755-2762). -/
def condCheck (arm : Bool) (lf c : W) : Option W :=
  if c ≤ 1#32 then if lf &&& SET_Z ≠ 0 then some lf else none
  else if lf &&& 0xff#32 = COND_CARRY then if c &&& 0xfe#32 = COND_CARRY then some 0 else none
  else if c &&& 0xfe#32 = lf &&& 0xff#32 ∨ checkUnordered arm c lf then some lf else none

/-- What the `check_sljit_*` function does with `last_flags`: `none` if the call is rejected. -/
def check (arm : Bool) (lf : W) : Call → Option W
  -- check_sljit_emit_op0, sljitLir.c:1656-1665
  | .op0 op =>
    if op ≤ 3#32 ∨ (4#32 ≤ op &&& ~~~OP_32 ∧ op &&& ~~~OP_32 ≤ 7#32) ∨ (8#32 ≤ op ∧ op ≤ 10#32) then
      if (2#32 ≤ checkOpcode op 0 ∧ checkOpcode op 0 ≤ 7#32) ∨ op = 10#32 then some 0 else some lf
    else none
  -- check_sljit_emit_op1, sljitLir.c:1689-1706
  | .op1 op =>
    if ¬ (OP_MOV ≤ checkOpcode op 0 ∧ checkOpcode op 0 ≤ OP_REV_S32) then none
    else if opcode op ∈ [32#32, 37#32, 38#32, 39#32, 40#32, 46#32, 47#32] then
      if op &&& (OP_32 ||| ALL_STATUS_FLAGS_MASK) = 0 then some lf else none
    else if op &&& ALL_STATUS_FLAGS_MASK = 0 then some lf else none
  -- check_sljit_emit_op2, sljitLir.c:1889-1899
  | .op2 op unset =>
    if ¬ (OP_ADD ≤ checkOpcode op 0 ∧ checkOpcode op 0 ≤ OP_ROTR) then none
    else if ¬ op2Operation lf op then none
    else if unset ∧ op &&& ALL_STATUS_FLAGS_MASK = 0 then none
    else some (flagType op ||| (op &&& (OP_32 ||| SET_Z)))
  -- check_sljit_emit_op2r, sljitLir.c:1930
  | .mulAdd => some 0
  -- check_sljit_emit_shift_into, sljitLir.c:1953-1961
  | .shiftInto => some lf
  -- check_sljit_emit_op_src, sljitLir.c:1985-1993
  | .opSrc op => if 112#32 ≤ op ∧ op ≤ 117#32 then if op ≤ 113#32 then some 0 else some lf else none
  -- check_sljit_emit_op_dst, sljitLir.c:2009-2013
  | .opDst op => if op = 118#32 then some 0 else if op = 119#32 then some lf else none
  -- check_sljit_emit_fop1_cmp, sljitLir.c:2123-2137
  | .cmpF op =>
    if checkOpcode op 0 = OP_CMP_F64 ∧ op &&& SET_Z = 0 ∧ (op &&& VARIABLE_FLAG_MASK ≠ 0 ∨ (16#32 ≤ flagType op ∧ flagType op ≤ 35#32)) then
      some (flagType op ||| (op &&& OP_32))
    else none
  -- check_sljit_emit_fop1, fop2, ..., sljitLir.c:2094-2330
  | .fop => some lf
  -- check_sljit_emit_label, check_sljit_emit_aligned_label, sljitLir.c:2389, :2407
  | .label => some 0
  -- check_sljit_emit_jump, sljitLir.c:2447-2462
  | .jump type =>
    if type &&& ~~~(0xff#32 ||| REWRITABLE_JUMP) ≠ 0 ∨ ¬ type &&& 0xff#32 ≤ 37#32 then none
    else if type &&& 0xff#32 < 36#32 then condCheck arm lf (type &&& 0xff#32)
    else some lf
  -- check_sljit_emit_call, check_sljit_emit_icall, sljitLir.c:2476-2488, :2638-2652
  | .call => some lf
  -- check_sljit_emit_cmp, sljitLir.c:2526
  | .cmp => some 0
  -- check_sljit_emit_fcmp, sljitLir.c:2551, then check_sljit_emit_fop1_cmp before its skip_checks test, :2124
  | .fcmp type =>
    if type &&& ~~~(0xff#32 ||| REWRITABLE_JUMP ||| OP_32) = 0 ∧ 16#32 ≤ type &&& 0xff#32 ∧ type &&& 0xff#32 ≤ 35#32 then
      let op := OP_CMP_F64 ||| ((type &&& 0xfe#32) <<< 10) ||| (type &&& OP_32)
      some (flagType op ||| (op &&& OP_32))
    else none
  -- check_sljit_emit_op2cmpz, sljitLir.c:2575-2581
  | .op2cmpz op =>
    if ¬ (OP_ADD ≤ checkOpcode op REWRITABLE_JUMP ∧ checkOpcode op REWRITABLE_JUMP ≤ OP_ROTR) then none
    else if ¬ op2Operation lf ((op ||| SET_Z) &&& ~~~REWRITABLE_JUMP) then none
    else some (flagType op ||| (op &&& OP_32))
  -- check_sljit_emit_ijump, sljitLir.c:2613-2614
  | .ijump => some lf
  -- check_sljit_emit_op_flags, sljitLir.c:2671-2685
  | .opFlags op type =>
    if ¬ type ≤ 35#32 then none
    else if ¬ (op = OP_MOV ∨ op = OP_MOV32 ∨ (OP_AND ≤ checkOpcode op 0 ∧ checkOpcode op 0 ≤ OP_XOR)) then none
    else if op &&& VARIABLE_FLAG_MASK ≠ 0 then none
    else if (if type ≤ 1#32 then lf &&& SET_Z ≠ 0 else type &&& 0xfe#32 = lf &&& 0xff#32 ∨ checkUnordered arm type lf) then
      if OP_ADD ≤ opcode op then some (flagType op ||| (op &&& (OP_32 ||| SET_Z))) else some lf
    else none
  -- check_sljit_emit_select, check_sljit_emit_fselect, sljitLir.c:2703-2722, :2743-2762
  | .select type =>
    let c := type &&& ~~~OP_32
    if c ≤ 35#32 then condCheck arm lf c else none
  -- check_sljit_emit_atomic_store, sljitLir.c:1788-1805 (bits 16-18: SLJIT_ATOMIC_TEST and SLJIT_ATOMIC_USE_*)
  | .atomicStore op =>
    if OP_MOV ≤ checkOpcode op 0x70000#32 ∧ checkOpcode op 0x70000#32 ≤ 40#32 ∧ (op &&& VARIABLE_FLAG_MASK = 0 ∨ flagTypeMask op = 14#32) then
      some (flagTypeMask op ||| (op &&& OP_32))
    else none
  -- sljitLir.c:1449, :1526, :1622, :1749, :2072
  | .reset => some 0
  | .quiet => some lf
  -- sljit_set_current_flags, sljitLir.c:650-670 (SLJIT_CURRENT_FLAGS_ALL: 0x10f)
  | .setCurrent f =>
    if f &&& ~~~(ALL_STATUS_FLAGS_MASK ||| 0x10f#32) = 0 then some (flagType f ||| (f &&& (OP_32 ||| SET_Z))) else some 0

/-- A sequence of calls, newest first; a rejected call puts the compiler into an error state. -/
def run (arm : Bool) : List Call → Option W
  | [] => some 0
  | x :: l => (run arm l).bind fun lf => check arm lf x

end Verif.Generic.Flags
