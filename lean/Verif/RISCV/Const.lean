import Verif.RISCV.LoadImm

/-!
# Rewritable constants and jumps (model of sljitNativeRISCV_64.c:235-291, sljitNativeRISCV_common.c:4487-4624)

Instruction memory is a map from (even) addresses to half words, indexed by the writable address; `view` is what the
processor fetches when the executable mapping is `off` bytes away (SLJIT_ADD_EXEC_OFFSET).  `SLJIT_ASSERT` failures are
the outcome `none`.  `SLJIT_CACHE_FLUSH` and `SLJIT_UPDATE_WX_FLAGS` have no effect on the contents and are not modelled.
-/

namespace Verif.RV

/-- `inst[i] = h` (one `sljit_u16` store). -/
def upd (m : Code) (a : BitVec 64) (h : BitVec 16) : Code := fun b => if b = a then h else m b

/-- SLJIT_ADD_EXEC_OFFSET (sljitConfigInternal.h / sljitLir.c): the instruction fetched at `a` is the half word stored at
`a - off`. -/
def view (m : Code) (off : BitVec 64) : Code := fun a => m (a - off)

/-- `if ((v & 0x800) != 0) v += 0x1000` (sljitNativeRISCV_64.c:239-240, :264-265).  The signed addition of the C code can
overflow for values close to INT64_MAX in `emit_const`; it is modelled as wrap around. -/
def adj12 (v : BitVec 64) : BitVec 64 := if v &&& 0x800#64 ≠ 0#64 then v + 0x1000#64 else v

/-- The computation of `high` from the adjusted value (sljitNativeRISCV_64.c:242-248, :267-273). -/
def constHigh (v : BitVec 64) : BitVec 64 :=
  adj12 (if v &&& 0x80000000#64 ≠ 0#64 then ~~~(v.sshiftRight 32) else v.sshiftRight 32)

/-- emit_const (sljitNativeRISCV_64.c:235-256). -/
def emitConst (dst : Nat) (init : BitVec 64) (lastIns : BitVec 32) : Emit :=
  let v := adj12 init
  let high := constHigh v
  w32 (LUI ||| RD TMP_REG3 ||| (high &&& ~~~0xfff#64).setWidth 32) ++
  w32 (ADDI ||| RD TMP_REG3 ||| RS1 TMP_REG3 ||| IMM_I high) ++
  w32 (LUI ||| RD dst ||| (v &&& ~~~0xfff#64).setWidth 32) ++
  w32 (SLLI ||| RD TMP_REG3 ||| RS1 TMP_REG3 ||| IMM_I 32#64) ++
  w32 (XOR ||| RD dst ||| RS1 dst ||| RS2 TMP_REG3) ++
  w32 (lastIns ||| RS1 dst ||| IMM_I v)

/-- sljit_set_jump_addr (sljitNativeRISCV_64.c:258-291). -/
def setJumpAddr (m : Code) (addr target : BitVec 64) : Option Code :=
  let v := adj12 target
  let high := constHigh v
  let i0 := m addr
  let i2 := m (addr + 4#64)
  let i3 := m (addr + 6#64)
  let i4 := m (addr + 8#64)
  let i10 := m (addr + 20#64)
  let i11 := m (addr + 22#64)
  if i0 &&& 0x7f#16 = LUI.setWidth 16 ∧ i2 &&& 0x707f#16 = ADDI.setWidth 16 ∧ i4 &&& 0x7f#16 = LUI.setWidth 16 ∧
      (i10 &&& 0x707f#16 = ADDI.setWidth 16 ∨ i10 &&& 0x707f#16 = JALR.setWidth 16) then
    let m := upd m addr ((i0 &&& 0xfff#16) ||| (high &&& 0xf000#64).setWidth 16)
    let m := upd m (addr + 2#64) ((high.sshiftRight 16).setWidth 16)
    let m := upd m (addr + 6#64) ((i3 &&& 0xf#16) ||| (high <<< 4).setWidth 16)
    let m := upd m (addr + 8#64) ((i4 &&& 0xfff#16) ||| (v &&& 0xf000#64).setWidth 16)
    let m := upd m (addr + 10#64) ((v >>> 16).setWidth 16)
    let m := upd m (addr + 22#64) ((i11 &&& 0xf#16) ||| (v <<< 4).setWidth 16)
    some m
  else none

/-- The kinds of constants of sljit_emit_const / sljit_set_const (sljitNativeRISCV_common.c:4502, :4586):
SLJIT_MOV_U8 (and SLJIT_MOV32_U8), SLJIT_MOV32, SLJIT_MOV_S32 and everything else. -/
inductive ConstOp | u8 | mov32 | s32 | mov deriving DecidableEq, Repr

/-- The 12 bit field of an SLJIT_MOV_U8 constant (sljitNativeRISCV_common.c:4504-4507, :4591-4594). -/
def u8Field (v : BitVec 64) : BitVec 64 := if v &&& 0x100#64 ≠ 0#64 then v ||| 0xf00#64 else v &&& 0xff#64

/-- The adjustment of 32 bit constants (sljitNativeRISCV_common.c:4518-4519, :4609-4610). -/
def adj32 (v : BitVec 64) : BitVec 64 := if v &&& 0x800#64 ≠ 0#64 then v ^^^ ~~~0xfff#64 else v

/-- The register part of sljit_emit_const (sljitNativeRISCV_common.c:4502-4529).  Storing to a memory destination is
`emit_op_mem`, appended by the caller. -/
def emitConstReg (op : ConstOp) (dst : Nat) (init : BitVec 64) : Emit :=
  match op with
  | .u8 => w32 (ADDI ||| RD dst ||| IMM_I (u8Field init))
  | .mov32 | .s32 =>
    let v := adj32 init
    w32 (LUI ||| RD dst ||| (v &&& ~~~0xfff#64).setWidth 32) ++ w32 (XORI ||| RD dst ||| RS1 dst ||| IMM_I v)
  | .mov => emitConst dst init (ADDI ||| RD dst)

/-- sljit_set_const (sljitNativeRISCV_common.c:4582-4624). -/
def setConst (m : Code) (op : ConstOp) (addr k : BitVec 64) : Option Code :=
  match op with
  | .u8 =>
    if m addr &&& 0x707f#16 = ADDI.setWidth 16 then
      let k := u8Field k
      some (upd m (addr + 2#64) ((k <<< 4).setWidth 16 ||| (m (addr + 2#64) &&& 0xf#16)))
    else none
  | .mov32 | .s32 =>
    let i0 := m addr
    let i2 := m (addr + 4#64)
    let i3 := m (addr + 6#64)
    if i0 &&& 0x7f#16 = LUI.setWidth 16 ∧ i2 &&& 0x707f#16 = XORI.setWidth 16 then
      let k := adj32 k
      let m := upd m addr ((i0 &&& 0xfff#16) ||| (k &&& 0xf000#64).setWidth 16)
      let m := upd m (addr + 2#64) ((k.sshiftRight 16).setWidth 16)
      let m := upd m (addr + 6#64) ((k <<< 4).setWidth 16 ||| (i3 &&& 0xf#16))
      some m
    else none
  | .mov => setJumpAddr m addr k

/-- Any number of rewrites. -/
def rewrites (m : Code) (op : ConstOp) (addr : BitVec 64) : List (BitVec 64) → Option Code
  | [] => some m
  | k :: ks => (setConst m op addr k).bind fun m' => rewrites m' op addr ks

end Verif.RV
