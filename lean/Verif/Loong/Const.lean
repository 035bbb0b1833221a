import Verif.Loong.Api2
import Verif.Loong.Branch
import Verif.RISCV.Const

/-!
# Rewritable constants on LoongArch64

As in `Verif/RISCV/Const`, instruction memory is indexed by the writable address, `view` is what the processor fetches, a failed
SLJIT_ASSERT is the outcome `none`, SLJIT_CACHE_FLUSH and SLJIT_UPDATE_WX_FLAGS are not modelled.
-/

namespace Verif.LA
open Verif.RV (ConstOp u8Field Opd Sz)
open Verif.Imm.Loong (LU12I_W LU32I_D LU52I_D ORI)

/-- emit_const (sljitNativeLOONGARCH_64.c:3872-3880). -/
def emitConst (dst : Nat) (v : BitVec 64) : Emit :=
  ins (LU12I_W ||| RD dst ||| ((((v &&& 0xffffffff#64).sshiftRight 12) <<< 5).setWidth 32)) ++
  (ins (LU32I_D ||| RD dst ||| ((((v.sshiftRight 32) &&& 0xfffff#64) <<< 5).setWidth 32)) ++
  (ins (LU52I_D ||| RD dst ||| RJ dst ||| IMM_I12 (v.sshiftRight 52)) ++
  ins (ORI ||| RD dst ||| RJ dst ||| IMM_I12 v)))

/-- The register part of sljit_emit_const (sljitNativeLOONGARCH_64.c:3928-3950). -/
def emitConstReg (op : ConstOp) (dst : Nat) (v : BitVec 64) : Emit :=
  match op with
  | .u8 => ins (ADDI_D ||| RD dst ||| RJ TMP_ZERO ||| IMM_I12 (u8Field v))
  | .mov32 | .s32 =>
    ins (LU12I_W ||| RD dst ||| ((v.sshiftRight 7) &&& 0x1ffffe0#64).setWidth 32) ++ ins (ORI ||| RD dst ||| RJ dst ||| IMM_I12 v)
  | .mov => emitConst dst v

/-- `mem_flags` of sljit_emit_const (sljitNativeLOONGARCH_64.c:3916, 3936, 3940). -/
def constSz : ConstOp → Sz
  | .u8 => .byte
  | .mov32 => .int
  | .s32 | .mov => .word

/-- sljit_emit_const (sljitNativeLOONGARCH_64.c:3910-3956) without the record for the address. -/
def emitConstant (op : ConstOp) (dst : Opd) (v : BitVec 64) : Emit :=
  match dst with
  | .reg r => emitConstReg op r v
  | .mem b i w => emitConstReg op TMP_REG2 v ++ emitOpMem (.g (constSz op) false) false TMP_REG2 b i w
  | .imm _ => []

/-- `inst[i] = w`. -/
def upd (m : Code) (a : BitVec 64) (w : BitVec 32) : Code := fun b => if b = a then w else m b

/-- SLJIT_ADD_EXEC_OFFSET: the instruction fetched at `a` is the word stored at `a - off`. -/
def view (m : Code) (off : BitVec 64) : Code := fun a => m (a - off)

/-- sljit_set_jump_addr (sljitNativeLOONGARCH_64.c:3882-3908). -/
def setJumpAddr (m : Code) (addr t : BitVec 64) : Option Code :=
  let i0 := m addr
  let i1 := m (addr + 4#64)
  let i2 := m (addr + 8#64)
  let i3 := m (addr + 12#64)
  if i0 &&& (0x7f#32 <<< 25) = LU12I_W ∧ i1 &&& (0x7f#32 <<< 25) = LU32I_D ∧ i2 &&& (0x3ff#32 <<< 22) = LU52I_D ∧
      (i3 &&& (0x3ff#32 <<< 22) = ORI ∨ i3 &&& (0x3f#32 <<< 26) = 0x13#32 <<< 26) then
    let m := upd m addr ((i0 &&& (0x7f#32 <<< 25 ||| 0x1f#32)) ||| (((t &&& 0xffffffff#64) >>> 12) <<< 5).setWidth 32)
    let m := upd m (addr + 4#64) ((i1 &&& (0x7f#32 <<< 25 ||| 0x1f#32)) ||| (((t >>> 32) &&& 0xfffff#64) <<< 5).setWidth 32)
    let m := upd m (addr + 8#64) ((i2 &&& (0x3ff#32 <<< 22 ||| 0x3ff#32)) ||| IMM_I12 (t >>> 52))
    if i3 &&& (0x3ff#32 <<< 22) = ORI then
      some (upd m (addr + 12#64) ((i3 &&& (0x3ff#32 <<< 22 ||| 0x3ff#32)) ||| IMM_I12 t))
    else
      some (upd m (addr + 12#64) ((i3 &&& (0x3f#32 <<< 26 ||| 0x3ff#32)) ||| IMM_I12 ((t &&& 0xfff#64) >>> 2)))
  else none

/-- sljit_set_const (sljitNativeLOONGARCH_64.c:3997-4035). -/
def setConst (m : Code) (op : ConstOp) (addr k : BitVec 64) : Option Code :=
  match op with
  | .u8 =>
    if m addr &&& (0xb#32 <<< 22) = ADDI_D then
      some (upd m addr ((m addr &&& 0xffc003ff#32) ||| (u8Field k &&& 0xfff#64).setWidth 32 <<< 10))
    else none
  | .mov32 | .s32 =>
    let i0 := m addr
    let i1 := m (addr + 4#64)
    if i0 &&& (0xa#32 <<< 25) = LU12I_W ∧ i1 &&& (0xe#32 <<< 22) = ORI then
      let m := upd m addr ((i0 &&& (0xa#32 <<< 25 ||| 0x1f#32)) ||| ((k.sshiftRight 7) &&& 0x1ffffe0#64).setWidth 32)
      some (upd m (addr + 4#64) ((i1 &&& (0xe#32 <<< 22 ||| 0x3ff#32)) ||| (k &&& 0xfff#64).setWidth 32 <<< 10))
    else none
  | .mov => setJumpAddr m addr k

/-- Any number of rewrites. -/
def rewrites (m : Code) (op : ConstOp) (addr : BitVec 64) : List (BitVec 64) → Option Code
  | [] => some m
  | k :: ks => (setConst m op addr k).bind fun m' => rewrites m' op addr ks

end Verif.LA
