import Verif.RISCV.Const

/-!
# Writing the final jump / move-address sequence (model of sljitNativeRISCV_common.c:638-763, RV64 part)
-/

namespace Verif.RV

/-- The PATCH_REL32 / PATCH_ABS32 / PATCH_ABS44 / PATCH_ABS52 flags of a jump (sljitNativeRISCV_common.c:508-556,
:611-633); `full` is none of them. -/
inductive Patch | rel32 | abs32 | abs44 | abs52 | full deriving DecidableEq, Repr

/-- What the sequence is used for: JUMP_MOV_ADDR with its register, or a jump with/without IS_CALL. -/
inductive Use | mov (reg : Nat) | jump | call deriving DecidableEq, Repr

/-- `reg` (sljitNativeRISCV_common.c:644). -/
def Use.reg : Use → Nat
  | .mov r => r
  | _ => TMP_REG1

/-- The last instruction (sljitNativeRISCV_common.c:663-668, :754-759). -/
def lastIns (u : Use) (addr : BitVec 64) : BitVec 32 :=
  match u with
  | .mov r => ADDI ||| RD r ||| RS1 r ||| IMM_I addr
  | .jump => JALR ||| RS1 TMP_REG1 ||| IMM_I addr
  | .call => JALR ||| RS1 TMP_REG1 ||| IMM_I addr ||| RD RETURN_ADDR_REG

/-- load_addr_to_reg (sljitNativeRISCV_common.c:638-763, SLJIT_CONFIG_RISCV_64).  `pc` is
`SLJIT_ADD_EXEC_OFFSET(buf, executable_offset)`; the result is the sequence stored from `buf` on.
`SLJIT_ASSERT`s are not modelled. -/
def loadAddr (p : Patch) (u : Use) (addr pc : BitVec 64) : Emit :=
  let reg := u.reg
  match p with
  | .rel32 =>
    let addr := adj12 (addr - pc)
    w32 (AUIPC ||| RD reg ||| (addr &&& ~~~0xfff#64).setWidth 32) ++ w32 (lastIns u addr)
  | .abs32 =>
    let addr := adj12 addr
    w32 (LUI ||| RD reg ||| (addr &&& ~~~0xfff#64).setWidth 32) ++ w32 (lastIns u addr)
  | .abs44 =>
    let addr := adj12 addr
    let high := addr.sshiftRight 12
    (if S32_MAX < high.toInt then
      w32 (LUI ||| RD reg ||| 0x80000000#32) ++ w32 (XORI ||| RD reg ||| RS1 reg ||| IMM_I high)
    else
      let high := adj12 high
      w32 (LUI ||| RD reg ||| (high &&& ~~~0xfff#64).setWidth 32) ++ w32 (ADDI ||| RD reg ||| RS1 reg ||| IMM_I high)) ++
    w32 (SLLI ||| RD reg ||| RS1 reg ||| IMM_I 12#64) ++ w32 (lastIns u addr)
  | .abs52 =>
    let addr := adj12 addr
    let high := if addr &&& 0x80000000#64 ≠ 0#64 then ~~~(addr.sshiftRight 32) else addr.sshiftRight 32
    w32 (LUI ||| RD TMP_REG3 ||| (high <<< 12).setWidth 32) ++
    w32 (LUI ||| RD reg ||| (addr &&& ~~~0xfff#64).setWidth 32) ++
    w32 (SLLI ||| RD TMP_REG3 ||| RS1 TMP_REG3 ||| IMM_I 20#64) ++
    w32 (XOR ||| RD reg ||| RS1 reg ||| RS2 TMP_REG3) ++ w32 (lastIns u addr)
  | .full =>
    let addr := adj12 addr
    let high := if addr &&& 0x80000000#64 ≠ 0#64 then ~~~(addr.sshiftRight 32) else addr.sshiftRight 32
    let high := adj12 high
    w32 (LUI ||| RD TMP_REG3 ||| (high &&& ~~~0xfff#64).setWidth 32) ++
    w32 (ADDI ||| RD TMP_REG3 ||| RS1 TMP_REG3 ||| IMM_I high) ++
    w32 (LUI ||| RD reg ||| (addr &&& ~~~0xfff#64).setWidth 32) ++
    w32 (SLLI ||| RD TMP_REG3 ||| RS1 TMP_REG3 ||| IMM_I 32#64) ++
    w32 (XOR ||| RD reg ||| RS1 reg ||| RS2 TMP_REG3) ++ w32 (lastIns u addr)

/-- Number of half words of each address loading sequence. -/
def Patch.len : Patch → Nat
  | .rel32 | .abs32 => 4
  | .abs44 => 8
  | .abs52 => 10
  | .full => 12

end Verif.RV
