import Verif.RISCV.ISA

/-!
# sljit's RISC-V instruction macros (model of sljitNativeRISCV_common.c, 64 bit configuration)

`sljit_ins` is `BitVec 32`, `sljit_u16` is `BitVec 16`, `sljit_sw` is `BitVec 64`.  sljit register numbers are `Nat`.
-/

namespace Verif.RV

/-- Build time configuration: RISCV_HAS_COMPRESSED(200), RISCV_HAS_BITMANIP_A(93), RISCV_HAS_BITMANIP_B(93)
(sljitNativeRISCV_common.c:47-128). Every theorem holds for each of the eight combinations. -/
structure Cfg where
  c : Bool
  zba : Bool
  zbb : Bool
  deriving DecidableEq, Repr

/-- `reg_map` (sljitNativeRISCV_common.c:165-167); SLJIT_NUMBER_OF_REGISTERS is 23 on RISC-V
(sljitConfigInternal.h, SLJIT_CONFIG_RISCV). Numbers outside of the table never occur; they are mapped to 0. -/
def regMap (r : Nat) : Reg :=
  match r with
  | 0 => 0#5 | 1 => 10#5 | 2 => 11#5 | 3 => 12#5 | 4 => 13#5 | 5 => 14#5 | 6 => 15#5 | 7 => 16#5 | 8 => 17#5
  | 9 => 29#5 | 10 => 30#5 | 11 => 31#5 | 12 => 27#5 | 13 => 26#5 | 14 => 25#5 | 15 => 24#5 | 16 => 23#5
  | 17 => 22#5 | 18 => 21#5 | 19 => 20#5 | 20 => 19#5 | 21 => 18#5 | 22 => 9#5 | 23 => 8#5 | 24 => 2#5
  | 25 => 6#5 | 26 => 1#5 | 27 => 7#5 | 28 => 5#5 | 29 => 28#5
  | _ => 0#5

/-- `freg_map` (sljitNativeRISCV_common.c:169-171). -/
def fregMap (r : Nat) : Reg :=
  match r with
  | 0 => 0#5 | 1 => 10#5 | 2 => 11#5 | 3 => 12#5 | 4 => 13#5 | 5 => 14#5 | 6 => 15#5 | 7 => 16#5 | 8 => 17#5
  | 9 => 2#5 | 10 => 3#5 | 11 => 4#5 | 12 => 5#5 | 13 => 6#5 | 14 => 7#5 | 15 => 28#5 | 16 => 29#5 | 17 => 30#5
  | 18 => 31#5 | 19 => 27#5 | 20 => 26#5 | 21 => 25#5 | 22 => 24#5 | 23 => 23#5 | 24 => 22#5 | 25 => 21#5
  | 26 => 20#5 | 27 => 19#5 | 28 => 18#5 | 29 => 9#5 | 30 => 8#5 | 31 => 0#5 | 32 => 1#5
  | _ => 0#5

/-- Register numbers (sljitNativeRISCV_common.c:150-163, sljitLir.h SLJIT_R0.., SLJIT_SP). -/
abbrev TMP_ZERO : Nat := 0
abbrev SLJIT_R0 : Nat := 1
abbrev SLJIT_R1 : Nat := 2
abbrev SLJIT_S0 : Nat := 23
abbrev SLJIT_SP : Nat := 24
abbrev TMP_REG1 : Nat := 25
abbrev TMP_REG2 : Nat := 26
abbrev TMP_REG3 : Nat := 27
abbrev EQUAL_FLAG : Nat := 28
abbrev OTHER_FLAG : Nat := 29
abbrev RETURN_ADDR_REG : Nat := TMP_REG2
abbrev TMP_FREG1 : Nat := 31
abbrev TMP_FREG2 : Nat := 32

/-! Operand fields, sljitNativeRISCV_common.c:183-217. -/
def RD (r : Nat) : BitVec 32 := (regMap r).setWidth 32 <<< 7
def RS1 (r : Nat) : BitVec 32 := (regMap r).setWidth 32 <<< 15
def RS2 (r : Nat) : BitVec 32 := (regMap r).setWidth 32 <<< 20
def FRD (r : Nat) : BitVec 32 := (fregMap r).setWidth 32 <<< 7
def FRS1 (r : Nat) : BitVec 32 := (fregMap r).setWidth 32 <<< 15
def FRS2 (r : Nat) : BitVec 32 := (fregMap r).setWidth 32 <<< 20
def IMM_I (i : BitVec 64) : BitVec 32 := i.setWidth 32 <<< 20
def IMM_S (i : BitVec 64) : BitVec 32 :=
  ((i.setWidth 32 &&& 0xfe0#32) <<< 20) ||| ((i.setWidth 32 &&& 0x1f#32) <<< 7)
def C_RD (r : Nat) : BitVec 16 := (regMap r).setWidth 16 <<< 7
def C_RS2 (r : Nat) : BitVec 16 := (regMap r).setWidth 16 <<< 2
def C_FRD (r : Nat) : BitVec 16 := (fregMap r).setWidth 16 <<< 7
def C_FRS2 (r : Nat) : BitVec 16 := (fregMap r).setWidth 16 <<< 2
def C_RS1_R3 (r : Nat) : BitVec 16 := ((regMap r).setWidth 16 &&& 0x7#16) <<< 7
def C_RS2_R3 (r : Nat) : BitVec 16 := ((regMap r).setWidth 16 &&& 0x7#16) <<< 2
def C_FRS2_R3 (r : Nat) : BitVec 16 := ((fregMap r).setWidth 16 &&& 0x7#16) <<< 2
def C_IS_R3 (r : Nat) : Bool := (regMap r) &&& 0x18#5 == 0x08#5
def C_IS_FR3 (r : Nat) : Bool := (fregMap r) &&& 0x18#5 == 0x08#5
def C_IMM_I (i : BitVec 64) : BitVec 16 := (((i &&& 0x1f#64) <<< 2) ||| ((i &&& 0x20#64) <<< 7)).setWidth 16
def C_LD32_SP (i : BitVec 64) : BitVec 16 :=
  (((i &&& 0x1c#64) <<< 2) ||| ((i &&& 0x20#64) <<< 7) ||| ((i &&& 0xc0#64) >>> 4)).setWidth 16
def C_ST32_SP (i : BitVec 64) : BitVec 16 := (((i &&& 0x3c#64) <<< 7) ||| ((i &&& 0xc0#64) <<< 1)).setWidth 16
def C_LD64_SP (i : BitVec 64) : BitVec 16 :=
  (((i &&& 0x18#64) <<< 2) ||| ((i &&& 0x20#64) <<< 7) ||| ((i &&& 0x1c0#64) >>> 4)).setWidth 16
def C_ST64_SP (i : BitVec 64) : BitVec 16 := (((i &&& 0x38#64) <<< 7) ||| ((i &&& 0x1c0#64) <<< 1)).setWidth 16
def C_MEM32 (i : BitVec 64) : BitVec 16 :=
  (((i &&& 0x4#64) <<< 4) ||| ((i &&& 0x38#64) <<< 7) ||| ((i &&& 0x40#64) >>> 1)).setWidth 16
def C_MEM64 (i : BitVec 64) : BitVec 16 := (((i &&& 0x38#64) <<< 7) ||| ((i &&& 0xc0#64) >>> 1)).setWidth 16
def C_BRN16 (i : BitVec 64) : BitVec 16 :=
  (((i &&& 0x6#64) <<< 2) ||| ((i &&& 0x18#64) <<< 7) ||| ((i &&& 0x20#64) >>> 3) ||| ((i &&& 0xc0#64) >>> 1) |||
    ((i &&& 0x100#64) <<< 4)).setWidth 16
def C_JMP16 (i : BitVec 64) : BitVec 16 :=
  (((i &&& 0xb40#64) <<< 1) ||| ((i &&& 0xe#64) <<< 2) ||| ((i &&& 0x10#64) <<< 7) ||| ((i &&& 0x20#64) >>> 3) |||
    ((i &&& 0x80#64) >>> 1) ||| ((i &&& 0x400#64) >>> 2)).setWidth 16

def OPC (o : BitVec 7) : BitVec 32 := o.setWidth 32
def C_OPC (o1 : BitVec 2) (o2 : BitVec 3) : BitVec 16 := o1.setWidth 16 ||| (o2.setWidth 16 <<< 13)
def F3 (f : BitVec 3) : BitVec 32 := f.setWidth 32 <<< 12
def F12 (f : BitVec 12) : BitVec 32 := f.setWidth 32 <<< 20
def F7 (f : BitVec 7) : BitVec 32 := f.setWidth 32 <<< 25

/-! Opcodes, sljitNativeRISCV_common.c:228-382. -/
def ADD : BitVec 32 := F7 0x0 ||| F3 0x0 ||| OPC 0x33
def ADDI : BitVec 32 := F3 0x0 ||| OPC 0x13
def AND : BitVec 32 := F7 0x0 ||| F3 0x7 ||| OPC 0x33
def ANDI : BitVec 32 := F3 0x7 ||| OPC 0x13
def AUIPC : BitVec 32 := OPC 0x17
def BEQ : BitVec 32 := F3 0x0 ||| OPC 0x63
def BNE : BitVec 32 := F3 0x1 ||| OPC 0x63
def BLT : BitVec 32 := F3 0x4 ||| OPC 0x63
def BGE : BitVec 32 := F3 0x5 ||| OPC 0x63
def BLTU : BitVec 32 := F3 0x6 ||| OPC 0x63
def BGEU : BitVec 32 := F3 0x7 ||| OPC 0x63
def C_ADD : BitVec 16 := C_OPC 0x2 0x4 ||| (1#16 <<< 12)
def C_ADDI : BitVec 16 := C_OPC 0x1 0x0
def C_ADDIW : BitVec 16 := C_OPC 0x1 0x1
def C_ADDW : BitVec 16 := C_OPC 0x1 0x4 ||| (7#16 <<< 10) ||| (1#16 <<< 5)
def C_ADDI16SP : BitVec 16 := C_OPC 0x1 0x3 ||| (2#16 <<< 7)
def C_AND : BitVec 16 := C_OPC 0x1 0x4 ||| (3#16 <<< 10) ||| (3#16 <<< 5)
def C_ANDI : BitVec 16 := C_OPC 0x1 0x4 ||| (2#16 <<< 10)
def C_BEQZ : BitVec 16 := C_OPC 0x1 0x6
def C_BNEZ : BitVec 16 := C_OPC 0x1 0x7
def C_EBREAK : BitVec 16 := C_OPC 0x2 0x4 ||| (1#16 <<< 12)
def C_FLDSP : BitVec 16 := C_OPC 0x2 0x1
def C_FSD : BitVec 16 := C_OPC 0x0 0x5
def C_FSDSP : BitVec 16 := C_OPC 0x2 0x5
def C_J : BitVec 16 := C_OPC 0x1 0x5
def C_JR : BitVec 16 := C_OPC 0x2 0x4
def C_JALR : BitVec 16 := C_OPC 0x2 0x4 ||| (1#16 <<< 12)
def C_LI : BitVec 16 := C_OPC 0x1 0x2
def C_LUI : BitVec 16 := C_OPC 0x1 0x3
def C_LDSP : BitVec 16 := C_OPC 0x2 0x3
def C_LWSP : BitVec 16 := C_OPC 0x2 0x2
def C_MV : BitVec 16 := C_OPC 0x2 0x4
def C_NOP : BitVec 16 := C_OPC 0x1 0x0
def C_SD : BitVec 16 := C_OPC 0x0 0x7
def C_SDSP : BitVec 16 := C_OPC 0x2 0x7
def C_SLLI : BitVec 16 := C_OPC 0x2 0x0
def C_OR : BitVec 16 := C_OPC 0x1 0x4 ||| (3#16 <<< 10) ||| (2#16 <<< 5)
def C_SRAI : BitVec 16 := C_OPC 0x1 0x4 ||| (1#16 <<< 10)
def C_SRLI : BitVec 16 := C_OPC 0x1 0x4 ||| (0#16 <<< 10)
def C_SUB : BitVec 16 := C_OPC 0x1 0x4 ||| (3#16 <<< 10) ||| (0#16 <<< 5)
def C_SW : BitVec 16 := C_OPC 0x0 0x6
def C_SWSP : BitVec 16 := C_OPC 0x2 0x6
def C_XOR : BitVec 16 := C_OPC 0x1 0x4 ||| (3#16 <<< 10) ||| (1#16 <<< 5)
def CLZ : BitVec 32 := F7 0x30 ||| F3 0x1 ||| OPC 0x13
def CTZ : BitVec 32 := F7 0x30 ||| F12 0x1 ||| F3 0x1 ||| OPC 0x13
def DIV : BitVec 32 := F7 0x1 ||| F3 0x4 ||| OPC 0x33
def DIVU : BitVec 32 := F7 0x1 ||| F3 0x5 ||| OPC 0x33
def EBREAK : BitVec 32 := F12 0x1 ||| F3 0x0 ||| OPC 0x73
def FENCE : BitVec 32 := F3 0x0 ||| OPC 0xf
def FLD : BitVec 32 := F3 0x3 ||| OPC 0x7
def FSD : BitVec 32 := F3 0x3 ||| OPC 0x27
def FSW : BitVec 32 := F3 0x2 ||| OPC 0x27
def JAL : BitVec 32 := OPC 0x6f
def JALR : BitVec 32 := F3 0x0 ||| OPC 0x67
def LD : BitVec 32 := F3 0x3 ||| OPC 0x3
def LUI : BitVec 32 := OPC 0x37
def LW : BitVec 32 := F3 0x2 ||| OPC 0x3
def MUL : BitVec 32 := F7 0x1 ||| F3 0x0 ||| OPC 0x33
def MULH : BitVec 32 := F7 0x1 ||| F3 0x1 ||| OPC 0x33
def MULHU : BitVec 32 := F7 0x1 ||| F3 0x3 ||| OPC 0x33
def NOP : BitVec 32 := ADDI
def OR : BitVec 32 := F7 0x0 ||| F3 0x6 ||| OPC 0x33
def ORI : BitVec 32 := F3 0x6 ||| OPC 0x13
def REM : BitVec 32 := F7 0x1 ||| F3 0x6 ||| OPC 0x33
def REMU : BitVec 32 := F7 0x1 ||| F3 0x7 ||| OPC 0x33
def REV8 : BitVec 32 := F12 0x6b8 ||| F3 0x5 ||| OPC 0x13
def ROL : BitVec 32 := F7 0x30 ||| F3 0x1 ||| OPC 0x33
def ROR : BitVec 32 := F7 0x30 ||| F3 0x5 ||| OPC 0x33
def RORI : BitVec 32 := F7 0x30 ||| F3 0x5 ||| OPC 0x13
def SD : BitVec 32 := F3 0x3 ||| OPC 0x23
def SEXTB : BitVec 32 := F7 0x30 ||| F12 0x4 ||| F3 0x1 ||| OPC 0x13
def SEXTH : BitVec 32 := F7 0x30 ||| F12 0x5 ||| F3 0x1 ||| OPC 0x13
def SH1ADD : BitVec 32 := F7 0x10 ||| F3 0x2 ||| OPC 0x33
def SH2ADD : BitVec 32 := F7 0x10 ||| F3 0x4 ||| OPC 0x33
def SH3ADD : BitVec 32 := F7 0x10 ||| F3 0x6 ||| OPC 0x33
def SLL : BitVec 32 := F7 0x0 ||| F3 0x1 ||| OPC 0x33
def SLLI : BitVec 32 := F3 0x1 ||| OPC 0x13
def SLT : BitVec 32 := F7 0x0 ||| F3 0x2 ||| OPC 0x33
def SLTI : BitVec 32 := F3 0x2 ||| OPC 0x13
def SLTU : BitVec 32 := F7 0x0 ||| F3 0x3 ||| OPC 0x33
def SLTUI : BitVec 32 := F3 0x3 ||| OPC 0x13
def SRL : BitVec 32 := F7 0x0 ||| F3 0x5 ||| OPC 0x33
def SRLI : BitVec 32 := F3 0x5 ||| OPC 0x13
def SRA : BitVec 32 := F7 0x20 ||| F3 0x5 ||| OPC 0x33
def SRAI : BitVec 32 := F7 0x20 ||| F3 0x5 ||| OPC 0x13
def SUB : BitVec 32 := F7 0x20 ||| F3 0x0 ||| OPC 0x33
def SW : BitVec 32 := F3 0x2 ||| OPC 0x23
def XOR : BitVec 32 := F7 0x0 ||| F3 0x4 ||| OPC 0x33
def XORI : BitVec 32 := F3 0x4 ||| OPC 0x13
def ZEXTH : BitVec 32 := F7 0x4 ||| F3 0x4 ||| OPC 0x3b

/-- The `word` operand of the emitters: 0x8 for 32 bit operations, 0 otherwise
(sljitNativeRISCV_common.c:1722-1731, e.g. :1893). -/
def WORD (w : Bool) : BitVec 32 := if w then 0x8#32 else 0#32

/-- C_ADDI_W / C_SUB_W (sljitNativeRISCV_common.c:408-409). -/
def C_ADDI_W (w : Bool) : BitVec 16 := C_ADDI ||| ((if w then 0x8#16 else 0#16) <<< 10)
def C_SUB_W (w : Bool) : BitVec 16 := C_SUB ||| ((if w then 0x8#16 else 0#16) <<< 9)

/-- The half words appended by `push_inst` (sljitNativeRISCV_common.c:419-427). Allocation failure is modelled in
`Verif.Generic.CompilerMem`, not here. -/
def w32 (w : BitVec 32) : List (BitVec 16) := [w.setWidth 16, (w >>> 16).setWidth 16]

/-- The half word appended by `push_inst16` (sljitNativeRISCV_common.c:429-436). -/
def w16 (h : BitVec 16) : List (BitVec 16) := [h]

/-- `FAIL_IF`-chained sequences of pushes become concatenation. -/
abbrev Emit := List (BitVec 16)

end Verif.RV
