import Verif.Loong.Arch

/-!
# Instruction words of sljitNativeLOONGARCH_64.c

The register map, RD, RJ, IMM_I12, ADDI_D and load_immediate are those of `Verif.Imm.Loong`.
-/

namespace Verif.LA
export Verif.Imm.Loong (regMap RD RJ IMM_I12 ADDI_D)

/-- RK, sljitNativeLOONGARCH_64.c:79. -/
def RK (r : Nat) : BitVec 32 := (regMap r).setWidth 32 <<< 10
/-- Registers used by the compiler, sljitNativeLOONGARCH_64.c:34-42 (SLJIT_NUMBER_OF_REGISTERS is 23). -/
abbrev TMP_REG1 : Nat := 25
@[inherit_doc TMP_REG1] abbrev TMP_REG2 : Nat := 26
@[inherit_doc TMP_REG1] abbrev TMP_REG3 : Nat := 27
@[inherit_doc TMP_REG1] abbrev TMP_ZERO : Nat := 0
@[inherit_doc TMP_REG1] abbrev EQUAL_FLAG : Nat := 28
@[inherit_doc TMP_REG1] abbrev OTHER_FLAG : Nat := 29

/-! Instruction words, sljitNativeLOONGARCH_64.c:109-237. -/
/-- ADD_W, OPC_3R(0x20) (sljitNativeLOONGARCH_64.c:109-237). -/
def ADD_W : BitVec 32 := 0x20#32 <<< 15
/-- ADD_D, OPC_3R(0x21) (sljitNativeLOONGARCH_64.c:109-237). -/
def ADD_D : BitVec 32 := 0x21#32 <<< 15
/-- SUB_W, OPC_3R(0x22) (sljitNativeLOONGARCH_64.c:109-237). -/
def SUB_W : BitVec 32 := 0x22#32 <<< 15
/-- SUB_D, OPC_3R(0x23) (sljitNativeLOONGARCH_64.c:109-237). -/
def SUB_D : BitVec 32 := 0x23#32 <<< 15
/-- SLT, OPC_3R(0x24) (sljitNativeLOONGARCH_64.c:109-237). -/
def SLT : BitVec 32 := 0x24#32 <<< 15
/-- SLTU, OPC_3R(0x25) (sljitNativeLOONGARCH_64.c:109-237). -/
def SLTU : BitVec 32 := 0x25#32 <<< 15
/-- AND, OPC_3R(0x29) (sljitNativeLOONGARCH_64.c:109-237). -/
def AND : BitVec 32 := 0x29#32 <<< 15
/-- OR, OPC_3R(0x2a) (sljitNativeLOONGARCH_64.c:109-237). -/
def OR : BitVec 32 := 0x2a#32 <<< 15
/-- XOR, OPC_3R(0x2b) (sljitNativeLOONGARCH_64.c:109-237). -/
def XOR : BitVec 32 := 0x2b#32 <<< 15
/-- SLL_W, OPC_3R(0x2e) (sljitNativeLOONGARCH_64.c:109-237). -/
def SLL_W : BitVec 32 := 0x2e#32 <<< 15
/-- SRL_W, OPC_3R(0x2f) (sljitNativeLOONGARCH_64.c:109-237). -/
def SRL_W : BitVec 32 := 0x2f#32 <<< 15
/-- SRA_W, OPC_3R(0x30) (sljitNativeLOONGARCH_64.c:109-237). -/
def SRA_W : BitVec 32 := 0x30#32 <<< 15
/-- SLL_D, OPC_3R(0x31) (sljitNativeLOONGARCH_64.c:109-237). -/
def SLL_D : BitVec 32 := 0x31#32 <<< 15
/-- SRL_D, OPC_3R(0x32) (sljitNativeLOONGARCH_64.c:109-237). -/
def SRL_D : BitVec 32 := 0x32#32 <<< 15
/-- SRA_D, OPC_3R(0x33) (sljitNativeLOONGARCH_64.c:109-237). -/
def SRA_D : BitVec 32 := 0x33#32 <<< 15
/-- ROTR_W, OPC_3R(0x36) (sljitNativeLOONGARCH_64.c:109-237). -/
def ROTR_W : BitVec 32 := 0x36#32 <<< 15
/-- ROTR_D, OPC_3R(0x37) (sljitNativeLOONGARCH_64.c:109-237). -/
def ROTR_D : BitVec 32 := 0x37#32 <<< 15
/-- MUL_W, OPC_3R(0x38) (sljitNativeLOONGARCH_64.c:109-237). -/
def MUL_W : BitVec 32 := 0x38#32 <<< 15
/-- MUL_D, OPC_3R(0x3b) (sljitNativeLOONGARCH_64.c:109-237). -/
def MUL_D : BitVec 32 := 0x3b#32 <<< 15
/-- MULH_D, OPC_3R(0x3c) (sljitNativeLOONGARCH_64.c:109-237). -/
def MULH_D : BitVec 32 := 0x3c#32 <<< 15
/-- MULH_DU, OPC_3R(0x3d) (sljitNativeLOONGARCH_64.c:109-237). -/
def MULH_DU : BitVec 32 := 0x3d#32 <<< 15
/-- LDX_B, OPC_3R(0x7000) (sljitNativeLOONGARCH_64.c:109-237). -/
def LDX_B : BitVec 32 := 0x7000#32 <<< 15
/-- LDX_H, OPC_3R(0x7008) (sljitNativeLOONGARCH_64.c:109-237). -/
def LDX_H : BitVec 32 := 0x7008#32 <<< 15
/-- LDX_W, OPC_3R(0x7010) (sljitNativeLOONGARCH_64.c:109-237). -/
def LDX_W : BitVec 32 := 0x7010#32 <<< 15
/-- LDX_D, OPC_3R(0x7018) (sljitNativeLOONGARCH_64.c:109-237). -/
def LDX_D : BitVec 32 := 0x7018#32 <<< 15
/-- STX_B, OPC_3R(0x7020) (sljitNativeLOONGARCH_64.c:109-237). -/
def STX_B : BitVec 32 := 0x7020#32 <<< 15
/-- STX_H, OPC_3R(0x7028) (sljitNativeLOONGARCH_64.c:109-237). -/
def STX_H : BitVec 32 := 0x7028#32 <<< 15
/-- STX_W, OPC_3R(0x7030) (sljitNativeLOONGARCH_64.c:109-237). -/
def STX_W : BitVec 32 := 0x7030#32 <<< 15
/-- STX_D, OPC_3R(0x7038) (sljitNativeLOONGARCH_64.c:109-237). -/
def STX_D : BitVec 32 := 0x7038#32 <<< 15
/-- LDX_BU, OPC_3R(0x7040) (sljitNativeLOONGARCH_64.c:109-237). -/
def LDX_BU : BitVec 32 := 0x7040#32 <<< 15
/-- LDX_HU, OPC_3R(0x7048) (sljitNativeLOONGARCH_64.c:109-237). -/
def LDX_HU : BitVec 32 := 0x7048#32 <<< 15
/-- LDX_WU, OPC_3R(0x7050) (sljitNativeLOONGARCH_64.c:109-237). -/
def LDX_WU : BitVec 32 := 0x7050#32 <<< 15
/-- SLLI_W, OPC_3R(0x81) (sljitNativeLOONGARCH_64.c:162-169). -/
def SLLI_W : BitVec 32 := 0x81#32 <<< 15
/-- SRLI_W, OPC_3R(0x89) (sljitNativeLOONGARCH_64.c:162-169). -/
def SRLI_W : BitVec 32 := 0x89#32 <<< 15
/-- SRAI_W, OPC_3R(0x91) (sljitNativeLOONGARCH_64.c:162-169). -/
def SRAI_W : BitVec 32 := 0x91#32 <<< 15
/-- ROTRI_W, OPC_3R(0x99) (sljitNativeLOONGARCH_64.c:162-169). -/
def ROTRI_W : BitVec 32 := 0x99#32 <<< 15
/-- SLLI_D (sljitNativeLOONGARCH_64.c:162-169). -/
def SLLI_D : BitVec 32 := 0x41#32 <<< 16
/-- SRLI_D (sljitNativeLOONGARCH_64.c:162-169). -/
def SRLI_D : BitVec 32 := 0x45#32 <<< 16
/-- SRAI_D (sljitNativeLOONGARCH_64.c:162-169). -/
def SRAI_D : BitVec 32 := 0x49#32 <<< 16
/-- ROTRI_D (sljitNativeLOONGARCH_64.c:162-169). -/
def ROTRI_D : BitVec 32 := 0x4d#32 <<< 16
/-- ADDI_W, OPC_2RI12(0xa) (sljitNativeLOONGARCH_64.c:109-237). -/
def ADDI_W : BitVec 32 := 0xa#32 <<< 22
/-- ANDI, OPC_2RI12(0xd) (sljitNativeLOONGARCH_64.c:109-237). -/
def ANDI : BitVec 32 := 0xd#32 <<< 22
/-- SLTI, OPC_2RI12(0x8) (sljitNativeLOONGARCH_64.c:109-237). -/
def SLTI : BitVec 32 := 0x8#32 <<< 22
/-- SLTUI, OPC_2RI12(0x9) (sljitNativeLOONGARCH_64.c:109-237). -/
def SLTUI : BitVec 32 := 0x9#32 <<< 22
/-- LD_B, OPC_2RI12(0xa0) (sljitNativeLOONGARCH_64.c:109-237). -/
def LD_B : BitVec 32 := 0xa0#32 <<< 22
/-- LD_H, OPC_2RI12(0xa1) (sljitNativeLOONGARCH_64.c:109-237). -/
def LD_H : BitVec 32 := 0xa1#32 <<< 22
/-- LD_W, OPC_2RI12(0xa2) (sljitNativeLOONGARCH_64.c:109-237). -/
def LD_W : BitVec 32 := 0xa2#32 <<< 22
/-- LD_D, OPC_2RI12(0xa3) (sljitNativeLOONGARCH_64.c:109-237). -/
def LD_D : BitVec 32 := 0xa3#32 <<< 22
/-- ST_B, OPC_2RI12(0xa4) (sljitNativeLOONGARCH_64.c:109-237). -/
def ST_B : BitVec 32 := 0xa4#32 <<< 22
/-- ST_H, OPC_2RI12(0xa5) (sljitNativeLOONGARCH_64.c:109-237). -/
def ST_H : BitVec 32 := 0xa5#32 <<< 22
/-- ST_W, OPC_2RI12(0xa6) (sljitNativeLOONGARCH_64.c:109-237). -/
def ST_W : BitVec 32 := 0xa6#32 <<< 22
/-- ST_D, OPC_2RI12(0xa7) (sljitNativeLOONGARCH_64.c:109-237). -/
def ST_D : BitVec 32 := 0xa7#32 <<< 22
/-- LD_BU, OPC_2RI12(0xa8) (sljitNativeLOONGARCH_64.c:109-237). -/
def LD_BU : BitVec 32 := 0xa8#32 <<< 22
/-- LD_HU, OPC_2RI12(0xa9) (sljitNativeLOONGARCH_64.c:109-237). -/
def LD_HU : BitVec 32 := 0xa9#32 <<< 22
/-- LD_WU, OPC_2RI12(0xaa) (sljitNativeLOONGARCH_64.c:109-237). -/
def LD_WU : BitVec 32 := 0xaa#32 <<< 22
/-- CLZ_W, OPC_2R(0x5) (sljitNativeLOONGARCH_64.c:172-191). -/
def CLZ_W : BitVec 32 := 0x5#32 <<< 10
/-- CTZ_W, OPC_2R(0x7) (sljitNativeLOONGARCH_64.c:172-191). -/
def CTZ_W : BitVec 32 := 0x7#32 <<< 10
/-- CLZ_D, OPC_2R(0x9) (sljitNativeLOONGARCH_64.c:172-191). -/
def CLZ_D : BitVec 32 := 0x9#32 <<< 10
/-- CTZ_D, OPC_2R(0xb) (sljitNativeLOONGARCH_64.c:172-191). -/
def CTZ_D : BitVec 32 := 0xb#32 <<< 10
/-- REVB_2H, OPC_2R(0xc) (sljitNativeLOONGARCH_64.c:172-191). -/
def REVB_2H : BitVec 32 := 0xc#32 <<< 10
/-- REVB_2W, OPC_2R(0xe) (sljitNativeLOONGARCH_64.c:172-191). -/
def REVB_2W : BitVec 32 := 0xe#32 <<< 10
/-- REVB_D, OPC_2R(0xf) (sljitNativeLOONGARCH_64.c:172-191). -/
def REVB_D : BitVec 32 := 0xf#32 <<< 10
/-- EXT_W_H, OPC_2R(0x16) (sljitNativeLOONGARCH_64.c:172-191). -/
def EXT_W_H : BitVec 32 := 0x16#32 <<< 10
/-- EXT_W_B, OPC_2R(0x17) (sljitNativeLOONGARCH_64.c:172-191). -/
def EXT_W_B : BitVec 32 := 0x17#32 <<< 10
/-- BSTRPICK_W and BSTRPICK_D (sljitNativeLOONGARCH_64.c:193-195). -/
def BSTRPICK_W : BitVec 32 := (0x1#32 <<< 22) ||| (1#32 <<< 21) ||| (1#32 <<< 15)
@[inherit_doc BSTRPICK_W] def BSTRPICK_D : BitVec 32 := 0x3#32 <<< 22

/-- `INST(inst, type)` (sljitNativeLOONGARCH_64.c:373): the _W form for SLJIT_32, the _D form otherwise. -/
def INST (w d : BitVec 32) (is32 : Bool) : BitVec 32 := if is32 then w else d

/-- push_inst (sljitNativeLOONGARCH_64.c:402-412): one instruction word. -/
def ins (w : BitVec 32) : Emit := [w]

end Verif.LA
