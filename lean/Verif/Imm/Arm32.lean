/-!
# Constants on ARM32 and Thumb-2 (code side)

get_imm, compute_imm and load_immediate of sljitNativeARM_32.c, get_imm and load_immediate of sljitNativeARM_T2_32.c.
sljit_uw is `BitVec 32`.
-/

namespace Verif.Imm.Arm32

/-- reg_map, sljitNativeARM_32.c:66-68 (sljit_u8 in the code, four bits here). -/
def regMap (r : Nat) : BitVec 4 := BitVec.ofNat 4 ([0, 0, 1, 2, 3, 11, 10, 9, 8, 7, 6, 5, 4, 13, 12, 14, 15].getD r 0)
/-- RM, RD, RN, sljitNativeARM_32.c:86-89. -/
def RM (r : Nat) : BitVec 32 := (regMap r).setWidth 32
@[inherit_doc RM] def RD (r : Nat) : BitVec 32 := (regMap r).setWidth 32 <<< 12
@[inherit_doc RM] def RN (r : Nat) : BitVec 32 := (regMap r).setWidth 32 <<< 16
/-- TMP_REG1, TMP_REG2, sljitNativeARM_32.c:48-49 (SLJIT_NUMBER_OF_REGISTERS is 12). -/
def TMP_REG1 : Nat := 14
@[inherit_doc TMP_REG1] def TMP_REG2 : Nat := 15
/-- sljitNativeARM_32.c:1285. -/
def SRC2_IMM : BitVec 32 := 1#32 <<< 25
/-- Instruction words, sljitNativeARM_32.c:105-142 and 188-189. -/
def ADC : BitVec 32 := 0xe0a00000#32
@[inherit_doc ADC] def ADD : BitVec 32 := 0xe0800000#32
@[inherit_doc ADC] def AND : BitVec 32 := 0xe0000000#32
@[inherit_doc ADC] def BIC : BitVec 32 := 0xe1c00000#32
@[inherit_doc ADC] def EOR : BitVec 32 := 0xe0200000#32
@[inherit_doc ADC] def MOV : BitVec 32 := 0xe1a00000#32
@[inherit_doc ADC] def MVN : BitVec 32 := 0xe1e00000#32
@[inherit_doc ADC] def ORR : BitVec 32 := 0xe1800000#32
@[inherit_doc ADC] def RSB : BitVec 32 := 0xe0600000#32
@[inherit_doc ADC] def RSC : BitVec 32 := 0xe0e00000#32
@[inherit_doc ADC] def SBC : BitVec 32 := 0xe0c00000#32
@[inherit_doc ADC] def SUB : BitVec 32 := 0xe0400000#32
@[inherit_doc ADC] def MOVT : BitVec 32 := 0xe3400000#32
@[inherit_doc ADC] def MOVW : BitVec 32 := 0xe3000000#32

/-- `if (!(imm & mask)) { imm <<= k; rol += k / 2; }`, the step which get_imm and compute_imm repeat
(sljitNativeARM_32.c:1879-1892, 1951-1964, 1971-1979, 1985-1993). -/
def shiftStep (mask : BitVec 32) (k : Nat) (p : BitVec 32 × Nat) : BitVec 32 × Nat :=
  if p.1 &&& mask = 0#32 then (p.1 <<< k, p.2 + k / 2) else p

/-- `SRC2_IMM | byte | (rol << 8)`. -/
def src2Imm (byte : BitVec 32) (rol : Nat) : BitVec 32 := SRC2_IMM ||| byte ||| (BitVec.ofNat 32 rol <<< 8)

/-- get_imm, sljitNativeARM_32.c:1864-1897. -/
def getImm (imm : BitVec 32) : BitVec 32 :=
  if imm ≤ 0xff#32 then SRC2_IMM ||| imm
  else
    let p := if imm &&& 0xff000000#32 = 0#32 then (imm <<< 8, 8) else ((imm <<< 24) ||| (imm >>> 8), 0)
    let p := shiftStep 0xff000000#32 8 p
    let p := shiftStep 0xf0000000#32 4 p
    let p := shiftStep 0xc0000000#32 2 p
    if p.1 &&& 0x00ffffff#32 = 0#32 then src2Imm (p.1 >>> 24) p.2 else 0#32

/-- The second loop of compute_imm, sljitNativeARM_32.c:1924-1934; imm is already rotated by 8.  `none` is `return 0`.
The shift `imm >> (32 - rol)` has 1 <= 32 - rol here. -/
def zeroByte2 (imm mask : BitVec 32) (rol : Nat) : Nat → Option (BitVec 32 × Nat)
  | 0 => none
  | n + 1 =>
    if imm &&& mask = 0#32 then some ((imm <<< rol) ||| (imm >>> (32 - rol)), rol / 2 - 8)
    else if (mask >>> 2) &&& 3#32 ≠ 0#32 then none
    else zeroByte2 imm (mask >>> 2) (rol + 2) n

/-- The first loop of compute_imm, sljitNativeARM_32.c:1905-1939: the constant rotated so that its low byte is zero, and the
rotation in ARM units.  The loops end after at most 12 and 4 rounds since the mask runs out; the counter is fuel. -/
def zeroByte (imm mask : BitVec 32) (rol : Nat) : Nat → Option (BitVec 32 × Nat)
  | 0 => none
  | n + 1 =>
    if imm &&& mask = 0#32 then some ((imm <<< rol) ||| (imm >>> (32 - rol)), 4 + rol / 2)
    else if (mask >>> 2) &&& 3#32 ≠ 0#32 then zeroByte2 ((imm <<< 8) ||| (imm >>> 24)) 0xff00#32 24 16
    else zeroByte imm (mask >>> 2) (rol + 2) n

/-- The end of compute_imm, sljitNativeARM_32.c:1966-1969 and 1995-1998: the second half from the rest. -/
def secondImm (imm1 : BitVec 32) (p : BitVec 32 × Nat) : Option (BitVec 32 × BitVec 32) :=
  if p.1 &&& 0x00ffffff#32 = 0#32 then some (imm1, src2Imm (p.1 >>> 24) (p.2 % 16)) else none

/-- compute_imm, sljitNativeARM_32.c:1899-2002: (imm1, *imm2), `none` is `return 0`. -/
def computeImm (imm : BitVec 32) : Option (BitVec 32 × BitVec 32) :=
  (zeroByte imm 0xff000000#32 8 16).bind fun (imm, rol) =>
    if imm &&& 0xff000000#32 = 0#32 then
      some (src2Imm ((imm >>> 16) &&& 0xff#32) ((rol + 4) % 16), src2Imm ((imm >>> 8) &&& 0xff#32) ((rol + 8) % 16))
    else if imm &&& 0xc0000000#32 ≠ 0#32 then
      let imm1 := src2Imm ((imm >>> 24) &&& 0xff#32) (rol % 16)
      secondImm imm1 (shiftStep 0xc0000000#32 2 (shiftStep 0xf0000000#32 4 (shiftStep 0xff000000#32 8 (imm <<< 8, rol + 4))))
    else
      let p := shiftStep 0xc0000000#32 2 (shiftStep 0xf0000000#32 4 (imm, rol))
      let imm1 := src2Imm ((p.1 >>> 24) &&& 0xff#32) (p.2 % 16)
      secondImm imm1 (shiftStep 0xc0000000#32 2 (shiftStep 0xf0000000#32 4 (p.1 <<< 8, p.2 + 4)))

/-- What is emitted: an instruction word, or a load of a word from the constant pool (push_inst_with_literal; the pool itself is
not modelled). -/
inductive Item where
  | ins (w : BitVec 32)
  | lit (reg : Nat) (v : BitVec 32)
  deriving DecidableEq, Repr

/-- load_immediate, sljitNativeARM_32.c:2004-2044; `v6` is SLJIT_CONFIG_ARM_V6. -/
def loadImmediate (v6 : Bool) (reg : Nat) (imm : BitVec 32) : List Item :=
  if v6 = false ∧ imm &&& ~~~ 0xffff#32 = 0#32 then
    [.ins (MOVW ||| RD reg ||| ((imm <<< 4) &&& 0xf0000#32) ||| (imm &&& 0xfff#32))]
  else if getImm imm ≠ 0#32 then [.ins (MOV ||| RD reg ||| getImm imm)]
  else if getImm (~~~ imm) ≠ 0#32 then [.ins (MVN ||| RD reg ||| getImm (~~~ imm))]
  else if v6 then
    match computeImm imm with
    | some (imm1, imm2) => [.ins (MOV ||| RD reg ||| imm1), .ins (ORR ||| RD reg ||| RN reg ||| imm2)]
    | none =>
      match computeImm (~~~ imm) with
      | some (imm1, imm2) => [.ins (MVN ||| RD reg ||| imm1), .ins (BIC ||| RD reg ||| RN reg ||| imm2)]
      | none => [.lit reg imm]
  else
    .ins (MOVW ||| RD reg ||| ((imm <<< 4) &&& 0xf0000#32) ||| (imm &&& 0xfff#32)) ::
      if imm ≤ 0xffff#32 then []
      else [.ins (MOVT ||| RD reg ||| ((imm >>> 12) &&& 0xf0000#32) ||| ((imm >>> 16) &&& 0xfff#32))]

end Verif.Imm.Arm32

namespace Verif.Imm.Thumb

/-- reg_map, sljitNativeARM_T2_32.c:48-50. -/
def regMap (r : Nat) : BitVec 4 := BitVec.ofNat 4 ([0, 0, 1, 2, 3, 11, 10, 9, 8, 7, 6, 5, 4, 13, 12, 14, 15].getD r 0)
/-- RD4, sljitNativeARM_T2_32.c:91. -/
def RD4 (r : Nat) : BitVec 32 := (regMap r).setWidth 32 <<< 8
/-- COPY_BITS, sljitNativeARM_T2_32.c:68-69. -/
def copyBits (src : BitVec 32) (frm to n : Nat) : BitVec 32 :=
  (if frm ≥ to then src >>> (frm - to) else src <<< (to - frm)) &&& (BitVec.ofNat 32 (2 ^ n - 1) <<< to)
/-- Instruction words, sljitNativeARM_T2_32.c:165-172. -/
def MOVT : BitVec 32 := 0xf2c00000#32
@[inherit_doc MOVT] def MOVW : BitVec 32 := 0xf2400000#32
@[inherit_doc MOVT] def MOV_WI : BitVec 32 := 0xf04f0000#32
@[inherit_doc MOVT] def MVN_WI : BitVec 32 := 0xf06f0000#32
/-- sljitNativeARM_T2_32.c:767. -/
def INVALID_IMM : BitVec 32 := 0x80000000#32

/-- `if (!(imm & mask)) { counter += k; imm <<= k; }`, sljitNativeARM_T2_32.c:787-806. -/
def shiftStep (mask : BitVec 32) (k : Nat) (p : BitVec 32 × Nat) : BitVec 32 × Nat :=
  if p.1 &&& mask = 0#32 then (p.1 <<< k, p.2 + k) else p

/-- get_imm after the special cases, sljitNativeARM_T2_32.c:785-814. -/
def rotated (imm : BitVec 32) : BitVec 32 :=
  let p := shiftStep 0x80000000#32 1 (shiftStep 0xc0000000#32 2 (shiftStep 0xf0000000#32 4 (shiftStep 0xff000000#32 8
    (shiftStep 0xffff0000#32 16 (imm, 8)))))
  if p.1 &&& 0x00ffffff#32 ≠ 0#32 then INVALID_IMM
  else
    let counter : BitVec 32 := BitVec.ofNat 32 p.2
    ((p.1 >>> 24) &&& 0x7f#32) ||| copyBits counter 4 26 1 ||| copyBits counter 1 12 3 ||| copyBits counter 0 7 1

/-- get_imm, sljitNativeARM_T2_32.c:768-815. -/
def getImm (imm : BitVec 32) : BitVec 32 :=
  if imm ≤ 0xff#32 then imm
  else if imm &&& 0xffff#32 = imm >>> 16 ∧ imm &&& 0xff00#32 = 0#32 then (1#32 <<< 12) ||| (imm &&& 0xff#32)
  else if imm &&& 0xffff#32 = imm >>> 16 ∧ imm &&& 0xff#32 = 0#32 then (2#32 <<< 12) ||| ((imm >>> 8) &&& 0xff#32)
  else if imm &&& 0xffff#32 = imm >>> 16 ∧ imm &&& 0xff00#32 = (imm &&& 0xff#32) <<< 8 then (3#32 <<< 12) ||| (imm &&& 0xff#32)
  else rotated imm

/-- load_immediate, sljitNativeARM_T2_32.c:817-841. -/
def loadImmediate (dst : Nat) (imm : BitVec 32) : List (BitVec 32) :=
  if imm ≥ 0x10000#32 ∧ getImm imm ≠ INVALID_IMM then [MOV_WI ||| RD4 dst ||| getImm imm]
  else if imm ≥ 0x10000#32 ∧ getImm (~~~ imm) ≠ INVALID_IMM then [MVN_WI ||| RD4 dst ||| getImm (~~~ imm)]
  else
    (MOVW ||| RD4 dst ||| copyBits imm 12 16 4 ||| copyBits imm 11 26 1 ||| copyBits imm 8 12 3 ||| (imm &&& 0xff#32)) ::
      if imm ≥ 0x10000#32 then
        [MOVT ||| RD4 dst ||| copyBits imm (12 + 16) 16 4 ||| copyBits imm (11 + 16) 26 1 ||| copyBits imm (8 + 16) 12 3 |||
          ((imm &&& 0xff0000#32) >>> 16)]
      else []

end Verif.Imm.Thumb
