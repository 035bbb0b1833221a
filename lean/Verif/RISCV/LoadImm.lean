import Verif.RISCV.Encode

/-!
# Immediate loading (model of sljitNativeRISCV_64.c:27-193)

Signed comparisons of `sljit_sw` values are written on `toInt`, bit operations on the `BitVec 64`.
`SLJIT_ASSERT`s are not part of the emitted code (they are no-ops in release builds).
-/

namespace Verif.RV

/-! The constants of sljitNativeRISCV_common.c:384-406. -/
notation "SIMM_MAX" => (0x7ff : Int)
notation "SIMM_MIN" => (-0x800 : Int)
notation "SIMM16_MAX" => (0x1f : Int)
notation "SIMM16_MIN" => (-0x20 : Int)
notation "S32_MAX" => (0x7ffff7ff : Int)
notation "S32_MIN" => (-0x80000000 : Int)
notation "S44_MAX" => (0x7fffffff7ff : Int)
notation "S52_MAX" => (0x7ffffffffffff : Int)

/-- The C_LUI immediate expression used in load_immediate32 and load_immediate
(sljitNativeRISCV_64.c:47, :166). -/
def cLuiImm (imm : BitVec 64) : BitVec 16 :=
  (((imm &&& 0x1f000#64) >>> 10) ||| ((imm &&& 0x20000#64) >>> 5)).setWidth 16

/-- The final `imm &= 0xfff` part of load_immediate32 (sljitNativeRISCV_64.c:55-63). -/
def loadImmLow (cfg : Cfg) (dst : Nat) (imm : BitVec 64) : Emit :=
  let imm := imm &&& 0xfff#64
  if imm = 0#64 then []
  else if cfg.c && (imm.toInt ≤ 0x1f || 0xfe0 ≤ imm.toInt) then w16 (C_ADDI ||| C_RD dst ||| C_IMM_I imm)
  else w32 (ADDI ||| RD dst ||| RS1 dst ||| IMM_I imm)

/-- load_immediate32 (sljitNativeRISCV_64.c:27-64). -/
def loadImm32 (cfg : Cfg) (dst : Nat) (imm : BitVec 64) : Emit :=
  if S32_MAX < imm.toInt then
    w32 (LUI ||| RD dst ||| 0x80000000#32) ++ w32 (XORI ||| RD dst ||| RS1 dst ||| IMM_I imm)
  else if cfg.c && imm.toInt ≤ 0x1ffff && -0x20000 ≤ imm.toInt then
    if 0x1f7ff < imm.toInt then
      w16 (C_LUI ||| C_RD dst ||| 0x1000#16) ++ w32 (XORI ||| RD dst ||| RS1 dst ||| IMM_I imm)
    else
      let imm := if imm &&& 0x800#64 ≠ 0#64 then imm + 0x1000#64 else imm
      w16 (C_LUI ||| C_RD dst ||| cLuiImm imm) ++ loadImmLow cfg dst imm
  else
    let imm := if imm &&& 0x800#64 ≠ 0#64 then imm + 0x1000#64 else imm
    w32 (LUI ||| RD dst ||| (imm &&& ~~~0xfff#64).setWidth 32) ++ loadImmLow cfg dst imm

/-- The `while ((high & 0xff) == 0)` loop (sljitNativeRISCV_64.c:86-89); terminates for `high ≠ 0`, the recursion
bound 8 is never reached in that case (`shiftLoop_spec`). -/
def shiftLoop : Nat → BitVec 64 → BitVec 64 → BitVec 64 × BitVec 64
  | 0, high, shift => (high, shift)
  | n + 1, high, shift =>
    if high &&& 0xff#64 = 0#64 then shiftLoop n (high.sshiftRight 8) (shift + 8#64) else (high, shift)

/-- The three conditional shifts following the loop (sljitNativeRISCV_64.c:91-104). -/
def shiftTail (p : BitVec 64 × BitVec 64) : BitVec 64 × BitVec 64 :=
  let p := if p.1 &&& 0xf#64 = 0#64 then (p.1.sshiftRight 4, p.2 + 4#64) else p
  let p := if p.1 &&& 0x3#64 = 0#64 then (p.1.sshiftRight 2, p.2 + 2#64) else p
  if p.1 &&& 0x1#64 = 0#64 then (p.1.sshiftRight 1, p.2 + 1#64) else p

/-- First three cases of load_immediate (sljitNativeRISCV_64.c:70-77); also the whole of the recursive call at line 107,
whose argument always is in the 32 bit range. -/
def loadImmS32 (cfg : Cfg) (dst : Nat) (imm : BitVec 64) : Emit :=
  if cfg.c && imm.toInt ≤ SIMM16_MAX && SIMM16_MIN ≤ imm.toInt then w16 (C_LI ||| C_RD dst ||| C_IMM_I imm)
  else if imm.toInt ≤ SIMM_MAX ∧ SIMM_MIN ≤ imm.toInt then
    w32 (ADDI ||| RD dst ||| RS1 TMP_ZERO ||| IMM_I imm)
  else loadImm32 cfg dst imm

/-- `SLLI dst, dst, shift`, compressed if possible (sljitNativeRISCV_64.c:109-111). -/
def emitSlli (cfg : Cfg) (dst : Nat) (shift : BitVec 64) : Emit :=
  if cfg.c then w16 (C_SLLI ||| C_RD dst ||| C_IMM_I shift)
  else w32 (SLLI ||| RD dst ||| RS1 dst ||| IMM_I shift)

/-- The general case of load_immediate: two 32 bit halves combined by XOR (sljitNativeRISCV_64.c:134-192).
C_SLLI is written with its literal immediates `20 << 2` and `1 << 12` in the source; these are `C_IMM_I 20` and
`C_IMM_I 32`. `(sljit_ins)(high & ~0xfff)`: `~0xfff` is an int, sign extended. -/
def loadImm64 (cfg : Cfg) (dst : Nat) (imm : BitVec 64) (tmp : Nat) : Emit :=
  let high := imm.sshiftRight 32
  let imm := (imm.setWidth 32).signExtend 64
  let high := if imm &&& 0x80000000#64 ≠ 0#64 then ~~~high else high
  let hi : BitVec 64 × Emit :=
    if high.toInt ≤ 0x7ffff ∧ -0x80000 ≤ high.toInt then
      (0x1000#64, w32 (LUI ||| RD tmp ||| (high <<< 12).setWidth 32))
    else
      let high := if high &&& 0x800#64 ≠ 0#64 then high + 0x1000#64 else high
      (high &&& 0xfff#64, w32 (LUI ||| RD tmp ||| (high &&& ~~~0xfff#64).setWidth 32))
  let lo : BitVec 64 × Emit :=
    if imm.toInt ≤ SIMM_MAX ∧ SIMM_MIN ≤ imm.toInt then
      (0#64,
        if cfg.c && imm.toInt ≤ 0x1f && -0x20 ≤ imm.toInt then w16 (C_LI ||| C_RD dst ||| C_IMM_I imm)
        else w32 (ADDI ||| RD dst ||| RS1 TMP_ZERO ||| IMM_I imm))
    else if S32_MAX < imm.toInt then
      (0x1000#64 ||| (imm &&& 0xfff#64), w32 (LUI ||| RD dst ||| 0x80000000#32))
    else
      let imm := if imm &&& 0x800#64 ≠ 0#64 then imm + 0x1000#64 else imm
      (imm &&& 0xfff#64,
        if cfg.c && imm.toInt ≤ 0x1ffff && -0x20000 ≤ imm.toInt then w16 (C_LUI ||| C_RD dst ||| cLuiImm imm)
        else w32 (LUI ||| RD dst ||| (imm &&& ~~~0xfff#64).setWidth 32))
  let high := hi.1
  let imm := lo.1
  hi.2 ++ lo.2 ++
  (if high &&& 0xfff#64 ≠ 0#64 then
    (if cfg.c && (high.toInt ≤ 0x1f || 0xfe0 ≤ high.toInt) then w16 (C_ADDI ||| C_RD tmp ||| C_IMM_I high)
     else w32 (ADDI ||| RD tmp ||| RS1 tmp ||| IMM_I high))
   else []) ++
  (if imm &&& 0x1000#64 ≠ 0#64 then w32 (XORI ||| RD dst ||| RS1 dst ||| IMM_I imm)
   else if imm ≠ 0#64 then
    (if cfg.c && (imm.toInt ≤ 0x1f || 0xfe0 ≤ imm.toInt) then w16 (C_ADDI ||| C_RD dst ||| C_IMM_I imm)
     else w32 (ADDI ||| RD dst ||| RS1 dst ||| IMM_I imm))
   else []) ++
  emitSlli cfg tmp (if high &&& 0x1000#64 ≠ 0#64 then 20#64 else 32#64) ++
  w32 (XOR ||| RD dst ||| RS1 dst ||| RS2 tmp)

/-- load_immediate (sljitNativeRISCV_64.c:66-193). -/
def loadImm (cfg : Cfg) (dst : Nat) (imm : BitVec 64) (tmp : Nat) : Emit :=
  if (cfg.c && imm.toInt ≤ SIMM16_MAX && SIMM16_MIN ≤ imm.toInt) ∨ (imm.toInt ≤ 0x7fffffff ∧ S32_MIN ≤ imm.toInt) then
    loadImmS32 cfg dst imm
  else
    let p := shiftTail (shiftLoop 8 imm 0#64)
    if p.1.toInt ≤ 0x7fffffff ∧ S32_MIN ≤ p.1.toInt then
      loadImmS32 cfg dst p.1 ++ emitSlli cfg dst p.2
    else if imm.toInt ≤ 0x7ffffffffff ∧ -0x80000000000 ≤ imm.toInt then
      let high := imm.sshiftRight 12
      let high := if imm &&& 0x800#64 ≠ 0#64 then ~~~high else high
      loadImm32 cfg dst high ++ emitSlli cfg dst 12#64 ++ w32 (XORI ||| RD dst ||| RS1 dst ||| IMM_I imm)
    else
      loadImm64 cfg dst imm tmp

end Verif.RV
