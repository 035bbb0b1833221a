/-!
# Constants on ARM64 (code side)

`logical_imm` and `load_immediate` of sljitNativeARM_64.c.  Words are `BitVec 64`, instruction words are `BitVec 32`, sljit_u32
variables which only count are `Nat`.
-/

namespace Verif.Imm.Arm64

/-- sljitNativeARM_64.c:46-48: the machine register of a sljit register (sljit_u8 in the code, five bits here). -/
def regMap (r : Nat) : BitVec 5 := BitVec.ofNat 5
  ([31, 0, 1, 2, 3, 4, 5, 6, 7, 11, 12, 13, 14, 15, 16, 17, 8, 28, 27, 26, 25, 24, 23, 22, 21, 20, 19, 31, 9, 10, 30, 29].getD r 0)

/-- sljitNativeARM_64.c:55. -/
def RD (r : Nat) : BitVec 32 := (regMap r).setWidth 32
/-- sljitNativeARM_64.c:57. -/
def RN (r : Nat) : BitVec 32 := (regMap r).setWidth 32 <<< 5
/-- sljitNativeARM_64.c:35. -/
def TMP_ZERO : Nat := 0
/-- sljitNativeARM_64.c:54. -/
def W_OP : BitVec 32 := 1#32 <<< 31
/-- sljitNativeARM_64.c:134-141. -/
def MOVK : BitVec 32 := 0xf2800000#32
@[inherit_doc MOVK] def MOVN : BitVec 32 := 0x92800000#32
@[inherit_doc MOVK] def MOVZ : BitVec 32 := 0xd2800000#32
@[inherit_doc MOVK] def ORRI : BitVec 32 := 0xb2000000#32

/-- One step of COUNT_TRAILING_ZERO, sljitNativeARM_64.c:656-679: `if (!(value & (2^k - 1))) { result += k; value >>= k; }`.
The type of value decides between a logical and an arithmetic shift: `sh`. -/
def ctzStep (sh : BitVec 64 → Nat → BitVec 64) (p : BitVec 64 × Nat) (k : Nat) : BitVec 64 × Nat :=
  if p.1 &&& BitVec.ofNat 64 (2 ^ k - 1) = 0#64 then (sh p.1 k, p.2 + k) else p

/-- COUNT_TRAILING_ZERO, sljitNativeARM_64.c:654-679: the value is shifted, the result is the number of shifts. -/
def countTrailingZero (sh : BitVec 64 → Nat → BitVec 64) (v : BitVec 64) : BitVec 64 × Nat :=
  [32, 16, 8, 4, 2, 1].foldl (ctzStep sh) (v, 0)

/-- The loop of logical_imm, sljitNativeARM_64.c:701-711: halves len while the two halves agree.  `none` is
SLJIT_UNREACHABLE. -/
def halve (u : BitVec 64) (len : Nat) : Option Nat :=
  if len = 0 then none
  else
    let mask := BitVec.ofNat 64 (2 ^ len - 1)
    if u &&& mask ≠ (u >>> len) &&& mask then some len else halve u (len / 2)
termination_by len

/-- logical_imm after the loop, sljitNativeARM_64.c:713-743, with the len left by the loop.  The arithmetic of sljit_u32 is that
of `BitVec 32`. -/
def logicalImmTail (u : BitVec 64) (len : Nat) : BitVec 32 :=
  let len := 2 * len
  let negated := u.getLsbD 0
  let u := if negated then ~~~ u else u
  let u := if len < 64 then u &&& BitVec.ofNat 64 (2 ^ len - 1) else u
  let (u, right) := countTrailingZero (· >>> ·) u
  let (imm, ones) := countTrailingZero (·.sshiftRight ·) (~~~ u)
  if ~~~ imm ≠ 0#64 then 0#32
  else
    let l : BitVec 32 := BitVec.ofNat 32 len
    let o : BitVec 32 := BitVec.ofNat 32 ones
    let r : BitVec 32 := BitVec.ofNat 32 right
    let ins : BitVec 32 := if len = 64 then 1#32 <<< 22 else (0x3f#32 - ((l <<< 1) - 1#32)) <<< 10
    if negated then ins ||| ((l - o - 1#32) <<< 10) ||| ((l - o - r) <<< 16)
    else ins ||| ((o - 1#32) <<< 10) ||| ((l - r) <<< 16)

/-- logical_imm, sljitNativeARM_64.c:683-743.  `len` is 32 for a 64 bit and 16 for a 32 bit operation, `check` is
LOGICAL_IMM_CHECK.  `none` is a failed assertion (lines 698-699). -/
def logicalImm (imm : BitVec 64) (len : Nat) (check : Bool) : Option (BitVec 32) :=
  let trivial := (len = 32 ∧ (imm = 0#64 ∨ imm = -1#64)) ∨ (len = 16 ∧ (imm.setWidth 32 = 0#32 ∨ imm.setWidth 32 = -1#32))
  if trivial then (if check then some 0#32 else none)
  else if len ≠ 32 ∧ len ≠ 16 then none
  else (halve imm len).map (logicalImmTail imm)

/-- A count of halfwords, sljitNativeARM_64.c:795-801: (zeros, ones) of the i low halfwords of simm. -/
def countHalf : Nat → BitVec 64 → Nat × Nat
  | 0, _ => (0, 0)
  | i + 1, simm =>
    let (z, o) := countHalf i (simm.sshiftRight 16)
    (z + (if simm &&& 0xffff#64 = 0#64 then 1 else 0), o + (if simm &&& 0xffff#64 = 0xffff#64 then 1 else 0))

/-- The loop of load_immediate over the halfwords, sljitNativeARM_64.c:807-820 (`inv`: MOVN first, simm is inverted) and
823-835 (MOVZ first).  `n` more halfwords, `i` is the index of the current one. -/
def halfLoop (inv : Bool) (dst : Nat) : Nat → Nat → Bool → BitVec 64 → List (BitVec 32)
  | 0, _, _, _ => []
  | n + 1, i, first, simm =>
    if simm &&& 0xffff#64 = 0#64 then halfLoop inv dst n (i + 1) first (simm.sshiftRight 16)
    else
      let s : BitVec 32 := simm.setWidth 32
      (if first then (if inv then MOVN else MOVZ) ||| RD dst ||| ((s &&& 0xffff#32) <<< 5) ||| (BitVec.ofNat 32 i <<< 21)
      else MOVK ||| RD dst ||| (((if inv then ~~~ s else s) &&& 0xffff#32) <<< 5) ||| (BitVec.ofNat 32 i <<< 21))
      :: halfLoop inv dst n (i + 1) false (simm.sshiftRight 16)

/-- load_immediate, sljitNativeARM_64.c:749-836: the instruction words.  `none` is a failed assertion of logical_imm. -/
def loadImmediate (dst : Nat) (imm : BitVec 64) : Option (List (BitVec 32)) :=
  let w : BitVec 32 := imm.setWidth 32
  if imm ≤ 0xffff#64 then some [MOVZ ||| RD dst ||| (w <<< 5)]
  else if imm.slt 0#64 ∧ (-0x10000#64).sle imm then some [MOVN ||| RD dst ||| ((~~~ w &&& 0xffff#32) <<< 5)]
  else if imm ≤ 0xffffffff#64 then
    if imm &&& 0xffff#64 = 0#64 then some [MOVZ ||| RD dst ||| ((imm >>> 16).setWidth 32 <<< 5) ||| (1#32 <<< 21)]
    else if imm &&& 0xffff0000#64 = 0xffff0000#64 then some [(MOVN ^^^ W_OP) ||| RD dst ||| ((~~~ w &&& 0xffff#32) <<< 5)]
    else if imm &&& 0xffff#64 = 0xffff#64 then
      some [(MOVN ^^^ W_OP) ||| RD dst ||| ((~~~ w &&& 0xffff0000#32) >>> 11) ||| (1#32 <<< 21)]
    else (logicalImm imm 16 false).map fun bitmask =>
      if bitmask ≠ 0#32 then [(ORRI ^^^ W_OP) ||| RD dst ||| RN TMP_ZERO ||| bitmask]
      else [MOVZ ||| RD dst ||| ((w &&& 0xffff#32) <<< 5), MOVK ||| RD dst ||| ((w &&& 0xffff0000#32) >>> 11) ||| (1#32 <<< 21)]
  else (logicalImm imm 32 false).map fun bitmask =>
    if bitmask ≠ 0#32 then [ORRI ||| RD dst ||| RN TMP_ZERO ||| bitmask]
    else if imm.slt 0#64 ∧ (-0x100000000#64).sle imm then
      if imm &&& 0xffff#64 = 0xffff#64 then [MOVN ||| RD dst ||| ((~~~ w &&& 0xffff0000#32) >>> 11) ||| (1#32 <<< 21)]
      else [MOVN ||| RD dst ||| ((~~~ w &&& 0xffff#32) <<< 5), MOVK ||| RD dst ||| ((w &&& 0xffff0000#32) >>> 11) ||| (1#32 <<< 21)]
    else
      let (zeros, ones) := countHalf 4 imm
      if ones > zeros then halfLoop true dst 4 0 true (~~~ imm)
      else halfLoop false dst 4 0 true imm


end Verif.Imm.Arm64
