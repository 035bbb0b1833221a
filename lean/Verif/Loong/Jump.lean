import Verif.Loong.Api4
import Verif.Loong.Const

/-!
# Jumps, calls and addresses of labels on LoongArch64

The final form of a jump: sljit_emit_jump / sljit_emit_ijump put a conditional branch (if any) and JIRL into the buffer,
detect_jump_type selects one of six forms, load_addr_to_reg and the last loop of sljit_generate_code fill in the words.
The words are a list here (the first is the branch, or the first word of the jump), a failed SLJIT_ASSERT is the outcome `none`.
Not modelled: the loop over the buffer (where the jump is, and where its target is), SLJIT_CACHE_FLUSH, SLJIT_UPDATE_WX_FLAGS.
-/

namespace Verif.LA
open Verif.Imm.Loong (LU12I_W LU32I_D LU52I_D ORI regMap)

/-! ## The machine -/

/-- Offset of b and bl (LoongArch Reference Manual, volume 1, table of formats: I26). -/
def offs26 (w : BitVec 32) : BitVec 26 := (fld w 0 10).setWidth 26 <<< 16 ||| (fld w 10 16).setWidth 26

/-- One instruction of a machine with jumps.  LoongArch Reference Manual, volume 1:
2.2.6 `jirl: GR[rd] = PC + 4; PC = GR[rj] + SignExtend({offs16, 2'b0})`, `b: PC = PC + SignExtend({offs26, 2'b0})`,
`bl: GR[1] = PC + 4` and the same jump, 2.2.1 `pcaddu12i: GR[rd] = PC + SignExtend({si20, 12'b0})`. -/
def stepJ (code : Code) (s : St) : Option St :=
  match step code s with
  | some t => some t
  | none =>
    let w := code s.pc
    if fld w 26 6 = 0x13#6 then
      some ⟨s.core.x (fld w 5 5) + ((fld w 10 16).signExtend 64 <<< 2), s.core.wr (fld w 0 5) (s.pc + 4#64)⟩
    else if fld w 26 6 = 0x14#6 then some ⟨s.pc + ((offs26 w).signExtend 64 <<< 2), s.core⟩
    else if fld w 26 6 = 0x15#6 then some ⟨s.pc + ((offs26 w).signExtend 64 <<< 2), s.core.wr 1#5 (s.pc + 4#64)⟩
    else if fld w 25 7 = 0xe#7 then some ⟨s.pc + 4#64, s.core.wr (fld w 0 5) (s.pc + ((fld w 5 20).signExtend 64 <<< 12))⟩
    else none

/-- Any number of instructions. -/
inductive StepsJ (code : Code) : St → St → Prop
  | refl (s : St) : StepsJ code s s
  | step {s s1 s2 : St} : stepJ code s = some s1 → StepsJ code s1 s2 → StepsJ code s s2

/-! ## The code generator -/

/-- Opcodes (sljitNativeLOONGARCH_64.c:200-202, 128). -/
def JIRL : BitVec 32 := 0x13#32 <<< 26
@[inherit_doc JIRL] def JB : BitVec 32 := 0x14#32 <<< 26
@[inherit_doc JIRL] def JBL : BitVec 32 := 0x15#32 <<< 26
@[inherit_doc JIRL] def PCADDU12I : BitVec 32 := 0xe#32 <<< 25

/-- RETURN_ADDR_REG (sljitNativeLOONGARCH_64.c:41). -/
def RETURN_ADDR_REG : Nat := TMP_REG2

/-- IMM_I16, IMM_I20, IMM_I26 of an address (sljitNativeLOONGARCH_64.c:92, 93, 95). -/
def I16 (v : BitVec 64) : BitVec 32 := (v.setWidth 32 &&& 0xffff#32) <<< 10
@[inherit_doc I16] def I20 (v : BitVec 64) : BitVec 32 := ((v.setWidth 32 &&& 0xffffffff#32) >>> 12) <<< 5
@[inherit_doc I16] def I26 (v : BitVec 64) : BitVec 32 := ((v.setWidth 32 &&& 0xffff#32) <<< 10) ||| ((v.setWidth 32 >>> 16) &&& 0x3ff#32)

/-- PATCH_B, PATCH_J, PATCH_REL32, PATCH_ABS32, PATCH_ABS52, or none of them (sljitLir.c:320-325). -/
inductive Patch
  | b | j | rel32 | abs32 | abs52 | full
  deriving DecidableEq, Repr

/-- The buffer of sljit_emit_jump (sljitNativeLOONGARCH_64.c:2807-2841): the branch over the jump if the type is a condition. -/
def jumpBr (type : Nat) : Option (BitVec 32) := if jumpIns type ≠ 0#32 then some (jumpIns type) else none

/-- JIRL of sljit_emit_jump (sljitNativeLOONGARCH_64.c:2828-2834) and of sljit_emit_ijump with a constant
(sljitNativeLOONGARCH_64.c:2980); SLJIT_FAST_CALL is 37. -/
def jumpJirl (type : Nat) : BitVec 32 :=
  let inst := JIRL ||| RJ TMP_REG1 ||| I16 0#64
  if 37 ≤ type then inst ||| RD RETURN_ADDR_REG else inst

/-- detect_jump_type (sljitNativeLOONGARCH_64.c:414-491); `diff` is the distance from the jump (not its branch), the differences of C
wrap around. -/
def detect (cond rew : Bool) (diff target : BitVec 64) : Patch :=
  if rew then .full
  else if cond ∧ -(0x8000 * 4) ≤ (diff + 4#64).toInt ∧ (diff + 4#64).toInt ≤ 0x7fff * 4 then .b
  else if -(0x2000000 * 4) ≤ diff.toInt ∧ diff.toInt ≤ 0x1ffffff * 4 then .j
  else if -0x80000000 ≤ diff.toInt ∧ diff.toInt ≤ 0x7fffffff then .rel32
  else if target.toNat ≤ 0x7fffffff then .abs32
  else if target.toNat ≤ 0x7ffffffffffff then .abs52
  else .full

/-- The number of words the branch goes over, itself included (sljitNativeLOONGARCH_64.c:455, 464, 473, 482, 489). -/
def Patch.skip : Patch → Nat
  | .b => 0 | .j => 2 | .rel32 => 3 | .abs32 => 3 | .abs52 => 4 | .full => 5

/-- load_addr_to_reg (sljitNativeLOONGARCH_64.c:536-583): `a` is the executable address of the first word, `addr` the address to load;
the last word is that of a jump (`some jirl`) or of a load of an address (`none`). -/
def loadAddr (p : Patch) (reg : Nat) (jirl : Option (BitVec 32)) (a addr : BitVec 64) : Option Emit :=
  let last (v : BitVec 64) (mov : BitVec 32) : Option (BitVec 32) :=
    match jirl with
    | some w => if w &&& (0x3f#32 <<< 26) = JIRL then some ((w &&& (0x3f#32 <<< 26 ||| 0x3ff#32)) ||| I16 ((v &&& 0xfff#64) >>> 2)) else none
    | none => some (mov ||| RD reg ||| RJ reg ||| IMM_I12 v)
  let lu12 := LU12I_W ||| RD reg ||| ((((addr &&& 0xffffffff#64) >>> 12) <<< 5).setWidth 32)
  let lu32 := LU32I_D ||| RD reg ||| ((((addr >>> 32) &&& 0xfffff#64) <<< 5).setWidth 32)
  let lu52 := LU52I_D ||| RD reg ||| RJ reg ||| IMM_I12 (addr >>> 52)
  match p with
  | .rel32 =>
    let d := addr - a
    if -0x80000000 ≤ d.toInt ∧ d.toInt ≤ 0x7fffffff then
      let d := if d &&& 0x800#64 ≠ 0#64 then d + 0x1000#64 else d
      (last d ADDI_D).map fun w => [PCADDU12I ||| RD reg ||| I20 d, w]
    else none
  | .abs32 => if addr.toNat ≤ 0x7fffffff then (last addr ORI).map fun w => [lu12, w] else none
  | .abs52 => (last addr ORI).map fun w => [lu12, lu32, w]
  | _ => (last addr ORI).map fun w => [lu12, lu32, lu52, w]

/-- The words of a jump: the branch patched by detect_jump_type, and the last loop of sljit_generate_code
(sljitNativeLOONGARCH_64.c:786-810).  `a` is the executable address of the first word. -/
def jumpWords (p : Patch) (br : Option (BitVec 32)) (jirl : BitVec 32) (call : Bool) (a addr : BitVec 64) : Option Emit :=
  let over : Emit := match br with
    | some w => [w ||| IMM_I16 p.skip]
    | none => []
  let ja := a + BitVec.ofNat 64 (4 * over.length)
  match p with
  | .b =>
    let d := addr - a
    if -(0x8000 * 4) ≤ d.toInt ∧ d.toInt ≤ 0x7fff * 4 then br.map fun w => [((w &&& 0xfc0003ff#32) ^^^ 0x4000000#32) ||| I16 (d >>> 2)] else none
  | .j =>
    let d := addr - ja
    if -(0x2000000 * 4) ≤ d.toInt ∧ d.toInt ≤ 0x1ffffff * 4 then some (over ++ [(if call then JBL else JB) ||| I26 (d >>> 2)]) else none
  | p => (loadAddr p TMP_REG1 (some jirl) ja addr).map (over ++ ·)

/-- The words of a jump of sljit_emit_jump in the form `p`. -/
def emitJumpAs (p : Patch) (type : Nat) (a addr : BitVec 64) : Option Emit :=
  jumpWords p (jumpBr type) (jumpJirl type) (37 ≤ type) a addr

/-- The words of a jump to an address: sljit_set_target, sljit_emit_ijump with a constant, or SLJIT_REWRITABLE_JUMP (`rew`). -/
def emitJumpTo (type : Nat) (rew : Bool) (a addr : BitVec 64) : Option Emit :=
  let ja := a + (if (jumpBr type).isSome then 4#64 else 0#64)
  emitJumpAs (detect (jumpBr type).isSome rew (addr - ja) addr) type a addr

/-- sljit_emit_cmp (sljitNativeLOONGARCH_64.c:2858-2957) and the jump it makes, to an address. -/
def emitCmpTo (type : Nat) (is32 rew : Bool) (src1 src2 : Verif.RV.Opd) (a addr : BitVec 64) : Option Emit :=
  let (e, br) := emitCmp type is32 src1 src2
  let q := a + BitVec.ofNat 64 (4 * e.length)
  (jumpWords (detect true rew (addr - (q + 4#64)) addr) (some br) (JIRL ||| RD TMP_ZERO ||| RJ TMP_REG1 ||| IMM_I12 0#64) false q addr).map (e ++ ·)

/-- mov_addr_get_length (sljitNativeLOONGARCH_64.c:493-534). -/
def movDetect (diff addr : BitVec 64) : Patch :=
  if -0x80000000 ≤ diff.toInt ∧ diff.toInt ≤ 0x7fffffff then .rel32
  else if addr.toNat ≤ 0x7fffffff then .abs32
  else if addr.toNat ≤ 0x7ffffffffffff then .abs52
  else .full

/-- The words that load an address (sljit_emit_op_addr with SLJIT_MOV_ADDR, sljitNativeLOONGARCH_64.c:3958-3995). -/
def movWords (p : Patch) (reg : Nat) (a addr : BitVec 64) : Option Emit := loadAddr p reg none a addr

/-- Any number of calls of sljit_set_jump_addr. -/
def retargets (m : Code) (addr : BitVec 64) : List (BitVec 64) → Option Code
  | [] => some m
  | k :: ks => (setJumpAddr m addr k).bind fun m' => retargets m' addr ks

end Verif.LA
