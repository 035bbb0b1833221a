import Verif.X86.Arch

/-!
# Instruction encoding of the x86-64 backend

Model of sljitNativeX86_64.c:33-284 (emit_load_imm64, emit_do_imm32, emit_x86_instruction) and of the register tables.
Allocation failures are not modelled here (see C08, C10).
-/

namespace Verif.X86

/-- reg_map, sljitNativeX86_common.c:93-104; `win` is _WIN64. -/
def regMap (win : Bool) (r : Nat) : Byte :=
  BitVec.ofNat 8 ((if win then [0, 0, 2, 8, 1, 11, 12, 5, 13, 14, 15, 7, 6, 3, 4, 9, 10] else [0, 0, 6, 7, 1, 8, 11, 10, 12, 5, 13, 14, 15, 3, 4, 2, 9]).getD r 0)
/-- reg_lmap, sljitNativeX86_common.c:97-108. -/
def regLmap (win : Bool) (r : Nat) : Byte :=
  BitVec.ofNat 8 ((if win then [0, 0, 2, 0, 1, 3, 4, 5, 5, 6, 7, 7, 6, 3, 4, 1, 2] else [0, 0, 6, 7, 1, 0, 3, 2, 4, 5, 5, 6, 7, 3, 4, 2, 1]).getD r 0)
/-- freg_map, sljitNativeX86_common.c:112-114. -/
def fregMap (r : Nat) : Byte := BitVec.ofNat 8 ([0, 0, 1, 2, 3, 5, 6, 7, 8, 9, 10, 11, 12, 13, 14, 15, 4].getD r 0)
/-- freg_lmap, sljitNativeX86_common.c:116-118. -/
def fregLmap (r : Nat) : Byte := BitVec.ofNat 8 ([0, 0, 1, 2, 3, 5, 6, 7, 0, 1, 2, 3, 4, 5, 6, 7, 4].getD r 0)

/-- The machine register of a register of sljit. -/
def num (win : Bool) (r : Nat) : BitVec 4 := (regMap win r).setWidth 4

/-- TMP_REG1, TMP_REG2, sljitNativeX86_common.c:64, 86 (SLJIT_NUMBER_OF_REGISTERS is 13). -/
def TMP_REG1 : Nat := 15
@[inherit_doc TMP_REG1] def TMP_REG2 : Nat := 16
/-- SLJIT_SP and SLJIT_PREF_SHIFT_REG (SLJIT_R3, sljitConfigInternal.h:587). -/
def SP : Nat := 14
@[inherit_doc SP] def PREF_SHIFT_REG : Nat := 4

/-- REX bits, sljitNativeX86_common.c:120-124. -/
def REX_W : Byte := 0x48#8
@[inherit_doc REX_W] def REX_R : Byte := 0x44#8
@[inherit_doc REX_W] def REX_X : Byte := 0x42#8
@[inherit_doc REX_W] def REX_B : Byte := 0x41#8
@[inherit_doc REX_W] def REX : Byte := 0x40#8

/-- IS_HALFWORD, sljitNativeX86_common.c:134. -/
def isHalf (v : BitVec 64) : Bool := v.sle 0x7fffffff#64 && (-0x80000000#64).sle v
/-- `v <= 127 && v >= -128`. -/
def isByte (v : BitVec 64) : Bool := v.sle 127#64 && (-128#64).sle v

/-- The n lowest bytes in memory order: sljit_unaligned_store_s16/s32/sw, sljitNativeX86_common.c:415-428. -/
def toLe : Nat → BitVec 64 → List Byte
  | 0, _ => []
  | n + 1, v => v.setWidth 8 :: toLe n (v >>> 8)

/-- An operand: a register, a constant, or memory with base and offset register (0 if there is none) and the word argument, which
is a displacement without and a shift with an offset register. -/
inductive Opd where
  | reg (r : Nat)
  | imm (v : BitVec 64)
  | mem (base offs : Nat) (w : BitVec 64)
  deriving DecidableEq, Repr

/-- FAST_IS_REG. -/
def Opd.isReg : Opd → Bool
  | .reg _ => true
  | _ => false
/-- `src == SLJIT_IMM`. -/
def Opd.isImm : Opd → Bool
  | .imm _ => true
  | _ => false
/-- `dst & SLJIT_MEM`. -/
def Opd.isMem : Opd → Bool
  | .mem .. => true
  | _ => false

/-- The size argument of emit_x86_instruction, sljitNativeX86_common.c:143-159, one field per flag. -/
structure Ins where
  size : Nat := 1
  binIns : Bool := false
  shiftIns : Bool := false
  byteArg : Bool := false
  halfArg : Bool := false
  rex : Bool := false
  noRexW : Bool := false
  /-- EX86_PREF_66, EX86_PREF_F2 or EX86_PREF_F3 as the byte, 0 if none is set. -/
  pref : Byte := 0#8
  sseOp1 : Bool := false
  sseOp2 : Bool := false
  vexExt : Bool := false

/-- The instruction: the load of a long displacement, the prefix, REX (0 if none), the opcode bytes (0 where the caller stores them),
the ModRM byte, everything after it, and the size which was reserved by the code for all but `pre`. -/
structure Out where
  pre : List Byte
  pref : List Byte
  rex : Byte
  opc : List Byte
  modrm : Byte
  tail : List Byte
  instSize : Nat

/-- emit_load_imm64, sljitNativeX86_64.c:33-44. -/
def loadImm64 (win : Bool) (reg : Nat) (imm : BitVec 64) : List Byte :=
  (REX_W ||| if regMap win reg ≤ 7#8 then 0#8 else REX_B) :: (0xb8#8 ||| regLmap win reg) :: toLe 8 imm

/-- emit_do_imm32, sljitNativeX86_64.c:46-59. -/
def doImm32 (rex opcode : Byte) (imm : BitVec 64) : List Byte := (if rex ≠ 0#8 then [rex] else []) ++ opcode :: toLe 4 imm

/-- Long displacements, sljitNativeX86_64.c:103-111: the load of TMP_REG2 and the new operand. -/
def prep (win : Bool) : Opd → List Byte × Opd
  | .mem base offs w =>
    if offs = 0 ∧ ¬ isHalf w then (loadImm64 win TMP_REG2 w, if base ≠ 0 then .mem base TMP_REG2 0#64 else .mem TMP_REG2 0 0#64)
    else ([], .mem base offs w)
  | b => ([], b)

/-- Size and REX bits of the general operand, sljitNativeX86_64.c:113-148; the operand may change. -/
def sizeB (win : Bool) (fl : Ins) : Opd → Option (Nat × Opd × Byte)
  | .mem base offs w =>
    if base = 0 then some (5, .mem base offs w, 0#8)
    else
      let (n, base, offs) : Nat × Nat × Nat :=
        if w ≠ 0#64 ∧ offs = 0 then (if isByte w then 1 else 4, base, offs)
        else if regLmap win base = 5#8 then
          if offs ≠ 0 ∧ w &&& 3#64 = 0#64 ∧ regLmap win offs ≠ 5#8 then (0, offs, base) else (1, base, offs)
        else (0, base, offs)
      let rex := if regMap win base ≥ 8#8 then REX_B else 0#8
      let offs := if regLmap win base = 4#8 ∧ offs = 0 then SP else offs
      if offs ≠ 0 then some (n + 1, .mem base offs w, rex ||| if regMap win offs ≥ 8#8 then REX_X else 0#8)
      else some (n, .mem base offs w, rex)
  | .reg r => some (0, .reg r, if (if fl.sseOp2 then fregMap r else regMap win r) ≥ 8#8 then REX_B else 0#8)
  | .imm _ => none

/-- The bits of ModRM and the bytes of the general operand, sljitNativeX86_64.c:230-273. -/
def encB (win : Bool) (fl : Ins) : Opd → Byte × List Byte
  | .reg r => (0xc0#8 ||| if fl.sseOp2 then fregLmap r else regLmap win r, [])
  | .mem base offs w =>
    if base ≠ 0 then
      let lb := regLmap win base
      if offs = 0 ∨ offs = SP then
        let disp := w ≠ 0#64 ∨ lb = 5#8
        let md : Byte := if disp then (if isByte w then 0x40#8 else 0x80#8) else 0#8
        let d := if disp then toLe (if isByte w then 1 else 4) w else []
        if offs = 0 then (md ||| lb, d) else (md ||| 0x04#8, (lb ||| regLmap win offs <<< 3) :: d)
      else
        ((if lb = 5#8 then 0x40#8 else 0#8) ||| 0x04#8, (lb ||| regLmap win offs <<< 3 ||| w.setWidth 8 <<< 6) :: if lb = 5#8 then [0#8] else [])
    else (0x04#8, 0x25#8 :: toLe 4 w)
  | .imm _ => (0#8, [])

/-- Kind of the immediate argument, sljitNativeX86_64.c:156-176: its size and the flag EX86_BYTE_ARG after it. -/
def sizeA (fl : Ins) (v : BitVec 64) : Nat × Bool :=
  if fl.binIns then (if isByte v then (1, true) else (4, fl.byteArg))
  else if fl.shiftIns then (if v ≠ 1#64 then (1, true) else (0, fl.byteArg))
  else if fl.byteArg then (1, true)
  else if fl.halfArg then (2, fl.byteArg)
  else (4, fl.byteArg)

/-- emit_x86_instruction, sljitNativeX86_64.c:61-284; `a` is a register or a constant, `b` is a register or memory.  `none` is a
failed assertion. -/
def emitX86 (win m32 : Bool) (fl : Ins) (a b : Opd) : Option Out :=
  if (a.isImm ∧ fl.sseOp1) ∨ (fl.binIns ∧ fl.shiftIns) ∨ ((fl.binIns ∨ fl.shiftIns) ∧ (fl.byteArg ∨ fl.halfArg)) ∨ (fl.byteArg ∧ fl.halfArg) ∨
    (fl.vexExt ∧ ¬ fl.rex) then none
  else
    let rex : Byte := if ¬ m32 ∧ ¬ fl.noRexW then REX_W else if fl.rex then REX else 0#8
    let (pre, b) := prep win b
    (sizeB win fl b).bind fun (nb, b, rexB) =>
      let rex := rex ||| rexB
      let vex := fl.vexExt ∧ rex &&& 3#8 ≠ 0#8
      let size := if vex then fl.size + 1 else fl.size
      let (mb, bytes) := encB win fl b
      let pn : Nat := if fl.pref ≠ 0#8 then 1 else 0
      let pref := if fl.pref ≠ 0#8 then [fl.pref] else []
      match a with
      | .imm v =>
        if (¬ m32 ∧ ¬ isHalf v) ∨ (fl.shiftIns ∧ ¬ v.sle (if m32 then 0x1f#64 else 0x3f#64)) then none else
        let (na, byteArg) := sizeA fl v
        let opc : List Byte :=
          if fl.shiftIns then [if v = 1#64 then 0xd1#8 else 0xc1#8]
          else if fl.binIns then [if byteArg then 0x83#8 else 0x81#8]
          else List.replicate size 0#8
        let immBytes :=
          if byteArg then toLe 1 v else if fl.halfArg then toLe 2 v else if ¬ fl.shiftIns then toLe 4 v else []
        some { pre := pre, pref := pref, rex := rex, opc := opc, modrm := mb, tail := bytes ++ immBytes
               instSize := size + 1 + pn + nb + na + if rex ≠ 0#8 then 1 else 0 }
      | .reg r =>
        if fl.shiftIns ∧ r ≠ PREF_SHIFT_REG then none else
        let rex := rex ||| if (if fl.sseOp1 then fregMap r else regMap win r) ≥ 8#8 then REX_R else 0#8
        let modrm := (if fl.shiftIns then 0#8 else (if fl.sseOp1 then fregLmap r else regLmap win r) <<< 3) ||| mb
        let opc : List Byte := if fl.shiftIns then [0xd3#8] else List.replicate size 0#8
        some { pre := pre, pref := pref, rex := rex, opc := opc, modrm := modrm, tail := bytes
               instSize := size + 1 + pn + nb + if rex ≠ 0#8 then 1 else 0 }
      | .mem .. => none

/-- The instruction itself. -/
def Out.body (o : Out) : List Byte := o.pref ++ (if o.rex ≠ 0#8 then [o.rex] else []) ++ o.opc ++ o.modrm :: o.tail
/-- All bytes. -/
def Out.bytes (o : Out) : List Byte := o.pre ++ o.body
/-- The caller stores the opcode (`inst[0] = ...`). -/
def Out.op (o : Out) (opc : List Byte) : Out := { o with opc := opc }
/-- The caller sets bits of ModRM (`inst[1] |= ...`). -/
def Out.or (o : Out) (x : Byte) : Out := { o with modrm := o.modrm ||| x }

end Verif.X86
