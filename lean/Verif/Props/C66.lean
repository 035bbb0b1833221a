import Verif.Loong.Select
import Verif.Props.C28
import Verif.Props.C65

/-!
# C66: compare and branch, conditional jumps and select on LoongArch64

The relations are those of `Verif.Props.C28.rel`, and the meaning of a condition is `Verif.Props.C65.Says`.
-/

namespace Verif.Props.C66
open Verif.LA
open Verif.RV (Op OpC Opd ld32 ld64)
open Verif.Props.C28 (rel rel_sx rel_zx cmpRel_rel)
open Verif.Props.C62 (UserReg Src addr Result zeroFlag varFlag Src32 demo)
open Verif.Props.C65 (Says)
open Verif.Imm.Loong (regMap)

instance (r : Nat) : Decidable (UserReg r) := inferInstanceAs (Decidable (1 ≤ r ∧ r ≤ 24))

/-- The operand of a 64 bit comparison. -/
def value64 (s : Core) : Opd → BitVec 64
  | .reg r => s.x (regMap r)
  | .imm v => v
  | .mem b i w => ld64 s.mem (addr s b i w)

/-- The operand of a 32 bit comparison: the lower half of a register or constant, or a 32 bit memory cell. -/
def value32 (s : Core) : Opd → BitVec 32
  | .reg r => (s.x (regMap r)).setWidth 32
  | .imm v => v.setWidth 32
  | .mem b i w => ld32 s.mem (addr s b i w)

/-- The comparison holds. -/
def holds (is32 : Bool) (type : Nat) (s : Core) (o1 o2 : Opd) : Prop :=
  if is32 then rel type (value32 s o1) (value32 s o2) else rel type (value64 s o1) (value64 s o2)

/-- Everything but the temporary registers r1, r13 and r14 is the same; this includes the flags. -/
def Same (s s' : Core) : Prop :=
  (∀ q, q ≠ 1#5 → q ≠ 13#5 → q ≠ 14#5 → s'.x q = s.x q) ∧ s'.mem = s.mem ∧ s'.f = s.f

/-- The 32 bit operand is presented to the branch as a sign extended value.  A memory cell is not, when its upper bit is set. -/
def Signed (s : Core) : Opd → Prop
  | .reg r => s.x (regMap r) = ((s.x (regMap r)).setWidth 32).signExtend 64
  | .imm v => v = (v.setWidth 32).signExtend 64
  | .mem b i w => (ld32 s.mem (addr s b i w)).msb = false

/-- The 32 bit operand is presented to the branch as a zero extended value. -/
def Unsigned (s : Core) : Opd → Prop
  | .reg r => (s.x (regMap r)).toNat < 2 ^ 32
  | .imm v => v.toNat < 2 ^ 32
  | .mem _ _ _ => True

/-- The operand forms for which a 32 bit comparison is right. -/
def Ok32 (type : Nat) (s : Core) (o1 o2 : Opd) : Prop :=
  (Signed s o1 ∧ Signed s o2) ∨ (type < 6 ∧ Unsigned s o1 ∧ Unsigned s o2)

/-- Both operands are in memory, and the second one is `[base + w]` where `w` does not fit into a load: the address of the second
operand may be computed in the register that holds the first one (`c66_cmp_false`). -/
def CmpDefect (o1 o2 : Opd) : Prop :=
  (∃ b i w, o1 = .mem b i w) ∧ ∃ b w, o2 = .mem b 0 w ∧ b ≠ 0 ∧ ¬ (-2048 ≤ w.toInt ∧ w.toInt ≤ 2047)

theorem seen32 (s : Core) (o : Opd) :
    (Signed s o → opdVal .int false s o = (value32 s o).signExtend 64) ∧
    (Unsigned s o → opdVal .int false s o = (value32 s o).setWidth 64) := by
  have z : ∀ v : BitVec 64, v.toNat < 2 ^ 32 → v = (v.setWidth 32).setWidth 64 := by
    intro v h; apply BitVec.eq_of_toNat_eq; simp; omega
  cases o with
  | reg r => exact ⟨fun h => h, fun h => z _ h⟩
  | imm v => exact ⟨fun h => h, fun h => z _ h⟩
  | mem b i w =>
    have : opdVal .int false s (.mem b i w) = (ld32 s.mem (addr s b i w)).setWidth 64 := by
      simp only [opdVal, C62.addr_eq]; rfl
    rw [this]
    exact ⟨fun h => (BitVec.signExtend_eq_setWidth_of_msb_false h).symm, fun _ => rfl⟩

theorem not_clobber {o1 o2 : Opd} (h : ¬ CmpDefect o1 o2) : ¬ Clobber o1 o2 := by
  rintro ⟨h1, h2⟩
  refine h ⟨?_, ?_⟩
  · cases o1 with
    | mem b i w => exact ⟨b, i, w, rfl⟩
    | _ => exact absurd h1 (by simp [Opd.isMem])
  · cases o2 with
    | mem b i w =>
      obtain ⟨hb, rfl, hf⟩ := h2
      refine ⟨b, w, rfl, hb, fun q => ?_⟩
      have : fastArg 0 w = true := by
        simp only [fastArg, Bool.or_eq_true, Bool.and_eq_true, decide_eq_true_eq]
        exact Or.inr ⟨trivial, Verif.RV.fits12_iff.mpr q⟩
      rw [this] at hf; cases hf
    | _ => exact h2.elim

/-- What the branch of sljit_emit_cmp compares. -/
theorem cmp_holds {type : Nat} {is32 : Bool} {o1 o2 : Opd} {s s' : Core}
    (e2 : s'.x (regMap (cmpFetch is32 o1 o2).2.1) = opdVal (if is32 then .int else .word) false s o1)
    (e3 : s'.x (regMap (cmpFetch is32 o1 o2).2.2) = opdVal (if is32 then .int else .word) false s o2)
    (h32 : is32 = true → Ok32 type s o1 o2) :
    Verif.RV.cmpRel type (s'.x (regMap (cmpFetch is32 o1 o2).2.1)) (s'.x (regMap (cmpFetch is32 o1 o2).2.2)) = true ↔ holds is32 type s o1 o2 := by
  rw [e2, e3]
  simp only [cmpRel_rel, holds]
  cases is32
  · have : ∀ o, opdVal .word false s o = value64 s o := by
      intro o
      cases o with
      | mem b i w => simp only [opdVal, C62.addr_eq]; rfl
      | _ => rfl
    simp [this]
  · simp only [if_true]
    rcases h32 rfl with ⟨q1, q2⟩ | ⟨ht, q1, q2⟩
    · rw [(seen32 s o1).1 q1, (seen32 s o2).1 q2, rel_sx]
    · rw [(seen32 s o1).2 q1, (seen32 s o2).2 q2, rel_zx _ _ ht]

/-- **C66, sljit_emit_cmp**, partial: the instructions in front of the jump run, change only temporary registers, and then the
branch continues at the jump if and only if the relation holds between the operands as they were before; otherwise it goes over
the jump, by the distance `n` which sljit_generate_code puts into the branch.  Missing: `CmpDefect`, and 32 bit comparisons whose operands
are not extended in the same way, for which the claim is false. -/
theorem c66_cmp_partial (type : Nat) (is32 : Bool) (o1 o2 : Opd) (s : Core) (hty : type < 10) (h1 : Src o1) (h2 : Src o2)
    (hno : ¬ CmpDefect o1 o2) (h32 : is32 = true → Ok32 type s o1 o2) (code : Code) (p : BitVec 64) (n : Nat)
    (hc : CodeAt code p ((emitCmp type is32 o1 o2).1 ++ [(emitCmp type is32 o1 o2).2 ||| IMM_I16 n])) :
    ∃ q s', q = p + BitVec.ofNat 64 (4 * (emitCmp type is32 o1 o2).1.length) ∧ Same s s' ∧
      (holds is32 type s o1 o2 → Steps code ⟨p, s⟩ ⟨q + 4#64, s'⟩) ∧
      (¬ holds is32 type s o1 o2 → Steps code ⟨p, s⟩ ⟨q + ((BitVec.ofNat 16 n).signExtend 64 <<< 2), s'⟩) := by
  obtain ⟨s', e1, e2, e3, e4⟩ := cmpFetch_ok (is32 := is32) (c := s) h1.ok h2.ok (not_clobber hno)
  rw [CodeAt_append] at hc
  have hst := steps_of_run hc.1 e1
  have hbr := cmp_step (code := code) (s := ⟨_, s'⟩) (r1 := (cmpFetch is32 o1 o2).2.1) (r2 := (cmpFetch is32 o1 o2).2.2) (n := n) hty hc.2.1
  have hrel := cmp_holds (type := type) (is32 := is32) (s := s) e2 e3 h32
  refine ⟨_, s', rfl, ⟨fun q q1 q6 q7 => e4.1 q (by simp [q1, q6, q7]), e4.2.1, e4.2.2⟩, fun h => ?_, fun h => ?_⟩
  · refine hst.trans (.step hbr ?_)
    rw [hrel.mpr h]; exact .refl _
  · refine hst.trans (.step hbr ?_)
    rw [if_neg (by rw [hrel]; exact h)]; exact .refl _

/-- **C66, sljit_emit_jump** with a condition: the branch in front of the jump continues at the jump if and only if the condition holds. -/
theorem c66_jump (mul : Bool) (type : Nat) (t : Bool) (s : Core) (h : Says s mul type t) (code : Code) (p : BitVec 64) (n : Nat)
    (hc : code p = jumpIns type ||| IMM_I16 n) :
    Steps code ⟨p, s⟩ ⟨if t then p + 4#64 else p + ((BitVec.ofNat 16 n).signExtend 64 <<< 2), s⟩ :=
  .step (jump_step (s := ⟨p, s⟩) (by have := h.1; omega) h.flag hc) (.refl _)

/-! ## sljit_emit_select -/

/-- The code runs wherever it is stored, from its first word to its end. -/
def Runs (e : Emit) (s : Core) (Q : Core → Prop) : Prop :=
  ∀ (code : Code) (p : BitVec 64), CodeAt code p e → ∃ s', Steps code ⟨p, s⟩ ⟨p + BitVec.ofNat 64 (4 * e.length), s'⟩ ∧ Q s'

/-- Value of an operand of select: a whole register, or a sign extended 32 bit value. -/
def selValue (is32 : Bool) (s : Core) (o : Opd) : BitVec 64 :=
  if is32 then (value32 s o).signExtend 64 else value64 s o

/-- The address of src1 is computed in dst, which is its base register (see `c66_select_false`). -/
def BaseDefect (dst : Nat) (src1 : Opd) (src2 : Nat) : Prop :=
  ∃ i w, src1 = .mem dst i w ∧ dst = src2 ∧
    ¬ (i = 0 ∧ -2048 ≤ w.toInt ∧ w.toInt ≤ 2047) ∧ w ≠ 0#64

/-- **C66, sljit_emit_select**, partial: dst receives src1 when the condition holds and src2 otherwise, and nothing else changes; dst
may be src1, src2, and occur in the address of src1.  Missing: `BaseDefect`, and 32 bit memory cells with the upper bit set
(`c66_select32_false`). -/
theorem c66_select_partial (type : Nat) (is32 mul : Bool) (dst : Nat) (src1 : Opd) (src2 : Nat) (t : Bool) (s : Core)
    (hd : UserReg dst) (h1 : Src src1) (h2 : UserReg src2) (hbase : ¬ BaseDefect dst src1 src2)
    (hmem : is32 = true → ∀ b i w, src1 = .mem b i w → (ld32 s.mem (addr s b i w)).msb = false)
    (h32 : is32 = true → (∀ r, src1 = .reg r → Src32 s (.reg r)) ∧ Src32 s (.reg src2)) (h : Says s mul type t) :
    Runs (emitSelect type is32 dst src1 src2) s fun s' =>
      Result false (.reg dst) (if t then selValue is32 s src1 else selValue is32 s (.reg src2)) s s' ∧
      s'.x 12#5 = s.x 12#5 ∧ s'.x 15#5 = s.x 15#5 := by
  intro code p hc
  obtain ⟨s', e1, e3, e4⟩ := emitSelect_ok (is32 := is32) (dst := dst) (src1 := src1) (src2 := src2) (c := s)
    (by have := h.1; omega) (by have := hd.1; omega) hd.2 h1.ok h2.2 (by
      rintro b i w rfl rfl rfl
      by_contra hn
      refine hbase ⟨i, w, rfl, rfl, fun q => hn ?_, fun q => hn ?_⟩
      · simp only [fastArg, Bool.or_eq_true, Bool.and_eq_true, decide_eq_true_eq]
        exact Or.inr ⟨q.1, Verif.RV.fits12_iff.mpr q.2⟩
      · simp [fastArg, q]) h.flag code p hc
  obtain ⟨u1, u5, u6, u7, u28⟩ := user_ne hd.2
  have hv : (if t then selVal is32 s src1 else s.x (regMap src2)) =
      if t then selValue is32 s src1 else selValue is32 s (.reg src2) := by
    congr 1
    · unfold selValue
      cases is32
      · cases src1 with
        | mem b i w => simp only [selVal, C62.addr_eq]; rfl
        | _ => rfl
      · cases src1 with
        | mem b i w =>
          simp only [selVal, C62.addr_eq, if_true]
          exact (BitVec.signExtend_eq_setWidth_of_msb_false (hmem rfl b i w rfl)).symm
        | reg r => exact (h32 rfl).1 r rfl
        | imm v => rfl
    · unfold selValue
      cases is32
      · rfl
      · exact (h32 rfl).2
  refine ⟨s', e1, ?_, e4.1 _ (by simp [u5.symm]), e4.1 _ (by simp [u28.symm])⟩
  have hkeep : ∀ q, q ≠ regMap dst → q ≠ 13#5 → s'.x q = s.x q := fun q q1 q2 => e4.1 q (by simp [q1, q2])
  refine ⟨?_, e4.2.1, ?_, ⟨?_, ?_⟩, e4.2.2⟩
  · rintro r ⟨⟩ -; rw [← hv]; exact e3
  · intro r hr hne
    exact hkeep _ (fun e => hne (by rw [C62.user_inj _ _ hr hd e])) (user_ne hr.2).2.2.1
  · refine hkeep _ (fun e => ?_) (by decide)
    have : ∀ r ≤ 24, regMap r ≠ 2#5 := by decide +kernel
    exact this dst hd.2 e.symm
  · refine hkeep _ (fun e => ?_) (by decide)
    have : ∀ r ≤ 24, regMap r ≠ 21#5 := by decide +kernel
    exact this dst hd.2 e.symm

/-! ## Where the claims fail -/

/-- The code alone in memory, zeros (which are no instruction) elsewhere. -/
def alone (base : BitVec 64) (e : Emit) : Code := fun a => e.getD ((a - base).toNat / 4) 0#32

/-- Repeat `step` until there is no instruction. -/
def go (code : Code) : Nat → St → Option St
  | 0, s => if (step code s).isNone then some s else none
  | n + 1, s => match step code s with
    | none => some s
    | some s' => go code n s'

/-- A run which reaches a state without instruction ends in the state computed by `go`. -/
theorem go_stop {code : Code} {s s' : St} (h : Steps code s s') (hs : step code s' = none) : ∀ n v, go code n s = some v → v = s' := by
  induction h with
  | refl s =>
    intro n v hv
    cases n with
    | zero => simp only [go, hs] at hv; exact (Option.some.inj hv).symm
    | succ n => simp only [go, hs] at hv; exact (Option.some.inj hv).symm
  | step h1 _ ih =>
    intro n v hv
    cases n with
    | zero => simp [go, h1] at hv
    | succ n => simp only [go, h1] at hv; exact ih hs n v hv

/-- Decidable form of `CodeAt`. -/
def codeAtB (code : Code) : BitVec 64 → Emit → Bool
  | _, [] => true
  | a, h :: hs => code a == h && codeAtB code (a + 4#64) hs

theorem codeAt_of {code : Code} : ∀ {l a}, codeAtB code a l = true → CodeAt code a l
  | [], _, _ => trivial
  | _ :: _, _, h => by
    simp only [codeAtB, Bool.and_eq_true, beq_iff_eq] at h
    exact ⟨h.1, codeAt_of h.2⟩

theorem stop_of {code : Code} {s : St} (h : code s.pc = 0#32) : step code s = none := by
  unfold step
  rw [h]
  rfl

theorem refute {e : Emit} {s : Core} {Q : Core → Prop} (h : Runs e s Q) (n : Nat) (v : BitVec 64) (r : BitVec 5)
    (hv : (go (alone 0x100#64 e) n ⟨0x100#64, s⟩).map (·.core.x r) = some v) (hc : codeAtB (alone 0x100#64 e) 0x100#64 e = true)
    (hend : alone 0x100#64 e (0x100#64 + BitVec.ofNat 64 (4 * e.length)) = 0#32) : ∃ s', Q s' ∧ s'.x r = v := by
  cases hg : go (alone 0x100#64 e) n ⟨0x100#64, s⟩ with
  | none => rw [hg] at hv; cases hv
  | some w =>
    rw [hg] at hv
    obtain ⟨s', h1, h2⟩ := h _ _ (codeAt_of hc)
    have := go_stop h1 (stop_of hend) n w hg
    subst this
    exact ⟨s', h2, Option.some.inj hv⟩

/-- **C66 fails**: `sljit_emit_cmp(SLJIT_EQUAL, MEM1(R0), 0, MEM1(R1), 0x12345)`.  The first operand is loaded into TMP_REG1, then the address of
the second one is computed in TMP_REG1 (`ADD_D TMP_REG1, TMP_REG3, R1`), because MEM_USE_TMP2 is missing
(sljitNativeLOONGARCH_64.c:2883).  Here both memory words are 0, and the register compared with the second one holds an address. -/
theorem c66_cmp_false : ¬ ∀ (type : Nat) (o1 o2 : Opd) (s : Core), type < 10 → Src o1 → Src o2 →
    ∃ s', run (emitCmp type false o1 o2).1 s = some s' ∧
      ∀ code p n, code p = (emitCmp type false o1 o2).2 ||| IMM_I16 n → holds false type s o1 o2 → Steps code ⟨p, s'⟩ ⟨p + 4#64, s'⟩ := by
  intro h
  obtain ⟨s', h1, h2⟩ := h 0 (.mem 1 0 0#64) (.mem 2 0 0x12345#64) (demo 0x1000#64 0x2000#64 0#64 0#64 0#64 0#64 0#8) (by decide)
    ⟨by decide, by decide, fun h => absurd rfl h⟩ ⟨by decide, by decide, fun h => absurd rfl h⟩
  have hw : (emitCmp 0 false (.mem 1 0 0#64) (.mem 2 0 0x12345#64)).2 = cmpIns 0 TMP_REG1 TMP_REG2 := rfl
  have hx : ((run (emitCmp 0 false (.mem 1 0 0#64) (.mem 2 0 0x12345#64)).1 (demo 0x1000#64 0x2000#64 0#64 0#64 0#64 0#64 0#8)).map
      fun s => (s.x 13#5, s.x 1#5)) = some (0x14000#64, 0#64) := by decide +kernel
  rw [h1, Option.map_some, Option.some.injEq, Prod.mk.injEq] at hx
  have hst := h2 (fun a => if a = 0x100#64 then cmpIns 0 TMP_REG1 TMP_REG2 ||| IMM_I16 5 else 0#32) 0x100#64 5 (by rw [hw]; rfl)
    (by simp only [holds, rel, Bool.false_eq_true, if_false]; decide +kernel)
  have hbr := cmp_step (code := fun a => if a = 0x100#64 then cmpIns 0 TMP_REG1 TMP_REG2 ||| IMM_I16 5 else 0#32) (s := ⟨0x100#64, s'⟩)
    (type := 0) (r1 := TMP_REG1) (r2 := TMP_REG2) (n := 5) (by decide) rfl
  rw [rm25, rm26, hx.1, hx.2] at hbr
  have hs1 : step (fun a => if a = 0x100#64 then cmpIns 0 TMP_REG1 TMP_REG2 ||| IMM_I16 5 else 0#32) ⟨0x100#64 + 4#64, s'⟩ = none := stop_of rfl
  have hs2 : step (fun a => if a = 0x100#64 then cmpIns 0 TMP_REG1 TMP_REG2 ||| IMM_I16 5 else 0#32) ⟨0x114#64, s'⟩ = none := stop_of rfl
  have hg : go (fun a => if a = 0x100#64 then cmpIns 0 TMP_REG1 TMP_REG2 ||| IMM_I16 5 else 0#32) 1 ⟨0x100#64, s'⟩ = some ⟨0x114#64, s'⟩ := by
    have e : (⟨if Verif.RV.cmpRel 0 0x14000#64 0#64 = true then 0x100#64 + 4#64 else 0x100#64 + (BitVec.ofNat 16 5).signExtend 64 <<< 2, s'⟩ : St) = ⟨0x114#64, s'⟩ := by
      congr 1
    rw [e] at hbr
    simp only [go, hbr, hs2, Option.isNone_none, if_true]
  have := go_stop hst hs1 1 _ hg
  have hpc : (0x114#64 : BitVec 64) = 0x100#64 + 4#64 := congrArg St.pc this
  revert hpc
  decide

/-- R0 (r4) holds -1 as a 32 bit value; the memory word at 0x1000 is the same 32 bit value. -/
def demo32 : Core := ⟨fun r => if r = 4#5 then 0xffffffffffffffff#64 else 0#64, fun _ => 0#64,
  fun a => if a.toNat / 4 = 0x400 then 0xff#8 else 0#8, rfl⟩

/-- **C66 fails**: a 32 bit comparison of a register with an equal memory cell: the cell is loaded with LD_WU, zero extended, while the
register is sign extended (sljitNativeLOONGARCH_64.c:2875).  The branch BNE sees two different values. -/
theorem c66_cmp32_false : holds true 0 demo32 (.reg 1) (.mem 0 0 0x1000#64) ∧ Signed demo32 (.reg 1) ∧
    (emitCmp 0 true (.reg 1) (.mem 0 0 0x1000#64)).2 = BNE ||| RJ 1 ||| RD TMP_REG1 ∧
    ((run (emitCmp 0 true (.reg 1) (.mem 0 0 0x1000#64)).1 demo32).map fun s => decide (s.x (regMap 1) = s.x (regMap TMP_REG1))) = some false := by
  refine ⟨?_, ?_, rfl, by decide +kernel⟩
  · simp only [holds, rel, if_true]; decide +kernel
  · unfold Signed; decide +kernel

/-- `r12 = 0`: SLJIT_ZERO holds.  R0 (r4) holds 0x1000, the word at 0x1000 is -1, at 0x9000 it is 7. -/
def demoS : Core := ⟨fun r => if r = 4#5 then 0x1000#64 else if r = 5#5 then 5#64 else 0#64, fun _ => 0#64,
  fun a => if a.toNat / 4 = 0x400 then 0xff#8 else if a.toNat = 0x9000 then 7#8 else 0#8, rfl⟩

/-- **C66 fails**: a 32 bit select from memory.  The cell is loaded with LD_WU (sljitNativeLOONGARCH_64.c:3112), so the value -1 becomes
0xffffffff in dst, while 32 bit operations expect and produce sign extended registers. -/
theorem c66_select32_false : ¬ ∀ (type dst : Nat) (src1 : Opd) (src2 : Nat) (t : Bool) (s : Core),
    UserReg dst → Src src1 → UserReg src2 → ¬ BaseDefect dst src1 src2 →
    Src32 s (.reg dst) → Src32 s (.reg src2) → Says s false type t →
    Runs (emitSelect type true dst src1 src2) s fun s' =>
      s'.x (regMap dst) = if t then selValue true s src1 else selValue true s (.reg src2) := by
  intro h
  have hr := h 0 2 (.mem 1 0 0#64) 3 true demoS (by decide) ⟨by decide, by decide, fun h => absurd rfl h⟩ (by decide)
    (by rintro ⟨i, w, e, -⟩; cases e) (by unfold Src32; decide +kernel) (by unfold Src32; decide +kernel)
    ⟨by decide, by rw [if_pos (by decide)]; unfold zeroFlag; decide +kernel⟩
  obtain ⟨s', e1, e2⟩ := refute hr 10 0xffffffff#64 (regMap 2) (by decide +kernel) (by decide +kernel) (by decide +kernel)
  rw [e2] at e1
  revert e1
  decide +kernel

/-- **C66 fails**: dst is src2 and the base of src1, whose offset does not fit into the load.  The offset is first written into dst,
which is the base (emit_op_mem with dst_reg as its temporary, sljitNativeLOONGARCH_64.c:3145). -/
theorem c66_select_false : ¬ ∀ (type dst : Nat) (src1 : Opd) (src2 : Nat) (t : Bool) (s : Core),
    UserReg dst → Src src1 → UserReg src2 → Says s false type t →
    Runs (emitSelect type false dst src1 src2) s fun s' =>
      s'.x (regMap dst) = if t then selValue false s src1 else selValue false s (.reg src2) := by
  intro h
  have hr := h 0 1 (.mem 1 0 0x8000#64) 1 true demoS (by decide) ⟨by decide, by decide, fun h => absurd rfl h⟩ (by decide)
    ⟨by decide, by rw [if_pos (by decide)]; unfold zeroFlag; decide +kernel⟩
  obtain ⟨s', e1, e2⟩ := refute hr 10 0#64 (regMap 1) (by decide +kernel) (by decide +kernel) (by decide +kernel)
  rw [e2] at e1
  revert e1
  decide +kernel

/-! ## The hypotheses can be met -/

/-- Two memory operands, the second one with an index: -1 < 0 signed, so execution arrives at the jump. -/
example (code : Code) (hc : CodeAt code 0x100#64 ((emitCmp 6 false (.mem 0 0 0x1000#64) (.mem 1 2 3#64)).1 ++
      [(emitCmp 6 false (.mem 0 0 0x1000#64) (.mem 1 2 3#64)).2 ||| IMM_I16 4])) :
    ∃ s', Steps code ⟨0x100#64, ⟨fun r => if r = 4#5 then 0x2000#64 else 0#64, fun _ => 0#64, fun a => if a.toNat / 8 = 0x200 then 0xff#8 else 0#8, rfl⟩⟩ s' ∧
      s'.pc = 0x100#64 + BitVec.ofNat 64 (4 * (emitCmp 6 false (.mem 0 0 0x1000#64) (.mem 1 2 3#64)).1.length) + 4#64 := by
  obtain ⟨q, s', hq, -, h1, -⟩ := c66_cmp_partial 6 false (.mem 0 0 0x1000#64) (.mem 1 2 3#64) _ (by decide)
    ⟨by decide, by decide, fun h => absurd rfl h⟩ ⟨by decide, by decide, fun _ => by decide⟩
    (by rintro ⟨-, b, w, e, -⟩; cases e) (by simp) code 0x100#64 4 hc
  exact ⟨_, h1 (by simp only [holds, rel, Bool.false_eq_true, if_false]; decide +kernel), by rw [hq]⟩

/-- 32 bit comparisons, with registers and constants of both signs. -/
example : Ok32 6 demo32 (.reg 1) (.imm 5#64) ∧ Ok32 9 demo32 (.imm (-1#64)) (.mem 2 0 8#64) ∧
    Ok32 2 demo32 (.mem 0 0 0x1000#64) (.mem 0 0 0x1000#64) := by
  refine ⟨Or.inl ⟨?_, ?_⟩, Or.inl ⟨?_, ?_⟩, Or.inr ⟨by decide, trivial, trivial⟩⟩ <;> unfold Signed <;> decide +kernel

/-- A select whose dst is the base of src1 and not src2; the address is far. -/
example : Runs (emitSelect 0 false 1 (.mem 1 0 0x8000#64) 2) demoS fun s' => s'.x (regMap 1) = 7#64 := by
  intro code p hc
  obtain ⟨s', h1, h2, -⟩ := c66_select_partial 0 false false 1 (.mem 1 0 0x8000#64) 2 true demoS (by decide) ⟨by decide, by decide, fun h => absurd rfl h⟩ (by decide)
    (by rintro ⟨i, w, e, e', -⟩; cases e') (by simp) (by simp)
    ⟨by decide, by rw [if_pos (by decide)]; unfold zeroFlag; decide +kernel⟩ code p hc
  refine ⟨s', h1, (h2.reg 1 rfl (by decide)).trans ?_⟩
  decide +kernel

end Verif.Props.C66
