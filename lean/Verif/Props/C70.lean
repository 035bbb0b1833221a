import Verif.Loong.JumpProof2
import Verif.Props.C66

/-!
# C70: where jumps, calls and loaded addresses lead on LoongArch64

The meaning of a condition is `Verif.Props.C65.Says`, that of a comparison `Verif.Props.C66.holds`.
-/

namespace Verif.Props.C70
open Verif.LA
open Verif.RV (Opd)
open Verif.Props.C62 (UserReg Src demo)
open Verif.Props.C65 (Says)
open Verif.Props.C66 (holds Same CmpDefect Ok32)
open Verif.Imm.Loong (regMap)

/-- The jump of the given type is taken (`t`) in state `s`: a condition, or SLJIT_JUMP, SLJIT_FAST_CALL, SLJIT_CALL,
SLJIT_CALL_REG_ARG (36 to 39). -/
def Takes (s : Core) (mul : Bool) (type : Nat) (t : Bool) : Prop :=
  Says s mul type t ∨ (36 ≤ type ∧ type ≤ 39 ∧ t = true)

/-- What the jump leaves behind: only r13 (TMP_REG1) may change; a call leaves the address behind the jump in the link register r1. -/
structure After (type : Nat) (ret : BitVec 64) (s s' : Core) : Prop where
  link : 37 ≤ type → s'.x 1#5 = ret
  regs : ∀ q, q ≠ 13#5 → ¬ (37 ≤ type ∧ q = 1#5) → s'.x q = s.x q
  mem : s'.mem = s.mem
  fregs : s'.f = s.f

/-- The address of the jump instruction proper: behind the branch of a conditional jump. -/
def jumpAt (type : Nat) (a : BitVec 64) : BitVec 64 := if type < 36 then a + 4#64 else a

/-- The target is farther away than 128 megabytes, not farther than 2 gigabytes, and bit 11 of the distance is set
(`c70_jump_false`). -/
def FarDefect (d : BitVec 64) : Prop :=
  ¬ (-0x8000000 ≤ d.toInt ∧ d.toInt ≤ 0x7fffffc) ∧ (-0x80000000 ≤ d.toInt ∧ d.toInt ≤ 0x7fffffff) ∧ d.getLsbD 11 = true

theorem or_imm0 (w : BitVec 32) : w ||| IMM_I16 0 = w := by
  rw [show IMM_I16 0 = 0#32 by decide, BitVec.or_zero]

/-- The branch of sljit_emit_jump. -/
theorem brW_jump {type : Nat} {a t : Bool} {s : Core} (hty : type < 36) (h : FlagIs s a type t) : jumpIns type ≠ 0#32 ∧ BrW (jumpIns type) s t := by
  have z : s.x (regMap TMP_ZERO) = 0#64 := x_zero _
  have main : ∀ (o : BitVec 6) (op : BitVec 32) (br : BrOp) (r : Nat), op = o.setWidth 32 <<< 26 → decBr o = some br →
      jumpIns type = op ||| RJ r ||| RD TMP_ZERO → br.eval (s.x (regMap r)) 0#64 = !t → BrW (jumpIns type) s t := by
    intro o op br r h1 h2 h3 h4
    have := br_word o op h1 r TMP_ZERO 0
    rw [or_imm0, ← h3] at this
    exact ⟨o, _, _, br, this, h2, by rw [z]; exact h4⟩
  have ne := main 0x17#6 BNE .ne
  have eq := main 0x16#6 BEQ .eq
  refine ⟨?_, ?_⟩
  · have key : ∀ k : _root_.Fin 36, jumpIns k.1 ≠ 0#32 := by decide +kernel
    exact key ⟨type, hty⟩
  · unfold FlagIs at h
    clear main
    interval_cases type <;> simp at h <;>
      first
      | refine ne EQUAL_FLAG (by decide) (by decide) rfl ?_
      | refine eq EQUAL_FLAG (by decide) (by decide) rfl ?_
      | refine ne OTHER_FLAG (by decide) (by decide) rfl ?_
      | refine eq OTHER_FLAG (by decide) (by decide) rfl ?_
    all_goals
      simp only [rmEq, rmOther, BrOp.eval]
      clear ne eq
      first
      | (generalize s.x 12#5 = v at h; by_cases hv : v = 0#64 <;> cases t <;> simp_all; done)
      | (generalize s.x 15#5 = v at h; by_cases hv : v = 0#64 <;> cases t <;> cases a <;> simp_all [Verif.RV.bool64]; done)

theorem takes_br {s : Core} {mul : Bool} {type : Nat} {t : Bool} (h : Takes s mul type t) (a : BitVec 64) :
    (jumpBr type = none ∧ t = true ∧ jumpAt type a = a) ∨ ∃ w, jumpBr type = some w ∧ BrW w s t ∧ jumpAt type a = a + 4#64 := by
  rcases h with h | ⟨h1, h2, rfl⟩
  · have ht : type < 36 := by have := h.1; omega
    obtain ⟨g1, g2⟩ := brW_jump ht h.flag
    refine .inr ⟨_, if_pos g1, g2, if_pos ht⟩
  · refine .inl ⟨?_, rfl, if_neg (by omega)⟩
    interval_cases type <;> rfl

theorem after {type : Nat} {p : Patch} {ret : BitVec 64} {s s' : Core} {t : Bool} (hp : 37 ≤ type → t = true ∧ p ≠ .b)
    (h1 : t = true → p ≠ .b → decide (37 ≤ type) = true → s'.x 1#5 = ret) (h2 : JSame (decide (37 ≤ type)) s s') : After type ret s s' := by
  refine ⟨fun h => h1 (hp h).1 (hp h).2 (by simpa using h), fun q q1 q2 => h2.1 q q1 (fun hc => ?_), h2.2.1, h2.2.2⟩
  intro hq
  exact q2 ⟨by simpa using hc, hq⟩

/-- **C70 (jumps to labels)**, partial: whatever form was selected for the jump, if no assertion of the code generator fails, then the
words lead to the target when the jump is taken, and behind the jump otherwise.  Missing: targets in `FarDefect`. -/
theorem c70_form_partial (p : Patch) (type : Nat) (mul t : Bool) (a addr : BitVec 64) (s : Core) (e : Emit) (ht : Takes s mul type t)
    (ha : a &&& 3#64 = 0#64) (hb : addr &&& 3#64 = 0#64)
    (hfar : p = .rel32 → (addr - jumpAt type a).getLsbD 11 = false) (h52 : p = .abs52 → addr.toNat ≤ 0x7ffffffffffff)
    (he : emitJumpAs p type a addr = some e) (code : Code) (hc : CodeAt code a e) :
    ∃ s', StepsJ code ⟨a, s⟩ ⟨if t then addr else a + BitVec.ofNat 64 (4 * e.length), s'⟩ ∧
      After type (a + BitVec.ofNat 64 (4 * e.length)) s s' := by
  unfold emitJumpAs at he
  rw [jumpJirl_eq] at he
  obtain ⟨s', r1, r2, r3⟩ := jump_ok (s := s) (takes_br ht a) hfar h52 ha hb he hc
  refine ⟨s', r1, after (p := p) (t := t) (fun h37 => ?_) r2 r3⟩
  rcases ht with h | ⟨-, h39, rfl⟩
  · have := h.1; omega
  · refine ⟨rfl, ?_⟩
    rintro rfl
    have : jumpBr type = none := by interval_cases type <;> rfl
    rw [this] at he
    simp only [jumpWords, Option.map_none] at he
    split at he <;> cases he

theorem words_some {br : Option (BitVec 32)} {call rew : Bool} {a ja addr : BitVec 64} (hja : ja = a + (if br.isSome then 4#64 else 0#64)) :
    ∃ e, jumpWords (detect br.isSome rew (addr - ja) addr) br (jirlW call) call a addr = some e := by
  have over : ∀ w : BitVec 32, ∀ n, a + BitVec.ofNat 64 (4 * ([w ||| IMM_I16 n] : Emit).length) = a + 4#64 := fun _ _ => rfl
  have over0 : a + BitVec.ofNat 64 (4 * ([] : Emit).length) = a := by simp
  unfold detect
  split
  · cases br <;> exact ⟨_, by simp only [jumpWords, load_full]; rfl⟩
  split
  · next h1 h2 =>
    obtain ⟨g1, g2, g3⟩ := h2
    cases br with
    | none => cases g1
    | some w =>
      have : addr - ja + 4#64 = addr - a := by
        rw [hja]; simp only [Option.isSome_some, if_true]
        rw [BitVec.sub_eq_add_neg, BitVec.sub_eq_add_neg, BitVec.neg_add, BitVec.add_assoc, BitVec.sub_eq_add_neg, BitVec.add_assoc]
        congr 1
        rw [show (-4#64 + 4#64 : BitVec 64) = 0#64 by decide, BitVec.add_zero]
      rw [this] at g2 g3
      exact ⟨_, by simp only [jumpWords]; rw [if_pos ⟨g2, g3⟩]; rfl⟩
  split
  · next h3 =>
    cases br with
    | none =>
      rw [show ja = a by rw [hja]; simp] at h3
      exact ⟨_, by simp only [jumpWords, over0]; rw [if_pos h3]⟩
    | some w =>
      rw [show ja = a + 4#64 by rw [hja]; simp] at h3
      exact ⟨_, by simp only [jumpWords, over]; rw [if_pos h3]⟩
  split
  · next h3 =>
    cases br with
    | none =>
      rw [show ja = a by rw [hja]; simp] at h3
      exact ⟨_, by simp only [jumpWords, loadAddr, over0, last_is, if_true]; rw [if_pos h3]; rfl⟩
    | some w =>
      rw [show ja = a + 4#64 by rw [hja]; simp] at h3
      exact ⟨_, by simp only [jumpWords, loadAddr, over, last_is, if_true]; rw [if_pos h3]; rfl⟩
  split
  · next h3 => cases br <;> exact ⟨_, by simp only [jumpWords, loadAddr, last_is, if_true]; rw [if_pos h3]; rfl⟩
  split
  · cases br <;> exact ⟨_, by simp only [jumpWords, loadAddr, last_is, if_true]; rfl⟩
  · cases br <;> exact ⟨_, by simp only [jumpWords, load_full]; rfl⟩

theorem detect_rel {cond rew : Bool} {d t : BitVec 64} (h : detect cond rew d t = .rel32) (hf : ¬ FarDefect d) : d.getLsbD 11 = false := by
  unfold detect at h
  split at h; · cases h
  split at h; · cases h
  split at h; · cases h
  split at h
  · next h1 h2 =>
    by_contra hc
    exact hf ⟨by omega, h2, by simpa using hc⟩
  split at h; · cases h
  split at h <;> cases h
theorem detect_52 {cond rew : Bool} {d t : BitVec 64} (h : detect cond rew d t = .abs52) : t.toNat ≤ 0x7ffffffffffff := by
  unfold detect at h
  repeat' (split at h)
  all_goals first | (cases h; done) | assumption

/-- **C70 (jumps to addresses)**, partial: a jump, a conditional jump or a call of sljit_emit_jump whose target is set by sljit_set_target,
or a jump of sljit_emit_ijump to a constant, or a rewritable jump: no assertion fails; it leads to the target when it is
taken, and behind the jump otherwise.  Missing: targets in `FarDefect`. -/
theorem c70_jump_partial (type : Nat) (rew mul t : Bool) (a addr : BitVec 64) (s : Core) (ht : Takes s mul type t)
    (ha : a &&& 3#64 = 0#64) (hb : addr &&& 3#64 = 0#64) (hfar : rew = true ∨ ¬ FarDefect (addr - jumpAt type a)) :
    ∃ e, emitJumpTo type rew a addr = some e ∧ ∀ code, CodeAt code a e →
      ∃ s', StepsJ code ⟨a, s⟩ ⟨if t then addr else a + BitVec.ofNat 64 (4 * e.length), s'⟩ ∧
        After type (a + BitVec.ofNat 64 (4 * e.length)) s s' := by
  have hja : jumpAt type a = a + (if (jumpBr type).isSome then 4#64 else 0#64) := by
    rcases takes_br ht a with ⟨h1, -, h2⟩ | ⟨w, h1, -, h2⟩
    · rw [h1, h2]; simp
    · rw [h1, h2]; simp
  obtain ⟨e, he⟩ := words_some (br := jumpBr type) (call := decide (37 ≤ type)) (rew := rew) (addr := addr) hja
  have he' : emitJumpTo type rew a addr = some e := by
    unfold emitJumpTo emitJumpAs
    rw [jumpJirl_eq, ← hja]; exact he
  refine ⟨e, he', fun code hc => ?_⟩
  unfold emitJumpTo at he'
  rw [← hja] at he'
  refine c70_form_partial _ type mul t a addr s e ht ha hb (fun hp => ?_) (fun hp => detect_52 hp) he' code hc
  rcases hfar with rfl | hf
  · simp [detect] at hp
  · exact detect_rel hp hf

/-- The branch of sljit_emit_cmp. -/
theorem brW_cmp {type r1 r2 : Nat} {s : Core} (hty : type < 10) :
    BrW (cmpIns type r1 r2) s (Verif.RV.cmpRel type (s.x (regMap r1)) (s.x (regMap r2))) := by
  have main : ∀ (o : BitVec 6) (op : BitVec 32) (br : BrOp) (a b : Nat), op = o.setWidth 32 <<< 26 → decBr o = some br →
      cmpIns type r1 r2 = op ||| RJ a ||| RD b →
      br.eval (s.x (regMap a)) (s.x (regMap b)) = !Verif.RV.cmpRel type (s.x (regMap r1)) (s.x (regMap r2)) →
      BrW (cmpIns type r1 r2) s (Verif.RV.cmpRel type (s.x (regMap r1)) (s.x (regMap r2))) := by
    intro o op br a b h1 h2 h3 h4
    have := br_word o op h1 a b 0
    rw [or_imm0, ← h3] at this
    exact ⟨o, _, _, br, this, h2, h4⟩
  interval_cases type
  · exact main 0x17#6 BNE .ne r1 r2 (by decide) (by decide) rfl rfl
  · exact main 0x16#6 BEQ .eq r1 r2 (by decide) (by decide) rfl (by simp [BrOp.eval, Verif.RV.cmpRel, bne])
  · exact main 0x1b#6 BGEU .geu r1 r2 (by decide) (by decide) rfl rfl
  · exact main 0x1a#6 BLTU .ltu r1 r2 (by decide) (by decide) rfl (by simp [BrOp.eval, Verif.RV.cmpRel])
  · exact main 0x1b#6 BGEU .geu r2 r1 (by decide) (by decide) rfl rfl
  · exact main 0x1a#6 BLTU .ltu r2 r1 (by decide) (by decide) rfl (by simp [BrOp.eval, Verif.RV.cmpRel])
  · exact main 0x19#6 BGE .ge r1 r2 (by decide) (by decide) rfl rfl
  · exact main 0x18#6 BLT .lt r1 r2 (by decide) (by decide) rfl (by simp [BrOp.eval, Verif.RV.cmpRel])
  · exact main 0x19#6 BGE .ge r2 r1 (by decide) (by decide) rfl rfl
  · exact main 0x18#6 BLT .lt r2 r1 (by decide) (by decide) rfl (by simp [BrOp.eval, Verif.RV.cmpRel])

/-- Length of the instructions in front of the branch. -/
def cmpLen (type : Nat) (is32 : Bool) (o1 o2 : Opd) : Nat := (emitCmp type is32 o1 o2).1.length

theorem al_add {a : BitVec 64} (n : Nat) (ha : a &&& 3#64 = 0#64) : (a + BitVec.ofNat 64 (4 * n)) &&& 3#64 = 0#64 := by
  apply BitVec.eq_of_toNat_eq
  have := congrArg BitVec.toNat ha
  rw [BitVec.toNat_and, show (3#64).toNat = 2 ^ 2 - 1 from rfl, Nat.and_two_pow_sub_one_eq_mod] at this ⊢
  simp at this ⊢; omega

/-- **C70 (sljit_emit_cmp)**, partial: compare and jump to an address, near or far: the target is reached if and only if the relation holds, and
otherwise the code behind the jump; everything but the temporary registers is the same.  Missing: the defects of C66, and
targets in `FarDefect`. -/
theorem c70_cmp_partial (type : Nat) (is32 rew : Bool) (o1 o2 : Opd) (a addr : BitVec 64) (s : Core) (hty : type < 10) (h1 : Src o1) (h2 : Src o2)
    (hno : ¬ CmpDefect o1 o2) (h32 : is32 = true → Ok32 type s o1 o2) (ha : a &&& 3#64 = 0#64) (hb : addr &&& 3#64 = 0#64)
    (hfar : rew = true ∨ ¬ FarDefect (addr - (a + BitVec.ofNat 64 (4 * cmpLen type is32 o1 o2) + 4#64))) :
    ∃ e, emitCmpTo type is32 rew o1 o2 a addr = some e ∧ ∀ code, CodeAt code a e →
      ∃ s', Same s s' ∧ (holds is32 type s o1 o2 → StepsJ code ⟨a, s⟩ ⟨addr, s'⟩) ∧
        (¬ holds is32 type s o1 o2 → StepsJ code ⟨a, s⟩ ⟨a + BitVec.ofNat 64 (4 * e.length), s'⟩) := by
  obtain ⟨x, hx⟩ := words_some (br := some (emitCmp type is32 o1 o2).2) (call := false) (rew := rew) (addr := addr)
    (a := a + BitVec.ofNat 64 (4 * cmpLen type is32 o1 o2)) rfl
  have hj : (JIRL ||| RD TMP_ZERO ||| RJ TMP_REG1 ||| IMM_I12 0#64) = jirlW false := by decide
  refine ⟨(emitCmp type is32 o1 o2).1 ++ x, ?_, fun code hc => ?_⟩
  · unfold emitCmpTo
    simp only [hj]
    exact Option.map_eq_some_iff.mpr ⟨x, hx, rfl⟩
  · rw [CodeAt_append] at hc
    obtain ⟨s1, e1, e2, e3, e4⟩ := cmpFetch_ok (is32 := is32) (c := s) h1.ok h2.ok (C66.not_clobber hno)
    have hst := steps_of_run hc.1 e1
    have hrel := C66.cmp_holds (type := type) (is32 := is32) (o1 := o1) (o2 := o2) (s := s) (s' := s1) e2 e3 h32
    obtain ⟨s2, r1, -, r3⟩ := jump_ok (s := s1) (.inr ⟨_, rfl, brW_cmp (r1 := (cmpFetch is32 o1 o2).2.1) (r2 := (cmpFetch is32 o1 o2).2.2) hty, rfl⟩)
      (fun hp => by
        rcases hfar with rfl | hf
        · simp [detect] at hp
        · exact detect_rel hp hf) (fun hp => detect_52 hp) (al_add _ ha) hb hx hc.2
    refine ⟨s2, ⟨fun q q1 q2 q3 => ?_, ?_, ?_⟩, fun hh => ?_, fun hh => ?_⟩
    · rw [r3.1 q q2 (by simp), e4.1 q (by simp [q1, q2, q3])]
    · rw [r3.2.1, e4.2.1]
    · rw [r3.2.2, e4.2.2]
    · rw [if_pos (hrel.mpr hh)] at r1
      exact hst.J.trans r1
    · rw [if_neg (fun h => hh (hrel.mp h))] at r1
      have : a + BitVec.ofNat 64 (4 * cmpLen type is32 o1 o2) + BitVec.ofNat 64 (4 * x.length) =
          a + BitVec.ofNat 64 (4 * ((emitCmp type is32 o1 o2).1 ++ x).length) := by
        rw [List.length_append, BitVec.add_assoc, ← BitVec.ofNat_add, Nat.mul_add]; rfl
      rw [← this]
      exact hst.J.trans r1

/-! ## sljit_set_jump_addr -/

/-- **C70 (rewritable jumps).**  Start from any memory holding, at `a`, a rewritable jump of sljit_emit_jump to `addr`, and apply
sljit_set_jump_addr with the executable offset `off` any number of times.  No assertion fails, no word outside of the four words of the jump
changes, and the jump - fetched through the executable mapping - now leads to the last address if it is taken, and behind itself otherwise. -/
theorem c70_set_jump_addr (type : Nat) (a off addr : BitVec 64) (ks : List (BitVec 64)) (m : Code) (e : Emit)
    (he : emitJumpTo type true (a + off) addr = some e) (hc : CodeAt m a e) (ha : (a + off) &&& 3#64 = 0#64)
    (hb : ks.getLast?.getD addr &&& 3#64 = 0#64) (hty : type < 40) :
    ∃ m', retargets m (jumpAt type a) ks = some m' ∧
      (∀ x, (∀ i, i < 4 → x ≠ jumpAt type a + BitVec.ofNat 64 (4 * i)) → m' x = m x) ∧
      ∀ s mul t, Takes s mul type t →
        ∃ s', StepsJ (view m' off) ⟨a + off, s⟩ ⟨if t then ks.getLast?.getD addr else a + off + BitVec.ofNat 64 (4 * e.length), s'⟩ ∧
          After type (a + off + BitVec.ofNat 64 (4 * e.length)) s s' := by
  have hfull : ∀ k, emitJumpTo type true (a + off) k =
      some ((match jumpBr type with | some w => [w ||| IMM_I16 5] | none => []) ++ fullWords (decide (37 ≤ type)) k) := by
    intro k
    unfold emitJumpTo emitJumpAs
    rw [jumpJirl_eq]
    simp only [detect, if_true, jumpWords, load_full, Patch.skip]
    rfl
  rw [hfull] at he
  cases he
  generalize hov : (match jumpBr type with | some w => [w ||| IMM_I16 5] | none => [] : Emit) = ov at *
  have hja : a + BitVec.ofNat 64 (4 * ov.length) = jumpAt type a := by
    rw [← hov]
    have key : ∀ k : _root_.Fin 40, (match jumpBr k.1 with | some w => [w ||| IMM_I16 5] | none => [] : Emit).length = if k.1 < 36 then 1 else 0 := by
      decide +kernel
    rw [key ⟨type, hty⟩]
    unfold jumpAt
    by_cases h : type < 36
    · simp [h]
    · simp [h]
  have hn : ov.length ≤ 1 := by rw [← hov]; split <;> simp
  rw [CodeAt_append, hja] at hc
  obtain ⟨m', g1, g2, g3⟩ := retargets_ok (jumpAt type a) (decide (37 ≤ type)) ks addr m hc.2
  have hov' : CodeAt m' a ov := by
    refine CodeAt_congr (fun i hi => g3 _ fun j hj h => ?_) hc.1
    rw [← hja, BitVec.add_assoc] at h
    have h := congrArg BitVec.toNat ((BitVec.add_right_inj a).mp h)
    simp only [BitVec.toNat_add, BitVec.toNat_ofNat] at h
    omega
  have hall : CodeAt m' a (ov ++ fullWords (decide (37 ≤ type)) (ks.getLast?.getD addr)) := by
    rw [CodeAt_append, hja]; exact ⟨hov', g2⟩
  refine ⟨m', g1, g3, fun s mul t ht => ?_⟩
  obtain ⟨e', h1, h2⟩ := c70_jump_partial type true mul t (a + off) (ks.getLast?.getD addr) s ht ha hb (.inl rfl)
  rw [hfull] at h1
  cases h1
  have := h2 (view m' off) (CodeAt_view hall)
  have hl : ∀ u v : BitVec 64, (ov ++ fullWords (decide (37 ≤ type)) u).length = (ov ++ fullWords (decide (37 ≤ type)) v).length := by
    intro u v; simp only [List.length_append, fullWords, preWords, List.length_cons, List.length_nil]
  rw [hl addr (ks.getLast?.getD addr)]
  exact this

/-! ## Loading an address -/

/-- **C70 (addresses)**, partial: the code that loads an address (sljit_emit_op_addr with a register) gives the register this address, and changes
nothing else.  Missing: the last two kilobytes in front of `a + 2^31` (`c70_mov_false`). -/
theorem c70_mov_partial (r : Nat) (a addr : BitVec 64) (s : Core) (hr : UserReg r)
    (hw : ¬ (0x7ffff800 ≤ (addr - a).toInt ∧ (addr - a).toInt ≤ 0x7fffffff)) :
    ∃ e, movWords (movDetect (addr - a) addr) r a addr = some e ∧ ∀ code, CodeAt code a e →
      StepsJ code ⟨a, s⟩ ⟨a + BitVec.ofNat 64 (4 * e.length), s.wr (regMap r) addr⟩ := by
  have hr0 : regMap r ≠ 0#5 := by
    have key : ∀ k : _root_.Fin 25, k.1 ≠ 0 → regMap k.1 ≠ 0#5 := by decide +kernel
    exact key ⟨r, by have := hr.2; omega⟩ (by have := hr.1; simp; omega)
  have hsome : ∃ e, movWords (movDetect (addr - a) addr) r a addr = some e := by
    unfold movDetect
    split
    · next h => exact ⟨_, by simp only [movWords, loadAddr]; rw [if_pos h]; rfl⟩
    split
    · next h => exact ⟨_, by simp only [movWords, loadAddr]; rw [if_pos h]; rfl⟩
    split <;> exact ⟨_, rfl⟩
  obtain ⟨e, he⟩ := hsome
  refine ⟨e, he, fun code hc => mov_ok hr0 ?_ (fun hp => ?_) (fun hp => ?_) he hc⟩
  · unfold movDetect
    repeat' (split)
    all_goals simp
  · unfold movDetect at hp
    split at hp
    · next h => omega
    · repeat' (split at hp)
      all_goals cases hp
  · unfold movDetect at hp
    repeat' (split at hp)
    all_goals first | (cases hp; done) | assumption

/-! ## Far jumps go astray -/

/-- The target of a far jump, for all distances with bit 11 set (but the last four kilobytes): 4096 bytes behind the address asked for. -/
theorem c70_far_lands (type : Nat) (a addr : BitVec 64) (s : Core) (ht : 36 ≤ type) (ht' : type ≤ 39) (ha : a &&& 3#64 = 0#64) (hb : addr &&& 3#64 = 0#64)
    (hfar : FarDefect (addr - a)) (hw : (addr - a).toInt < 0x7ffff800) :
    ∃ e, emitJumpTo type false a addr = some e ∧ ∀ code, CodeAt code a e → ∃ s', StepsJ code ⟨a, s⟩ ⟨addr + 0x1000#64, s'⟩ := by
  obtain ⟨f1, f2, f3⟩ := hfar
  have hbr : jumpBr type = none := by interval_cases type <;> rfl
  have hdet : detect (jumpBr type).isSome false (addr - (a + (if (jumpBr type).isSome then 4#64 else 0#64))) addr = .rel32 := by
    rw [hbr]
    simp only [detect, Option.isSome_none, Bool.false_eq_true, if_false, false_and, BitVec.add_zero]
    rw [if_neg (by omega), if_pos f2]
  obtain ⟨e, he⟩ := words_some (br := jumpBr type) (call := decide (37 ≤ type)) (rew := false) (a := a) (addr := addr) rfl
  rw [hdet, hbr] at he
  refine ⟨e, ?_, fun code hc => ?_⟩
  · show emitJumpAs (detect (jumpBr type).isSome false (addr - (a + (if (jumpBr type).isSome then 4#64 else 0#64))) addr) type a addr = some e
    rw [hdet]
    unfold emitJumpAs
    rw [jumpJirl_eq, hbr]; exact he
  · simp only [jumpWords, List.length_nil, List.nil_append, Nat.mul_zero, BitVec.add_zero, Option.map_eq_some_iff] at he
    obtain ⟨x, hx, rfl⟩ := he
    have hwin := window f3 f2.1 hw
    obtain ⟨s', r, -⟩ := body_rel (s := s) (d := addr - a + 0x1000#64) (by rw [if_pos (bit11.mpr f3)]) hwin.1 hwin.2
      (by
        have : addr - a + 0x1000#64 = addr + 0x1000#64 - a := by
          rw [BitVec.sub_eq_add_neg, BitVec.sub_eq_add_neg, BitVec.add_assoc, BitVec.add_comm (-a), ← BitVec.add_assoc]
        rw [this]
        exact al_sub (al_add 0x400 hb) ha) hx hc
    refine ⟨s', ?_⟩
    have : a + (addr - a + 0x1000#64) = addr + 0x1000#64 := by
      rw [← BitVec.add_assoc, BitVec.add_comm a, BitVec.sub_add_cancel]
    rwa [this] at r

/-- **C70 (far jumps), negation**: a jump to a function 128 megabytes and 2 kilobytes away continues 4096 bytes behind the function. -/
theorem c70_jump_false : ∃ (a addr : BitVec 64) (e : Emit), a &&& 3#64 = 0#64 ∧ addr &&& 3#64 = 0#64 ∧ emitJumpTo 36 false a addr = some e ∧
    ∀ code s, CodeAt code a e → ∃ s', StepsJ code ⟨a, s⟩ ⟨addr + 0x1000#64, s'⟩ := by
  obtain ⟨e, h1, -⟩ := c70_far_lands 36 0x10000000#64 0x18000800#64 (demo 0#64 0#64 0#64 0#64 0#64 0#64 0#8) (by decide) (by decide) (by decide) (by decide)
    ⟨by decide, by decide, by decide⟩ (by decide)
  refine ⟨0x10000000#64, 0x18000800#64, e, by decide, by decide, h1, fun code s hc => ?_⟩
  obtain ⟨e', h1', h2⟩ := c70_far_lands 36 0x10000000#64 0x18000800#64 s (by decide) (by decide) (by decide) (by decide)
    ⟨by decide, by decide, by decide⟩ (by decide)
  rw [h1] at h1'
  cases h1'
  exact h2 code hc

/-- **C70 (addresses), negation**: the address of a label 2 gigabytes minus 2 kilobytes away is loaded with an error of 4 gigabytes. -/
theorem c70_mov_false : movWords (movDetect 0x7ffff800#64 0x17ffff800#64) 1 0x100000000#64 0x17ffff800#64 = some [0x1d000004#32, 0x2e00084#32] ∧
    ∀ code s, CodeAt code 0x100000000#64 [0x1d000004#32, 0x2e00084#32] →
      StepsJ code ⟨0x100000000#64, s⟩ ⟨0x100000008#64, s.wr 4#5 0x7ffff800#64⟩ := by
  refine ⟨by decide +kernel, fun code s hc => ?_⟩
  have r1 := stepJ_pc (code := code) (s := ⟨0x100000000#64, s⟩) (r := 1) (v := 0x80000800#64) (by rw [show code (St.pc ⟨0x100000000#64, s⟩) = _ from hc.1]; decide +kernel)
  have r2 := step_addi (code := code) (pc := 0x100000004#64) (c := s) (r := 1) (v := 0x80000800#64) (u := 0x80000000#64) (by decide)
    (by rw [show code 0x100000004#64 = _ from hc.2.1]; decide +kernel)
  have c1 : (0x100000000#64 : BitVec 64) + ((BitVec.extractLsb' 12 20 0x80000800#64).signExtend 64 <<< 12) = 0x80000000#64 := by decide
  have c2 : (0x80000000#64 : BitVec 64) + (BitVec.setWidth 12 0x80000800#64).signExtend 64 = 0x7ffff800#64 := by decide
  have c3 : (0x100000000#64 : BitVec 64) + 4#64 = 0x100000004#64 := by decide
  have c4 : (0x100000004#64 : BitVec 64) + 4#64 = 0x100000008#64 := by decide
  have c5 : regMap 1 = 4#5 := by decide
  rw [c5, c2, c4] at r2
  rw [c5, c1, c3] at r1
  exact .step r1 (.step (stepJ_of r2) (.refl _))

/-! ## The hypotheses can be met -/

/-- A call of a function 256 megabytes and 64 bytes away. -/
example : ∃ e, emitJumpTo 38 false 0x10000000#64 0x20000040#64 = some e ∧ e.length = 2 ∧ ∀ code, CodeAt code 0x10000000#64 e →
    ∃ s', StepsJ code ⟨0x10000000#64, demo 0#64 0#64 0#64 0#64 0#64 0#64 0#8⟩ ⟨0x20000040#64, s'⟩ ∧ s'.x 1#5 = 0x10000008#64 := by
  obtain ⟨e, h1, h2⟩ := c70_jump_partial 38 false false true 0x10000000#64 0x20000040#64 (demo 0#64 0#64 0#64 0#64 0#64 0#64 0#8)
    (.inr ⟨by decide, by decide, rfl⟩) (by decide) (by decide) (.inr (by unfold FarDefect; decide))
  have hl : e.length = 2 := by
    have : (emitJumpTo 38 false 0x10000000#64 0x20000040#64).map List.length = some 2 := by decide +kernel
    rw [h1] at this; simpa using this
  refine ⟨e, h1, hl, fun code hc => ?_⟩
  obtain ⟨s', r1, r2⟩ := h2 code hc
  refine ⟨s', r1, ?_⟩
  rw [r2.link (by decide), hl]; rfl

/-- A comparison of two memory cells with a jump to an address in the upper half of the address space. -/
example : ∃ e, emitCmpTo 2 false false (.mem 1 0 8#64) (.imm 5#64) 0x10000000#64 0x8000000000001000#64 = some e ∧ ∀ code, CodeAt code 0x10000000#64 e →
    ∃ s', StepsJ code ⟨0x10000000#64, demo 0x1000#64 0#64 0#64 0#64 0#64 0#64 0#8⟩ ⟨0x8000000000001000#64, s'⟩ := by
  obtain ⟨e, h1, h2⟩ := c70_cmp_partial 2 false false (.mem 1 0 8#64) (.imm 5#64) 0x10000000#64 0x8000000000001000#64
    (demo 0x1000#64 0#64 0#64 0#64 0#64 0#64 0#8) (by decide) ⟨by decide, by decide, by decide⟩ trivial
    (by rintro ⟨-, b, w, h, -⟩; cases h) (fun h => by cases h) (by decide) (by decide) (.inr (by unfold FarDefect; decide +kernel))
  refine ⟨e, h1, fun code hc => ?_⟩
  obtain ⟨s', -, r, -⟩ := h2 code hc
  refine ⟨s', r ?_⟩
  have : Verif.RV.cmpRel 2 (C66.value64 (demo 0x1000#64 0#64 0#64 0#64 0#64 0#64 0#8) (.mem 1 0 8#64)) 5#64 = true := by decide +kernel
  exact (Verif.Props.C28.cmpRel_rel _ _).mp this

end Verif.Props.C70
