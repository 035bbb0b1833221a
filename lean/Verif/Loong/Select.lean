import Verif.Loong.CmpProof

/-! # sljit_emit_select on LoongArch64 (helper lemmas) -/

set_option linter.all false

namespace Verif.LA
open Verif.RV
open Verif.Imm.Loong (loadImmediate)

/-- Wherever the code is stored, execution from its first word reaches its end with contents satisfying `Q`. -/
def wpB (e : Emit) (c : Core) (Q : Core → Prop) : Prop :=
  ∀ (code : Code) (p : BitVec 64), CodeAt code p e → ∃ c', Steps code ⟨p, c⟩ ⟨p + BitVec.ofNat 64 (4 * e.length), c'⟩ ∧ Q c'

theorem wp.B {e : Emit} {c : Core} {Q : Core → Prop} (h : wp e c Q) : wpB e c Q := by
  intro code p hc
  obtain ⟨c', h1, h2⟩ := h
  exact ⟨c', steps_of_run hc h1, h2⟩

theorem wpB_append {a b : Emit} {c : Core} {Q : Core → Prop} (h : wpB a c fun c' => wpB b c' Q) : wpB (a ++ b) c Q := by
  intro code p hc
  rw [CodeAt_append] at hc
  obtain ⟨c1, h1, h2⟩ := h code p hc.1
  obtain ⟨c2, h3, h4⟩ := h2 code _ hc.2
  refine ⟨c2, ?_, h4⟩
  have : p + BitVec.ofNat 64 (4 * a.length) + BitVec.ofNat 64 (4 * b.length) = p + BitVec.ofNat 64 (4 * (a ++ b).length) := by
    rw [List.length_append]
    apply BitVec.eq_of_toNat_eq
    simp; omega
  rw [← this]
  exact h1.trans h3

theorem wpB_mono {e : Emit} {c : Core} {Q R : Core → Prop} (h : wpB e c Q) (hqr : ∀ c', Q c' → R c') : wpB e c R := by
  intro code p hc
  obtain ⟨c', h1, h2⟩ := h code p hc
  exact ⟨c', h1, hqr _ h2⟩

/-! ## Lengths: the branch distance always fits -/

theorem loadImmediate_len (d : Nat) (v : BitVec 64) : (loadImmediate d v).length ≤ 4 := by
  unfold loadImmediate
  have : ∀ (p : Prop) [Decidable p] (x : BitVec 32), (if p then [x] else []).length ≤ 1 := by
    intro p _ x; split <;> simp
  simp only []
  split
  · simp
  split
  · rw [List.length_cons]; exact Nat.le_trans (Nat.succ_le_succ (this _ _)) (by decide)
  split
  · rw [List.length_cons, List.length_append]
    exact Nat.le_trans (Nat.succ_le_succ (Nat.add_le_add_right (this _ _) _)) (by simp)
  · rw [List.length_cons, List.length_append]
    exact Nat.le_trans (Nat.succ_le_succ (Nat.add_le_add_right (this _ _) _)) (by simp)

theorem pushMem_len (t : MT) (l : Bool) (r b i : Nat) (w : BitVec 64) : (pushMem t l r b i w).length ≤ 1 := by
  unfold pushMem ins; split <;> simp

theorem selectBody_len (is32 : Bool) (d : Nat) (o : Opd) : (selectBody is32 d o).length ≤ 8 := by
  cases o with
  | reg r => simp [selectBody, ins]
  | imm v => exact Nat.le_trans (loadImmediate_len _ _) (by decide)
  | mem b i w =>
    simp only [selectBody, emitOpMem, if_true]
    have h := fun t l r b i w => pushMem_len t l r b i w
    have h4 := loadImmediate_len d w
    split
    · exact Nat.le_trans (h ..) (by decide)
    split
    · rw [List.length_append]
      refine Nat.le_trans (Nat.add_le_add (b := 1) ?_ (h ..)) (by decide)
      unfold ins; split <;> simp
    · rw [List.length_append]
      refine Nat.le_trans (Nat.add_le_add h4 (d := 1) ?_) (by decide)
      split <;> exact h ..

/-- A branch over a piece of code. -/
theorem over_ok {type : Nat} {a t : Bool} {body : Emit} {c : Core} {Q : Core → Prop} (hty : type < 36) (hl : body.length ≤ 8)
    (h : FlagIs c a type t) (h1 : t = true → wp body c Q) (h0 : t = false → Q c) :
    wpB (ins (jumpIns type ||| IMM_I16 (body.length + 1)) ++ body) c Q := by
  intro code p hc
  have hs := jump_step (code := code) (s := ⟨p, c⟩) hty h hc.1
  have hd : ∀ n : _root_.Fin 10, ((BitVec.ofNat 16 n.1).signExtend 64 <<< 2 : BitVec 64) = BitVec.ofNat 64 (4 * n.1) := by decide +kernel
  have hlen : 4 * (ins (jumpIns type ||| IMM_I16 (body.length + 1)) ++ body).length = 4 * (body.length + 1) := by
    rw [List.length_append]; simp [ins]; omega
  rw [hlen]
  cases t
  · refine ⟨c, .step hs ?_, h0 rfl⟩
    simp only [Bool.false_eq_true, if_false]
    rw [hd ⟨body.length + 1, by omega⟩]
    exact .refl _
  · obtain ⟨c', g1, g2⟩ := h1 rfl
    refine ⟨c', .step hs ?_, g2⟩
    simp only [if_true]
    have := steps_of_run hc.2 g1
    have e : p + 4#64 + BitVec.ofNat 64 (4 * body.length) = p + BitVec.ofNat 64 (4 * (body.length + 1)) := by
      apply BitVec.eq_of_toNat_eq
      simp; omega
    rw [← e]; exact this

/-! ## The moves -/

/-- Value of the first source. -/
def selVal (is32 : Bool) (c : Core) : Opd → BitVec 64
  | .reg r => c.x (regMap r)
  | .imm v => if is32 then sx32 (lo32 v) else v
  | .mem b i w => (ldOp (if is32 then .int else .word) false).eval c.mem (ea c b i w)

/-- emit_op_mem for loads; the address may contain TMP_REG1. -/
theorem opMem_loadG {sz : Sz} {sg : Bool} {reg b i : Nat} {w : BitVec 64} {c : Core} (hr : regMap reg ≠ 0#5)
    (hx : IdxOk i w) (hrb : fastArg i w = true ∨ regMap b ≠ regMap reg) (hr0 : reg ≠ 0) :
    wp (emitOpMem (.g sz sg) true reg b i w) c fun c' =>
      c'.x (regMap reg) = (ldOp sz sg).eval c.mem (ea c b i w) ∧ Only [regMap reg] c c' := by
  unfold emitOpMem
  simp only [if_true]
  by_cases hf : fastArg i w = true
  · rw [if_pos hf, wp_load, pa_fast hf]
    exact ⟨by simp [hr], (Only.refl _ _).wr (by simp) _⟩
  replace hrb := hrb.resolve_left hf
  rw [if_neg hf]
  by_cases h0 : i = 0
  · subst h0
    rw [if_neg (not_not.mpr rfl)]
    refine wp_append (wp_loadImm hr ?_)
    by_cases hb0 : b = 0
    · subst hb0
      rw [if_neg (not_not.mpr rfl), wp_load]
      refine ⟨?_, ((Only.refl _ _).wr (by simp) _).wr (by simp) _⟩
      simp [hr, pa, ea]
    · rw [if_pos hb0, wp_load]
      refine ⟨?_, ((Only.refl _ _).wr (by simp) _).wr (by simp) _⟩
      simp [hr, pa, ea, hrb, hr0]
  · rw [if_pos h0]
    have hw4 : w.toNat < 4 := hx h0
    have h3 : w &&& 3#64 = w := by
      apply BitVec.eq_of_toNat_eq
      rw [BitVec.toNat_and, show (3#64).toNat = 2 ^ 2 - 1 from rfl, Nat.and_two_pow_sub_one_eq_mod]; omega
    have hw : w ≠ 0#64 := by rintro rfl; simp [fastArg] at hf
    rw [h3, if_pos hw, wp_SLLI_D_s _ _ (by omega), wp_load]
    refine ⟨?_, ((Only.refl _ _).wr (by simp) _).wr (by simp) _⟩
    have : w.toNat % 64 = w.toNat := by omega
    simp [hr, pa, ea, hrb, h0, hr0, h3, ShOp.eval, this]

theorem selectBody_ok {is32 : Bool} {d : Nat} {o : Opd} {c : Core} (d0 : regMap d ≠ 0#5) (hd : d ≠ 0)
    (hb : ∀ b i w, o = .mem b i w → IdxOk i w ∧ (fastArg i w = true ∨ regMap b ≠ regMap d)) :
    wp (selectBody is32 d o) c fun c' => c'.x (regMap d) = selVal is32 c o ∧ Only [regMap d, 13#5] c c' := by
  cases o with
  | reg r =>
    simp only [selectBody]
    rw [wp_ADDI_D _ _ fits0]
    exact ⟨by simp [d0, selVal], (Only.refl _ _).wr (by simp) _⟩
  | imm v =>
    refine wp_loadImm d0 ⟨?_, (Only.refl _ _).wr (by simp) _⟩
    simp [d0, selVal]
  | mem b i w =>
    obtain ⟨hx, hb⟩ := hb b i w rfl
    refine wp_mono (opMem_loadG d0 hx hb hd) ?_
    rintro c' ⟨h1, h2⟩
    exact ⟨h1, h2.mono (by simp)⟩

/-- The first source can be read after dst has been used as a temporary. -/
def SelOk (dst : Nat) (src1 : Opd) (src2 : Nat) : Prop :=
  ∀ b i w, src1 = .mem b i w → dst = src2 → b = dst → fastArg i w = true

theorem FlagIs.of_eq {c c1 : Core} {a : Bool} {type : Nat} {t : Bool} (h : FlagIs c a type t) (h5 : c1.x 12#5 = c.x 12#5) (h28 : c1.x 15#5 = c.x 15#5) :
    FlagIs c1 a type t := by
  unfold FlagIs at h ⊢
  rw [h5, h28]; exact h

theorem FlagIs.xor {c : Core} {a : Bool} {type : Nat} {t : Bool} (hty : type < 36) (h : FlagIs c a type t) : FlagIs c a (type ^^^ 1) (!t) := by
  unfold FlagIs at h ⊢
  interval_cases type <;> simp at h ⊢ <;> cases t <;> cases a <;> simp_all

theorem emitSelect_ok {type : Nat} {is32 a : Bool} {dst : Nat} {src1 : Opd} {src2 : Nat} {c : Core} {t : Bool}
    (hty : type < 36) (hd0 : dst ≠ 0) (hd : dst ≤ 24) (h1 : OpdOk src1) (h2 : src2 ≤ 24) (hs : SelOk dst src1 src2)
    (hF : FlagIs c a type t) :
    wpB (emitSelect type is32 dst src1 src2) c fun c' =>
      c'.x (regMap dst) = (if t then selVal is32 c src1 else c.x (regMap src2)) ∧ Only [regMap dst, 13#5] c c' := by
  obtain ⟨u1, u5, u6, u7, u28⟩ := user_ne hd
  have u0 : regMap dst ≠ 0#5 := rm_ne0 (by omega) hd0
  have hlen : ∀ o, (selectBody is32 dst o).length ≤ 8 := fun o => selectBody_len ..
  by_cases hds : dst = src2
  · have he : emitSelect type is32 dst src1 src2 = [] ++ (ins (jumpIns type ||| IMM_I16 ((selectBody is32 dst src1).length + 1)) ++ selectBody is32 dst src1) := by
      unfold emitSelect
      rw [if_neg (by simpa using hds)]
    rw [he, List.nil_append]
    refine over_ok hty (hlen _) hF ?_ ?_
    · rintro rfl
      refine selectBody_ok u0 hd0 ?_
      rintro b i w rfl
      refine ⟨h1.2.2, ?_⟩
      by_cases hb : regMap b = regMap dst
      · exact Or.inl (hs b i w rfl hds (rm_inj _ (by have := h1.1; omega) _ (by omega) hb))
      · exact Or.inr hb
    · rintro rfl
      exact ⟨by rw [if_neg (by decide), ← hds], Only.refl _ _⟩
  · by_cases h1d : src1 = .reg dst
    · have he : emitSelect type is32 dst src1 src2 = [] ++ (ins (jumpIns (type ^^^ 1) ||| IMM_I16 ((selectBody is32 dst (.reg src2)).length + 1)) ++ selectBody is32 dst (.reg src2)) := by
        unfold emitSelect
        rw [if_pos hds, if_pos h1d]
      rw [he, List.nil_append, h1d]
      have hty' : type ^^^ 1 < 36 := by
        have : ∀ n : _root_.Fin 36, n.1 ^^^ 1 < 36 := by decide
        exact this ⟨type, hty⟩
      refine over_ok hty' (hlen _) (hF.xor hty) ?_ ?_
      · intro h
        have : t = false := by simpa using h
        subst this
        refine wp_mono (selectBody_ok u0 hd0 (by simp)) ?_
        rintro c' ⟨k1, k2⟩
        exact ⟨by rw [k1]; simp [selVal], k2⟩
      · intro h
        have : t = true := by simpa using h
        subst this
        exact ⟨by simp [selVal], Only.refl _ _⟩
    · have he : emitSelect type is32 dst src1 src2 = ((if dependsOn dst src1 then ins (ADDI_D ||| RD TMP_REG1 ||| RJ dst ||| IMM_I12 0#64) else []) ++
          ins (ADDI_D ||| RD dst ||| RJ src2 ||| IMM_I12 0#64)) ++
          (ins (jumpIns type ||| IMM_I16 ((selectBody is32 dst (substTmp dst src1)).length + 1)) ++ selectBody is32 dst (substTmp dst src1)) := by
        unfold emitSelect
        rw [if_pos hds, if_neg h1d]
      rw [he]
      obtain ⟨v1, v5, v6, v7, v28⟩ := user_ne h2
      have first : wp ((if dependsOn dst src1 then ins (ADDI_D ||| RD TMP_REG1 ||| RJ dst ||| IMM_I12 0#64) else []) ++
          ins (ADDI_D ||| RD dst ||| RJ src2 ||| IMM_I12 0#64)) c fun c1 =>
          c1.x (regMap dst) = c.x (regMap src2) ∧ (dependsOn dst src1 = true → c1.x 13#5 = c.x (regMap dst)) ∧
          Only [regMap dst, 13#5] c c1 := by
        cases hdep : dependsOn dst src1
        · simp only [Bool.false_eq_true, if_false, List.nil_append]
          rw [wp_ADDI_D _ _ fits0]
          exact ⟨by simp [u0], by simp, (Only.refl _ _).wr (by simp) _⟩
        · simp only [if_true]
          rw [wp_ADDI_D_s _ _ fits0, wp_ADDI_D _ _ fits0, rm25]
          refine ⟨by simp [u0, v6], fun _ => by simp [u6.symm], ?_⟩
          exact ((Only.refl _ _).wr (by simp) _).wr (by simp) _
      refine wpB_append (wpB_mono first.B ?_)
      rintro c1 ⟨k1, k2, k3⟩
      have hx : ∀ r, r ≤ 24 → r ≠ dst → c1.x (regMap r) = c.x (regMap r) := by
        intro r hr hne
        obtain ⟨w1, w5, w6, w7, w28⟩ := user_ne hr
        refine k3.1 _ ?_
        simp only [List.mem_cons, List.not_mem_nil, or_false, not_or]
        exact ⟨fun e => hne (rm_inj _ (by omega) _ (by omega) e), w6⟩
      have hz' : ∀ i, (if i = dst then TMP_REG1 else i) = 0 ↔ i = 0 := by
        intro i
        constructor
        · intro h; by_contra hi
          split at h
          · exact absurd h (by decide)
          · exact hi h
        · rintro rfl; rw [if_neg (fun e => hd0 e.symm)]
      have hv : selVal is32 c1 (substTmp dst src1) = selVal is32 c src1 := by
        cases src1 with
        | reg r =>
          have : r ≠ dst := fun e => h1d (by rw [e])
          simp only [substTmp, selVal, hx r h1 this]
        | imm v => rfl
        | mem b i w =>
          have hsub : ∀ r, r ≤ 24 → (r = b ∨ r = i) → c1.x (regMap (if r = dst then TMP_REG1 else r)) = c.x (regMap r) := by
            intro r hr hbi
            by_cases hrd : r = dst
            · rw [if_pos hrd, rm25, k2, hrd]
              subst hrd
              simp only [dependsOn, decide_eq_true_eq]
              exact hbi.imp Eq.symm Eq.symm
            · rw [if_neg hrd]; exact hx r hr hrd
          simp only [substTmp, selVal, ea, hsub b h1.1 (Or.inl rfl), hsub i h1.2.1 (Or.inr rfl), hz', k3.2.1]
      have hF1 : FlagIs c1 a type t := hF.of_eq (k3.1 12#5 (by simp [u5.symm])) (k3.1 15#5 (by simp [u28.symm]))
      refine (over_ok hty (hlen _) hF1 ?_ ?_)
      · rintro rfl
        refine wp_mono (selectBody_ok u0 hd0 ?_) ?_
        · intro b i w hm
          cases src1 with
          | mem b' i' w' =>
            simp only [substTmp, Opd.mem.injEq] at hm
            obtain ⟨rfl, rfl, rfl⟩ := hm
            refine ⟨fun h => h1.2.2 (fun e => h ((hz' i').mpr e)), Or.inr ?_⟩
            by_cases hb : b' = dst
            · rw [if_pos hb, rm25]; exact u6.symm
            · rw [if_neg hb]
              exact fun e => hb (rm_inj _ (by have := h1.1; omega) _ (by omega) e)
          | _ => simp [substTmp] at hm
        · rintro c' ⟨g1, g2⟩
          exact ⟨by rw [g1, hv]; simp, k3.trans g2⟩
      · rintro rfl
        exact ⟨by rw [k1]; simp, k3⟩

end Verif.LA
