import Verif.A32.Steps

/-! # load_immediate and emit_op_mem of ARM32 on the A32 machine (helper lemmas) -/

namespace Verif.A32
open Verif.Imm.A32 (fld expand)
open Verif.Imm.Arm32 (regMap RM RD RN TMP_REG1 TMP_REG2 SRC2_IMM getImm computeImm Item loadImmediate IsImm zero_bits getImm_sound computeImm_sound)
open Verif.Imm.Arm32 (ADC ADD AND BIC EOR MOV MVN ORR RSB RSC SBC SUB MOVW MOVT)

theorem set_set (s : St) (d a b) : (s.set d a).set d b = s.set d b := by
  simp only [St.set]; congr 1; funext q; split <;> rfl
theorem set_r (s : St) (d a) : (s.set d a).r d = a := by simp [St.set]
theorem set_ne (s : St) {d q : BitVec 4} (h : q ≠ d) (a) : (s.set d a).r q = s.r q := by simp [St.set, h]

/-- Data processing which writes a register and no flags. -/
theorem step_set {b : BitVec 32} (hb : Base b) {d n : Nat} {x : S2} (hx : x.Ok) (s : St) (h1 : fld b 23 2 ≠ 2#2)
    (hn : regMap n ≠ 15#4) (hd : regMap d ≠ 15#4) (h3 : fld b 21 4 ≠ 13#4 ∧ fld b 21 4 ≠ 15#4) (h2 : isTest (fld b 21 4) = false) :
    ∃ c, step (b ||| RD d ||| RN n ||| x.enc) s = some (s.set (regMap d) (dpRes (fld b 21 4) (s.r (regMap n)) (x.val s, c) s).1) := by
  obtain ⟨c, hc⟩ := step_alu hb (S := false) (d := regMap d) (n := regMap n) hx s (Or.inl h1) hn hd (fun h => by rcases h with h | h; exacts [absurd h h3.1, absurd h h3.2])
    (fun h => by rw [h2] at h; cases h)
  refine ⟨c, ?_⟩
  have e : b ||| sBit false = b := by simp [sBit]
  rw [e] at hc
  rw [show b ||| RD d ||| RN n ||| x.enc = b ||| (regMap d).setWidth 32 <<< 12 ||| (regMap n).setWidth 32 <<< 16 ||| x.enc from rfl, hc, dpState]
  simp only [h2, Bool.false_eq_true, if_false]

/-- The same for MOV and MVN. -/
theorem step_set0 {b : BitVec 32} (hb : Base b) {d : Nat} {x : S2} (hx : x.Ok) (s : St) (h1 : fld b 23 2 ≠ 2#2)
    (hd : regMap d ≠ 15#4) (h2 : isTest (fld b 21 4) = false) :
    ∃ c, step (b ||| RD d ||| x.enc) s = some (s.set (regMap d) (dpRes (fld b 21 4) (s.r 0#4) (x.val s, c) s).1) := by
  obtain ⟨c, hc⟩ := step_alu hb (S := false) (d := regMap d) (n := 0#4) hx s (Or.inl h1) (by decide) hd (fun _ => rfl) (fun h => by rw [h2] at h; cases h)
  refine ⟨c, ?_⟩
  have e : b ||| sBit false ||| (regMap d).setWidth 32 <<< 12 ||| (0#4).setWidth 32 <<< 16 = b ||| RD d := by simp [sBit, RD]
  rw [e] at hc
  rw [hc, dpState]
  simp only [h2, Bool.false_eq_true, if_false]

theorem step_MOVW {d : Nat} (hd : regMap d ≠ 15#4) (v : BitVec 32) (s : St) :
    step (MOVW ||| RD d ||| ((v <<< 4) &&& 0xf0000#32) ||| (v &&& 0xfff#32)) s = some (s.set (regMap d) ((v.setWidth 16).setWidth 32)) := by
  generalize hw : MOVW ||| RD d ||| ((v <<< 4) &&& 0xf0000#32) ||| (v &&& 0xfff#32) = w
  have f1 : fld w 28 4 = 14#4 := by subst hw; bits [fld, MOVW, RD]
  have f4 : fld w 20 8 = 0x30#8 := by subst hw; bits [fld, MOVW, RD]
  have f2 : fld w 25 3 = 1#3 := by subst hw; bits [fld, MOVW, RD]
  have f26 : fld w 26 2 = 0#2 := by subst hw; bits [fld, MOVW, RD]
  have f3 : fld w 23 2 = 2#2 := by subst hw; bits [fld, MOVW, RD]
  have g20 : bit w 20 = false := by subst hw; simp [-BitVec.getLsbD_eq_getElem, bit, MOVW, RD]
  have f5 : fld w 12 4 = regMap d := by subst hw; bits [fld, MOVW, RD]
  have f6 : (fld w 16 4).setWidth 16 <<< 12 ||| (fld w 0 12).setWidth 16 = v.setWidth 16 := by subst hw; bits [fld, MOVW, RD]
  have hdec : decode w = some (.movw (regMap d) (v.setWidth 16)) := by
    unfold decode
    rw [if_neg (by rw [f2]; rintro ⟨h, -⟩; exact absurd h (by decide)), if_pos f26, if_pos ⟨f3, g20⟩, if_pos f4, f5, f6]
  rw [step_of ⟨f1, hdec⟩, exec, if_neg hd]

theorem step_MOVT {d : Nat} (hd : regMap d ≠ 15#4) (v : BitVec 32) (s : St) :
    step (MOVT ||| RD d ||| ((v >>> 12) &&& 0xf0000#32) ||| ((v >>> 16) &&& 0xfff#32)) s =
      some (s.set (regMap d) ((s.r (regMap d) &&& 0xffff#32) ||| (((v >>> 16).setWidth 16).setWidth 32 <<< 16))) := by
  generalize hw : MOVT ||| RD d ||| ((v >>> 12) &&& 0xf0000#32) ||| ((v >>> 16) &&& 0xfff#32) = w
  have f1 : fld w 28 4 = 14#4 := by subst hw; bits [fld, MOVT, RD]
  have f4 : fld w 20 8 = 0x34#8 := by subst hw; bits [fld, MOVT, RD]
  have f2 : fld w 25 3 = 1#3 := by subst hw; bits [fld, MOVT, RD]
  have f26 : fld w 26 2 = 0#2 := by subst hw; bits [fld, MOVT, RD]
  have f3 : fld w 23 2 = 2#2 := by subst hw; bits [fld, MOVT, RD]
  have g20 : bit w 20 = false := by subst hw; simp [-BitVec.getLsbD_eq_getElem, bit, MOVT, RD]
  have f5 : fld w 12 4 = regMap d := by subst hw; bits [fld, MOVT, RD]
  have f6 : (fld w 16 4).setWidth 16 <<< 12 ||| (fld w 0 12).setWidth 16 = (v >>> 16).setWidth 16 := by subst hw; bits [fld, MOVT, RD]
  have hdec : decode w = some (.movt (regMap d) ((v >>> 16).setWidth 16)) := by
    unfold decode
    rw [if_neg (by rw [f2]; rintro ⟨h, -⟩; exact absurd h (by decide)), if_pos f26, if_pos ⟨f3, g20⟩, if_neg (by rw [f4]; decide), if_pos f4, f5, f6]
  rw [step_of ⟨f1, hdec⟩, exec, if_neg hd]

/-- load_immediate sets the register and nothing else. -/
theorem runs_imm (v6 : Bool) {reg : Nat} (hr : regMap reg ≠ 15#4) (imm : BitVec 32) (s : St) :
    runs (loadImmediate v6 reg imm) s = some (s.set (regMap reg) imm) := by
  unfold loadImmediate
  split
  next h =>
    rw [runs_one, step_MOVW hr]
    congr 2
    have := zero_bits h.2
    apply BitVec.eq_of_getLsbD_eq
    intro k hk
    have := this k
    interval_cases k <;> simp [-BitVec.getLsbD_eq_getElem] at this ⊢ <;> simp only [*]
  next =>
  split
  next h =>
    obtain ⟨h1, h2⟩ := getImm_sound h
    obtain ⟨c, e⟩ := step_set0 (b := MOV) (by decide) (d := reg) (x := .imm (getImm imm)) h1 s (by decide) hr (by decide)
    rw [runs_one]; refine e.trans ?_
    simp only [S2.val, h2]; rfl
  next =>
  split
  next h =>
    obtain ⟨h1, h2⟩ := getImm_sound h
    obtain ⟨c, e⟩ := step_set0 (b := MVN) (by decide) (d := reg) (x := .imm (getImm (~~~ imm))) h1 s (by decide) hr (by decide)
    rw [runs_one]; refine e.trans ?_
    simp only [S2.val, h2]
    show some (s.set _ (~~~ ~~~ imm)) = _
    rw [BitVec.not_not]
  next =>
  split
  next =>
    split
    next i1 i2 h =>
      obtain ⟨h1, h2, h3, -⟩ := computeImm_sound h
      simp only at h1 h2 h3
      show runs ([.ins _] ++ [.ins _]) s = _
      obtain ⟨c, e⟩ := step_set0 (b := MOV) (by decide) (d := reg) (x := .imm i1) h1 s (by decide) hr (by decide)
      have e1 : runs [.ins (MOV ||| RD reg ||| i1)] s = some (s.set (regMap reg) (expand (i1.extractLsb' 0 12))) := (runs_one _ _).trans e
      obtain ⟨c, e⟩ := step_set (b := ORR) (by decide) (d := reg) (n := reg) (x := .imm i2) h2 (s.set (regMap reg) (expand (i1.extractLsb' 0 12))) (by decide) hr hr (by decide) (by decide)
      rw [runs_append, e1, Option.bind_some, runs_one]
      refine e.trans ?_
      rw [set_set, set_r]
      show some (s.set _ (expand (i1.extractLsb' 0 12) ||| expand (i2.extractLsb' 0 12))) = _
      rw [h3]
    next =>
      split
      next i1 i2 h =>
        obtain ⟨h1, h2, h3, -⟩ := computeImm_sound h
        simp only at h1 h2 h3
        show runs ([.ins _] ++ [.ins _]) s = _
        obtain ⟨c, e⟩ := step_set0 (b := MVN) (by decide) (d := reg) (x := .imm i1) h1 s (by decide) hr (by decide)
        have e1 : runs [.ins (MVN ||| RD reg ||| i1)] s = some (s.set (regMap reg) (~~~ expand (i1.extractLsb' 0 12))) := (runs_one _ _).trans e
        obtain ⟨c, e⟩ := step_set (b := BIC) (by decide) (d := reg) (n := reg) (x := .imm i2) h2 (s.set (regMap reg) (~~~ expand (i1.extractLsb' 0 12))) (by decide) hr hr (by decide) (by decide)
        rw [runs_append, e1, Option.bind_some, runs_one]
        refine e.trans ?_
        rw [set_set, set_r]
        show some (s.set _ (~~~ expand (i1.extractLsb' 0 12) &&& ~~~ expand (i2.extractLsb' 0 12))) = _
        rw [← BitVec.not_or, h3, BitVec.not_not]
      next => simp [runs, hr]
  next =>
    have hmw : imm ≤ 0xffff#32 → (imm.setWidth 16).setWidth 32 = imm := by
      intro h
      apply BitVec.eq_of_toNat_eq
      have : imm.toNat ≤ 65535 := h
      simp [BitVec.toNat_setWidth]; omega
    split
    next h => rw [runs_one, step_MOVW hr, hmw h]
    next h =>
      simp only [runs, step_MOVW hr, Option.bind_some, step_MOVT hr, set_r, set_set]
      congr 2
      bits []

theorem awc_add (x y : BitVec 32) : (awc x y false).1 = x + y := by
  show BitVec.ofNat 32 (x.toNat + y.toNat + 0) = _
  rw [Nat.add_zero, BitVec.ofNat_add, BitVec.ofNat_toNat, BitVec.ofNat_toNat, BitVec.setWidth_eq, BitVec.setWidth_eq]

/-! ## emit_op_mem -/

/-- s1 is s except for a register. -/
def Same (tmp : BitVec 4) (s s1 : St) : Prop := (∀ q, q ≠ tmp → s1.r q = s.r q) ∧ s1.m = s.m ∧ s1.n = s.n ∧ s1.z = s.z ∧ s1.c = s.c ∧ s1.v = s.v

theorem Same.refl (tmp s) : Same tmp s s := ⟨fun _ _ => rfl, rfl, rfl, rfl, rfl, rfl⟩
theorem Same.set (tmp s x) : Same tmp s (s.set tmp x) := ⟨fun _ h => set_ne s h x, rfl, rfl, rfl, rfl, rfl⟩

/-- The address of [base + w] or [base + (offs << w)]. -/
def ea (s : St) (base offs : Nat) (w : BitVec 32) : BitVec 32 :=
  (if base = 0 then 0#32 else s.r (regMap base)) + if offs = 0 then w else s.r (regMap offs) <<< w.toNat

/-- mask and sign of emit_op_mem. -/
def maskOf (t : Ty) : BitVec 32 := if isType1 t then 0xfff#32 else 0xff#32
@[inherit_doc maskOf] def signOf (t : Ty) : BitVec 32 := if isType1 t then 0x1000#32 else 0x100#32

/-- An offset which fits. -/
def Near (t : Ty) (x : BitVec 32) : Prop := -((maskOf t).toNat : Int) ≤ x.toInt ∧ x.toInt ≤ (maskOf t).toNat

theorem mask_bounds (t : Ty) : (maskOf t = 0xfff#32 ∧ signOf t = 0x1000#32 ∧ isType1 t = true) ∨ (maskOf t = 0xff#32 ∧ signOf t = 0x100#32 ∧ isType1 t = false) := by
  unfold maskOf signOf; cases isType1 t <;> simp

theorem and_not_eq (z m : BitVec 32) : z &&& ~~~ m = z - (z &&& m) := by
  have h : (z &&& ~~~ m) + (z &&& m) = z := by
    rw [BitVec.add_eq_or_of_and_eq_zero]
    · apply BitVec.eq_of_getLsbD_eq
      intro i hi
      simp [-BitVec.getLsbD_eq_getElem, hi]
      cases z.getLsbD i <;> cases m.getLsbD i <;> rfl
    · apply BitVec.eq_of_getLsbD_eq
      intro i hi
      simp [-BitVec.getLsbD_eq_getElem, hi]
      cases z.getLsbD i <;> cases m.getLsbD i <;> simp
  generalize z &&& ~~~ m = p at *
  generalize z &&& m = q at *
  subst h
  bv_omega

theorem round_near (t : Ty) (x : BitVec 32) : Near t (x - roundOff (signOf t) (maskOf t) x) := by
  have key : ∀ (k : Nat) (m sg y : BitVec 32), (k = 12 ∨ k = 8) → m.toNat = 2 ^ k - 1 → sg.toNat = 2 ^ k →
      y = (if x &&& (sg ||| m) ≤ sg then 0#32 else sg) → (sg ||| m).toNat = 2 ^ (k + 1) - 1 →
      x - ((x + y) &&& ~~~ m) = (x &&& m) - y ∧ (x &&& m).toNat = x.toNat % 2 ^ k ∧ (y = 0#32 ∨ y.toNat = 2 ^ k ∧ 2 ^ k < x.toNat % 2 ^ (k + 1)) := by
    intro k m sg y hk hm hs hy hsm
    have hand : ∀ z : BitVec 32, (z &&& m).toNat = z.toNat % 2 ^ k := by
      intro z; rw [BitVec.toNat_and, hm, Nat.and_two_pow_sub_one_eq_mod]
    have hxs : (x &&& (sg ||| m)).toNat = x.toNat % 2 ^ (k + 1) := by rw [BitVec.toNat_and, hsm, Nat.and_two_pow_sub_one_eq_mod]
    have hle : x &&& (sg ||| m) ≤ sg ↔ x.toNat % 2 ^ (k + 1) ≤ 2 ^ k := by rw [BitVec.le_def, hxs, hs]
    have hyv : y = 0#32 ∨ y.toNat = 2 ^ k ∧ 2 ^ k < x.toNat % 2 ^ (k + 1) := by
      rw [hy]
      split
      next => exact Or.inl rfl
      next h => exact Or.inr ⟨hs, by rw [hle] at h; omega⟩
    have hym : y.toNat = 0 ∨ y.toNat = 2 ^ k := by rcases hyv with h | h; exacts [Or.inl (by rw [h]; rfl), Or.inr h.1]
    have hsame : (x + y) &&& m = x &&& m := by
      apply BitVec.eq_of_toNat_eq
      rw [hand, hand, BitVec.toNat_add]
      rcases hk with rfl | rfl <;> rcases hym with h | h <;> rw [h] <;> omega
    refine ⟨?_, hand x, hyv⟩
    rw [and_not_eq, hsame]
    generalize x &&& m = z
    bv_omega
  unfold Near roundOff
  rcases mask_bounds t with ⟨h1, h2, -⟩ | ⟨h1, h2, -⟩ <;> rw [h1, h2]
  · obtain ⟨e, e2, e3⟩ := key 12 0xfff#32 0x1000#32 _ (Or.inl rfl) rfl rfl rfl rfl
    rw [e]
    generalize (if x &&& (0x1000#32 ||| 0xfff#32) ≤ 0x1000#32 then 0#32 else 0x1000#32) = y at *
    have q : (x &&& 0xfff#32).toNat < 2 ^ 12 := by rw [e2]; omega
    have q' : (x &&& 0xfff#32).toInt = (x &&& 0xfff#32).toNat := by rw [BitVec.toInt_eq_toNat_cond]; omega
    have m : (0xfff#32).toNat = 4095 := rfl
    rw [m]
    rcases e3 with rfl | ⟨a, b⟩
    · rw [BitVec.sub_zero, q']; omega
    · have : y = 0x1000#32 := BitVec.eq_of_toNat_eq a
      subst this
      have : 0 < (x &&& 0xfff#32).toNat := by rw [e2]; omega
      rw [BitVec.toInt_sub, q', show (0x1000#32).toInt = 4096 by decide, Int.bmod_def]
      omega
  · obtain ⟨e, e2, e3⟩ := key 8 0xff#32 0x100#32 _ (Or.inr rfl) rfl rfl rfl rfl
    rw [e]
    generalize (if x &&& (0x100#32 ||| 0xff#32) ≤ 0x100#32 then 0#32 else 0x100#32) = y at *
    have q : (x &&& 0xff#32).toNat < 2 ^ 8 := by rw [e2]; omega
    have q' : (x &&& 0xff#32).toInt = (x &&& 0xff#32).toNat := by rw [BitVec.toInt_eq_toNat_cond]; omega
    have m : (0xff#32).toNat = 255 := rfl
    rw [m]
    rcases e3 with rfl | ⟨a, b⟩
    · rw [BitVec.sub_zero, q']; omega
    · have : y = 0x100#32 := BitVec.eq_of_toNat_eq a
      subst this
      have : 0 < (x &&& 0xff#32).toNat := by rw [e2]; omega
      rw [BitVec.toInt_sub, q', show (0x100#32).toInt = 256 by decide, Int.bmod_def]
      omega

theorem runs_near {t : Ty} {reg base : Nat} (hr : regMap reg ≠ 15#4) (hb : regMap base ≠ 15#4) {x : BitVec 32} (hx : Near t x) (s : St) :
    runs (opMemNear t reg base x) s = some (xfer t (regMap reg) (s.r (regMap base) + x) s) := by
  have hm : (maskOf t).toNat < (if isType1 t then 0x1000 else 0x100) := by unfold maskOf; split <;> decide
  have hm2 : (maskOf t).toNat ≤ 4095 := by unfold maskOf; split <;> decide
  obtain ⟨h1, h2⟩ := hx
  unfold opMemNear
  split
  next h =>
    have h0 : 0 ≤ x.toInt := by simpa [BitVec.sle] using h
    rw [runs_one, step_xi hr hb true x ?_ s]; · rfl
    rw [BitVec.toInt_eq_toNat_cond] at h0 h2
    have := x.isLt
    split at h2 <;> omega
  next h =>
    have h0 : x.toInt < 0 := by simpa [BitVec.sle] using h
    rw [runs_one, step_xi hr hb false (-x) ?_ s]
    · rw [if_neg (by decide), BitVec.sub_eq_add_neg, BitVec.neg_neg]
    · rw [BitVec.toInt_eq_toNat_cond] at h0 h1
      have := x.isLt
      rw [BitVec.toNat_neg]
      split at h1 <;> omega

theorem near_iff (t : Ty) (x : BitVec 32) : (x.sle (maskOf t) = true ∧ (-(maskOf t)).sle x = true) ↔ Near t x := by
  unfold Near
  simp only [BitVec.sle, decide_eq_true_eq]
  rcases mask_bounds t with ⟨h1, -⟩ | ⟨h1, -⟩ <;> rw [h1]
  · rw [show (0xfff#32).toInt = 4095 by decide, show (-0xfff#32).toInt = -4095 by decide, show (0xfff#32).toNat = 4095 by decide]; omega
  · rw [show (0xff#32).toInt = 255 by decide, show (-0xff#32).toInt = -255 by decide, show (0xff#32).toNat = 255 by decide]; omega

theorem runs_end {v6 : Bool} {t : Ty} {reg base tmp : Nat} (hr : regMap reg ≠ 15#4) (hb : regMap base ≠ 15#4) (ht : regMap tmp ≠ 15#4) (x : BitVec 32) (s : St)
    (hbt : regMap base ≠ regMap tmp ∨ Near t x) :
    ∃ s1, Same (regMap tmp) s s1 ∧ runs (opMemEnd v6 t reg base x tmp (maskOf t)) s = some (xfer t (regMap reg) (s.r (regMap base) + x) s1) := by
  unfold opMemEnd
  by_cases hn : Near t x
  · rw [if_pos ((near_iff t x).2 hn)]
    exact ⟨s, Same.refl _ _, runs_near hr hb hn s⟩
  · have hbt := hbt.resolve_right hn
    rw [if_neg (fun h => hn ((near_iff t x).1 h))]
    refine ⟨s.set (regMap tmp) x, Same.set _ _ _, ?_⟩
    have e := step_xr (t := t) hr hb ht 0#5 (fun _ => rfl) (s.set (regMap tmp) x)
    rw [show RM tmp ||| (if isType1 t then 1#32 <<< 25 else 0#32) ||| (0#5).setWidth 32 <<< 7 = RM tmp ||| (if isType1 t then 1#32 <<< 25 else 0#32) by simp] at e
    rw [runs_append, runs_imm v6 ht, Option.bind_some, runs_one, e, set_r, set_ne _ hbt]
    simp

/-- emit_op_mem transfers between the register and the address of the operand; besides, only the temporary register changes. -/
theorem runs_mem {v6 : Bool} {t : Ty} {reg base offs tmp : Nat} (hr : regMap reg ≠ 15#4) (hb : regMap base ≠ 15#4) (ho : regMap offs ≠ 15#4) (ht : regMap tmp ≠ 15#4)
    (hbt : base ≠ 0 → regMap base ≠ regMap tmp) {w : BitVec 32} (hw : offs ≠ 0 → base ≠ 0 ∧ w.toNat < 4) (s : St) :
    ∃ s1, Same (regMap tmp) s s1 ∧ runs (emitOpMem v6 t reg base offs w tmp) s = some (xfer t (regMap reg) (ea s base offs w) s1) := by
  have hfold1 : (if isType1 t then 0xfff#32 else 0xff#32) = maskOf t := rfl
  have hfold2 : (if isType1 t then 0x1000#32 else 0x100#32) = signOf t := rfl
  unfold emitOpMem
  simp only [hfold1, hfold2]
  by_cases h0 : base = 0
  · rw [if_pos h0]
    have h0' : offs = 0 := by by_contra h; exact (hw h).1 h0
    refine ⟨_, Same.set _ s (roundOff (signOf t) (maskOf t) w), ?_⟩
    rw [runs_append, runs_imm v6 ht, Option.bind_some, runs_near hr ht (round_near t w), set_r, ea, if_pos h0, if_pos h0', BitVec.add_comm (roundOff _ _ _), BitVec.sub_add_cancel, BitVec.zero_add]
  rw [if_neg h0]
  have hbt := hbt h0
  by_cases h1 : offs ≠ 0
  · rw [if_pos h1]
    obtain ⟨-, hw4⟩ := hw h1
    have hk : w &&& 3#32 = w := by
      apply BitVec.eq_of_toNat_eq
      rw [BitVec.toNat_and, show (3#32).toNat = 2 ^ 2 - 1 from rfl, Nat.and_two_pow_sub_one_eq_mod]; omega
    have hsw : (w.setWidth 5).setWidth 32 = w := by apply BitVec.eq_of_toNat_eq; simp [BitVec.toNat_setWidth]; omega
    have hsn : (w.setWidth 5).toNat = w.toNat := by simp [BitVec.toNat_setWidth]; omega
    have hea : ea s base offs w = s.r (regMap base) + s.r (regMap offs) <<< w.toNat := by rw [ea, if_neg h0, if_neg h1]
    rw [hk, hea]
    by_cases hc : w ≠ 0#32 ∧ isType1 t = false
    · rw [if_pos hc]
      have hk5 : w.setWidth 5 ≠ 0#5 := by
        intro h; apply hc.1; rw [← hsw, h]; rfl
      have hf := op2_sh ho 0#2 hk5 s
      have e1 := step_dp (b := ADD) (by decide) false (regMap tmp) (regMap base) false ((w.setWidth 5).setWidth 12 <<< 7 ||| (0#2).setWidth 12 <<< 5 ||| (regMap offs).setWidth 12) s
        (Or.inl (by decide)) (Or.inr (Or.inl (by simp [-BitVec.getLsbD_eq_getElem])))
      have hword : ADD ||| sBit false ||| (regMap tmp).setWidth 32 <<< 12 ||| (regMap base).setWidth 32 <<< 16 |||
          (iBit false ||| ((w.setWidth 5).setWidth 12 <<< 7 ||| (0#2).setWidth 12 <<< 5 ||| (regMap offs).setWidth 12).setWidth 32) =
          ADD ||| RD tmp ||| RN base ||| RM offs ||| (w <<< 7) := by
        have : ((w.setWidth 5).setWidth 12 <<< 7 ||| (0#2).setWidth 12 <<< 5 ||| (regMap offs).setWidth 12).setWidth 32 = RM offs ||| w <<< 7 := by
          conv_rhs => rw [← hsw]
          rw [RM]; generalize w.setWidth 5 = k; bits []
        rw [this]; simp [sBit, iBit, RD, RN, BitVec.or_assoc]
      rw [hword, exec_dp hb ht (fun h => absurd h (by decide)) (fun h => absurd h (by decide)) hf] at e1
      have hst : dpState (fld ADD 21 4) false (regMap tmp) (s.r (regMap base)) (shiftC 0#2 (s.r (regMap offs)) (w.setWidth 5).toNat s.c) s =
          s.set (regMap tmp) (s.r (regMap base) + s.r (regMap offs) <<< w.toNat) := by
        have hw0 : w.toNat ≠ 0 := fun h => hc.1 (BitVec.eq_of_toNat_eq h)
        have : (shiftC 0#2 (s.r (regMap offs)) (w.setWidth 5).toNat s.c).1 = s.r (regMap offs) <<< w.toNat := by
          rw [hsn, shiftC, if_neg hw0]; rfl
        show s.set (regMap tmp) (awc (s.r (regMap base)) (shiftC 0#2 (s.r (regMap offs)) (w.setWidth 5).toNat s.c).1 false).1 = _
        rw [this]
        rw [awc_add]
      rw [hst] at e1
      refine ⟨_, Same.set _ s (s.r (regMap base) + s.r (regMap offs) <<< w.toNat), ?_⟩
      simp only [runs, e1, Option.bind_some]
      have e2 := step_xi (t := t) hr ht true 0#32 (by split <;> decide) (s.set (regMap tmp) (s.r (regMap base) + s.r (regMap offs) <<< w.toNat))
      rw [hc.2, if_neg (by decide)] at e2
      rw [e2, set_r]
      simp
    · rw [if_neg hc]
      refine ⟨s, Same.refl _ _, ?_⟩
      have e := step_xr (t := t) hr hb ho (w.setWidth 5) (fun h => by
        have : w = 0#32 := by by_contra hne; exact hc ⟨hne, h⟩
        rw [this]; rfl) s
      rw [hsw, hsn] at e
      rw [runs_one, e]
  rw [if_neg h1]
  have hea : ea s base offs w = s.r (regMap base) + w := by rw [ea, if_neg h0, if_pos (not_not.1 h1)]
  rw [hea]
  by_cases h2 : (maskOf t).slt w = true ∧ getImm (roundOff (signOf t) (maskOf t) w) ≠ 0#32
  · rw [if_pos h2]
    obtain ⟨g1, g2⟩ := getImm_sound h2.2
    obtain ⟨c, e⟩ := step_set (b := ADD) (by decide) (d := tmp) (n := base) (x := .imm (getImm (roundOff (signOf t) (maskOf t) w))) g1 s (by decide) hb ht (by decide) (by decide)
    obtain ⟨s1, hs1, e2⟩ := runs_end (v6 := v6) (t := t) hr ht ht (w - roundOff (signOf t) (maskOf t) w)
      (s.set (regMap tmp) (dpRes (fld ADD 21 4) (s.r (regMap base)) ((S2.imm (getImm (roundOff (signOf t) (maskOf t) w))).val s, c) s).1) (Or.inr (round_near t w))
    refine ⟨s1, ⟨fun q hq => by rw [hs1.1 q hq, set_ne _ hq], hs1.2⟩, ?_⟩
    have e' : step (ADD ||| RD tmp ||| RN base ||| getImm (roundOff (signOf t) (maskOf t) w)) s = _ := e
    simp only [runs, e', Option.bind_some]
    rw [e2, set_r]
    congr 2
    show BitVec.ofNat 32 ((s.r (regMap base)).toNat + (S2.val s (.imm _)).toNat + 0) + _ = _
    rw [S2.val, g2, Nat.add_zero, BitVec.ofNat_add, BitVec.ofNat_toNat, BitVec.ofNat_toNat, BitVec.setWidth_eq, BitVec.setWidth_eq, BitVec.add_assoc,
      BitVec.add_comm (roundOff _ _ _), BitVec.sub_add_cancel]
  rw [if_neg h2]
  by_cases h3 : w.slt (-(maskOf t)) = true ∧ getImm (roundOff (signOf t) (maskOf t) (-w)) ≠ 0#32
  · rw [if_pos h3]
    obtain ⟨g1, g2⟩ := getImm_sound h3.2
    obtain ⟨c, e⟩ := step_set (b := SUB) (by decide) (d := tmp) (n := base) (x := .imm (getImm (roundOff (signOf t) (maskOf t) (-w)))) g1 s (by decide) hb ht (by decide) (by decide)
    have hnear : Near t (w + roundOff (signOf t) (maskOf t) (-w)) := by
      have h := round_near t (-w)
      have e : w + roundOff (signOf t) (maskOf t) (-w) = -(-w - roundOff (signOf t) (maskOf t) (-w)) := by
        rw [BitVec.sub_eq_add_neg, BitVec.neg_add, BitVec.neg_neg, BitVec.sub_eq_add_neg, BitVec.neg_neg]
      rw [e]
      generalize -w - roundOff (signOf t) (maskOf t) (-w) = y at h
      have hm2 : (maskOf t).toNat ≤ 4095 := by unfold maskOf; split <;> decide
      obtain ⟨a, b⟩ := h
      have hne : y ≠ BitVec.intMin 32 := by rintro rfl; rw [show (BitVec.intMin 32).toInt = -2147483648 by decide] at a; omega
      exact ⟨by rw [BitVec.toInt_neg_of_ne_intMin hne]; omega, by rw [BitVec.toInt_neg_of_ne_intMin hne]; omega⟩
    obtain ⟨s1, hs1, e2⟩ := runs_end (v6 := v6) (t := t) hr ht ht (w + roundOff (signOf t) (maskOf t) (-w))
      (s.set (regMap tmp) (dpRes (fld SUB 21 4) (s.r (regMap base)) ((S2.imm (getImm (roundOff (signOf t) (maskOf t) (-w)))).val s, c) s).1) (Or.inr hnear)
    refine ⟨s1, ⟨fun q hq => by rw [hs1.1 q hq, set_ne _ hq], hs1.2⟩, ?_⟩
    have e' : step (SUB ||| RD tmp ||| RN base ||| getImm (roundOff (signOf t) (maskOf t) (-w))) s = _ := e
    simp only [runs, e', Option.bind_some]
    rw [e2, set_r]
    congr 2
    show BitVec.ofNat 32 ((s.r (regMap base)).toNat + (~~~ (S2.val s (.imm _))).toNat + 1) + _ = _
    rw [S2.val, g2, BitVec.ofNat_add, BitVec.ofNat_add, BitVec.ofNat_toNat, BitVec.ofNat_toNat, BitVec.setWidth_eq, BitVec.setWidth_eq]
    generalize roundOff (signOf t) (maskOf t) (-w) = y
    rw [BitVec.add_assoc (s.r _), show ~~~ y + BitVec.ofNat 32 1 = -y from (BitVec.neg_eq_not_add y).symm, BitVec.add_comm w y, ← BitVec.add_assoc, BitVec.add_assoc _ (-y), BitVec.add_comm (-y) y,
      BitVec.add_neg_eq_sub, BitVec.sub_self, BitVec.add_zero]
  rw [if_neg h3]
  exact runs_end hr hb ht w s (Or.inl hbt)

end Verif.A32
