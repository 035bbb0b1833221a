import Verif.Loong.Pair

/-! # Register pairs in memory on LoongArch64 (helper lemmas) -/

set_option linter.all false

namespace Verif.LA
open Verif.RV
open Verif.Imm.Loong (loadImmediate regMap)

theorem sext12_8 {l : BitVec 12} (h : l.toInt ≤ 2039) : (l + 8#12).signExtend 64 = l.signExtend 64 + 8#64 := by
  apply BitVec.eq_of_toInt_eq
  have := l.isLt
  rw [BitVec.toInt_add, BitVec.toInt_signExtend_of_le (by decide), BitVec.toInt_signExtend_of_le (by decide), BitVec.toInt_add]
  rw [BitVec.toInt_eq_toNat_bmod] at h ⊢
  simp only [Int.bmod_def, show (8#12).toInt = 8 from rfl, show (8#64).toInt = 8 from rfl] at *
  omega

/-- The offsets of the two words. -/
theorem pair_off {w : BitVec 64} (h : (w.setWidth 12).toInt ≤ 2039) :
    ((((w &&& 0xfff#64) + 8#64) &&& 0xfff#64).setWidth 12).signExtend 64 = ((w &&& 0xfff#64).setWidth 12).signExtend 64 + 8#64 := by
  have e1 : (w &&& 0xfff#64).setWidth 12 = w.setWidth 12 := by bits []
  have e2 : ∀ v : BitVec 64, (v &&& 0xfff#64).setWidth 12 = v.setWidth 12 := by intro v; bits []
  rw [e2, BitVec.setWidth_add _ _ (by decide), e1]
  exact sext12_8 h

theorem near_off {w : BitVec 64} (h : ((w + 0x800#64) &&& 0xfff#64).toNat ≤ 0xfff - 8) : (w.setWidth 12).toInt ≤ 2039 := by
  rw [BitVec.toNat_and, show (0xfff#64).toNat = 2 ^ 12 - 1 from rfl, Nat.and_two_pow_sub_one_eq_mod, BitVec.toNat_add] at h
  rw [BitVec.toInt_eq_toNat_bmod, BitVec.toNat_setWidth]
  have := w.isLt
  simp only [Int.bmod_def, show (0x800#64).toNat = 2048 from rfl] at *
  omega

/-- After the address computation both words are within reach of one register. -/
structure PairOk (b i : Nat) (w : BitVec 64) (m : Nat) (o : BitVec 64) (c c1 : Core) : Prop where
  only : Only [13#5] c c1
  base : m = 25 ∨ m ≤ 24
  lo : pa c1 m 0 o = ea c b i w
  hi : pa c1 m 0 ((o + 8#64) &&& 0xfff#64) = ea c b i w + 8#64

theorem pairAddr_ok {b i : Nat} {w : BitVec 64} {c : Core} (hb : b ≤ 24) (hi : i ≤ 24) :
    wp (pairAddr b i w).1 c (PairOk b i w (pairAddr b i w).2.1 (pairAddr b i w).2.2 c) := by
  have hm : regMap TMP_REG1 ∈ [(13#5 : Reg)] := by decide
  have hn0 : regMap TMP_REG1 ≠ 0#5 := by decide
  have hbn : regMap b ≠ 13#5 := (user_ne hb).2.2.1
  have z1 : ((0#64).setWidth 12).signExtend 64 = 0#64 := by decide
  have z2 : (((0#64 + 8#64) &&& 0xfff#64).setWidth 12).signExtend 64 = 8#64 := by decide
  have fin : ∀ v : BitVec 64, v = ea c b i w → PairOk b i w TMP_REG1 0#64 c (c.wr (regMap TMP_REG1) v) := by
    intro v hv
    refine ⟨(Only.refl _ _).wr hm _, Or.inl rfl, ?_, ?_⟩
    · simp only [pa, if_true, z1]; simp [hn0, hv]
    · simp only [pa, if_true, z2]; simp [hn0, hv]
  unfold pairAddr
  by_cases h0 : i = 0
  · subst h0
    simp only [ne_eq, not_true, if_false]
    have hea : ea c b 0 w = c.x (regMap b) + w := by simp [ea]
    split
    · -- far
      generalize hnear : decide (((w + 0x800#64) &&& 0xfff#64).toNat ≤ 0xfff - 8) = near
      dsimp only
      have key : ∀ v o : BitVec 64, v + (o.setWidth 12).signExtend 64 = w → v + (((o + 8#64) &&& 0xfff#64).setWidth 12).signExtend 64 = w + 8#64 →
          wp (loadImmediate TMP_REG1 v ++ (if ¬ b = 0 then ins (ADD_D ||| RD TMP_REG1 ||| RJ TMP_REG1 ||| RK b) else [])) c
            (PairOk b 0 w TMP_REG1 o c) := by
        intro v o h1 h2
        refine wp_append (wp_loadImm hn0 ?_)
        by_cases hb0 : b = 0
        · subst hb0
          simp only [not_true, if_false, wp_nil]
          have hz : c.x (regMap 0) = 0#64 := c.x0
          refine ⟨(Only.refl _ _).wr hm _, Or.inl rfl, ?_, ?_⟩
          · simp only [pa, if_true, hea, hz]; simp [hn0, h1]
          · simp only [pa, if_true, hea, hz]
            generalize (((o + 8#64) &&& 0xfff#64).setWidth 12).signExtend 64 = so at *
            simp [hn0, h2]
        · rw [if_pos hb0, wp_ADD_D, Verif.RV.evR_add]
          refine ⟨((Only.refl _ _).wr hm _).wr hm _, Or.inl rfl, ?_, ?_⟩
          · simp only [pa, if_true, hea]
            generalize (o.setWidth 12).signExtend 64 = so at *
            rw [← h1]; simp [hn0, hbn]; ac_rfl
          · simp only [pa, if_true, hea]
            generalize (((o + 8#64) &&& 0xfff#64).setWidth 12).signExtend 64 = so at *
            rw [BitVec.add_assoc, ← h2]; simp [hn0, hbn]; ac_rfl
      cases near
      · simp only [Bool.false_eq_true, if_false]
        exact key w 0#64 (by rw [z1]; simp) (by rw [z2])
      · simp only [if_true]
        have := near_off (of_decide_eq_true hnear)
        refine key _ _ (argwHi_add w) ?_
        rw [pair_off this, ← BitVec.add_assoc, argwHi_add]
    · next hf =>
      rw [not_or, Int.not_lt, Int.not_lt] at hf
      rw [wp_nil]
      have hs : (w.setWidth 12).signExtend 64 = w := sext12 ⟨hf.2, by omega⟩
      have hw : ((w &&& 0xfff#64).setWidth 12).signExtend 64 = w := by
        rw [show (w &&& 0xfff#64).setWidth 12 = w.setWidth 12 by bits [], hs]
      have hi' : (w.setWidth 12).toInt ≤ 2039 := by
        rw [← BitVec.toInt_signExtend_of_le (show 12 ≤ 64 by decide), hs]; omega
      refine ⟨Only.refl _ _, Or.inr hb, ?_, ?_⟩
      · simp only [pa, if_true, hw, hea]
      · simp only [pa, if_true, pair_off hi', hw, hea]; rw [BitVec.add_assoc]
  · simp only [ne_eq, h0, not_false_eq_true, if_true]
    have hea : ea c b i w = c.x (regMap b) + c.x (regMap i) <<< (w &&& 3#64).toNat := by simp [ea, h0]
    by_cases hs : w &&& 3#64 = 0#64
    · simp only [hs, not_true, if_false]
      rw [wp_ADD_D, Verif.RV.evR_add]
      exact fin _ (by rw [hea, hs]; simp)
    · simp only [hs, not_false_eq_true, if_true]
      have h3 : (w &&& 3#64).toNat < 64 := by
        have := @Nat.and_le_right w.toNat 3
        rw [BitVec.toNat_and]; change w.toNat &&& 3 < 64; omega
      rw [wp_SLLI_D_s _ _ h3, wp_ADD_D, Verif.RV.evR_add]
      have := fin (c.x (regMap b) + c.x (regMap i) <<< (w &&& 3#64).toNat) hea.symm
      have e : ∀ v u : BitVec 64, (c.wr (regMap TMP_REG1) u).wr (regMap TMP_REG1) v = c.wr (regMap TMP_REG1) v := by
        intro v u
        refine Core.ext' (funext fun q => ?_) rfl rfl
        simp only [x_wr]; split <;> simp_all
      rw [e]
      have e2 : (c.wr (regMap TMP_REG1) (ShOp.sll.eval (c.x (regMap i)) (w &&& 3#64).toNat)).x (regMap TMP_REG1) +
          (c.wr (regMap TMP_REG1) (ShOp.sll.eval (c.x (regMap i)) (w &&& 3#64).toNat)).x (regMap b) =
          c.x (regMap b) + c.x (regMap i) <<< (w &&& 3#64).toNat := by
        simp [hn0, hbn, ShOp.eval, BitVec.add_comm]
      rw [e2]; exact this

/-- Stores. -/
theorem pair_store {r1 r2 b i : Nat} {w : BitVec 64} {c : Core} (hb : b ≤ 24) (hi : i ≤ 24) (h1 : r1 ≤ 24) (h2 : r2 ≤ 24) :
    wp (emitMemPair true r1 r2 b i w) c fun c' => ∃ c1, Only [13#5] c c1 ∧
      c' = c1.setMem (st64 (st64 c.mem (ea c b i w) (c.x (regMap r1))) (ea c b i w + 8#64) (c.x (regMap r2))) := by
  unfold emitMemPair
  simp only [Bool.true_eq_false, false_and, if_false, Bool.not_true]
  refine wp_append (wp_mono (pairAddr_ok hb hi) ?_)
  intro c1 h
  refine wp_append ?_
  rw [wp_store, h.lo, wp_store]
  have e : pa (c1.setMem ((stOp .word).eval c1.mem (ea c b i w) (c1.x (regMap r1)))) (pairAddr b i w).2.1 0 (((pairAddr b i w).2.2 + 8#64) &&& 0xfff#64) =
      ea c b i w + 8#64 := h.hi
  rw [e]
  refine ⟨c1, h.only, ?_⟩
  have k1 := h.only.1 (regMap r1) (by simp [(user_ne h1).2.2.1])
  have k2 := h.only.1 (regMap r2) (by simp [(user_ne h2).2.2.1])
  rw [← k1, ← k2, ← h.only.2.1]
  rfl

/-- Loads. -/
theorem pair_load {r1 r2 b i : Nat} {w : BitVec 64} {c : Core} (hb : b ≤ 24) (hi : i ≤ 24) (h1 : 1 ≤ r1 ∧ r1 ≤ 24) (h2 : 1 ≤ r2 ∧ r2 ≤ 24) (hne : r1 ≠ r2) :
    wp (emitMemPair false r1 r2 b i w) c fun c' => c'.x (regMap r1) = ld64 c.mem (ea c b i w) ∧ c'.x (regMap r2) = ld64 c.mem (ea c b i w + 8#64) ∧
      Only [13#5, regMap r1, regMap r2] c c' := by
  have inj0 : ∀ r ≤ 24, ∀ q ≤ 24, regMap r = regMap q → r = q := by decide +kernel
  have inj : ∀ r q : Nat, r ≤ 24 → q ≤ 24 → regMap r = regMap q → r = q := fun r q hr hq => inj0 r hr q hq
  have n1 : regMap r1 ≠ 0#5 := fun h => by have := inj r1 0 h1.2 (by decide) h; omega
  have n2 : regMap r2 ≠ 0#5 := fun h => by have := inj r2 0 h2.2 (by decide) h; omega
  have n12 : regMap r1 ≠ regMap r2 := fun h => hne (inj _ _ h1.2 h2.2 h)
  have fin : ∀ c1 : Core, Only [13#5] c c1 → Only [13#5, regMap r1, regMap r2] c c1 := by
    intro c1 h
    exact ⟨fun q hq => h.1 q (fun hm => hq (by simp only [List.mem_cons, List.not_mem_nil, or_false] at hm ⊢; tauto)), h.2.1, h.2.2⟩
  have m1 : regMap r1 ∈ [13#5, regMap r1, regMap r2] := by simp
  have m2 : regMap r2 ∈ [13#5, regMap r1, regMap r2] := by simp
  unfold emitMemPair
  simp only [true_and]
  split
  · next hm =>
    refine wp_append (wp_mono (pairAddr_ok hb hi) ?_)
    intro c1 h
    refine wp_append ?_
    rw [wp_load, h.hi, wp_load]
    have e : ∀ v, pa (c1.wr (regMap r2) v) (pairAddr b i w).2.1 0 (pairAddr b i w).2.2 = ea c b i w := by
      intro v
      have := h.lo
      rw [hm] at this ⊢
      rw [← this]; simp [pa, n12]
    rw [e]
    refine ⟨?_, ?_, ((fin _ h.only).wr m2 _).wr m1 _⟩
    · simp [n1, h.only.2.1, ldOp, LdOp.eval]
    · simp [n2, n12.symm, h.only.2.1, ldOp, LdOp.eval]
  · next hm =>
    refine wp_append (wp_mono (pairAddr_ok hb hi) ?_)
    intro c1 h
    refine wp_append ?_
    simp only [Bool.not_false]
    rw [wp_load, h.lo, wp_load]
    have nm : regMap (pairAddr b i w).2.1 ≠ regMap r1 := by
      rcases h.base with hq | hq
      · rw [hq]; exact fun hx => (user_ne h1.2).2.2.1 hx.symm
      · exact fun hx => hm (inj _ _ hq h1.2 hx)
    have e : ∀ v, pa (c1.wr (regMap r1) v) (pairAddr b i w).2.1 0 (((pairAddr b i w).2.2 + 8#64) &&& 0xfff#64) = ea c b i w + 8#64 := by
      intro v
      rw [← h.hi]; simp [pa, nm]
    rw [e]
    refine ⟨?_, ?_, ((fin _ h.only).wr m1 _).wr m2 _⟩
    · simp [n1, n12, h.only.2.1, ldOp, LdOp.eval]
    · simp [n2, h.only.2.1, ldOp, LdOp.eval]

end Verif.LA
