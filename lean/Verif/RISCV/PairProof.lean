import Verif.RISCV.Pair

/-! # Register pairs in memory on RV64 (helper lemmas) -/

set_option linter.all false

namespace Verif.RV

theorem sext12_8 {l : BitVec 12} (h : l.toInt ≤ 2039) : (l + 8#12).signExtend 64 = l.signExtend 64 + 8#64 := by
  apply BitVec.eq_of_toInt_eq
  have := l.isLt
  rw [BitVec.toInt_add, BitVec.toInt_signExtend_of_le (by decide), BitVec.toInt_signExtend_of_le (by decide), BitVec.toInt_add]
  rw [BitVec.toInt_eq_toNat_bmod] at h ⊢
  simp only [Int.bmod_def, show (8#12).toInt = 8 from rfl, show (8#64).toInt = 8 from rfl] at *
  omega

/-- The offsets of the two words. -/
theorem pair_off {w : BitVec 64} (h : (w.setWidth 12).toInt ≤ 2039) :
    ((((w &&& 0xfff#64) + 8#64) &&& 0xfff#64).setWidth 12).signExtend 64 = ((w &&& 0xfff#64).setWidth 12).signExtend 64 + 8#64 := by
  have e1 : (w &&& 0xfff#64).setWidth 12 = w.setWidth 12 := by bits []
  have e2 : ∀ v : BitVec 64, (v &&& 0xfff#64).setWidth 12 = v.setWidth 12 := by intro v; bits []
  rw [e2, BitVec.setWidth_add _ _ (by decide), e1]
  exact sext12_8 h

theorem near_off {w : BitVec 64} (h : ((w + 0x800#64) &&& 0xfff#64).toNat ≤ 0xfff - 8) : (w.setWidth 12).toInt ≤ 2039 := by
  rw [BitVec.toNat_and, show (0xfff#64).toNat = 2 ^ 12 - 1 from rfl, Nat.and_two_pow_sub_one_eq_mod, BitVec.toNat_add] at h
  rw [BitVec.toInt_eq_toNat_bmod, BitVec.toNat_setWidth]
  have := w.isLt
  simp only [Int.bmod_def, show (0x800#64).toNat = 2048 from rfl] at *
  omega

/-- The address of a load or store instruction. -/
def pa (c : Core) (base : Nat) (off : BitVec 64) : BitVec 64 := c.x (regMap base) + (off.setWidth 12).signExtend 64

theorem wp_load_pa {cfg : Cfg} {reg base : Nat} {off : BitVec 64} {c : Core} {Q : Core → Prop} (hr : regMap reg ≠ 0#5) :
    wp (pushMem cfg (.g .word false) true reg base off) c Q ↔ Q (c.wr (regMap reg) ((ldOp .word false).eval c.mem (pa c base off))) := wp_load hr
theorem wp_store_pa {cfg : Cfg} {reg base : Nat} {off : BitVec 64} {c : Core} {Q : Core → Prop} :
    wp (pushMem cfg (.g .word false) false reg base off) c Q ↔ Q (c.setMem ((stOp .word).eval c.mem (pa c base off) (c.x (regMap reg)))) := wp_store

/-- After the address computation both words are within reach of one register. -/
structure PairOk (b i : Nat) (w : BitVec 64) (m : Nat) (o : BitVec 64) (c c1 : Core) : Prop where
  only : Only [6#5, 7#5] c c1
  base : m = 25 ∨ m ≤ 24
  lo : pa c1 m o = ea c b i w
  hi : pa c1 m ((o + 8#64) &&& 0xfff#64) = ea c b i w + 8#64

theorem pairAddr_ok {cfg : Cfg} {b i : Nat} {w : BitVec 64} {c : Core} (hb : b ≤ 24) (hi : i ≤ 24) :
    wp (pairAddr cfg b i w).1 c (PairOk b i w (pairAddr cfg b i w).2.1 (pairAddr cfg b i w).2.2 c) := by
  have hm : regMap TMP_REG1 ∈ [(6#5 : Reg), 7#5] := by decide
  have hn0 : regMap TMP_REG1 ≠ 0#5 := by decide
  have hbn : regMap b ≠ 6#5 := (user_ne hb).2.2.1
  have z1 : ((0#64).setWidth 12).signExtend 64 = 0#64 := by decide
  have z2 : (((0#64 + 8#64) &&& 0xfff#64).setWidth 12).signExtend 64 = 8#64 := by decide
  have fin : ∀ v : BitVec 64, v = ea c b i w → PairOk b i w TMP_REG1 0#64 c (c.wr (regMap TMP_REG1) v) := by
    intro v hv
    refine ⟨(Only.refl _ _).wr hm _, Or.inl rfl, ?_, ?_⟩
    · simp only [pa, z1]; simp [hn0, hv]
    · simp only [pa, z2]; simp [hn0, hv]
  unfold pairAddr
  by_cases h0 : i = 0
  · subst h0
    simp only [ne_eq, not_true, if_false]
    have hea : ea c b 0 w = c.x (regMap b) + w := by simp [ea]
    split
    · -- far
      generalize hnear : decide (((w + 0x800#64) &&& 0xfff#64).toNat ≤ 0xfff - 8) = near
      dsimp only
      have key : ∀ v o : BitVec 64, v + (o.setWidth 12).signExtend 64 = w → v + (((o + 8#64) &&& 0xfff#64).setWidth 12).signExtend 64 = w + 8#64 →
          wp (loadImm cfg TMP_REG1 v TMP_REG3 ++ (if ¬ b = 0 then w32 (ADD ||| RD TMP_REG1 ||| RS1 TMP_REG1 ||| RS2 b) else [])) c
            (PairOk b 0 w TMP_REG1 o c) := by
        intro v o h1 h2
        refine wp_append (wp_mono (wp_loadImm (by decide) (by decide) (by decide) (by decide)) ?_)
        rintro c1 ⟨g1, g2⟩
        have g2 : Only [6#5, 7#5] c c1 := g2
        by_cases hb0 : b = 0
        · subst hb0
          simp only [not_true, if_false, wp_nil]
          have hz : c.x (regMap 0) = 0#64 := c.x0
          refine ⟨g2, Or.inl rfl, ?_, ?_⟩
          · simp only [pa, hea, hz, g1, h1, BitVec.zero_add]
          · simp only [pa, hea, hz, g1, h2, BitVec.zero_add]
        · rw [if_pos hb0, wp_ADD, Verif.RV.evR_add, g1, g2.1 (regMap b) (by simp [hbn, (user_ne hb).2.2.2.1])]
          refine ⟨g2.wr hm _, Or.inl rfl, ?_, ?_⟩
          · simp only [pa, hea]
            generalize (o.setWidth 12).signExtend 64 = so at *
            rw [← h1]; simp [hn0, hbn]; ac_rfl
          · simp only [pa, hea]
            generalize (((o + 8#64) &&& 0xfff#64).setWidth 12).signExtend 64 = so at *
            rw [BitVec.add_assoc, ← h2]; simp [hn0, hbn]; ac_rfl
      cases near
      · simp only [Bool.false_eq_true, if_false]
        exact key w 0#64 (by rw [z1]; simp) (by rw [z2])
      · simp only [if_true]
        have := near_off (of_decide_eq_true hnear)
        refine key _ _ (argwHi_add w) ?_
        rw [pair_off this, ← BitVec.add_assoc, argwHi_add]
    · next hf =>
      rw [not_or, Int.not_lt, Int.not_lt] at hf
      rw [wp_nil]
      have hs : (w.setWidth 12).signExtend 64 = w := sext12 ⟨hf.2, by omega⟩
      have hw : ((w &&& 0xfff#64).setWidth 12).signExtend 64 = w := by
        rw [show (w &&& 0xfff#64).setWidth 12 = w.setWidth 12 by bits [], hs]
      have hi' : (w.setWidth 12).toInt ≤ 2039 := by
        rw [← BitVec.toInt_signExtend_of_le (show 12 ≤ 64 by decide), hs]; omega
      refine ⟨Only.refl _ _, Or.inr hb, ?_, ?_⟩
      · simp only [pa, hw, hea]
      · simp only [pa, pair_off hi', hw, hea]; rw [BitVec.add_assoc]
  · simp only [ne_eq, h0, not_false_eq_true, if_true]
    have hea : ea c b i w = c.x (regMap b) + c.x (regMap i) <<< (w &&& 3#64).toNat := by simp [ea, h0]
    by_cases hs : w &&& 3#64 = 0#64
    · simp only [hs, not_true, if_false]
      rw [wp_ADD, Verif.RV.evR_add]
      exact fin _ (by rw [hea, hs]; simp)
    · simp only [hs, not_false_eq_true, if_true]
      have h3 : (w &&& 3#64).toNat < 64 := by
        have := @Nat.and_le_right w.toNat 3
        rw [BitVec.toNat_and]; change w.toNat &&& 3 < 64; omega
      have h6 : ((w &&& 3#64).setWidth 6).toNat = (w &&& 3#64).toNat := by
        rw [BitVec.toNat_setWidth, Nat.mod_eq_of_lt (show _ < 2 ^ 6 from h3)]
      rw [wp_SLLI_s _ _ _ h3, h6, wp_ADD, Verif.RV.evR_add]
      have := fin (c.x (regMap b) + c.x (regMap i) <<< (w &&& 3#64).toNat) hea.symm
      have e : ∀ v u : BitVec 64, (c.wr (regMap TMP_REG1) u).wr (regMap TMP_REG1) v = c.wr (regMap TMP_REG1) v := by
        intro v u
        refine Core.ext' (funext fun q => ?_) rfl rfl
        simp only [x_wr]; split <;> simp_all
      rw [e]
      have e2 : (c.wr (regMap TMP_REG1) (ShOp.sll.eval (c.x (regMap i)) (w &&& 3#64).toNat)).x (regMap TMP_REG1) +
          (c.wr (regMap TMP_REG1) (ShOp.sll.eval (c.x (regMap i)) (w &&& 3#64).toNat)).x (regMap b) =
          c.x (regMap b) + c.x (regMap i) <<< (w &&& 3#64).toNat := by
        simp [hn0, hbn, ShOp.eval, BitVec.add_comm]
      rw [e2]; exact this

/-- Stores. -/
theorem pair_store {cfg : Cfg} {r1 r2 b i : Nat} {w : BitVec 64} {c : Core} (hb : b ≤ 24) (hi : i ≤ 24) (h1 : r1 ≤ 24) (h2 : r2 ≤ 24) :
    wp (emitMemPair cfg true r1 r2 b i w) c fun c' => ∃ c1, Only [6#5, 7#5] c c1 ∧
      c' = c1.setMem (st64 (st64 c.mem (ea c b i w) (c.x (regMap r1))) (ea c b i w + 8#64) (c.x (regMap r2))) := by
  unfold emitMemPair
  simp only [Bool.true_eq_false, false_and, if_false, Bool.not_true]
  refine wp_append (wp_mono (pairAddr_ok hb hi) ?_)
  intro c1 h
  refine wp_append ?_
  rw [wp_store_pa, h.lo, wp_store_pa]
  have e : pa (c1.setMem ((stOp .word).eval c1.mem (ea c b i w) (c1.x (regMap r1)))) (pairAddr cfg b i w).2.1 (((pairAddr cfg b i w).2.2 + 8#64) &&& 0xfff#64) =
      ea c b i w + 8#64 := h.hi
  rw [e]
  refine ⟨c1, h.only, ?_⟩
  have k1 := h.only.1 (regMap r1) (by simp [(user_ne h1).2.2.1, (user_ne h1).2.2.2.1])
  have k2 := h.only.1 (regMap r2) (by simp [(user_ne h2).2.2.1, (user_ne h2).2.2.2.1])
  rw [← k1, ← k2, ← h.only.2.1]
  rfl

/-- Loads. -/
theorem pair_load {cfg : Cfg} {r1 r2 b i : Nat} {w : BitVec 64} {c : Core} (hb : b ≤ 24) (hi : i ≤ 24) (h1 : 1 ≤ r1 ∧ r1 ≤ 24) (h2 : 1 ≤ r2 ∧ r2 ≤ 24) (hne : r1 ≠ r2) :
    wp (emitMemPair cfg false r1 r2 b i w) c fun c' => c'.x (regMap r1) = ld64 c.mem (ea c b i w) ∧ c'.x (regMap r2) = ld64 c.mem (ea c b i w + 8#64) ∧
      Only [6#5, 7#5, regMap r1, regMap r2] c c' := by
  have inj0 : ∀ r ≤ 24, ∀ q ≤ 24, regMap r = regMap q → r = q := by decide +kernel
  have inj : ∀ r q : Nat, r ≤ 24 → q ≤ 24 → regMap r = regMap q → r = q := fun r q hr hq => inj0 r hr q hq
  have n1 : regMap r1 ≠ 0#5 := fun h => by have := inj r1 0 h1.2 (by decide) h; omega
  have n2 : regMap r2 ≠ 0#5 := fun h => by have := inj r2 0 h2.2 (by decide) h; omega
  have n12 : regMap r1 ≠ regMap r2 := fun h => hne (inj _ _ h1.2 h2.2 h)
  have fin : ∀ c1 : Core, Only [6#5, 7#5] c c1 → Only [6#5, 7#5, regMap r1, regMap r2] c c1 := by
    intro c1 h
    exact ⟨fun q hq => h.1 q (fun hm => hq (by simp only [List.mem_cons, List.not_mem_nil, or_false] at hm ⊢; tauto)), h.2.1, h.2.2⟩
  have m1 : regMap r1 ∈ [6#5, 7#5, regMap r1, regMap r2] := by simp
  have m2 : regMap r2 ∈ [6#5, 7#5, regMap r1, regMap r2] := by simp
  unfold emitMemPair
  simp only [true_and]
  split
  · next hm =>
    refine wp_append (wp_mono (pairAddr_ok hb hi) ?_)
    intro c1 h
    refine wp_append ?_
    rw [wp_load_pa n2, h.hi, wp_load_pa n1]
    have e : ∀ v, pa (c1.wr (regMap r2) v) (pairAddr cfg b i w).2.1 (pairAddr cfg b i w).2.2 = ea c b i w := by
      intro v
      have := h.lo
      rw [hm] at this ⊢
      rw [← this]; simp [pa, n12]
    rw [e]
    refine ⟨?_, ?_, ((fin _ h.only).wr m2 _).wr m1 _⟩
    · simp [n1, h.only.2.1, ldOp, LdOp.eval]
    · simp [n2, n12.symm, h.only.2.1, ldOp, LdOp.eval]
  · next hm =>
    refine wp_append (wp_mono (pairAddr_ok hb hi) ?_)
    intro c1 h
    refine wp_append ?_
    simp only [Bool.not_false]
    rw [wp_load_pa n1, h.lo, wp_load_pa n2]
    have nm : regMap (pairAddr cfg b i w).2.1 ≠ regMap r1 := by
      rcases h.base with hq | hq
      · rw [hq]; exact fun hx => (user_ne h1.2).2.2.1 hx.symm
      · exact fun hx => hm (inj _ _ hq h1.2 hx)
    have e : ∀ v, pa (c1.wr (regMap r1) v) (pairAddr cfg b i w).2.1 (((pairAddr cfg b i w).2.2 + 8#64) &&& 0xfff#64) = ea c b i w + 8#64 := by
      intro v
      rw [← h.hi]; simp [pa, nm]
    rw [e]
    refine ⟨?_, ?_, ((fin _ h.only).wr m1 _).wr m2 _⟩
    · simp [n1, n12, h.only.2.1, ldOp, LdOp.eval]
    · simp [n2, h.only.2.1, ldOp, LdOp.eval]

end Verif.RV
