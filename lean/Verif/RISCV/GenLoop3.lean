import Verif.RISCV.GenLoop2

/-! # The generating loop: the choice made for one record -/

namespace Verif.RV

/-- Facts about the label list when a record at estimated position `a` is processed at position `cp`. -/
structure LInv (L labels : List Nat) (li cp a nl : Nat) : Prop where
  hcp : cp ≤ a
  old : ∀ k, k < li → labels.getD k 0 ≤ cp ∧ L.getD k 0 + cp ≤ labels.getD k 0 + a ∧ labels.getD k 0 ≤ L.getD k 0 ∧ L.getD k 0 ≤ a
  new : ∀ k, li ≤ k → labels.getD k 0 = L.getD k 0
  fwd : ∀ k, li ≤ k → k < nl → a < L.getD k 0

theorem tgtDiff_back (e : Env) (n cp a : Nat) (labels : List Nat) (h : labels.getD n 0 ≤ a) (h1 : labels.getD n 0 < 2 ^ 61) (h2 : cp < 2 ^ 61) :
    tgtDiff e (.label n) cp a (tgtSize labels (.label n)) =
      (2 * ((labels.getD n 0 : Int) - cp), e.exec (labels.getD n 0)) := by
  have e1 : tgtSize labels (.label n) = labels.getD n 0 := rfl
  rw [e1, tgtDiff, if_neg (by omega), exec_diff e _ _ h1 h2]

theorem tgtDiff_fwd (e : Env) (n cp a x : Nat) (labels : List Nat) (hx : labels.getD n 0 = x) (h : a < x) (h1 : x < 2 ^ 61) :
    tgtDiff e (.label n) cp a (tgtSize labels (.label n)) = (2 * ((x : Int) - a), e.exec x) := by
  have e1 : tgtSize labels (.label n) = x := hx
  rw [e1, tgtDiff, if_pos (by omega), exec_diff e _ _ h1 (by omega)]

theorem jump_case {cfg : Cfg} {e : Env} {j : JInfo} {L labels : List Nat} {rli li cp a est nl : Nat} (hw : e.NoWrap) (hn : e.n < 2 ^ 60)
    (hi : LInv L labels li cp a nl) (he : EstOk cfg L rli a j est) (ho : Item.Ok cfg nl (.jump j))
    (hli : li = rli ∨ (li = rli + 1 ∧ est = 0 ∧ L.getD rli 0 = a ∧ labels.getD rli 0 = cp))
    (hL : ∀ k, k < nl → L.getD k 0 ≤ e.n) (hbad : ∀ x, x ≤ e.n → ¬ badWindow (e.exec x))
    (hcp : j.br.words.length ≤ cp) (ha : a ≤ e.n) {k : Kind} {d : Int × BitVec 64} (hd : d = tgtDiff e j.tgt cp a (tgtSize labels j.tgt))
    (hk : k = jumpKind cfg j d.1 d.2) (hkb : kback j k ≤ j.br.words.length) :
    ksz j k ≤ est ∧ (∀ P : List Nat, (∀ k, k < li → P.getD k 0 = labels.getD k 0) →
      (∀ n, li ≤ n → n < nl → cp + ksz j k ≤ P.getD n 0 ∧ P.getD n 0 + (a + est) ≤ L.getD n 0 + (cp + ksz j k)) →
      KindOk k (tgtPos e P j.tgt) (e.exec (cp - kback j k))) := by
  simp only [Item.Ok] at ho
  obtain ⟨hbr, hcall, htgt, h16⟩ := ho
  have hc16 : j.br.cond16 = true → cfg.c = true := by
    intro h
    cases hb : j.br <;> simp only [hb, Br.cond16, Br.Ok, Bool.false_eq_true] at h hbr
    exact hbr.1
  have hdec := jumpKind_dec cfg j d.1 d.2 hc16
  rw [← hk] at hdec
  cases hr : j.rew with
  | true =>
    have hk' : k = .seq .full := by rw [hk, jumpKind, if_pos hr]
    simp only [EstOk, hr] at he
    subst hk' he
    exact ⟨by simp [ksz, Patch.len], fun P _ _ => trivial⟩
  | false =>
    cases ht : j.tgt with
    | addr t =>
      simp only [EstOk, hr, ht] at he
      rw [ht] at hd
      simp only [tgtDiff] at hd
      subst hd
      simp only at hk hdec
      refine ⟨by rw [hk, he]; exact ksz_addr _ _ _ _ hr, fun P _ _ => ?_⟩
      simp only [Tgt.Ok, ht] at htgt
      refine kindOk_addr e j k cp t (by omega) hdec ?_ htgt.2
      intro hkb
      have := jumpKind_for cfg j (t - e.exec cp).toInt t
      rw [← hk, hkb] at this
      rcases h16 this.2 with h | ⟨n, h⟩
      · rw [hr] at h; exact absurd h (by simp)
      · rw [ht] at h; exact absurd h (by simp)
    | label n =>
      simp only [EstOk, hr, ht] at he
      obtain ⟨D, he1, he2, he3⟩ := he
      simp only [Tgt.Ok, ht] at htgt
      have hLn := hL n htgt
      rw [ht] at hd
      obtain ⟨c1, c2, c3, c4⟩ := hi
      by_cases hnl : n < li
      · obtain ⟨o1, o2, o3, o4⟩ := c2 n hnl
        rw [tgtDiff_back e n cp a labels (by omega) (by omega) (by omega)] at hd
        subst hd
        simp only at hk hdec
        have hD : (0 ≤ (labels.getD n 0 : Int) - cp ∧ (labels.getD n 0 : Int) - cp ≤ D) ∨
            (D ≤ (labels.getD n 0 : Int) - cp ∧ (labels.getD n 0 : Int) - cp ≤ 0) := by
          by_cases hnr : n < rli
          · have := he2 hnr; omega
          · have hnr' : n = rli := by omega
            have := he3 (by omega)
            rcases hli with h | ⟨h1, h2, h3, h4⟩
            · omega
            · subst hnr'; left; omega
        refine ⟨by rw [hk, he1]; exact ksz_label cfg j D _ _ hr hc16 hD, fun P hP _ => ?_⟩
        rw [tgtPos, hP n hnl]
        exact kindOk_of_dec e hw hn j k cp _ (labels.getD n 0) ((labels.getD n 0 : Int) - cp) (by omega) (by omega) (by omega) (by omega)
          hdec (by omega) (hbad _ (by omega)) (Or.inl ⟨rfl, by omega⟩)
      · have hf := c4 n (by omega) htgt
        rw [tgtDiff_fwd e n cp a _ labels (c3 n (by omega)) hf (by omega)] at hd
        subst hd
        simp only at hk hdec
        have hD := he3 (by omega)
        have hle : est ≤ 12 := he1 ▸ labelEst_le ..
        have hks : ksz j k ≤ est := by
          rw [hk, he1]; exact ksz_label cfg j D _ _ hr hc16 (Or.inl (by omega))
        refine ⟨hks, fun P _ hP => ?_⟩
        obtain ⟨p1, p2⟩ := hP n (by omega) htgt
        refine kindOk_of_dec e hw hn j k cp (P.getD n 0) (L.getD n 0) ((L.getD n 0 : Int) - a) (by omega) (by omega) (by omega) (by omega)
          hdec (by omega) (hbad _ (by omega)) (Or.inr ⟨by omega, by omega, fun hb => ?_⟩)
        have hf16 := jumpKind_for cfg j (2 * ((L.getD n 0 : Int) - a)) (e.exec (L.getD n 0))
        rw [← hk, hb] at hf16
        rw [hb] at hdec p2
        simp only [KindDec, ksz] at hdec p2
        rcases Nat.eq_zero_or_pos est with h0 | h0
        · have := labelEst_zero (he1.symm.trans h0) hf16.1 hf16.2
          omega
        · omega

theorem mov_case {cfg : Cfg} {e : Env} {t : Tgt} {reg : Nat} {L labels : List Nat} {rli cp a est nl : Nat} (hw : e.NoWrap) (hn : e.n < 2 ^ 60)
    (hi : LInv L labels rli cp a nl) (he : MovOk L rli a t est) (ho : Item.Ok cfg nl (.mov reg t))
    (hL : ∀ k, k < nl → L.getD k 0 ≤ e.n) (hbad : ∀ x, x ≤ e.n → ¬ badWindow (e.exec x))
    (ha : a ≤ e.n) {p : Patch} {d : Int × BitVec 64} (hd : d = tgtDiff e t cp a (tgtSize labels t))
    (hk : p = movKind d.1 d.2) :
    p.len ≤ est + 1 ∧ (∀ P : List Nat, (∀ k, k < rli → P.getD k 0 = labels.getD k 0) →
      (∀ n, rli ≤ n → n < nl → cp + p.len ≤ P.getD n 0 ∧ P.getD n 0 + (a + est + 1) ≤ L.getD n 0 + (cp + p.len)) →
      p.fits (tgtPos e P t) (e.exec cp)) := by
  let j : JInfo := ⟨.none, false, false, t⟩
  have hdec := movKind_dec j d.1 d.2
  rw [← hk] at hdec
  have kb : kback j (.seq p) = 0 := rfl
  simp only [Item.Ok] at ho
  cases t with
  | addr t =>
    simp only [MovOk] at he
    simp only [tgtDiff] at hd
    subst hd
    simp only at hk hdec
    refine ⟨by rw [hk, he]; exact movKind_addr _ _, fun P _ _ => ?_⟩
    have := kindOk_addr e j (.seq p) cp t (by omega) hdec (by simp) ho.1.2
    simpa only [tgtPos, KindOk, kb, Nat.sub_zero] using this
  | label n =>
    simp only [MovOk] at he
    obtain ⟨D, he1, he2, he3⟩ := he
    have htgt : n < nl := ho.1
    have hLn := hL n htgt
    obtain ⟨c1, c2, c3, c4⟩ := hi
    by_cases hnl : n < rli
    · obtain ⟨o1, o2, o3, o4⟩ := c2 n hnl
      rw [tgtDiff_back e n cp a labels (by omega) (by omega) (by omega)] at hd
      subst hd
      simp only at hk hdec
      have hD := he2 hnl
      refine ⟨by rw [hk, he1]; exact movKind_label D _ _ (Or.inr (by omega)), fun P hP _ => ?_⟩
      rw [tgtPos, hP n hnl]
      have := kindOk_of_dec e hw hn j (.seq p) cp _ (labels.getD n 0) ((labels.getD n 0 : Int) - cp) (by omega) (by omega) (by omega) (by omega)
        hdec (Nat.le_refl _) (hbad _ (by omega)) (Or.inl ⟨rfl, by omega⟩)
      simpa only [KindOk, kb, Nat.sub_zero] using this
    · have hf := c4 n (by omega) htgt
      rw [tgtDiff_fwd e n cp a _ labels (c3 n (by omega)) hf (by omega)] at hd
      subst hd
      simp only at hk hdec
      have hD := he3 (by omega)
      have hks : p.len ≤ est + 1 := by rw [hk, he1]; exact movKind_label D _ _ (Or.inl (by omega))
      refine ⟨hks, fun P _ hP => ?_⟩
      obtain ⟨p1, p2⟩ := hP n (by omega) htgt
      have := kindOk_of_dec e hw hn j (.seq p) cp (P.getD n 0) (L.getD n 0) ((L.getD n 0 : Int) - a) (by omega) (by omega) (by omega) (by omega)
        hdec (by omega) (hbad _ (by omega)) (Or.inr ⟨by omega, by omega, by simp⟩)
      simpa only [tgtPos, KindOk, kb, Nat.sub_zero] using this

end Verif.RV
