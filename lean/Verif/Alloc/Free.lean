import Verif.Alloc.Steps

/-! # `sljit_free_exec` preserves the data structure -/

namespace Verif.Alloc

variable {c : Cfg} {B : Blocks} {cs : List Chunk} {fl : List Nat}

theorem Geo.bound (g : Geo c B cs) {p : Nat} {b : Blk} (h : B p = some b) : p + ext c b ≤ W ∧ 0 < p := by
  obtain ⟨k, hk, i⟩ := g.inside _ _ h
  have := g.cfit k hk
  have := g.align _ _ h
  omega

/-- The kind of a block is visible in its size word. -/
theorem tag_free (g : Geo c B cs) {p : Nat} {b : Blk} (h : B p = some b) : b.tag = 0 ↔ b.kind = .free := by
  have := g.size _ _ h
  unfold Blk.tag
  cases hk : b.kind <;> simp_all <;> omega

theorem tag_term (g : Geo c B cs) {p : Nat} {b : Blk} (h : B p = some b) : b.tag = 1 ↔ b.kind = .term := by
  have := g.size _ _ h
  unfold Blk.tag
  cases hk : b.kind <;> simp_all <;> omega

theorem U_merge (g : Geo c B cs) {p : Nat} {b b2 b3 : Blk} (hb : B p = some b) (hk : b.kind = .free)
    (hb2 : B (p + b.size) = some b2) (hk2 : b2.kind ≠ .term) (hb3 : B (p + b.size + b2.size) = some b3) (q n o : Nat) :
    U (merge B p b b2 b3) q n o ↔ U B q n o ∧ q ≠ p + b.size := by
  have sz := (g.size _ _ hb (by simp [hk])).1
  have sz2 := (g.size _ _ hb2 hk2).1
  constructor
  · rintro ⟨b', h, h1, h2, h3⟩
    rcases merge_some h with ⟨rfl, rfl⟩ | ⟨_, rfl, rfl⟩ | ⟨n1, n2, n3, hq'⟩
    · exact ⟨⟨b3, hb3, h1, h2, h3⟩, by omega⟩
    · simp [hk] at h1
    · exact ⟨⟨b', hq', h1, h2, h3⟩, n3⟩
  · rintro ⟨⟨b', h, h1, h2, h3⟩, hne⟩
    by_cases e1 : q = p + b.size + b2.size
    · subst e1
      rw [hb3] at h; obtain rfl := Option.some.inj h
      exact ⟨{ b3 with prev := b.size + b2.size }, by simp [merge], h1, h2, h3⟩
    · by_cases e2 : q = p
      · subst e2
        rw [hb] at h; obtain rfl := Option.some.inj h
        rw [hk] at h1; cases h1
      · exact ⟨b', by rw [merge, upd_ne _ _ _ _ e1, upd_ne _ _ _ _ e2, upd_ne _ _ _ _ hne]; exact h, h1, h2, h3⟩

theorem freePrev_ok (hc : c.Ok) {s : ASt} (h : Core c s B cs fl) (nc : NoCoal B) {p : Nat} {b : Blk} (hb : B p = some b)
    (hu : b.kind = .used) :
    ∃ B1 fl1 b1, Core c (freePrev c s p).1 B1 cs fl1 ∧ NoCoalX B1 (freePrev c s p).2 ∧
      B1 (freePrev c s p).2 = some b1 ∧ b1.kind = .free ∧ (∀ q n o, U B1 q n o ↔ U B q n o ∧ q ≠ p) ∧
      (freePrev c s p).1.allocated = (s.allocated + W - b.size % W) % W ∧ (freePrev c s p).1.total = s.total ∧
      ∀ a, Safe c B1 cs a → (freePrev c s p).1.mem a = s.mem a := by
  have g := h.geo
  have htag : s.mem (hSize p) = b.size := by rw [h.memok.tag _ _ hb]; simp [Blk.tag, hu]
  have hprev := h.memok.prev _ _ hb
  have hk : b.kind ≠ .term := by simp [hu]
  have sz := (g.size _ _ hb hk)
  have hsb := hs_bounds hc
  obtain ⟨b3, hb3, np, no⟩ := g.next _ _ hb hk
  -- is there a free block before it?
  by_cases hpf : b.prev ≠ 0 ∧ ∃ bq, B (p - b.prev) = some bq ∧ bq.kind = .free
  · obtain ⟨hp0, bq, hbq, hqf⟩ := hpf
    obtain ⟨q, bq', hq', hk', hsz', hqe⟩ := g.prev _ _ hb hp0
    have hq : p - b.prev = q := by omega
    rw [hq] at hbq
    rw [hbq] at hq'; obtain rfl := Option.some.inj hq'
    obtain rfl : p = q + bq.size := by omega
    have szq := (g.size _ _ hbq hk')
    have fsz := h.memok.fsize _ _ hbq hqf
    have g1 := geo_merge hc g hbq hk' hb hk hb3
    have getN : merge B q bq b b3 (q + bq.size + b.size) = some { b3 with prev := bq.size + b.size } := by simp [merge]
    have getP : merge B q bq b b3 q = some { bq with size := bq.size + b.size } := by
      rw [merge, upd_ne _ _ _ _ (by omega), upd_same]
    have bnd := (g1.bound getN)
    have bnd3 := g1.ext_pos hc getN
    have hsum : (bq.size + b.size) % W = bq.size + b.size := Nat.mod_eq_of_lt (by omega)
    have t0 : s.mem (hSize q) = 0 := by rw [h.memok.tag _ _ hbq]; simp [Blk.tag, hqf]
    have ef : freePrev c s (q + bq.size) = ({ s with
        mem := st (st s.mem (fSize c q) (bq.size + b.size)) (hPrev (q + bq.size + b.size)) (bq.size + b.size),
        allocated := (s.allocated + W - b.size % W) % W }, q) := by
      simp only [freePrev, hprev, hq, t0, htag, fsz, hsum, st_same, if_true]
      rw [show q + (bq.size + b.size) = q + bq.size + b.size by omega]
    rw [ef]
    refine ⟨merge B q bq b b3, fl, _, ⟨g1, ?_, ?_, h.head, ?_⟩, ?_, getP, hqf, U_merge g hbq hqf hb hk hb3, rfl, rfl, ?_⟩
    · apply memok_merge hc g h.memok hbq hqf hb hk hb3 (l := []) (by simp)
      · show st _ _ _ _ = _
        stne; rw [st_same]
      · show st _ _ _ _ = _
        rw [st_same]
      · intro a h1 h2 _
        show st _ _ _ _ = _
        rw [st_ne _ _ _ _ h2, st_ne _ _ _ _ h1]
    · refine chain_frame (fun r hr => ?_) h.chain
      obtain ⟨br, hbr, hrf⟩ := (h.flok.mem r).mp hr
      have x1 := hdr_not_link hc g hb3 hbr hrf (a := hPrev (q + bq.size + b.size)) (by simp [hPrev]) (by simp only [hPrev]; omega)
      have x2 := hdr_not_link hc g hbq hbr hrf (a := fSize c q) (by simp [fSize]; omega) (.inr ⟨hk', rfl⟩)
      refine ⟨?_, ?_⟩
      · show st _ _ _ _ = _
        rw [st_ne _ _ _ _ x1.1.symm, st_ne _ _ _ _ x2.1.symm]
      · show st _ _ _ _ = _
        rw [st_ne _ _ _ _ x1.2.symm, st_ne _ _ _ _ x2.2.symm]
    · refine ⟨h.flok.nodup, fun r => ?_⟩
      rw [h.flok.mem r]
      constructor
      · rintro ⟨br, hbr, hrf⟩
        by_cases e1 : r = q + bq.size + b.size
        · subst e1
          rw [hb3] at hbr; obtain rfl := Option.some.inj hbr
          exact ⟨_, getN, hrf⟩
        · by_cases e2 : r = q
          · subst e2; exact ⟨_, getP, hqf⟩
          · by_cases e3 : r = q + bq.size
            · subst e3; rw [hb] at hbr; obtain rfl := Option.some.inj hbr
              rw [hu] at hrf; cases hrf
            · exact ⟨br, by rw [merge, upd_ne _ _ _ _ e1, upd_ne _ _ _ _ e2, upd_ne _ _ _ _ e3]; exact hbr, hrf⟩
      · rintro ⟨br, hbr, hrf⟩
        rcases merge_some hbr with ⟨rfl, rfl⟩ | ⟨_, rfl, rfl⟩ | ⟨n1, n2, n3, hq'⟩
        · exact ⟨b3, hb3, hrf⟩
        · exact ⟨bq, hbq, hqf⟩
        · exact ⟨br, hq', hrf⟩
    · intro r br br' h1 h2 h3 h4
      rcases merge_some h1 with ⟨rfl, rfl⟩ | ⟨_, rfl, rfl⟩ | ⟨n1, n2, n3, hr⟩
      · exfalso
        have hf3 : b3.kind = .free := h2
        obtain ⟨b4, hb4, _⟩ := g.next _ _ hb3 (by simp [hf3])
        have sz3 := (g.size _ _ hb3 (by simp [hf3])).1
        simp only at h3
        rcases merge_some h3 with ⟨e, _⟩ | ⟨_, e, _⟩ | ⟨n1, n2, n3, hr⟩
        · omega
        · omega
        · exact nc _ _ _ hb3 hf3 hr h4
      · rfl
      · exfalso
        have szr := (g.size _ _ hr (by simp [h2])).1
        rcases merge_some h3 with ⟨e, rfl⟩ | ⟨_, e, rfl⟩ | ⟨n1', n2', n3', hr'⟩
        · -- successor is b3: impossible, `p` is before it
          have er : ext c br = br.size := by simp [ext, h2]
          have := g.apart hr hb n3
          have eb : ext c b = b.size := by simp [ext, hk]
          omega
        · exact nc _ _ _ hr h2 (e ▸ hbq) hqf
        · exact nc _ _ _ hr h2 hr' h4
    · intro a ha
      have x1 := safe_out hc g1 ha getP
      have x2 := safe_out hc g1 ha getN
      have := x1.imp_right (fun h => h.2 hqf)
      simp only at this
      show st _ _ _ _ = _
      stne; stne
  · -- becomes a new free block
    have hz : ¬ s.mem (hSize (p - s.mem (hPrev p))) = 0 := by
      rw [hprev]
      by_cases hp0 : b.prev = 0
      · rw [hp0, Nat.sub_zero, htag]; omega
      · obtain ⟨q, bq', hq', hk', hsz', hqe⟩ := g.prev _ _ hb hp0
        have hq : p - b.prev = q := by omega
        rw [hq, h.memok.tag _ _ hq', tag_free g hq']
        intro hf
        exact hpf ⟨hp0, bq', by rw [hq]; exact hq', hf⟩
    have g1 := geo_setKind g hb hk (k := .free) (by simp)
    have getP : setKind B p b .free p = some { b with kind := .free } := by simp [setKind]
    have getO : ∀ q, q ≠ p → setKind B p b .free q = B q := fun q hq => by rw [setKind, upd_ne _ _ _ _ hq]
    have flok1 : FlOk (setKind B p b .free) (p :: fl) := by
      refine ⟨List.nodup_cons.mpr ⟨fun hp => ?_, h.flok.nodup⟩, fun r => ?_⟩
      · obtain ⟨b', hb', hf⟩ := (h.flok.mem p).mp hp
        rw [hb] at hb'; obtain rfl := Option.some.inj hb'
        rw [hu] at hf; cases hf
      · rw [List.mem_cons, h.flok.mem r]
        by_cases hr : r = p
        · subst hr; simp [getP]
        · rw [getO r hr]; simp [hr]
    have far1 : Far (p :: fl) := by
      refine ⟨flok1.nodup, fun q hq => ?_, fun q hq r hr hne => ?_⟩
      · obtain ⟨b', hb', _⟩ := (flok1.mem q).mp hq
        exact (g1.align _ _ hb').2
      · obtain ⟨b', hb', hf⟩ := (flok1.mem q).mp hq
        obtain ⟨b'', hb'', hf'⟩ := (flok1.mem r).mp hr
        have := sep hc g1 hb' hb'' hne
        have := this.imp (fun h => h.2 (by simp [hf])) (fun h => h.2 (by simp [hf']))
        omega
    obtain ⟨m', em, ech, e0, es, eo⟩ := insertFree_spec hc (s := { s with allocated := (s.allocated + W - b.size % W) % W })
      (n := b.size) far1 h.chain h.head
    have ef : freePrev c s p = ({ s with mem := m', allocated := (s.allocated + W - b.size % W) % W, free := p }, p) := by
      simp only [freePrev, if_neg hz, htag]
      rw [em]
    rw [ef]
    have links : ∀ q ∈ p :: fl, ∃ b', setKind B p b .free q = some b' ∧ b'.kind = .free := fun q hq => (flok1.mem q).mp hq
    have rdh : ∀ q b', setKind B p b .free q = some b' → ∀ a, q ≤ a → (a < q + c.hs ∨ (b'.kind ≠ .term ∧ a = fSize c q)) →
        a ≠ hSize p → a ≠ fSize c p → m' a = s.mem a := by
      intro q b' hq a h1 h2 h3 h4
      apply eo a h3 h4
      intro r hr
      obtain ⟨br, hbr, hrf⟩ := links r hr
      exact hdr_not_link hc g1 hq hbr hrf h1 h2
    have dsep : ∀ q b', B q = some b' → q ≠ p → (q + c.hs ≤ p ∧ (b'.kind ≠ .term → q + 64 ≤ p)) ∨ p + 64 ≤ q := by
      intro q b' hq hne
      rcases sep hc g hq hb hne with h | h
      · exact .inl h
      · exact .inr (h.2 hk)
    refine ⟨setKind B p b .free, p :: fl, _, ⟨g1, ?_, ech, rfl, flok1⟩, ?_, getP, rfl, ?_, rfl, rfl, ?_⟩
    · refine ⟨fun q b' hq => ?_, fun q b' hq => ?_, fun q b' hq h24 => ?_, fun q b' hq hf => ?_⟩
      · show m' _ = _
        by_cases hqp : q = p
        · subst hqp; rw [getP] at hq; obtain rfl := Option.some.inj hq; exact e0
        · have hq' := hq; rw [getO q hqp] at hq'
          have := dsep q b' hq' hqp
          rw [rdh q b' hq _ (by simp [hSize]) (by simp only [hSize]; omega) (by simp only [hSize]; omega) (by simp only [hSize, fSize]; omega), h.memok.tag _ _ hq']
      · show m' _ = _
        by_cases hqp : q = p
        · subst hqp
          rw [rdh q b' hq _ (by simp [hPrev]) (by simp only [hPrev]; omega) (by simp only [hSize, hPrev]; omega) (by simp only [hPrev, fSize]; omega), hprev]
          rw [getP] at hq; obtain rfl := Option.some.inj hq; rfl
        · have hq' := hq; rw [getO q hqp] at hq'
          have := dsep q b' hq' hqp
          rw [rdh q b' hq _ (by simp [hPrev]) (by simp only [hPrev]; omega) (by simp only [hSize, hPrev]; omega) (by simp only [hPrev, fSize]; omega), h.memok.prev _ _ hq']
      · show m' _ = _
        by_cases hqp : q = p
        · subst hqp
          rw [rdh q b' hq _ (by simp [hOff]) (by simp only [hOff]; omega) (by simp only [hSize, hOff]; omega) (by simp only [hOff, fSize]; omega), h.memok.off _ _ hb h24]
          rw [getP] at hq; obtain rfl := Option.some.inj hq; rfl
        · have hq' := hq; rw [getO q hqp] at hq'
          have := dsep q b' hq' hqp
          rw [rdh q b' hq _ (by simp [hOff]) (by simp only [hOff]; omega) (by simp only [hSize, hOff]; omega) (by simp only [hOff, fSize]; omega), h.memok.off _ _ hq' h24]
      · show m' _ = _
        by_cases hqp : q = p
        · subst hqp; rw [getP] at hq; obtain rfl := Option.some.inj hq; exact es
        · have hq' := hq; rw [getO q hqp] at hq'
          have := (dsep q b' hq' hqp).imp_left (fun h => h.2 (by simp [hf]))
          rw [rdh q b' hq _ (by simp [fSize]; omega) (.inr ⟨by simp [hf], rfl⟩) (by simp only [hSize, fSize]; omega) (by simp only [fSize]; omega), h.memok.fsize _ _ hq' hf]
    · intro r br br' h1 h2 h3 h4
      show r = p
      by_contra hne
      rw [getO r hne] at h1
      by_cases e : r + br.size = p
      · apply hpf
        have szr := (g.size _ _ h1 (by simp [h2])).1
        obtain ⟨b'', hb'', hpe, _⟩ := g.next _ _ h1 (by simp [h2])
        rw [e, hb] at hb''; obtain rfl := Option.some.inj hb''
        exact ⟨by omega, br, by rw [hpe, show p - br.size = r by omega]; exact h1, h2⟩
      · rw [getO _ e] at h3
        exact nc _ _ _ h1 h2 h3 h4
    · intro q n o
      constructor
      · rintro ⟨b', h1, h2, h3⟩
        by_cases hqp : q = p
        · subst hqp; rw [getP] at h1; obtain rfl := Option.some.inj h1; cases h2
        · rw [getO q hqp] at h1; exact ⟨⟨b', h1, h2, h3⟩, hqp⟩
      · rintro ⟨⟨b', h1, h2, h3⟩, hqp⟩
        exact ⟨b', by rw [getO q hqp]; exact h1, h2, h3⟩
    · intro a ha
      have x := (safe_out hc g1 ha getP)
      have x' := x.imp_right (fun h => h.2 rfl)
      simp only at x'
      show m' a = _
      apply eo a (by simp only [hSize]; omega) (by simp only [fSize]; omega)
      intro r hr
      obtain ⟨br, hbr, hrf⟩ := links r hr
      have y := (safe_out hc g1 ha hbr).imp_right (fun h => h.2 hrf)
      have := (g1.size _ _ hbr (by simp [hrf])).1
      simp only [fNext, fPrev]
      omega

end Verif.Alloc
