import Verif.Alloc.Free

/-! # Merging with the next block, releasing a chunk -/

namespace Verif.Alloc

variable {c : Cfg} {B : Blocks} {cs : List Chunk} {fl : List Nat}

theorem freeNext_ok (hc : c.Ok) {s : ASt} (h : Core c s B cs fl) {p : Nat} {b : Blk} (hb : B p = some b)
    (hf : b.kind = .free) (nc : NoCoalX B p) :
    ∃ B1 fl1 b1, Core c (freeNext c s p) B1 cs fl1 ∧ NoCoal B1 ∧ B1 p = some b1 ∧ b1.kind = .free ∧
      (∀ q n o, U B1 q n o ↔ U B q n o) ∧ (freeNext c s p).allocated = s.allocated ∧ (freeNext c s p).total = s.total ∧
      ∀ a, Safe c B cs a → (freeNext c s p).mem a = s.mem a := by
  have g := h.geo
  have hk : b.kind ≠ .term := by simp [hf]
  have sz := (g.size _ _ hb hk)
  have hsb := hs_bounds hc
  have fsz := h.memok.fsize _ _ hb hf
  obtain ⟨b2, hb2, np, no⟩ := g.next _ _ hb hk
  have tg := tag_free g hb2
  rw [← h.memok.tag _ _ hb2] at tg
  by_cases hf2 : b2.kind = .free
  · have hk2 : b2.kind ≠ .term := by simp [hf2]
    have sz2 := (g.size _ _ hb2 hk2)
    have fsz2 := h.memok.fsize _ _ hb2 hf2
    obtain ⟨b3, hb3, np3, no3⟩ := g.next _ _ hb2 hk2
    have g1 := geo_merge hc g hb hk hb2 hk2 hb3
    have getN : merge B p b b2 b3 (p + b.size + b2.size) = some { b3 with prev := b.size + b2.size } := by simp [merge]
    have getP : merge B p b b2 b3 p = some { b with size := b.size + b2.size } := by
      rw [merge, upd_ne _ _ _ _ (by omega), upd_same]
    have bnd := (g1.bound getN)
    have bnd3 := g1.ext_pos hc getN
    have hsum : (b.size + b2.size) % W = b.size + b2.size := Nat.mod_eq_of_lt (by omega)
    -- the list after the size update
    have hch1 : Chain c (st s.mem (fSize c p) (b.size + b2.size)) 0 fl := by
      refine chain_frame (fun r hr => ?_) h.chain
      obtain ⟨br, hbr, hrf⟩ := (h.flok.mem r).mp hr
      have x2 := hdr_not_link hc g hb hbr hrf (a := fSize c p) (by simp [fSize]; omega) (.inr ⟨hk, rfl⟩)
      exact ⟨st_ne _ _ _ _ x2.1.symm, st_ne _ _ _ _ x2.2.symm⟩
    have hmem2 : p + b.size ∈ fl := (h.flok.mem _).mpr ⟨b2, hb2, hf2⟩
    obtain ⟨l1, l2, rfl⟩ := list_split hmem2
    obtain ⟨m', e, hch', hm⟩ := removeFree_spec (c := c) (s := { s with mem := st s.mem (fSize c p) (b.size + b2.size) })
      (h.far hc) hch1 h.head
    have nd' := List.nodup_append.mp h.flok.nodup
    have pn := List.nodup_cons.mp nd'.2.1
    have hmem : ∀ q, q ∈ l1 ++ l2 ↔ q ∈ l1 ++ (p + b.size) :: l2 ∧ q ≠ p + b.size := by
      intro q
      constructor
      · intro hq
        refine ⟨by simp at hq ⊢; grind, ?_⟩
        rintro rfl
        rcases List.mem_append.mp hq with h | h
        · exact nd'.2.2 _ h _ (by simp) rfl
        · exact pn.1 h
      · rintro ⟨hq, hne⟩
        simp at hq ⊢; grind
    have links : ∀ q ∈ l1 ++ l2, ∃ b, B q = some b ∧ b.kind = .free := fun q hq => (h.flok.mem q).mp ((hmem q).mp hq).1
    have mfs : m' (fSize c p) = b.size + b2.size := by
      rw [hm]
      · exact st_same _ _ _
      · intro r hr
        obtain ⟨br, hbr, hrf⟩ := links r hr
        exact hdr_not_link hc g hb hbr hrf (by simp [fSize]; omega) (.inr ⟨hk, rfl⟩)
    have ef : freeNext c s p = { s with
        mem := st m' (hPrev (p + b.size + b2.size)) (b.size + b2.size), free := hd (l1 ++ l2) } := by
      simp only [freeNext, fsz, fsz2, tg.mpr hf2, if_true, hsum, e, mfs]
      rw [show p + (b.size + b2.size) = p + b.size + b2.size by omega]
    rw [ef]
    refine ⟨merge B p b b2 b3, l1 ++ l2, _, ⟨g1, ?_, ?_, rfl, ?_⟩, ?_, getP, hf, ?_, rfl, rfl, ?_⟩
    · apply memok_merge hc g h.memok hb hf hb2 hk2 hb3 links
      · show st _ _ _ _ = _
        stne; exact mfs
      · exact st_same _ _ _
      · intro a h1 h2 h3
        show st _ _ _ _ = _
        rw [st_ne _ _ _ _ h2, hm a h3]
        exact st_ne _ _ _ _ h1
    · refine chain_frame (fun r hr => ?_) hch'
      obtain ⟨br, hbr, hrf⟩ := links r hr
      have x1 := hdr_not_link hc g hb3 hbr hrf (a := hPrev (p + b.size + b2.size)) (by simp [hPrev]) (by simp only [hPrev]; omega)
      exact ⟨st_ne _ _ _ _ x1.1.symm, st_ne _ _ _ _ x1.2.symm⟩
    · refine ⟨List.nodup_append.mpr ⟨nd'.1, pn.2, fun a ha b hb => nd'.2.2 a ha b (by simp [hb])⟩, fun r => ?_⟩
      rw [hmem, h.flok.mem r]
      constructor
      · rintro ⟨⟨br, hbr, hrf⟩, e3⟩
        by_cases e1 : r = p + b.size + b2.size
        · subst e1
          rw [hb3] at hbr; obtain rfl := Option.some.inj hbr
          exact ⟨_, getN, hrf⟩
        · by_cases e2 : r = p
          · subst e2; exact ⟨_, getP, hf⟩
          · exact ⟨br, by rw [merge, upd_ne _ _ _ _ e1, upd_ne _ _ _ _ e2, upd_ne _ _ _ _ e3]; exact hbr, hrf⟩
      · rintro ⟨br, hbr, hrf⟩
        rcases merge_some hbr with ⟨rfl, rfl⟩ | ⟨_, rfl, rfl⟩ | ⟨n1, n2, n3, hq'⟩
        · exact ⟨⟨b3, hb3, hrf⟩, by omega⟩
        · exact ⟨⟨b, hb, hf⟩, by omega⟩
        · exact ⟨⟨br, hq', hrf⟩, n3⟩
    · intro r br br' h1 h2 h3 h4
      rcases merge_some h1 with ⟨rfl, rfl⟩ | ⟨_, rfl, rfl⟩ | ⟨n1, n2, n3, hr⟩
      · -- b3 free is impossible
        have := nc _ _ _ hb2 hf2 hb3 h2
        omega
      · simp only at h3
        rcases merge_some h3 with ⟨e, rfl⟩ | ⟨_, e, _⟩ | ⟨n1, n2, n3, hr⟩
        · have := nc _ _ _ hb2 hf2 hb3 h4
          omega
        · omega
        · omega
      · have szr := (g.size _ _ hr (by simp [h2])).1
        rcases merge_some h3 with ⟨e, rfl⟩ | ⟨_, e, rfl⟩ | ⟨n1', n2', n3', hr'⟩
        · have er : ext c br = br.size := by simp [ext, h2]
          have := g.apart hr hb2 n3
          have eb : ext c b2 = b2.size := by simp [ext, hk2]
          omega
        · exact n2 (nc _ _ _ hr h2 (e ▸ hb) hf)
        · exact n2 (nc _ _ _ hr h2 hr' h4)
    · intro q n o
      rw [U_merge g hb hf hb2 hk2 hb3]
      constructor
      · exact fun h => h.1
      · rintro ⟨b', h1, h2, h3⟩
        refine ⟨⟨b', h1, h2, h3⟩, ?_⟩
        rintro rfl
        rw [hb2] at h1; obtain rfl := Option.some.inj h1
        rw [hf2] at h2; cases h2
    · intro a ha
      have x1 := (safe_out hc g ha hb).imp_right (fun h => h.2 hf)
      have x2 := (safe_out hc g ha hb3)
      have hmm : m' a = st s.mem (fSize c p) (b.size + b2.size) a := by
        apply hm
        intro r hr
        obtain ⟨br, hbr, hrf⟩ := links r hr
        have y := (safe_out hc g ha hbr).imp_right (fun h => h.2 hrf)
        have := (g.size _ _ hbr (by simp [hrf])).1
        simp only [fNext, fPrev]
        omega
      show st _ _ _ _ = _
      stne
      rw [hmm]
      stne
  · have ef : freeNext c s p = s := by
      simp only [freeNext, fsz]
      rw [if_neg (fun h => hf2 (tg.mp h))]
    rw [ef]
    refine ⟨B, fl, b, h, ?_, hb, hf, fun _ _ _ => Iff.rfl, rfl, rfl, fun _ _ => rfl⟩
    intro r br br' h1 h2 h3 h4
    obtain rfl := nc _ _ _ h1 h2 h3 h4
    rw [hb] at h1; obtain rfl := Option.some.inj h1
    rw [hb2] at h3; obtain rfl := Option.some.inj h3
    exact hf2 h4

/-- Releasing a chunk which consists of one free block. -/
theorem drop_ok (hc : c.Ok) {s : ASt} (h : Core c s B cs fl) (nc : NoCoal B) {p : Nat} {b t : Blk} (hb : B p = some b)
    (hf : b.kind = .free) (hp : b.prev = 0) (ht : B (p + b.size) = some t) (htk : t.kind = .term) (junk : Nat → Nat) :
    ∃ k ∈ cs, p = k.base + c.ch ∧ k.size = b.size + extra c ∧ (removeFree c s p).mem (fSize c p) = b.size ∧
      (b.size + extra c) % W = k.size ∧ p - c.ch = k.base ∧
      Core c (freeChunk c (removeFree c s p) p k.size junk) (dropChunk B p b.size) (cs.erase k) (fl.erase p) ∧
      NoCoal (dropChunk B p b.size) ∧
      (∀ q n o, U (dropChunk B p b.size) q n o ↔ U B q n o) ∧
      (∀ q n o, U B q n o → q + n ≤ k.base ∨ k.base + k.size ≤ q) ∧
      (removeFree c s p).allocated = s.allocated ∧ (removeFree c s p).total = s.total ∧
      (∀ a, Safe c B cs a → (freeChunk c (removeFree c s p) p k.size junk).mem a = s.mem a) := by
  have g := h.geo
  have hk : b.kind ≠ .term := by simp [hf]
  have hsb := hs_bounds hc
  have sz := (g.size _ _ hb hk)
  obtain ⟨k, hkc, hkp, hks, hks2⟩ := whole_chunk g hb hk hp ht htk
  obtain ⟨g1, gout⟩ := geo_dropChunk hc g hb hk hp ht htk hkc hkp hks2
  have hpf : p ∈ fl := (h.flok.mem p).mpr ⟨b, hb, hf⟩
  obtain ⟨m', e, hch, mo, nd, hmem, hm⟩ := remove_core hc h hpf
  have bndk := g.cfit k hkc
  have kpos : 0 < p := (g.align _ _ hb).2
  have getO : ∀ q, q ≠ p → q ≠ p + b.size → dropChunk B p b.size q = B q := fun q h1 h2 => by
    rw [dropChunk, upd_ne _ _ _ _ h2, upd_ne _ _ _ _ h1]
  have hU : ∀ q n o, U (dropChunk B p b.size) q n o ↔ U B q n o := by
    intro q n o
    constructor
    · rintro ⟨b', h1, h2⟩; exact ⟨b', (dropChunk_some h1).2.2, h2⟩
    · rintro ⟨b', h1, h2⟩
      refine ⟨b', ?_, h2⟩
      rw [getO]
      · exact h1
      · rintro rfl; rw [hb] at h1; obtain rfl := Option.some.inj h1; rw [hf] at h2; cases h2.1
      · rintro rfl; rw [ht] at h1; obtain rfl := Option.some.inj h1; rw [htk] at h2; cases h2.1
  have hUo : ∀ q n o, U B q n o → q + n ≤ k.base ∨ k.base + k.size ≤ q := by
    intro q n o hu
    obtain ⟨b', h1, h2, h3, _⟩ := (hU q n o).mpr hu
    have := gout _ _ h1
    simpa [ext, h2, h3] using this
  have hbase : p - c.ch = k.base := by omega
  have hmod : (b.size + extra c) % W = k.size := by
    rw [← hks]; apply Nat.mod_eq_of_lt
    omega
  rw [e]
  refine ⟨k, hkc, hkp, hks, mo.fsize _ _ hb hf, hmod, hbase, ⟨g1, ?_, ?_, rfl, ?_⟩, ?_, hU, hUo, rfl, rfl, ?_⟩
  · have key : ∀ q b', dropChunk B p b.size q = some b' → ∀ a, q ≤ a → a < q + ext c b' →
        havoc m' (p - c.ch) k.size junk a = m' a := by
      intro q b' hq a h1 h2
      have := gout _ _ hq
      rw [havoc, if_neg (by omega)]
    refine ⟨fun q b' hq => ?_, fun q b' hq => ?_, fun q b' hq h24 => ?_, fun q b' hq hff => ?_⟩ <;>
      have hx := g1.ext_pos hc hq
    · exact (key q b' hq _ (by simp [hSize]) (by simp only [hSize]; omega)).trans (mo.tag _ _ (dropChunk_some hq).2.2)
    · exact (key q b' hq _ (by simp [hPrev]) (by simp only [hPrev]; omega)).trans (mo.prev _ _ (dropChunk_some hq).2.2)
    · exact (key q b' hq _ (by simp [hOff]) (by simp only [hOff]; omega)).trans (mo.off _ _ (dropChunk_some hq).2.2 h24)
    · have s1 := (g1.size _ _ hq (by simp [hff])).1
      have e1 : ext c b' = b'.size := by simp [ext, hff]
      exact (key q b' hq _ (by simp [fSize]; omega) (by simp only [fSize]; omega)).trans (mo.fsize _ _ (dropChunk_some hq).2.2 hff)
  · refine chain_frame (fun r hr => ?_) hch
    obtain ⟨hr1, hr2⟩ := (hmem r).mp hr
    obtain ⟨br, hbr, hrf⟩ := (h.flok.mem r).mp hr1
    have hne2 : r ≠ p + b.size := by
      rintro rfl; rw [ht] at hbr; obtain rfl := Option.some.inj hbr; rw [htk] at hrf; cases hrf
    have hbr' : dropChunk B p b.size r = some br := by rw [getO r hr2 hne2]; exact hbr
    have := gout _ _ hbr'
    have s1 := (g1.size _ _ hbr' (by simp [hrf])).1
    have e1 : ext c br = br.size := by simp [ext, hrf]
    constructor
    · show havoc _ _ _ _ _ = _
      rw [havoc, if_neg (by unfold fNext; omega)]
    · show havoc _ _ _ _ _ = _
      rw [havoc, if_neg (by unfold fPrev; omega)]
  · refine ⟨nd, fun r => ?_⟩
    rw [hmem, h.flok.mem r]
    constructor
    · rintro ⟨⟨br, hbr, hrf⟩, hne⟩
      have hne2 : r ≠ p + b.size := by
        rintro rfl; rw [ht] at hbr; obtain rfl := Option.some.inj hbr; rw [htk] at hrf; cases hrf
      exact ⟨br, by rw [getO r hne hne2]; exact hbr, hrf⟩
    · rintro ⟨br, hbr, hrf⟩
      obtain ⟨h1, h2, h3⟩ := dropChunk_some hbr
      exact ⟨⟨br, h3, hrf⟩, h2⟩
  · intro r br br' h1 h2 h3
    exact nc _ _ _ (dropChunk_some h1).2.2 h2 (dropChunk_some h3).2.2
  · intro a ha
    have ho : a < k.base ∨ k.base + k.size ≤ a := by
      rcases ha with ⟨q, bq, hq, hu, h1, h2⟩ | ha
      · have := hUo q bq.size bq.off ⟨bq, hq, hu, rfl, rfl⟩
        omega
      · exact ha k hkc
    show havoc _ _ _ _ _ = _
    rw [havoc, if_neg (by omega)]
    apply hm
    intro r hr
    obtain ⟨br, hbr, hrf⟩ := (h.flok.mem r).mp ((hmem r).mp hr).1
    have y := (safe_out hc g ha hbr).imp_right (fun h => h.2 hrf)
    have := (g.size _ _ hbr (by simp [hrf])).1
    simp only [fNext, fPrev]
    omega

end Verif.Alloc
