import Verif.Alloc.Free2

/-! # `sljit_malloc_exec` preserves the data structure -/

namespace Verif.Alloc

variable {c : Cfg} {B : Blocks} {cs : List Chunk} {fl : List Nat}

theorem stOff_ne (m : Nat → Nat) (p v x : Nat) (h : c.hs = 24 → x ≠ hOff p) : stOff c m p v x = m x := by
  unfold stOff; split
  · next h24 => exact st_ne _ _ _ _ (h h24)
  · rfl

theorem stOff_same (m : Nat → Nat) (p v : Nat) (h : c.hs = 24) : stOff c m p v (hOff p) = v := by
  simp [stOff, h, st_same]

macro "sone" : tactic =>
  `(tactic| rw [stOff_ne _ _ _ _ (by intro _; simp only [hSize, hPrev, hOff, fPrev, fNext, fSize, ne_eq]; omega)])

/-- Effect of a successful allocation on the set of used blocks. -/
def UAdd (B B' : Blocks) (h n o : Nat) : Prop :=
  (∀ q n' o', U B' q n' o' ↔ U B q n' o' ∨ (q = h ∧ n' = n ∧ o' = o)) ∧ ∀ n' o', ¬ U B h n' o'

theorem take_ok (hc : c.Ok) {s : ASt} (h : Core c s B cs fl) (nc : NoCoal B) {p : Nat} {b : Blk} (hb : B p = some b)
    (hf : b.kind = .free) {size : Nat} (hsz : 64 ≤ size) (hs8 : size % 8 = 0) (hle : size ≤ b.size)
    (hw : size + 64 < W) :
    ∃ B' fl' hdr n, Core c (takeFree c s p size).1 B' cs fl' ∧ NoCoal B' ∧ (takeFree c s p size).2 = hdr + c.hs ∧
      size ≤ n ∧ n ≤ size + 64 ∧ UAdd B B' hdr n b.off ∧ p ≤ hdr ∧ hdr + n ≤ p + b.size ∧
      (takeFree c s p size).1.allocated = (s.allocated + n) % W ∧ (takeFree c s p size).1.total = s.total ∧
      ∀ a, Safe c B cs a → (takeFree c s p size).1.mem a = s.mem a := by
  have g := h.geo
  have hsb := hs_bounds hc
  have hk : b.kind ≠ .term := by simp [hf]
  have sz := g.size _ _ hb hk
  have fsz := h.memok.fsize _ _ hb hf
  obtain ⟨nb, hnb, np, no⟩ := g.next _ _ hb hk
  have hwm : (size + 64) % W = size + 64 := Nat.mod_eq_of_lt hw
  have pu : ∀ n' o', ¬ U B p n' o' := by
    rintro n' o' ⟨b', h1, h2, _⟩
    rw [hb] at h1; obtain rfl := Option.some.inj h1
    rw [hf] at h2; cases h2
  by_cases hbig : b.size > size + 64
  · obtain ⟨a, ha⟩ : ∃ a, b.size = a + size := ⟨b.size - size, by omega⟩
    have hsub : b.size - size = a := by omega
    have g1 := geo_split hc g hb hk hnb ha (by omega) hsz (by omega) (k1 := .free) (k2 := .used) (by simp) (by simp)
    have getA : split B p b nb a size .free .used (p + a) = some ⟨.used, size, a, b.off⟩ := by simp [split]
    have getP : split B p b nb a size .free .used p = some { b with kind := .free, size := a } := by
      rw [split, upd_ne _ _ _ _ (by omega), upd_same]
    have getN : split B p b nb a size .free .used (p + b.size) = some { nb with prev := size } := by
      rw [split, upd_ne _ _ _ _ (by omega), upd_ne _ _ _ _ (by omega), upd_same]
    have getO : ∀ q, q ≠ p + a → q ≠ p → q ≠ p + b.size → split B p b nb a size .free .used q = B q := fun q h1 h2 h3 => by
      rw [split, upd_ne _ _ _ _ h1, upd_ne _ _ _ _ h2, upd_ne _ _ _ _ h3]
    have hOffp : st (st s.mem (fSize c p) a) (hPrev (p + a)) a (hOff p) = s.mem (hOff p) := by stne; stne
    have pa : ∀ n' o', ¬ U B (p + a) n' o' := by
      rintro n' o' ⟨b', h1, h2, _⟩
      have := g.apart hb h1 (by omega)
      have e1 : ext c b = b.size := by simp [ext, hk]
      have e2 := g.ext_pos hc h1
      omega
    have ef : takeFree c s p size = ({ s with
        mem := st (st (stOff c (st (st s.mem (fSize c p) a) (hPrev (p + a)) a) (p + a) (s.mem (hOff p)))
          (hPrev (p + b.size)) size) (hSize (p + a)) size,
        allocated := (s.allocated + size) % W }, p + a + c.hs) := by
      simp only [takeFree, fsz, hwm, if_pos hbig, hsub, hOffp]
      rw [show p + a + size = p + b.size by omega]
    rw [ef]
    -- blocks other than p, p + a, p + b.size
    have dsep : ∀ q b', B q = some b' → q ≠ p → (q + c.hs ≤ p ∧ (b'.kind ≠ .term → q + 64 ≤ p)) ∨ p + b.size ≤ q := by
      intro q b' hq hne
      have e1 : ext c b = b.size := by simp [ext, hk]
      rcases sep hc g hq hb hne with h | h
      · exact .inl h
      · have := g.apart hb hq hne.symm
        have := g.ext_pos hc hq
        right; omega
    have nsep : ∀ q b', B q = some b' → q ≠ p + b.size → (q + c.hs ≤ p + b.size ∧ (b'.kind ≠ .term → q + 64 ≤ p + b.size)) ∨ p + b.size + c.hs ≤ q := by
      intro q b' hq hne
      rcases sep hc g hq hnb hne with h | h
      · exact .inl h
      · exact .inr h.1
    refine ⟨split B p b nb a size .free .used, fl, p + a, size, ⟨g1, ⟨?_, ?_, ?_, ?_⟩, ?_, h.head, ?_⟩, ?_, rfl,
      Nat.le_refl _, by omega, ⟨?_, pa⟩, by omega, by omega, rfl, rfl, ?_⟩
    · intro q b' hq
      rcases split_some hq with ⟨rfl, rfl⟩ | ⟨_, rfl, rfl⟩ | ⟨_, _, rfl, rfl⟩ | ⟨n1, n2, n3, hq'⟩
      · exact st_same _ _ _
      · show st _ _ _ _ = _
        stne; stne; sone; stne; stne
        rw [h.memok.tag _ _ hb]; simp [Blk.tag, hf]
      · show st _ _ _ _ = _
        stne; stne; sone; stne; stne
        rw [h.memok.tag _ _ hnb]; rfl
      · have x1 := dsep q b' hq' n2
        have x2 := nsep q b' hq' n3
        show st _ _ _ _ = _
        stne; stne; sone; stne; stne
        rw [h.memok.tag _ _ hq']
    · intro q b' hq
      rcases split_some hq with ⟨rfl, rfl⟩ | ⟨_, rfl, rfl⟩ | ⟨_, _, rfl, rfl⟩ | ⟨n1, n2, n3, hq'⟩
      · show st _ _ _ _ = _
        stne; stne; sone; rw [st_same]
      · show st _ _ _ _ = _
        stne; stne; sone; stne; stne
        rw [h.memok.prev _ _ hb]
      · show st _ _ _ _ = _
        stne; rw [st_same]
      · have x1 := dsep q b' hq' n2
        have x2 := nsep q b' hq' n3
        show st _ _ _ _ = _
        stne; stne; sone; stne; stne
        rw [h.memok.prev _ _ hq']
    · intro q b' hq h24
      rcases split_some hq with ⟨rfl, rfl⟩ | ⟨_, rfl, rfl⟩ | ⟨_, _, rfl, rfl⟩ | ⟨n1, n2, n3, hq'⟩
      · show st _ _ _ _ = _
        stne; stne; rw [stOff_same _ _ _ h24, h.memok.off _ b hb h24]
      · show st _ _ _ _ = _
        stne; stne; sone; stne; stne
        rw [h.memok.off _ _ hb h24]
      · show st _ _ _ _ = _
        stne; stne; sone; stne; stne
        rw [h.memok.off _ _ hnb h24]
      · have x1 := dsep q b' hq' n2
        have x2 := nsep q b' hq' n3
        show st _ _ _ _ = _
        stne; stne; sone; stne; stne
        rw [h.memok.off _ _ hq' h24]
    · intro q b' hq hff
      rcases split_some hq with ⟨rfl, rfl⟩ | ⟨_, rfl, rfl⟩ | ⟨_, _, rfl, rfl⟩ | ⟨n1, n2, n3, hq'⟩
      · cases hff
      · show st _ _ _ _ = _
        stne; stne; sone; stne; rw [st_same]
      · show st _ _ _ _ = _
        stne; stne; sone; stne; stne
        rw [h.memok.fsize _ _ hnb hff]
      · have x1 := (dsep q b' hq' n2).imp_left (fun h => h.2 (by simp [hff]))
        have x2 := (nsep q b' hq' n3).imp_left (fun h => h.2 (by simp [hff]))
        show st _ _ _ _ = _
        stne; stne; sone; stne; stne
        rw [h.memok.fsize _ _ hq' hff]
    · refine chain_frame (fun r hr => ?_) h.chain
      obtain ⟨br, hbr, hrf⟩ := (h.flok.mem r).mp hr
      have x1 : r = p ∨ r + 64 ≤ p ∨ p + b.size ≤ r := by
        by_cases e : r = p
        · exact .inl e
        · right; exact (dsep r br hbr e).imp_left (fun h => h.2 (by simp [hrf]))
      have x2 : r = p + b.size ∨ r + 64 ≤ p + b.size ∨ p + b.size + c.hs ≤ r := by
        by_cases e : r = p + b.size
        · exact .inl e
        · right; exact (nsep r br hbr e).imp_left (fun h => h.2 (by simp [hrf]))
      constructor
      · show st _ _ _ _ = _
        stne; stne; sone; stne; stne
      · show st _ _ _ _ = _
        stne; stne; sone; stne; stne
    · refine ⟨h.flok.nodup, fun r => ?_⟩
      rw [h.flok.mem r]
      constructor
      · rintro ⟨br, hbr, hrf⟩
        by_cases e1 : r = p
        · subst e1; exact ⟨_, getP, rfl⟩
        · by_cases e2 : r = p + b.size
          · subst e2
            rw [hnb] at hbr; obtain rfl := Option.some.inj hbr
            exact ⟨_, getN, hrf⟩
          · have : r ≠ p + a := by
              have := dsep r br hbr e1
              omega
            exact ⟨br, by rw [getO r this e1 e2]; exact hbr, hrf⟩
      · rintro ⟨br, hbr, hrf⟩
        rcases split_some hbr with ⟨rfl, rfl⟩ | ⟨_, rfl, rfl⟩ | ⟨_, _, rfl, rfl⟩ | ⟨n1, n2, n3, hq'⟩
        · cases hrf
        · exact ⟨b, hb, hf⟩
        · exact ⟨nb, hnb, hrf⟩
        · exact ⟨br, hq', hrf⟩
    · intro r br br' h1 h2 h3 h4
      rcases split_some h1 with ⟨rfl, rfl⟩ | ⟨_, rfl, rfl⟩ | ⟨_, _, rfl, rfl⟩ | ⟨n1, n2, n3, hr⟩
      · cases h2
      · simp only at h3
        rw [getA] at h3; obtain rfl := Option.some.inj h3; cases h4
      · exact nc _ _ _ hb hf hnb h2
      · have szr := (g.size _ _ hr (by simp [h2])).1
        have x1 := (dsep r br hr n2)
        rcases split_some h3 with ⟨e, rfl⟩ | ⟨_, e, rfl⟩ | ⟨_, _, e, rfl⟩ | ⟨n1', n2', n3', hr'⟩
        · cases h4
        · exact nc _ _ _ hr h2 (e ▸ hb) hf
        · have := g.apart hr hb n2
          have e1 : ext c b = b.size := by simp [ext, hk]
          have e2 : ext c br = br.size := by simp [ext, h2]
          omega
        · exact nc _ _ _ hr h2 hr' h4
    · intro q n' o'
      constructor
      · rintro ⟨b', h1, h2, h3, h4⟩
        rcases split_some h1 with ⟨rfl, rfl⟩ | ⟨_, rfl, rfl⟩ | ⟨_, _, rfl, rfl⟩ | ⟨n1, n2, n3, hr⟩
        · exact .inr ⟨rfl, h3.symm, h4.symm⟩
        · cases h2
        · exact .inl ⟨nb, hnb, h2, h3, h4⟩
        · exact .inl ⟨b', hr, h2, h3, h4⟩
      · rintro (⟨b', h1, h2, h3, h4⟩ | ⟨rfl, rfl, rfl⟩)
        · by_cases e1 : q = p
          · subst e1; exact absurd ⟨b', h1, h2, h3, h4⟩ (pu _ _)
          · by_cases e2 : q = p + b.size
            · subst e2
              rw [hnb] at h1; obtain rfl := Option.some.inj h1
              exact ⟨_, getN, h2, h3, h4⟩
            · have : q ≠ p + a := by
                have := dsep q b' h1 e1
                omega
              exact ⟨b', by rw [getO q this e1 e2]; exact h1, h2, h3, h4⟩
        · exact ⟨_, getA, rfl, rfl, rfl⟩
    · intro x hx
      have x1 := (safe_out hc g hx hb).imp_right (fun h => h.2 hf)
      have x2 := safe_out hc g hx hnb
      show st _ _ _ _ = _
      rcases Nat.lt_or_ge x p with hlt | hge
      · stne; stne; sone; stne; stne
      · stne; stne; sone; stne; stne
  · have hpf : p ∈ fl := (h.flok.mem p).mpr ⟨b, hb, hf⟩
    obtain ⟨m', e, hch, mo, nd, hmem, hm⟩ := remove_core hc h hpf
    have ef : takeFree c s p size = ({ s with mem := st m' (hSize p) b.size, free := hd (fl.erase p), allocated := (s.allocated + b.size) % W }, p + c.hs) := by
      simp only [takeFree, fsz, hwm, if_neg hbig, e]
    rw [ef]
    have g1 := geo_setKind g hb hk (k := .used) (by simp)
    have getP : setKind B p b .used p = some { b with kind := .used } := by simp [setKind]
    have getO : ∀ q, q ≠ p → setKind B p b .used q = B q := fun q hq => by rw [setKind, upd_ne _ _ _ _ hq]
    have dsep : ∀ q b', B q = some b' → q ≠ p → (q + c.hs ≤ p ∧ (b'.kind ≠ .term → q + 64 ≤ p)) ∨ p + 64 ≤ q := by
      intro q b' hq hne
      rcases sep hc g hq hb hne with h | h
      · exact .inl h
      · exact .inr (h.2 hk)
    refine ⟨setKind B p b .used, fl.erase p, p, b.size, ⟨g1, ⟨?_, ?_, ?_, ?_⟩, ?_, rfl, ?_⟩, ?_, rfl,
      hle, by omega, ⟨?_, pu⟩, by omega, by omega, rfl, rfl, ?_⟩
    · intro q b' hq
      by_cases e1 : q = p
      · subst e1; rw [getP] at hq; obtain rfl := Option.some.inj hq
        exact st_same _ _ _
      · rw [getO q e1] at hq
        have := dsep q b' hq e1
        show st _ _ _ _ = _
        stne; exact mo.tag _ _ hq
    · intro q b' hq
      by_cases e1 : q = p
      · subst e1; rw [getP] at hq; obtain rfl := Option.some.inj hq
        show st _ _ _ _ = _
        stne; rw [mo.prev _ b hb]
      · rw [getO q e1] at hq
        have := dsep q b' hq e1
        show st _ _ _ _ = _
        stne; exact mo.prev _ _ hq
    · intro q b' hq h24
      by_cases e1 : q = p
      · subst e1; rw [getP] at hq; obtain rfl := Option.some.inj hq
        show st _ _ _ _ = _
        stne; rw [mo.off _ b hb h24]
      · rw [getO q e1] at hq
        have := dsep q b' hq e1
        show st _ _ _ _ = _
        stne; exact mo.off _ _ hq h24
    · intro q b' hq hff
      by_cases e1 : q = p
      · subst e1; rw [getP] at hq; obtain rfl := Option.some.inj hq
        cases hff
      · rw [getO q e1] at hq
        have := (dsep q b' hq e1).imp_left (fun h => h.2 (by simp [hff]))
        show st _ _ _ _ = _
        stne; exact mo.fsize _ _ hq hff
    · refine chain_frame (fun r hr => ?_) hch
      obtain ⟨hr1, hr2⟩ := (hmem r).mp hr
      obtain ⟨br, hbr, hrf⟩ := (h.flok.mem r).mp hr1
      have := (dsep r br hbr hr2).imp_left (fun h => h.2 (by simp [hrf]))
      constructor
      · show st _ _ _ _ = _
        stne
      · show st _ _ _ _ = _
        stne
    · refine ⟨nd, fun r => ?_⟩
      rw [hmem, h.flok.mem r]
      constructor
      · rintro ⟨⟨br, hbr, hrf⟩, hne⟩
        exact ⟨br, by rw [getO r hne]; exact hbr, hrf⟩
      · rintro ⟨br, hbr, hrf⟩
        by_cases e1 : r = p
        · subst e1; rw [getP] at hbr; obtain rfl := Option.some.inj hbr; cases hrf
        · rw [getO r e1] at hbr; exact ⟨⟨br, hbr, hrf⟩, e1⟩
    · intro r br br' h1 h2 h3 h4
      by_cases e1 : r = p
      · subst e1; rw [getP] at h1; obtain rfl := Option.some.inj h1; cases h2
      · rw [getO r e1] at h1
        by_cases e2 : r + br.size = p
        · rw [e2, getP] at h3; obtain rfl := Option.some.inj h3; cases h4
        · rw [getO _ e2] at h3; exact nc _ _ _ h1 h2 h3 h4
    · intro q n' o'
      constructor
      · rintro ⟨b', h1, h2, h3, h4⟩
        by_cases e1 : q = p
        · subst e1; rw [getP] at h1; obtain rfl := Option.some.inj h1
          exact .inr ⟨rfl, h3.symm, h4.symm⟩
        · rw [getO q e1] at h1; exact .inl ⟨b', h1, h2, h3, h4⟩
      · rintro (⟨b', h1, h2, h3, h4⟩ | ⟨rfl, rfl, rfl⟩)
        · by_cases e1 : q = p
          · subst e1; exact absurd ⟨b', h1, h2, h3, h4⟩ (pu _ _)
          · exact ⟨b', by rw [getO q e1]; exact h1, h2, h3, h4⟩
        · exact ⟨_, getP, rfl, rfl, rfl⟩
    · intro x hx
      have x1 := (safe_out hc g hx hb).imp_right (fun h => h.2 hf)
      show st _ _ _ _ = _
      stne
      apply hm
      intro r hr
      obtain ⟨br, hbr, hrf⟩ := (h.flok.mem r).mp ((hmem r).mp hr).1
      have y := (safe_out hc g hx hbr).imp_right (fun h => h.2 hrf)
      have := (g.size _ _ hbr (by simp [hrf])).1
      simp only [fNext, fPrev]
      omega

end Verif.Alloc
