import Verif.Alloc.Chain

/-! # Memory level effect of the list operations -/

namespace Verif.Alloc

variable {c : Cfg} {B : Blocks} {cs : List Chunk} {fl : List Nat}

/-- Read through a store to another address. -/
macro "stne" : tactic =>
  `(tactic| rw [st_ne _ _ _ _ (by simp only [hSize, hPrev, hOff, fPrev, fNext, fSize, ne_eq]; omega)])

/-- Everything about the memory and the free list except accounting. -/
structure Core (c : Cfg) (s : ASt) (B : Blocks) (cs : List Chunk) (fl : List Nat) : Prop where
  geo : Geo c B cs
  memok : MemOk c s.mem B
  chain : Chain c s.mem 0 fl
  head : s.free = hd fl
  flok : FlOk B fl

/-- Addresses which the allocator may not change: the user part of used blocks, and everything outside of its chunks. -/
def Safe (c : Cfg) (B : Blocks) (cs : List Chunk) (a : Nat) : Prop :=
  (∃ p b, B p = some b ∧ b.kind = .used ∧ p + c.hs ≤ a ∧ a < p + b.size) ∨
  ∀ k ∈ cs, a < k.base ∨ k.base + k.size ≤ a

theorem safe_out (hc : c.Ok) (g : Geo c B cs) {a q : Nat} {b : Blk} (h : Safe c B cs a) (hq : B q = some b) :
    a < q ∨ q + c.hs ≤ a ∧ (b.kind = .free → q + b.size ≤ a) := by
  have hx := g.ext_pos hc hq
  have hf : b.kind = .free → ext c b = b.size := by intro h; simp [ext, h]
  rcases h with ⟨p, b0, hp, hu, h1, h2⟩ | h
  · have e0 : ext c b0 = b0.size := by simp [ext, hu]
    by_cases hqp : q = p
    · subst hqp
      rw [hp] at hq; obtain rfl := Option.some.inj hq
      right; exact ⟨h1, fun h => by rw [hu] at h; cases h⟩
    · rcases g.apart hq hp hqp with h | h
      · right; refine ⟨by omega, fun hh => ?_⟩
        have := hf hh; omega
      · left; omega
  · obtain ⟨k, hk, i⟩ := g.inside _ _ hq
    rcases h k hk with h | h
    · left; omega
    · right; refine ⟨by omega, fun hh => ?_⟩
      have := hf hh; omega

theorem Core.far (_hc : c.Ok) {s : ASt} (h : Core c s B cs fl) : Far fl := by
  refine ⟨h.flok.nodup, fun p hp => ?_, fun p hp q hq hne => ?_⟩
  · obtain ⟨b, hb, _⟩ := (h.flok.mem p).mp hp
    exact (h.geo.align _ _ hb).2
  · obtain ⟨b, hb, hf⟩ := (h.flok.mem p).mp hp
    obtain ⟨b', hb', hf'⟩ := (h.flok.mem q).mp hq
    have s1 := (h.geo.size _ _ hb (by simp [hf])).1
    have s2 := (h.geo.size _ _ hb' (by simp [hf'])).1
    have e1 : ext c b = b.size := by simp [ext, hf]
    have e2 : ext c b' = b'.size := by simp [ext, hf']
    have := h.geo.apart hb hb' hne
    omega

/-- Headers survive a change of the list links. -/
theorem memok_links (hc : c.Ok) (g : Geo c B cs) {m m' : Nat → Nat} (h : MemOk c m B) {l : List Nat}
    (hl : ∀ q ∈ l, ∃ b, B q = some b ∧ b.kind = .free)
    (hm : ∀ a, (∀ q ∈ l, a ≠ fNext c q ∧ a ≠ fPrev c q) → m' a = m a) : MemOk c m' B := by
  have key : ∀ p b, B p = some b → ∀ a, p ≤ a → (a < p + c.hs ∨ (b.kind = .free ∧ a = fSize c p)) → m' a = m a := by
    intro p b hp a h1 h2
    apply hm
    intro q hq
    obtain ⟨b', hb', hf⟩ := hl q hq
    have sz := (g.size _ _ hb' (by simp [hf])).1
    have e' : ext c b' = b'.size := by simp [ext, hf]
    have ex := g.ext_pos hc hp
    have e2 : b.kind = .free → 64 ≤ ext c b := by
      intro hh; have := (g.size _ _ hp (by simp [hh])).1; simp [ext, hh]; omega
    unfold fSize at h2
    unfold fNext fPrev
    have : 16 ≤ c.hs ∧ c.hs ≤ 24 := by rcases hc with h | h <;> omega
    by_cases hqp : p = q
    · subst hqp; omega
    · have ap := g.apart hp hb' hqp
      rcases h2 with h2 | ⟨h2, h3⟩
      · omega
      · have := e2 h2; omega
  refine ⟨fun p b hp => ?_, fun p b hp => ?_, fun p b hp h24 => ?_, fun p b hp hf => ?_⟩
  · rw [key p b hp _ (by simp [hSize]) (by rcases hc with h | h <;> simp [hSize] <;> omega)]; exact h.tag p b hp
  · rw [key p b hp _ (by simp [hPrev]) (by rcases hc with h | h <;> simp [hPrev] <;> omega)]; exact h.prev p b hp
  · rw [key p b hp _ (by simp [hOff]) (by simp [hOff]; omega)]; exact h.off p b hp h24
  · rw [key p b hp _ (by simp [fSize]; omega) (.inr ⟨hf, rfl⟩)]; exact h.fsize p b hp hf

theorem hd_mem {l : List Nat} (h : l ≠ []) : hd l ∈ l := by cases l <;> simp_all [hd]

theorem hd_append (l1 l2 : List Nat) : hd (l1 ++ l2) = if l1 = [] then hd l2 else hd l1 := by cases l1 <;> simp [hd]

theorem getLastD_mem {l : List Nat} (h : l ≠ []) (d : Nat) : l.getLastD d ∈ l := by
  rw [List.getLastD_eq_getLast?, List.getLast?_eq_some_getLast h]
  simp only [Option.getD_some]
  exact List.getLast_mem _

theorem hd_zero {l : List Nat} (hl : ∀ p ∈ l, 0 < p) : hd l = 0 ↔ l = [] := by
  cases l with
  | nil => simp [hd]
  | cons p t => have := hl p (by simp); simp [hd]; omega

/-- What `removeFree` does to a well formed list. -/
theorem removeFree_spec {s : ASt} {l1 l2 : List Nat} {p : Nat} (hfar : Far (l1 ++ p :: l2))
    (hch : Chain c s.mem 0 (l1 ++ p :: l2)) (hh : s.free = hd (l1 ++ p :: l2)) :
    ∃ m', removeFree c s p = { s with mem := m', free := hd (l1 ++ l2) } ∧ Chain c m' 0 (l1 ++ l2) ∧
      ∀ a, (∀ q ∈ l1 ++ l2, a ≠ fNext c q ∧ a ≠ fPrev c q) → m' a = s.mem a := by
  obtain ⟨en, ep⟩ := chain_links hch
  have pos2 : ∀ q ∈ l2, 0 < q := fun q hq => hfar.pos q (by simp [hq])
  have pos1 : ∀ q ∈ l1, 0 < q := fun q hq => hfar.pos q (by simp [hq])
  have z2 := hd_zero pos2
  have z1 : l1.getLastD 0 = 0 ↔ l1 = [] := by
    constructor
    · intro h; by_contra hne
      have := pos1 _ (getLastD_mem hne 0); omega
    · rintro rfl; rfl
  have pne : ∀ q ∈ l1 ++ l2, p + 64 ≤ q ∨ q + 64 ≤ p := by
    intro q hq
    have nd := hfar.nodup
    have : p ≠ q := by
      rintro rfl
      have nd' := List.nodup_append.mp nd
      rcases List.mem_append.mp hq with h | h
      · exact nd'.2.2 p h p (by simp) rfl
      · exact (List.nodup_cons.mp nd'.2.1).1 h
    exact hfar.far p (by simp) q (by simp at hq ⊢; grind) this
  have far2 : ∀ q ∈ l1 ++ l2, ∀ r ∈ l1 ++ l2, q ≠ r → q + 64 ≤ r ∨ r + 64 ≤ q := fun q hq r hr =>
    hfar.far q (by simp at hq ⊢; grind) r (by simp at hr ⊢; grind)
  have nd12 : ∀ q ∈ l1, q ∉ l2 := by
    intro q h1 h2
    have := (List.nodup_append.mp hfar.nodup).2.2 q h1 q (by simp [h2])
    exact this rfl
  -- the memory after the first write
  generalize hm1 : (if s.mem (fNext c p) ≠ 0 then st s.mem (fPrev c (s.mem (fNext c p))) (s.mem (fPrev c p)) else s.mem) = m1
  have m1p : m1 (fPrev c p) = l1.getLastD 0 ∧ m1 (fNext c p) = hd l2 := by
    rw [en, ep] at hm1
    subst hm1
    split
    · next h =>
      have : hd l2 ∈ l1 ++ l2 := by
        have : l2 ≠ [] := fun e => h (z2.mpr e)
        simp [hd_mem this]
      have := pne _ this
      constructor
      · stne; exact ep
      · stne; exact en
    · exact ⟨ep, en⟩
  rw [en, ep] at hm1
  have m1same : l2 ≠ [] → m1 (fPrev c (hd l2)) = l1.getLastD 0 := by
    intro h
    subst hm1
    rw [if_pos (fun e => h (z2.mp e)), st_same]
  have m1other : ∀ a, (l2 = [] ∨ a ≠ fPrev c (hd l2)) → m1 a = s.mem a := by
    intro a h
    subst hm1
    split
    · next hne =>
      rcases h with h | h
      · exact absurd (z2.mpr h) hne
      · rw [st_ne _ _ _ _ h]
    · rfl
  have unf : removeFree c s p = if m1 (fPrev c p) ≠ 0 then
      { s with mem := st m1 (fNext c (m1 (fPrev c p))) (m1 (fNext c p)) }
    else { s with mem := m1, free := m1 (fNext c p) } := by
    subst hm1
    simp only [removeFree, en, ep]
  rw [m1p.1, m1p.2] at unf
  by_cases hl1 : l1 = []
  · refine ⟨m1, ?_, ?_, ?_⟩
    · rw [unf, if_neg (by simp [hl1])]; simp [hl1]
    · refine chain_remove hfar (fun q hq => ⟨fun _ => m1other _ ?_, fun h => m1other _ ?_⟩) m1same (fun h => absurd hl1 h) hch
      · by_cases h2 : l2 = []
        · exact .inl h2
        · right
          have := far2 q hq (hd l2) (by simp [hd_mem h2])
          unfold fNext fPrev
          omega
      · rcases h with h | h
        · right
          by_cases h2 : l2 = []
          · simp [hl1, h2] at hq
          · unfold fPrev; omega
        · exact .inl h
    · intro a ha
      apply m1other
      by_cases h2 : l2 = []
      · exact .inl h2
      · exact .inr (ha (hd l2) (by simp [hd_mem h2])).2
  · have lm := getLastD_mem hl1 0
    have lm' : l1.getLastD 0 ∈ l1 ++ l2 := by simp only [List.mem_append]; exact .inl lm
    refine ⟨st m1 (fNext c (l1.getLastD 0)) (hd l2), ?_, ?_, ?_⟩
    · rw [unf, if_pos (fun e => hl1 (z1.mp e))]
      congr 1
      rw [hh, hd_append, hd_append]; simp [hl1]
    · have other : ∀ q ∈ l1 ++ l2, fPrev c q ≠ fNext c (l1.getLastD 0) := by
        intro q hq
        have := far2 q hq _ lm'
        unfold fNext fPrev
        omega
      refine chain_remove hfar (fun q hq => ⟨fun h => ?_, fun h => ?_⟩) (fun h => ?_) (fun _ => by rw [st_same]) hch
      · have hne : q ≠ l1.getLastD 0 := by rcases h with h | h; exact h; exact absurd h hl1
        rw [st_ne _ _ _ _ (by unfold fNext; omega)]
        apply m1other
        by_cases h2 : l2 = []
        · exact .inl h2
        · right
          have := far2 q hq (hd l2) (by simp [hd_mem h2])
          unfold fNext fPrev
          omega
      · rw [st_ne _ _ _ _ (other q hq)]
        apply m1other
        rcases h with h | h
        · right; unfold fPrev; omega
        · exact .inl h
      · rw [st_ne _ _ _ _ (other _ (by simp [hd_mem h]))]
        exact m1same h
    · intro a ha
      rw [st_ne _ _ _ _ (ha _ lm').1]
      apply m1other
      by_cases h2 : l2 = []
      · exact .inl h2
      · exact .inr (ha (hd l2) (by simp [hd_mem h2])).2

/-- What `insertFree` does. -/
theorem insertFree_spec (hc : c.Ok) {s : ASt} {l : List Nat} {p n : Nat} (hfar : Far (p :: l))
    (hch : Chain c s.mem 0 l) (hh : s.free = hd l) :
    ∃ m', insertFree c s p n = { s with mem := m', free := p } ∧ Chain c m' 0 (p :: l) ∧
      m' (hSize p) = 0 ∧ m' (fSize c p) = n ∧
      ∀ a, a ≠ hSize p → a ≠ fSize c p → (∀ q ∈ p :: l, a ≠ fNext c q ∧ a ≠ fPrev c q) → m' a = s.mem a := by
  have hsz : 16 ≤ c.hs ∧ c.hs ≤ 24 := by rcases hc with h | h <;> omega
  have hd0 := hd_zero (l := l) (fun q hq => hfar.pos q (by simp [hq]))
  have pne : ∀ q ∈ l, p + 64 ≤ q ∨ q + 64 ≤ p := by
    intro q hq
    exact hfar.far p (by simp) q (by simp [hq]) (fun e => (List.nodup_cons.mp hfar.nodup).1 (e ▸ hq))
  refine ⟨_, rfl, ⟨?_, ?_, ?_⟩, ?_, ?_, ?_⟩
  · rw [hh]
    split
    · next h =>
      have := pne _ (hd_mem (fun e => h (hd0.mpr e)))
      stne; stne; rw [st_same]
    · stne; rw [st_same]
  · rw [hh]
    split
    · next h =>
      have := pne _ (hd_mem (fun e => h (hd0.mpr e)))
      stne; rw [st_same]
    · rw [st_same]
  · rw [hh]
    refine chain_prev (List.nodup_cons.mp hfar.nodup).2 (fun q hq => ?_) (fun q hq hne => ?_) (fun h => ?_) hch
    · have hp := pne q hq
      have := hfar.far q (by simp [hq]) (hd l) (by simp [hd_mem (List.ne_nil_of_mem hq)])
      split
      · stne; stne; stne; stne; stne
      · stne; stne; stne; stne
    · have hp := pne q hq
      split
      · stne; stne; stne; stne; stne
      · stne; stne; stne; stne
    · rw [if_pos (fun e => h (hd0.mp e)), st_same]
  · rw [hh]
    split
    · next h =>
      have := pne _ (hd_mem (fun e => h (hd0.mpr e)))
      stne; stne; stne; stne; rw [st_same]
    · stne; stne; stne; rw [st_same]
  · rw [hh]
    split
    · next h =>
      have := pne _ (hd_mem (fun e => h (hd0.mpr e)))
      stne; stne; stne; rw [st_same]
    · stne; stne; rw [st_same]
  · intro a h1 h2 h3
    rw [hh]
    have hp := h3 p (by simp)
    split
    · next h =>
      have := h3 (hd l) (by simp [hd_mem (fun e => h (hd0.mpr e))])
      rw [st_ne _ _ _ _ this.2, st_ne _ _ _ _ hp.2, st_ne _ _ _ _ hp.1, st_ne _ _ _ _ h2, st_ne _ _ _ _ h1]
    · rw [st_ne _ _ _ _ hp.2, st_ne _ _ _ _ hp.1, st_ne _ _ _ _ h2, st_ne _ _ _ _ h1]

/-- The search loop. -/
theorem findFree_spec {m : Nat → Nat} {l : List Nat} {prev size fuel : Nat} (hpos : ∀ p ∈ l, 0 < p)
    (hch : Chain c m prev l) (hf : l.length ≤ fuel) :
    ∃ r, findFree c m size fuel (hd l) = some r ∧
      ((r = 0 ∧ ∀ p ∈ l, m (fSize c p) < size) ∨ (r ∈ l ∧ size ≤ m (fSize c r))) := by
  induction l generalizing prev fuel with
  | nil => exact ⟨0, by cases fuel <;> simp [hd, findFree], .inl ⟨rfl, by simp⟩⟩
  | cons p t ih =>
    obtain ⟨f, rfl⟩ : ∃ f, fuel = f + 1 := ⟨fuel - 1, by simp at hf; omega⟩
    have hp := hpos p (by simp)
    obtain ⟨p', rfl⟩ : ∃ p', p = p' + 1 := ⟨p - 1, by omega⟩
    show ∃ r, findFree c m size (f + 1) (p' + 1) = some r ∧ _
    unfold findFree
    split
    · next h => exact ⟨_, rfl, .inr ⟨by simp, h⟩⟩
    · next h =>
      obtain ⟨r, hr, h'⟩ := ih (fun q hq => hpos q (by simp [hq])) hch.2.2 (by simpa using hf)
      rw [hch.1]
      refine ⟨r, hr, ?_⟩
      rcases h' with ⟨h1, h2⟩ | ⟨h1, h2⟩
      · left; refine ⟨h1, fun q hq => ?_⟩
        rcases List.mem_cons.mp hq with rfl | hq
        · exact Nat.lt_of_not_le h
        · exact h2 q hq
      · right; exact ⟨by simp [h1], h2⟩

end Verif.Alloc
