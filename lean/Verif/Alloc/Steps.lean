import Verif.Alloc.Mem

/-! # Preservation of the data structure, one step at a time -/

namespace Verif.Alloc

variable {c : Cfg} {B : Blocks} {cs : List Chunk} {fl : List Nat}

theorem sep (hc : c.Ok) (g : Geo c B cs) {p q : Nat} {b b' : Blk} (h : B p = some b) (h' : B q = some b') (hne : p ≠ q) :
    (p + c.hs ≤ q ∧ (b.kind ≠ .term → p + 64 ≤ q)) ∨ (q + c.hs ≤ p ∧ (b'.kind ≠ .term → q + 64 ≤ p)) := by
  have e1 := g.ext_pos hc h
  have e2 := g.ext_pos hc h'
  have s1 := g.size _ _ h
  have s2 := g.size _ _ h'
  have x1 : b.kind ≠ .term → ext c b = b.size := by intro h; simp [ext, h]
  have x2 : b'.kind ≠ .term → ext c b' = b'.size := by intro h; simp [ext, h]
  rcases g.apart h h' hne with ha | ha
  · left
    refine ⟨by omega, fun hk => ?_⟩
    have := s1 hk; have := x1 hk; omega
  · right
    refine ⟨by omega, fun hk => ?_⟩
    have := s2 hk; have := x2 hk; omega

theorem hs_bounds (hc : c.Ok) : 16 ≤ c.hs ∧ c.hs ≤ 24 := by rcases hc with h | h <;> omega

/-- A header word is not a list link. -/
theorem hdr_not_link (hc : c.Ok) (g : Geo c B cs) {p q : Nat} {b b' : Blk} (h : B p = some b) (h' : B q = some b')
    (hf : b'.kind = .free) {a : Nat} (h1 : p ≤ a) (h2 : a < p + c.hs ∨ (b.kind ≠ .term ∧ a = fSize c p)) :
    a ≠ fNext c q ∧ a ≠ fPrev c q := by
  have hb := hs_bounds hc
  unfold fSize at h2
  unfold fNext fPrev
  by_cases hqp : p = q
  · subst hqp; omega
  · have sp := sep hc g h h' hqp
    have : b'.kind ≠ .term := by simp [hf]
    rcases sp with ⟨h3, h4⟩ | ⟨h3, h4⟩
    · rcases h2 with h2 | ⟨h5, h6⟩
      · omega
      · have := h4 h5; omega
    · have := h4 this; omega

/-- Used blocks with size and executable offset. -/
def U (B : Blocks) (p n o : Nat) : Prop := ∃ b, B p = some b ∧ b.kind = .used ∧ b.size = n ∧ b.off = o

/-- `NoCoal`, except for the block at `x` and its successor. -/
def NoCoalX (B : Blocks) (x : Nat) : Prop :=
  ∀ p b b', B p = some b → b.kind = .free → B (p + b.size) = some b' → b'.kind = .free → p = x

/-- Memory of a merged block. -/
theorem memok_merge (hc : c.Ok) (g : Geo c B cs) {m m' : Nat → Nat} (h : MemOk c m B) {p : Nat} {b b2 b3 : Blk}
    (hb : B p = some b) (hk : b.kind = .free) (hb2 : B (p + b.size) = some b2) (hk2 : b2.kind ≠ .term)
    (hb3 : B (p + b.size + b2.size) = some b3) {l : List Nat} (hl : ∀ q ∈ l, ∃ b, B q = some b ∧ b.kind = .free)
    (h1 : m' (fSize c p) = b.size + b2.size) (h2 : m' (hPrev (p + b.size + b2.size)) = b.size + b2.size)
    (hm : ∀ a, a ≠ fSize c p → a ≠ hPrev (p + b.size + b2.size) → (∀ q ∈ l, a ≠ fNext c q ∧ a ≠ fPrev c q) → m' a = m a) :
    MemOk c m' (merge B p b b2 b3) := by
  have hsb := hs_bounds hc
  have key : ∀ q b', B q = some b' → ∀ a, q ≤ a → (a < q + c.hs ∨ (b'.kind ≠ .term ∧ a = fSize c q)) →
      a ≠ fSize c p → a ≠ hPrev (p + b.size + b2.size) → m' a = m a := by
    intro q b' hq a h1 h2 h3 h4
    apply hm a h3 h4
    intro r hr
    obtain ⟨b'', hb'', hf⟩ := hl r hr
    exact hdr_not_link hc g hq hb'' hf h1 h2
  -- header words of the blocks are at different addresses
  have d3 : ∀ q b', B q = some b' → q ≠ p + b.size + b2.size →
      q + c.hs ≤ p + b.size + b2.size ∧ (b'.kind ≠ .term → q + 64 ≤ p + b.size + b2.size) ∨ p + b.size + b2.size + c.hs ≤ q := by
    intro q b' hq hne
    rcases sep hc g hq hb3 hne with h | h
    · exact .inl h
    · exact .inr h.1
  have dp : ∀ q b', B q = some b' → q ≠ p → q + c.hs ≤ p ∨ p + 64 ≤ q := by
    intro q b' hq hne
    rcases sep hc g hq hb hne with h | h
    · exact .inl h.1
    · exact .inr (h.2 (by simp [hk]))
  have dpf : ∀ q b', B q = some b' → q ≠ p → b'.kind = .free → q + 64 ≤ p ∨ p + 64 ≤ q := by
    intro q b' hq hne hf
    rcases sep hc g hq hb hne with h | h
    · exact .inl (h.2 (by simp [hf]))
    · exact .inr (h.2 (by simp [hk]))
  have sz := (g.size _ _ hb (by simp [hk])).1
  have sz2 := (g.size _ _ hb2 hk2).1
  have d3' := dp _ _ hb3 (by omega)
  refine ⟨fun q b' hq => ?_, fun q b' hq => ?_, fun q b' hq h24 => ?_, fun q b' hq hf => ?_⟩
  · rcases merge_some hq with ⟨rfl, rfl⟩ | ⟨_, rfl, rfl⟩ | ⟨n1, n2, n3, hq'⟩
    · rw [key _ _ hb3 _ (by simp [hSize]) (by simp only [hSize]; omega) (by simp only [hSize, fSize]; omega) (by simp only [hSize, hPrev]; omega), h.tag _ _ hb3]; rfl
    · rw [key _ _ hb _ (by simp [hSize]) (by simp only [hSize]; omega) (by simp only [hSize, fSize]; omega) (by simp only [hSize, hPrev]; omega), h.tag _ _ hb]
      simp [Blk.tag, hk]
    · have x1 := d3 q b' hq' n1
      have x2 := dp q b' hq' n2
      rw [key _ _ hq' _ (by simp [hSize]) (by simp only [hSize]; omega) (by simp only [hSize, fSize]; omega) (by simp only [hSize, hPrev]; omega), h.tag _ _ hq']
  · rcases merge_some hq with ⟨rfl, rfl⟩ | ⟨_, rfl, rfl⟩ | ⟨n1, n2, n3, hq'⟩
    · exact h2
    · rw [key _ _ hb _ (by simp [hPrev]) (by simp only [hPrev]; omega) (by simp only [hPrev, fSize]; omega) (by simp only [hPrev]; omega), h.prev _ _ hb]
    · have x1 := d3 q b' hq' n1
      have x2 := dp q b' hq' n2
      rw [key _ _ hq' _ (by simp [hPrev]) (by simp only [hPrev]; omega) (by simp only [hPrev, fSize]; omega) (by simp only [hPrev]; omega), h.prev _ _ hq']
  · rcases merge_some hq with ⟨rfl, rfl⟩ | ⟨_, rfl, rfl⟩ | ⟨n1, n2, n3, hq'⟩
    · rw [key _ _ hb3 _ (by simp [hOff]) (by simp only [hOff]; omega) (by simp only [hOff, fSize]; omega) (by simp only [hOff, hPrev]; omega), h.off _ _ hb3 h24]
    · rw [key _ _ hb _ (by simp [hOff]) (by simp only [hOff]; omega) (by simp only [hOff, fSize]; omega) (by simp only [hOff, hPrev]; omega), h.off _ _ hb h24]
    · have x1 := d3 q b' hq' n1
      have x2 := dp q b' hq' n2
      rw [key _ _ hq' _ (by simp [hOff]) (by simp only [hOff]; omega) (by simp only [hOff, fSize]; omega) (by simp only [hOff, hPrev]; omega), h.off _ _ hq' h24]
  · rcases merge_some hq with ⟨rfl, rfl⟩ | ⟨_, rfl, rfl⟩ | ⟨n1, n2, n3, hq'⟩
    · have hf3 : b3.kind = .free := hf
      have x2 := dpf _ b3 hb3 (by omega) hf3
      rw [key _ _ hb3 _ (by simp [fSize]; omega) (.inr ⟨by simp [hf3], rfl⟩) (by simp only [fSize]; omega) (by simp only [fSize, hPrev]; omega), h.fsize _ _ hb3 hf3]
    · exact h1
    · have x1 := d3 q b' hq' n1
      have x2 := dpf q b' hq' n2 hf
      have := x1.imp_left (fun h => h.2 (by simp [hf]))
      rw [key _ _ hq' _ (by simp [fSize]; omega) (.inr ⟨by simp [hf], rfl⟩) (by simp only [fSize]; omega) (by simp only [fSize, hPrev]; omega), h.fsize _ _ hq' hf]

theorem list_split {l : List Nat} {p : Nat} (h : p ∈ l) : ∃ l1 l2, l = l1 ++ p :: l2 := List.append_of_mem h

theorem erase_mid {l1 l2 : List Nat} {p : Nat} (h : (l1 ++ p :: l2).Nodup) : (l1 ++ p :: l2).erase p = l1 ++ l2 := by
  have : p ∉ l1 := fun hp => (List.nodup_append.mp h).2.2 p hp p (by simp) rfl
  rw [List.erase_append_right _ this, List.erase_cons_head]

/-- `removeFree` on a well formed state: the list loses `p`, headers and everything safe stays. -/
theorem remove_core (hc : c.Ok) {s : ASt} (h : Core c s B cs fl) {p : Nat} (hp : p ∈ fl) :
    ∃ m', removeFree c s p = { s with mem := m', free := hd (fl.erase p) } ∧ Chain c m' 0 (fl.erase p) ∧ MemOk c m' B ∧
      (fl.erase p).Nodup ∧ (∀ q, q ∈ fl.erase p ↔ q ∈ fl ∧ q ≠ p) ∧
      (∀ a, (∀ q ∈ fl.erase p, a ≠ fNext c q ∧ a ≠ fPrev c q) → m' a = s.mem a) := by
  have hmem : ∀ q, q ∈ fl.erase p ↔ q ∈ fl ∧ q ≠ p := fun q => by rw [h.flok.nodup.mem_erase_iff, and_comm]
  obtain ⟨l1, l2, rfl⟩ := list_split hp
  obtain ⟨m', e, hch, hm⟩ := removeFree_spec (h.far hc) h.chain h.head
  have er := erase_mid h.flok.nodup
  refine ⟨m', ?_, ?_, ?_, h.flok.nodup.erase _, hmem, ?_⟩
  · rw [er]; exact e
  · rw [er]; exact hch
  · refine memok_links hc h.geo h.memok (l := l1 ++ l2) (fun q hq => (h.flok.mem q).mp ?_) hm
    rw [← er] at hq
    exact ((hmem q).mp hq).1
  · rw [er]; exact hm

end Verif.Alloc
