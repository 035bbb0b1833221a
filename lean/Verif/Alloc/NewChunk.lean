import Verif.Alloc.Malloc

/-! # Allocation from a new chunk -/

namespace Verif.Alloc

variable {c : Cfg} {B : Blocks} {cs : List Chunk} {fl : List Nat}

/-- The chunk obtained for a block of `size` bytes. -/
theorem chunkSize_spec (_hc : c.Ok) {size : Nat} (hs8 : size % 8 = 0) (hw : size + extra c + 0x10000 ≤ W) :
    size + extra c ≤ chunkSize c size ∧ chunkSize c size < size + extra c + 0x10000 ∧ chunkSize c size % 8 = 0 ∧
    chunkSize c size % 0x10000 = 0 := by
  unfold chunkSize
  rw [Nat.mod_eq_of_lt (by omega)]
  omega

/-- Blocks outside of the new chunk. -/
theorem out_new (g : Geo c B cs) {base n : Nat} (hd : ∀ k' ∈ cs, base + n ≤ k'.base ∨ k'.base + k'.size ≤ base)
    {q : Nat} {b : Blk} (h : B q = some b) : q + ext c b ≤ base ∨ base + n ≤ q := by
  obtain ⟨k', hk', i⟩ := g.inside _ _ h
  have := hd k' hk'
  omega

theorem core_havoc (hc : c.Ok) {s : ASt} (h : Core c s B cs fl) {base n : Nat} (data : Nat → Nat)
    (hd : ∀ k' ∈ cs, base + n ≤ k'.base ∨ k'.base + k'.size ≤ base) :
    Core c { s with mem := havoc s.mem base n data } B cs fl := by
  have g := h.geo
  have key : ∀ q b', B q = some b' → ∀ a, q ≤ a → a < q + ext c b' → havoc s.mem base n data a = s.mem a := by
    intro q b' hq a h1 h2
    have := out_new g hd hq
    rw [havoc, if_neg (by omega)]
  have hsb := hs_bounds hc
  refine ⟨g, ⟨?_, ?_, ?_, ?_⟩, ?_, h.head, h.flok⟩
  · intro q b' hq
    have hx := g.ext_pos hc hq
    exact (key q b' hq _ (by simp [hSize]) (by simp only [hSize]; omega)).trans (h.memok.tag _ _ hq)
  · intro q b' hq
    have hx := g.ext_pos hc hq
    exact (key q b' hq _ (by simp [hPrev]) (by simp only [hPrev]; omega)).trans (h.memok.prev _ _ hq)
  · intro q b' hq h24
    have hx := g.ext_pos hc hq
    exact (key q b' hq _ (by simp [hOff]) (by simp only [hOff]; omega)).trans (h.memok.off _ _ hq h24)
  · intro q b' hq hff
    have s1 := (g.size _ _ hq (by simp [hff])).1
    have e1 : ext c b' = b'.size := by simp [ext, hff]
    exact (key q b' hq _ (by simp [fSize]; omega) (by simp only [fSize]; omega)).trans (h.memok.fsize _ _ hq hff)
  · refine chain_frame (fun r hr => ?_) h.chain
    obtain ⟨br, hbr, hrf⟩ := (h.flok.mem r).mp hr
    have s1 := (g.size _ _ hbr (by simp [hrf])).1
    have e1 : ext c br = br.size := by simp [ext, hrf]
    exact ⟨key r br hbr _ (by simp [fNext]) (by simp only [fNext]; omega), key r br hbr _ (by simp [fPrev]; omega) (by simp only [fPrev]; omega)⟩

theorem newChunk_ok (hc : c.Ok) {s : ASt} (h : Core c s B cs fl) (nc : NoCoal B) {base eoff size : Nat}
    (hsz : 64 ≤ size) (hs8 : size % 8 = 0) (hw : size + extra c + 0x10000 ≤ W)
    (hb : 4096 ≤ base) (hb8 : base % 8 = 0) (hfit : base + chunkSize c size ≤ W)
    (hd' : ∀ k' ∈ cs, base + chunkSize c size ≤ k'.base ∨ k'.base + k'.size ≤ base) :
    ∃ B' fl' n, Core c (newChunk c s base eoff size).1 B' (⟨base, chunkSize c size, eoff⟩ :: cs) fl' ∧ NoCoal B' ∧
      (newChunk c s base eoff size).2 = base + c.ch + c.hs ∧
      size ≤ n ∧ n ≤ size + 64 ∧ base + c.ch + n + c.hs ≤ base + chunkSize c size ∧ UAdd B B' (base + c.ch) n eoff ∧
      (newChunk c s base eoff size).1.allocated = (s.allocated + n) % W ∧
      (newChunk c s base eoff size).1.total = (s.total + (chunkSize c size - extra c)) % W ∧
      ∀ a, Safe c B cs a → (a < base ∨ base + chunkSize c size ≤ a) → (newChunk c s base eoff size).1.mem a = s.mem a := by
  have g := h.geo
  have hsb := hs_bounds hc
  obtain ⟨cs1, cs2, cs3, cs4⟩ := chunkSize_spec hc hs8 hw
  have hex : extra c = c.hs + c.ch := rfl
  have hch : c.ch = c.hs - 16 := by rcases hc with h | h <;> omega
  have hhs8 : c.hs % 8 = 0 := by rcases hc with h | h <;> omega
  obtain ⟨n, hn⟩ : ∃ n, chunkSize c size = n + extra c := ⟨chunkSize c size - extra c, by omega⟩
  have hchunk : (chunkSize c size + W - extra c) % W = n := by
    rw [show chunkSize c size + W - extra c = n + W by omega, Nat.add_mod_right]
    apply Nat.mod_eq_of_lt; omega
  have hsubn : chunkSize c size - extra c = n := by omega
  have hwm : (size + 64) % W = size + 64 := Nat.mod_eq_of_lt (by omega)
  have g0 := geo_addChunk hc g ⟨base, chunkSize c size, eoff⟩ n (by omega) (by omega) hn hb hb8 hfit hd'
  simp only at g0
  have outb : ∀ q b', B q = some b' → q + ext c b' ≤ base ∨ base + (n + extra c) ≤ q := fun q b' hq => by
    rw [← hn]; exact out_new g hd' hq
  have get1 : addChunk B (base + c.ch) n eoff (base + c.ch + n) = some ⟨.term, 0, n, eoff⟩ := by simp [addChunk]
  have get2 : addChunk B (base + c.ch) n eoff (base + c.ch) = some ⟨.used, n, 0, eoff⟩ := by
    rw [addChunk, upd_ne _ _ _ _ (by omega), upd_same]
  have get3 : ∀ q, q ≠ base + c.ch + n → q ≠ base + c.ch → addChunk B (base + c.ch) n eoff q = B q := fun q h1 h2 => by
    rw [addChunk, upd_ne _ _ _ _ h1, upd_ne _ _ _ _ h2]
  have nou : ∀ n' o', ¬ U B (base + c.ch) n' o' := by
    rintro n' o' ⟨b', h1, _⟩
    have := outb _ _ h1
    have := g.ext_pos hc h1
    omega
  by_cases hbig : n > size + 64
  · obtain ⟨f, hf⟩ : ∃ f, n = size + f := ⟨n - size, by omega⟩
    have hsub : n - size = f := by omega
    have g1 := geo_split hc g0 get2 (by simp) get1 hf hsz (by omega) hs8 (k1 := .used) (k2 := .free) (by simp) (by simp)
    generalize hB' : split (addChunk B (base + c.ch) n eoff) (base + c.ch) ⟨.used, n, 0, eoff⟩ ⟨.term, 0, n, eoff⟩
      size f .used .free = B' at g1
    have cases' : ∀ q b', B' q = some b' → (q = base + c.ch + size ∧ b' = ⟨.free, f, size, eoff⟩) ∨
        (q = base + c.ch ∧ b' = ⟨.used, size, 0, eoff⟩) ∨ (q = base + c.ch + n ∧ b' = ⟨.term, 0, f, eoff⟩) ∨
        (B q = some b' ∧ (q + ext c b' ≤ base ∨ base + (n + extra c) ≤ q)) := by
      intro q b' hq
      rw [← hB'] at hq
      rcases split_some hq with ⟨rfl, rfl⟩ | ⟨_, rfl, rfl⟩ | ⟨_, _, rfl, rfl⟩ | ⟨n1, n2, n3, hq'⟩
      · exact .inl ⟨rfl, rfl⟩
      · exact .inr (.inl ⟨rfl, rfl⟩)
      · exact .inr (.inr (.inl ⟨rfl, rfl⟩))
      · rw [get3 q n3 n2] at hq'
        exact .inr (.inr (.inr ⟨hq', outb _ _ hq'⟩))
    have getF : B' (base + c.ch + size) = some ⟨.free, f, size, eoff⟩ := by simp [← hB', split]
    have getU : B' (base + c.ch) = some ⟨.used, size, 0, eoff⟩ := by
      rw [← hB', split, upd_ne _ _ _ _ (by omega), upd_same]
    have getT : B' (base + c.ch + n) = some ⟨.term, 0, f, eoff⟩ := by
      rw [← hB', split, upd_ne _ _ _ _ (by omega), upd_ne _ _ _ _ (by omega), upd_same]
    have getO : ∀ q b', B q = some b' → B' q = some b' := by
      intro q b' hq
      have := outb _ _ hq
      have := g.ext_pos hc hq
      rw [← hB', split, upd_ne _ _ _ _ (by omega), upd_ne _ _ _ _ (by omega), upd_ne _ _ _ _ (by simp only; omega),
        get3 q (by omega) (by omega)]
      exact hq
    have flok1 : FlOk B' ((base + c.ch + size) :: fl) := by
      refine ⟨List.nodup_cons.mpr ⟨fun hp => ?_, h.flok.nodup⟩, fun r => ?_⟩
      · obtain ⟨b', hb', hf⟩ := (h.flok.mem _).mp hp
        have := outb _ _ hb'
        have := g.ext_pos hc hb'
        omega
      · rw [List.mem_cons, h.flok.mem r]
        constructor
        · rintro (rfl | ⟨b', hb', hf⟩)
          · exact ⟨_, getF, rfl⟩
          · exact ⟨b', getO _ _ hb', hf⟩
        · rintro ⟨b', hb', hf⟩
          rcases cases' _ _ hb' with ⟨rfl, rfl⟩ | ⟨rfl, rfl⟩ | ⟨rfl, rfl⟩ | ⟨hq, _⟩
          · exact .inl rfl
          · cases hf
          · cases hf
          · exact .inr ⟨b', hq, hf⟩
    have far1 : Far ((base + c.ch + size) :: fl) := by
      refine ⟨flok1.nodup, fun q hq => ?_, fun q hq r hr hne => ?_⟩
      · obtain ⟨b', hb', _⟩ := (flok1.mem q).mp hq
        exact (g1.align _ _ hb').2
      · obtain ⟨b', hb', hf⟩ := (flok1.mem q).mp hq
        obtain ⟨b'', hb'', hf'⟩ := (flok1.mem r).mp hr
        have := sep hc g1 hb' hb'' hne
        have := this.imp (fun h => h.2 (by simp [hf])) (fun h => h.2 (by simp [hf']))
        omega
    generalize hm1 : stOff c (st (st (stOff c (st s.mem (hPrev (base + c.ch)) 0) (base + c.ch) eoff) (hSize (base + c.ch)) size)
      (hPrev (base + c.ch + size)) size) (base + c.ch + size) eoff = m1
    have m1o : ∀ a, (a < base ∨ base + (n + extra c) ≤ a) → m1 a = s.mem a := by
      intro a ha
      rw [← hm1]
      rcases ha with ha | ha
      · sone; stne; stne; sone; stne
      · sone; stne; stne; sone; stne
    have ch1 : Chain c m1 0 fl := by
      refine chain_frame (fun r hr => ?_) h.chain
      obtain ⟨br, hbr, hrf⟩ := (h.flok.mem r).mp hr
      have := outb _ _ hbr
      have s1 := (g.size _ _ hbr (by simp [hrf])).1
      have e1 : ext c br = br.size := by simp [ext, hrf]
      exact ⟨m1o _ (by simp only [fNext]; omega), m1o _ (by simp only [fPrev]; omega)⟩
    obtain ⟨m', em, ech, e0, es, eo⟩ := insertFree_spec hc
      (s := { s with mem := m1, allocated := (s.allocated + size) % W, total := (s.total + n) % W })
      (n := f) far1 ch1 h.head
    have ef : newChunk c s base eoff size = ({ s with
        mem := stOff c (st (st m' (hSize (base + c.ch + n)) 1) (hPrev (base + c.ch + n)) f) (base + c.ch + n) eoff,
        free := base + c.ch + size, allocated := (s.allocated + size) % W, total := (s.total + n) % W },
        base + c.ch + c.hs) := by
      simp only [newChunk, hchunk, hwm, if_pos hbig, hsub]
      rw [hm1, em]
      simp only [show base + c.ch + size + f = base + c.ch + n by omega]
    rw [ef]
    have links : ∀ q ∈ (base + c.ch + size) :: fl, ∃ b', B' q = some b' ∧ b'.kind = .free := fun q hq => (flok1.mem q).mp hq
    have rdh : ∀ q b', B' q = some b' → ∀ a, q ≤ a → (a < q + c.hs ∨ (b'.kind ≠ .term ∧ a = fSize c q)) →
        a ≠ hSize (base + c.ch + size) → a ≠ fSize c (base + c.ch + size) → m' a = m1 a := by
      intro q b' hq a h1 h2 h3 h4
      apply eo a h3 h4
      intro r hr
      obtain ⟨br, hbr, hrf⟩ := links r hr
      exact hdr_not_link hc g1 hq hbr hrf h1 h2
    refine ⟨B', _, size, ⟨g1, ⟨?_, ?_, ?_, ?_⟩, ?_, rfl, flok1⟩, ?_, rfl, Nat.le_refl _, by omega, by omega, ⟨?_, nou⟩,
      rfl, by rw [hsubn], ?_⟩
    · intro q b' hq
      show stOff _ _ _ _ _ = _
      rcases cases' _ _ hq with ⟨rfl, rfl⟩ | ⟨rfl, rfl⟩ | ⟨rfl, rfl⟩ | ⟨hq', ho⟩
      · sone; stne; stne; exact e0
      · sone; stne; stne
        rw [rdh _ _ hq _ (by simp [hSize]) (by simp only [hSize]; omega) (by simp only [hSize]; omega) (by simp only [hSize, fSize]; omega), ← hm1]
        sone; stne; exact st_same _ _ _
      · sone; stne; exact st_same _ _ _
      · have hx := g.ext_pos hc hq'
        sone; stne; stne
        rw [rdh _ _ hq _ (by simp [hSize]) (by simp only [hSize]; omega) (by simp only [hSize]; omega) (by simp only [hSize, fSize]; omega),
          m1o _ (by simp only [hSize]; omega), h.memok.tag _ _ hq']
    · intro q b' hq
      show stOff _ _ _ _ _ = _
      rcases cases' _ _ hq with ⟨rfl, rfl⟩ | ⟨rfl, rfl⟩ | ⟨rfl, rfl⟩ | ⟨hq', ho⟩
      · sone; stne; stne
        rw [rdh _ _ hq _ (by simp [hPrev]) (by simp only [hPrev]; omega) (by simp only [hSize, hPrev]; omega) (by simp only [hPrev, fSize]; omega), ← hm1]
        sone; exact st_same _ _ _
      · sone; stne; stne
        rw [rdh _ _ hq _ (by simp [hPrev]) (by simp only [hPrev]; omega) (by simp only [hSize, hPrev]; omega) (by simp only [hPrev, fSize]; omega), ← hm1]
        sone; stne; stne; sone; exact st_same _ _ _
      · sone; exact st_same _ _ _
      · have hx := g.ext_pos hc hq'
        sone; stne; stne
        rw [rdh _ _ hq _ (by simp [hPrev]) (by simp only [hPrev]; omega) (by simp only [hSize, hPrev]; omega) (by simp only [hPrev, fSize]; omega),
          m1o _ (by simp only [hPrev]; omega), h.memok.prev _ _ hq']
    · intro q b' hq h24
      show stOff _ _ _ _ _ = _
      rcases cases' _ _ hq with ⟨rfl, rfl⟩ | ⟨rfl, rfl⟩ | ⟨rfl, rfl⟩ | ⟨hq', ho⟩
      · sone; stne; stne
        rw [rdh _ _ hq _ (by simp [hOff]) (by simp only [hOff]; omega) (by simp only [hSize, hOff]; omega) (by simp only [hOff, fSize]; omega), ← hm1]
        exact stOff_same _ _ _ h24
      · sone; stne; stne
        rw [rdh _ _ hq _ (by simp [hOff]) (by simp only [hOff]; omega) (by simp only [hSize, hOff]; omega) (by simp only [hOff, fSize]; omega), ← hm1]
        sone; stne; stne; exact stOff_same _ _ _ h24
      · exact stOff_same _ _ _ h24
      · have hx := g.ext_pos hc hq'
        sone; stne; stne
        rw [rdh _ _ hq _ (by simp [hOff]) (by simp only [hOff]; omega) (by simp only [hSize, hOff]; omega) (by simp only [hOff, fSize]; omega),
          m1o _ (by simp only [hOff]; omega), h.memok.off _ _ hq' h24]
    · intro q b' hq hff
      show stOff _ _ _ _ _ = _
      rcases cases' _ _ hq with ⟨rfl, rfl⟩ | ⟨rfl, rfl⟩ | ⟨rfl, rfl⟩ | ⟨hq', ho⟩
      · sone; stne; stne; exact es
      · cases hff
      · cases hff
      · have e1 : ext c b' = b'.size := by simp [ext, hff]
        have s1 := (g.size _ _ hq' (by simp [hff])).1
        sone; stne; stne
        rw [rdh _ _ hq _ (by simp [fSize]; omega) (.inr ⟨by simp [hff], rfl⟩) (by simp only [hSize, fSize]; omega) (by simp only [fSize]; omega),
          m1o _ (by simp only [fSize]; omega), h.memok.fsize _ _ hq' hff]
    · refine chain_frame (fun r hr => ?_) ech
      have x : r + 64 ≤ base + c.ch + n ∨ base + c.ch + n + c.hs ≤ r := by
        obtain ⟨br, hbr, hrf⟩ := links r hr
        have hne : r ≠ base + c.ch + n := by
          rintro rfl; rw [getT] at hbr; obtain rfl := Option.some.inj hbr; cases hrf
        exact (sep hc g1 hbr getT hne).imp (fun h => h.2 (by simp [hrf])) (fun h => h.1)
      constructor
      · show stOff _ _ _ _ _ = _
        sone; stne; stne
      · show stOff _ _ _ _ _ = _
        sone; stne; stne
    · intro r br br' h1 h2 h3 h4
      rcases cases' _ _ h1 with ⟨rfl, rfl⟩ | ⟨rfl, rfl⟩ | ⟨rfl, rfl⟩ | ⟨hq', ho⟩
      · simp only at h3
        rw [show base + c.ch + size + f = base + c.ch + n by omega, getT] at h3
        obtain rfl := Option.some.inj h3; cases h4
      · cases h2
      · cases h2
      · obtain ⟨b'', hb'', _⟩ := g.next _ _ hq' (by simp [h2])
        have := getO _ _ hb''
        rw [this] at h3; obtain rfl := Option.some.inj h3
        exact nc _ _ _ hq' h2 hb'' h4
    · intro q n' o'
      constructor
      · rintro ⟨b', h1, h2, h3, h4⟩
        rcases cases' _ _ h1 with ⟨rfl, rfl⟩ | ⟨rfl, rfl⟩ | ⟨rfl, rfl⟩ | ⟨hq', ho⟩
        · cases h2
        · exact .inr ⟨rfl, h3.symm, h4.symm⟩
        · cases h2
        · exact .inl ⟨b', hq', h2, h3, h4⟩
      · rintro (⟨b', h1, h2⟩ | ⟨rfl, rfl, rfl⟩)
        · exact ⟨b', getO _ _ h1, h2⟩
        · exact ⟨_, getU, rfl, rfl, rfl⟩
    · intro a ha ho
      rw [hn] at ho
      show stOff _ _ _ _ _ = _
      have hm' : m' a = m1 a := by
        apply eo a (by simp only [hSize]; omega) (by simp only [fSize]; omega)
        intro r hr
        rcases List.mem_cons.mp hr with rfl | hr
        · simp only [fNext, fPrev]; omega
        · obtain ⟨br, hbr, hrf⟩ := (h.flok.mem r).mp hr
          have y := (safe_out hc g ha hbr).imp_right (fun h => h.2 hrf)
          have := (g.size _ _ hbr (by simp [hrf])).1
          simp only [fNext, fPrev]
          omega
      rcases ho with ho | ho
      · sone; stne; stne
        rw [hm', m1o a (.inl ho)]
      · sone; stne; stne
        rw [hm', m1o a (.inr ho)]
  · have ef : newChunk c s base eoff size = ({ s with
        mem := stOff c (st (st (st (stOff c (st s.mem (hPrev (base + c.ch)) 0) (base + c.ch) eoff) (hSize (base + c.ch)) n)
          (hSize (base + c.ch + n)) 1) (hPrev (base + c.ch + n)) n) (base + c.ch + n) eoff,
        allocated := (s.allocated + n) % W, total := (s.total + n) % W }, base + c.ch + c.hs) := by
      simp only [newChunk, hchunk, hwm, if_neg hbig]
    rw [ef]
    have getO : ∀ q b', B q = some b' → addChunk B (base + c.ch) n eoff q = some b' := by
      intro q b' hq
      have := outb _ _ hq
      have := g.ext_pos hc hq
      rw [get3 q (by omega) (by omega)]
      exact hq
    refine ⟨addChunk B (base + c.ch) n eoff, fl, n, ⟨g0, ⟨?_, ?_, ?_, ?_⟩, ?_, h.head, ?_⟩, ?_, rfl, by omega, by omega, by omega, ⟨?_, nou⟩,
      rfl, by rw [hsubn], ?_⟩
    · intro q b' hq
      show stOff _ _ _ _ _ = _
      rcases addChunk_some hq with ⟨rfl, rfl⟩ | ⟨_, rfl, rfl⟩ | ⟨n1, n2, hq'⟩
      · sone; stne; exact st_same _ _ _
      · sone; stne; stne; exact st_same _ _ _
      · have hx := g.ext_pos hc hq'
        have ho := outb _ _ hq'
        sone; stne; stne; stne; sone; stne
        exact h.memok.tag _ _ hq'
    · intro q b' hq
      show stOff _ _ _ _ _ = _
      rcases addChunk_some hq with ⟨rfl, rfl⟩ | ⟨_, rfl, rfl⟩ | ⟨n1, n2, hq'⟩
      · sone; exact st_same _ _ _
      · sone; stne; stne; stne; sone; exact st_same _ _ _
      · have hx := g.ext_pos hc hq'
        have ho := outb _ _ hq'
        sone; stne; stne; stne; sone; stne
        exact h.memok.prev _ _ hq'
    · intro q b' hq h24
      show stOff _ _ _ _ _ = _
      rcases addChunk_some hq with ⟨rfl, rfl⟩ | ⟨_, rfl, rfl⟩ | ⟨n1, n2, hq'⟩
      · exact stOff_same _ _ _ h24
      · sone; stne; stne; stne; exact stOff_same _ _ _ h24
      · have hx := g.ext_pos hc hq'
        have ho := outb _ _ hq'
        sone; stne; stne; stne; sone; stne
        exact h.memok.off _ _ hq' h24
    · intro q b' hq hff
      show stOff _ _ _ _ _ = _
      rcases addChunk_some hq with ⟨rfl, rfl⟩ | ⟨_, rfl, rfl⟩ | ⟨n1, n2, hq'⟩
      · cases hff
      · cases hff
      · have e1 : ext c b' = b'.size := by simp [ext, hff]
        have s1 := (g.size _ _ hq' (by simp [hff])).1
        have ho := outb _ _ hq'
        sone; stne; stne; stne; sone; stne
        exact h.memok.fsize _ _ hq' hff
    · refine chain_frame (fun r hr => ?_) h.chain
      obtain ⟨br, hbr, hrf⟩ := (h.flok.mem r).mp hr
      have ho := outb _ _ hbr
      have s1 := (g.size _ _ hbr (by simp [hrf])).1
      have e1 : ext c br = br.size := by simp [ext, hrf]
      constructor
      · show stOff _ _ _ _ _ = _
        sone; stne; stne; stne; sone; stne
      · show stOff _ _ _ _ _ = _
        sone; stne; stne; stne; sone; stne
    · refine ⟨h.flok.nodup, fun r => ?_⟩
      rw [h.flok.mem r]
      constructor
      · rintro ⟨b', hb', hf⟩; exact ⟨b', getO _ _ hb', hf⟩
      · rintro ⟨b', hb', hf⟩
        rcases addChunk_some hb' with ⟨rfl, rfl⟩ | ⟨_, rfl, rfl⟩ | ⟨n1, n2, hq'⟩
        · cases hf
        · cases hf
        · exact ⟨b', hq', hf⟩
    · intro r br br' h1 h2 h3 h4
      rcases addChunk_some h1 with ⟨rfl, rfl⟩ | ⟨_, rfl, rfl⟩ | ⟨n1, n2, hq'⟩
      · cases h2
      · cases h2
      · obtain ⟨b'', hb'', _⟩ := g.next _ _ hq' (by simp [h2])
        have := getO _ _ hb''
        rw [this] at h3; obtain rfl := Option.some.inj h3
        exact nc _ _ _ hq' h2 hb'' h4
    · intro q n' o'
      constructor
      · rintro ⟨b', h1, h2, h3, h4⟩
        rcases addChunk_some h1 with ⟨rfl, rfl⟩ | ⟨_, rfl, rfl⟩ | ⟨n1, n2, hq'⟩
        · cases h2
        · exact .inr ⟨rfl, h3.symm, h4.symm⟩
        · exact .inl ⟨b', hq', h2, h3, h4⟩
      · rintro (⟨b', h1, h2⟩ | ⟨rfl, rfl, rfl⟩)
        · exact ⟨b', getO _ _ h1, h2⟩
        · exact ⟨_, get2, rfl, rfl, rfl⟩
    · intro a ha ho
      rw [hn] at ho
      show stOff _ _ _ _ _ = _
      rcases ho with ho | ho
      · sone; stne; stne; stne; sone; stne
      · sone; stne; stne; stne; sone; stne

end Verif.Alloc
