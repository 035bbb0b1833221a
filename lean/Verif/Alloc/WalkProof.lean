import Verif.Alloc.Pres

/-! # Inspecting the chunks -/

namespace Verif.Alloc

variable {c : Cfg} {B : Blocks} {cs : List Chunk} {fl : List Nat} {live : List (Nat × Nat)}

/-- A block lies in chunk `k`. -/
def In (c : Cfg) (k : Chunk) (p : Nat) (b : Blk) : Prop :=
  k.base + c.ch ≤ p ∧ p + ext c b ≤ k.base + k.size ∧ (b.kind = .term → p + c.hs = k.base + k.size)

/-- The successor of a block is in the same chunk. -/
theorem next_in (hc : c.Ok) (g : Geo c B cs) {k : Chunk} (hk : k ∈ cs) {p : Nat} {b b' : Blk} (hb : B p = some b) (ht : b.kind ≠ .term)
    (hi : In c k p b) (hb' : B (p + b.size) = some b') : In c k (p + b.size) b' := by
  have hsb := hs_bounds hc
  obtain ⟨nb, hnb, np, _⟩ := g.next _ _ hb ht
  rw [hb'] at hnb; obtain rfl := Option.some.inj hnb
  have sz := (g.size _ _ hb ht).1
  have ex : ext c b = b.size := by simp [ext, ht]
  obtain ⟨i1, i2, i3⟩ := hi
  obtain ⟨k', hk', j1, j2, _, j3⟩ := g.inside _ _ hb'
  by_cases e : k = k'
  · subst e; exact ⟨j1, j2, j3⟩
  · exfalso
    have d := g.cdis k hk k' hk' e
    obtain ⟨b0, hb0, hp0⟩ := g.start k' hk'
    have x := g.ext_pos hc hb'
    have : k'.base + c.ch = p + b.size := by omega
    rw [this, hb'] at hb0
    obtain rfl := Option.some.inj hb0
    omega

theorem start_in (hc : c.Ok) (g : Geo c B cs) {k : Chunk} (hk : k ∈ cs) {b : Blk} (hb : B (k.base + c.ch) = some b) :
    In c k (k.base + c.ch) b := by
  obtain ⟨k', hk', j1, j2, _, j3⟩ := g.inside _ _ hb
  have x := g.ext_pos hc hb
  have hsb := hs_bounds hc
  by_cases e : k = k'
  · subst e; exact ⟨j1, j2, j3⟩
  · exfalso
    have d := g.cdis k hk k' hk' e
    have := g.cfit k hk
    -- the first header lies in `k`, hence `k'` would have to overlap with it
    omega

/-- Everything about the walk from a block to the end of its chunk. -/
theorem walk_from (hc : c.Ok) {s : ASt} (h : Core c s B cs fl) (nc : NoCoal B) {k : Chunk} (hk : k ∈ cs) (n : Nat) :
    ∀ p b, B p = some b → In c k p b → k.base + k.size - p ≤ n →
    ∃ l, Walk c s.mem p l (k.base + k.size - c.hs) ∧
      NoAdjFree l ∧
      (∀ x ∈ l, x.used = true → ∃ o, U B x.addr x.size o) ∧
      (∀ x ∈ l, p ≤ x.addr ∧ x.addr + x.size + c.hs ≤ k.base + k.size) ∧
      (∀ q sz o, U B q sz o → p ≤ q → q + sz ≤ k.base + k.size → ⟨q, sz, true⟩ ∈ l) ∧
      (∀ x t, l = x :: t → (x.used = true ↔ b.kind = .used)) ∧ (b.kind ≠ .term → l ≠ []) := by
  have hsb := hs_bounds hc
  have g := h.geo
  induction n with
  | zero =>
    intro p b hb hi hn
    have := g.ext_pos hc hb
    have := hi.2.1
    omega
  | succ n ih =>
    intro p b hb hi hn
    have ex := g.ext_pos hc hb
    have htag := h.memok.tag _ _ hb
    by_cases ht : b.kind = .term
    · have e := hi.2.2 ht
      have htag1 : s.mem p = 1 := by rw [Blk.tag, ht] at htag; exact htag
      refine ⟨[], ?_, trivial, by simp, by simp, ?_, by simp, fun h => absurd ht h⟩
      · rw [show k.base + k.size - c.hs = p by omega]
        exact .stop p htag1
      · rintro q sz o ⟨b', hb', hk', hs', _⟩ h1 h2
        exfalso
        have := (g.size _ _ hb' (by simp [hk'])).1
        by_cases e2 : q = p
        · subst e2; rw [hb] at hb'; obtain rfl := Option.some.inj hb'; rw [ht] at hk'; cases hk'
        · omega
    · obtain ⟨nb, hnb, np, no⟩ := g.next _ _ hb ht
      have hin := next_in hc g hk hb ht hi hnb
      have sz := (g.size _ _ hb ht).1
      have exb : ext c b = b.size := by simp [ext, ht]
      have exn := g.ext_pos hc hnb
      obtain ⟨l, w, ch, us, bd, all, hdu, ne⟩ := ih _ _ hnb hin (by have := hi.2.1; omega)
      have tail : ∀ q sz o, U B q sz o → p ≤ q → q + sz ≤ k.base + k.size → q = p ∨ ⟨q, sz, true⟩ ∈ l := by
        intro q sz o u h1 h2
        by_cases e : q = p
        · exact .inl e
        · right
          refine all q sz o u ?_ h2
          obtain ⟨b', hb', hk', hs', _⟩ := u
          have := g.dis _ _ _ _ hb hb' (by omega)
          omega
      cases hkk : b.kind with
      | term => exact absurd hkk ht
      | used =>
        have htag1 : s.mem p = b.size := by rw [Blk.tag, hkk] at htag; exact htag
        refine ⟨⟨p, b.size, true⟩ :: l, ?_, ?_, ?_, ?_, ?_, ?_, by simp⟩
        · have := Walk.used (c := c) (m := s.mem) p l (k.base + k.size - c.hs) (by omega) (by omega) (by rw [htag1]; exact w)
          rw [htag1] at this; exact this
        · cases l with
          | nil => trivial
          | cons x t => exact ⟨.inl rfl, ch⟩
        · intro x hx hxu
          rcases List.mem_cons.mp hx with rfl | hx
          · exact ⟨b.off, b, hb, hkk, rfl, rfl⟩
          · exact us x hx hxu
        · intro x hx
          rcases List.mem_cons.mp hx with rfl | hx
          · have := hin.2.1
            simp only
            omega
          · have := bd x hx; omega
        · intro q sz' o u h1 h2
          rcases tail q sz' o u h1 h2 with rfl | h
          · have : sz' = b.size := (U_eq u ⟨b, hb, hkk, rfl, rfl⟩).1
            subst this; simp
          · simp [h]
        · intro x t e
          cases e
          simp
      | free =>
        have htag1 : s.mem p = 0 := by rw [Blk.tag, hkk] at htag; exact htag
        have fsz : s.mem (p + c.hs + 16) = b.size := h.memok.fsize _ _ hb hkk
        have nfree := nc _ _ _ hb hkk hnb
        refine ⟨⟨p, b.size, false⟩ :: l, ?_, ?_, ?_, ?_, ?_, ?_, by simp⟩
        · have := Walk.free (c := c) (m := s.mem) p l (k.base + k.size - c.hs) htag1 (by rw [fsz]; exact w)
          rw [fsz] at this; exact this
        · cases l with
          | nil => trivial
          | cons x t =>
            refine ⟨.inr ?_, ch⟩
            rw [(hdu x t rfl)]
            cases hnk : nb.kind with
            | used => rfl
            | free => exact absurd hnk nfree
            | term =>
              exfalso
              have := bd x (by simp)
              have := hin.2.2 hnk
              cases w
              all_goals (have tg := h.memok.tag _ _ hnb; rw [Blk.tag, hnk] at tg; simp only [hSize] at tg; omega)
        · intro x hx hxu
          rcases List.mem_cons.mp hx with rfl | hx
          · cases hxu
          · exact us x hx hxu
        · intro x hx
          rcases List.mem_cons.mp hx with rfl | hx
          · have := hin.2.1
            simp only
            omega
          · have := bd x hx; omega
        · intro q sz' o u h1 h2
          rcases tail q sz' o u h1 h2 with rfl | h
          · obtain ⟨b', hb', hk', _⟩ := u
            rw [hb] at hb'; obtain rfl := Option.some.inj hb'; rw [hkk] at hk'; cases hk'
          · simp [h]
        · intro x t e
          cases e
          simp

/-- Free blocks found by inspecting a chunk are free blocks of the model. -/
theorem walk_free (hc : c.Ok) {s : ASt} (h : Core c s B cs fl) {k : Chunk} (hk : k ∈ cs) {p e : Nat} {l : List Seen}
    (hw : Walk c s.mem p l e) : ∀ b, B p = some b → In c k p b →
    ∀ x ∈ l, x.used = false → ∃ b, B x.addr = some b ∧ b.kind = .free ∧ b.size = x.size := by
  have g := h.geo
  induction hw with
  | stop p _ => intro b _ _ x hx; cases hx
  | free p l e h0 hw ih =>
    intro b hb hi x hx hxu
    have tg := h.memok.tag _ _ hb
    have hbf : b.kind = .free := by
      cases hkk : b.kind with
      | free => rfl
      | term => rw [Blk.tag, hkk] at tg; simp only at tg; have : s.mem p = 1 := tg; omega
      | used =>
        have sz := (g.size _ _ hb (by simp [hkk])).1
        rw [Blk.tag, hkk] at tg; have : s.mem p = b.size := tg; omega
    have fs : s.mem (p + c.hs + 16) = b.size := h.memok.fsize _ _ hb hbf
    rw [fs] at ih
    rcases List.mem_cons.mp hx with rfl | hx
    · exact ⟨b, hb, hbf, fs.symm⟩
    · obtain ⟨nb, hnb, _⟩ := g.next _ _ hb (by simp [hbf])
      exact ih nb hnb (next_in hc g hk hb (by simp [hbf]) hi hnb) x hx hxu
  | used p l e h0 h1 hw ih =>
    intro b hb hi x hx hxu
    have tg := h.memok.tag _ _ hb
    have hbu : b.kind = .used := by
      cases hkk : b.kind with
      | used => rfl
      | term => rw [Blk.tag, hkk] at tg; exact absurd tg h1
      | free => rw [Blk.tag, hkk] at tg; exact absurd tg h0
    have fs : s.mem p = b.size := by rw [Blk.tag, hbu] at tg; exact tg
    rw [fs] at ih
    rcases List.mem_cons.mp hx with rfl | hx
    · cases hxu
    · obtain ⟨nb, hnb, _⟩ := g.next _ _ hb (by simp [hbu])
      exact ih nb hnb (next_in hc g hk hb (by simp [hbu]) hi hnb) x hx hxu

/-- Address returned from a new chunk. -/
theorem newChunk_ptr (s : ASt) (base eoff size : Nat) : (newChunk c s base eoff size).2 = base + c.ch + c.hs := by
  unfold newChunk
  extract_lets
  split <;> rfl

/-- Address returned from a free block. -/
theorem takeFree_ptr (hc : 0 < c.hs) (s : ASt) (p size : Nat) : (takeFree c s p size).2 ≠ 0 := by
  unfold takeFree
  extract_lets
  split <;> (simp only; omega)

/-- Result of `sljit_malloc_exec` when a new chunk is needed. -/
theorem malloc_new {s : ASt} {n f : Nat} {os : Nat → Option OsChunk} {o : OsChunk}
    (hff : findFree c s.mem (reqSize c n) f s.free = some 0) (ho : os (chunkSize c (reqSize c n)) = some o) :
    ∃ r, mallocExec c f s n os = some r ∧ r.ptr = o.base + c.ch + c.hs ∧ r.mapped = [(o.base, chunkSize c (reqSize c n))] := by
  cases hm : mallocExec c f s n os with
  | none =>
    exfalso
    unfold mallocExec at hm
    simp only at hm
    split at hm
    · next h0 => rw [hff] at h0; cases h0
    · split at hm <;> cases hm
    · cases hm
  | some r =>
    refine ⟨r, rfl, ?_⟩
    unfold mallocExec at hm
    simp only at hm
    split at hm
    · cases hm
    · split at hm
      · next h0 => rw [ho] at h0; cases h0
      · next o' ho' =>
        obtain rfl : o' = o := Option.some.inj (ho'.symm.trans ho)
        have e := newChunk_ptr (c := c) { s with mem := havoc s.mem o'.base (chunkSize c (reqSize c n)) o'.data } o'.base o'.eoff (reqSize c n)
        generalize newChunk c { s with mem := havoc s.mem o'.base (chunkSize c (reqSize c n)) o'.data } o'.base o'.eoff (reqSize c n) = res at *
        generalize chunkSize c (reqSize c n) = csz at *
        obtain ⟨rs, rp⟩ := res
        dsimp only at e hm
        subst e
        obtain rfl := Option.some.inj hm
        exact ⟨rfl, rfl⟩
    · next h0 => rw [hff] at h0; cases h0

end Verif.Alloc
