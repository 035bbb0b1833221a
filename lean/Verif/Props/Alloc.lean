import Verif.Alloc.WalkProof

/-!
# C01-C06: the executable memory allocator

`Reach c w`: `w` is a state of the process after any number of calls of `sljit_malloc_exec`, `sljit_free_exec` and
`sljit_free_unused_memory_exec`, with any answers of the system, mixed with arbitrary writes of the client to memory
which belongs to it.
-/

namespace Verif.Props

open Verif.Alloc

variable {c : Cfg}

/-- C01: blocks are aligned, lie in mapped memory, and do not overlap. -/
theorem c01_no_overlap (hc : c.Ok) {w : World} (h : Reach c w) :
    (∀ x ∈ w.live, x.1 % 8 = 0 ∧ x.1 ≠ 0 ∧ ∃ k ∈ w.mapped, k.1 ≤ x.1 ∧ x.1 + x.2 ≤ k.1 + k.2) ∧
    w.live.Pairwise (fun x y => x.1 ≠ y.1 ∧ (x.1 + x.2 ≤ y.1 ∨ y.1 + y.2 ≤ x.1)) := by
  obtain ⟨B, cs, fl, hf, hm⟩ := winv_reach hc h
  have g := hf.core.geo
  have hsb := hs_bounds hc
  constructor
  · rintro ⟨p, n⟩ hx
    obtain ⟨q, sz, o, e, hsz, b, hb, hk, hs, _⟩ := hf.liveok.used p n hx
    have al := g.align _ _ hb
    have ex : ext c b = b.size := by simp [ext, hk]
    obtain ⟨k, hkc, i1, i2, _⟩ := g.inside _ _ hb
    refine ⟨by rcases hc with h | h <;> (simp only; omega), by simp only; omega, (k.base, k.size), ?_, by simp only; omega, by simp only; omega⟩
    rw [hm]; exact List.mem_map.mpr ⟨k, hkc, rfl⟩
  · have nd := hf.liveok.nodup
    unfold List.Nodup at nd
    rw [List.pairwise_map] at nd
    refine nd.imp_of_mem ?_
    rintro ⟨p, n⟩ ⟨p', n'⟩ h1 h2 hne
    obtain ⟨q, sz, o, e, hsz, b, hb, hk, hs, _⟩ := hf.liveok.used p n h1
    obtain ⟨q', sz', o', e', hsz', b', hb', hk', hs', _⟩ := hf.liveok.used p' n' h2
    simp only at hne ⊢
    refine ⟨hne, ?_⟩
    have ap := g.apart hb hb' (by omega)
    simp only [ext, hk, hk', hs, hs', reduceCtorEq, if_false] at ap
    omega

/-- C01: `sljit_malloc_exec` terminates; it returns NULL only when the system refuses to map a chunk of the size it
needs, which is larger than the request by at most 128K. -/
theorem c01_malloc_total (hc : c.Ok) {w : World} (h : Reach c w) (n : Nat) (hn : n + 0x20000 ≤ W) (os : Nat → Option OsChunk) :
    ∃ fuel, ∀ f ≥ fuel, ∃ r, mallocExec c f w.s n os = some r ∧
      (r.ptr = 0 → ∃ k, n < k ∧ k ≤ n + 0x20000 ∧ os k = none) := by
  obtain ⟨B, cs, fl, hf, hm⟩ := winv_reach hc h
  have hsb := hs_bounds hc
  have ex : extra c ≤ 32 := by unfold extra; rcases hc with h | h <;> omega
  obtain ⟨z1, z2, z3, z4, z5⟩ := reqSize_spec hc (n := n) (by unfold Sane; omega)
  obtain ⟨y1, y2, _⟩ := chunkSize_spec hc z2 (by omega)
  refine ⟨fl.length, fun f hfl => ?_⟩
  obtain ⟨r, hr, hc'⟩ := findFree_spec (size := reqSize c n) (hf.core.far hc).pos hf.core.chain hfl
  rw [← hf.core.head] at hr
  cases hm : mallocExec c f w.s n os with
  | none =>
    exfalso
    unfold mallocExec at hm
    simp only at hm
    split at hm
    · next h0 => rw [hr] at h0; cases h0
    · split at hm <;> cases hm
    · cases hm
  | some r' =>
    refine ⟨r', rfl, fun h0 => ?_⟩
    unfold mallocExec at hm
    simp only at hm
    split at hm
    · cases hm
    · split at hm
      · next ho => exact ⟨_, by omega, by omega, ho⟩
      · next o ho =>
        have e := newChunk_ptr (c := c) { w.s with mem := havoc w.s.mem o.base (chunkSize c (reqSize c n)) o.data } o.base o.eoff (reqSize c n)
        generalize newChunk c { w.s with mem := havoc w.s.mem o.base (chunkSize c (reqSize c n)) o.data } o.base o.eoff (reqSize c n) = res at *
        generalize chunkSize c (reqSize c n) = csz at *
        obtain ⟨rs, rp⟩ := res
        dsimp only at e hm
        subst e
        obtain rfl := Option.some.inj hm
        dsimp only at h0
        omega
    · next fb _ =>
      have e := takeFree_ptr (c := c) (by omega) w.s (fb + 1) (reqSize c n)
      generalize takeFree c _ _ _ = q at e hm
      obtain rfl := Option.some.inj hm
      exact absurd h0 e

/-- C02, `sljit_malloc_exec`: memory of the client does not change, except for the new chunk which was not mapped before. -/
theorem c02_malloc_frame (hc : c.Ok) {w : World} (h : Reach c w) {fuel n : Nat} {os : Nat → Option OsChunk} {r : MallocRes}
    (hn : Sane n) (hos : ∀ k o, os k = some o → OsOk w.mapped k o) (hos0 : os 0 = none)
    (hr : mallocExec c fuel w.s n os = some r) (a : Nat) (ha : ClientOwns w a)
    (hnew : ∀ k ∈ r.mapped, a < k.1 ∨ k.1 + k.2 ≤ a) : r.s.mem a = w.s.mem a := by
  obtain ⟨B, cs, fl, hf, hm⟩ := winv_reach hc h
  obtain ⟨_, _, _, _, _, _, fr⟩ := malloc_full hc hf hn (by rw [← hm]; exact hos) hos0 hr
  apply fr a _ hnew
  rcases ha with ⟨⟨p, n⟩, hk, h1, h2⟩ | ha
  · obtain ⟨q, sz, o, e, hsz, b, hb, hk, hs, _⟩ := hf.liveok.used p n hk
    simp only at h1 h2
    exact .inl ⟨q, b, hb, hk, by omega, by omega⟩
  · rw [hm] at ha
    exact .inr (fun k hk => ha (k.base, k.size) (List.mem_map.mpr ⟨k, hk, rfl⟩))

/-- C02, `sljit_free_exec`: memory of the other blocks and memory outside of the chunks does not change, and a chunk
which is given back was mapped and contains no block of the client. -/
theorem c02_free_frame (hc : c.Ok) {w : World} (h : Reach c w) {p n : Nat} (hl : (p, n) ∈ w.live) (junk : Nat → Nat) :
    (∀ a, ClientOwns ⟨w.s, w.live.erase (p, n), w.mapped⟩ a → (freeExec c w.s p junk).s.mem a = w.s.mem a) ∧
    (∀ k ∈ (freeExec c w.s p junk).unmapped, k ∈ w.mapped ∧
      ∀ x ∈ w.live.erase (p, n), x.1 + x.2 ≤ k.1 ∨ k.1 + k.2 ≤ x.1) := by
  obtain ⟨B, cs, fl, hf, hm⟩ := winv_reach hc h
  obtain ⟨B', cs', fl', h1, h2, h3, fr⟩ := free_full hc hf hl junk
  constructor
  · intro a ha
    apply fr a
    rcases ha with ⟨⟨p, n⟩, hk, h1', h2'⟩ | ha
    · obtain ⟨q, sz, o, e, hsz, b, hb, hk, hs, _⟩ := h1.liveok.used p n hk
      simp only at h1' h2'
      exact .inl ⟨q, b, hb, hk, by omega, by omega⟩
    · simp only at ha
      rw [hm] at ha
      exact .inr (fun k hk => ha (k.base, k.size) (List.mem_map.mpr ⟨k, hk, rfl⟩))
  · intro k hk
    obtain ⟨a1, a2⟩ := h3 k hk
    refine ⟨by rw [hm]; exact a1, ?_⟩
    rintro ⟨p', n'⟩ hx
    obtain ⟨q, sz, o, e, hsz, u⟩ := h1.liveok.used p' n' hx
    have := a2 q sz o u
    simp only
    omega

/-- C02, `sljit_free_unused_memory_exec`: no memory of the client changes, and a chunk which is given back was mapped
and contains no block of the client. -/
theorem c02_freeUnused_frame (hc : c.Ok) {w : World} (h : Reach c w) {fuel : Nat} {junk : Nat → Nat} {r : FreeRes}
    (hr : freeUnused c fuel w.s junk = some r) :
    (∀ a, ClientOwns w a → r.s.mem a = w.s.mem a) ∧
    (∀ k ∈ r.unmapped, k ∈ w.mapped ∧ ∀ x ∈ w.live, x.1 + x.2 ≤ k.1 ∨ k.1 + k.2 ≤ x.1) := by
  obtain ⟨B, cs, fl, hf, hm⟩ := winv_reach hc h
  unfold freeUnused at hr
  rw [hf.core.head] at hr
  obtain ⟨B', cs', fl', un, h1, h2, h3, h4, h5, h6, fr⟩ := loop_full hc junk fl [] ⟨w.s, []⟩ B cs fuel hf (by simp) r hr
  constructor
  · intro a ha
    apply fr a
    rcases ha with ⟨⟨p, n⟩, hk, h1', h2'⟩ | ha
    · obtain ⟨q, sz, o, e, hsz, b, hb, hk, hs, _⟩ := hf.liveok.used p n hk
      simp only at h1' h2'
      exact .inl ⟨q, b, hb, hk, by omega, by omega⟩
    · rw [hm] at ha
      exact .inr (fun k hk => ha (k.base, k.size) (List.mem_map.mpr ⟨k, hk, rfl⟩))
  · intro k hk
    simp only [List.nil_append] at h2
    rw [h2] at hk
    obtain ⟨a1, a2⟩ := h6 k hk
    refine ⟨by rw [hm]; exact a1, ?_⟩
    rintro ⟨p', n'⟩ hx
    obtain ⟨q, sz, o, e, hsz, u⟩ := hf.liveok.used p' n' hx
    have := a2 q sz o u
    simp only
    omega

/-- C03: every mapped chunk is tiled by blocks up to its terminator; no two neighbours are free; the used blocks are
exactly the blocks of the client. -/
theorem c03_coalesced (hc : c.Ok) {w : World} (h : Reach c w) {k : Nat × Nat} (hk : k ∈ w.mapped) :
    ∃ l, Walk c w.s.mem (k.1 + c.ch) l (k.1 + k.2 - c.hs) ∧ l ≠ [] ∧ NoAdjFree l ∧
      (∀ x ∈ l, x.used = true → ∃ n, (x.addr + c.hs, n) ∈ w.live ∧ n + c.hs ≤ x.size) ∧
      (∀ y ∈ w.live, k.1 ≤ y.1 → y.1 < k.1 + k.2 → ∃ x ∈ l, x.used = true ∧ y.1 = x.addr + c.hs) := by
  obtain ⟨B, cs, fl, hf, hm⟩ := winv_reach hc h
  have g := hf.core.geo
  have hsb := hs_bounds hc
  rw [hm] at hk
  obtain ⟨kc, hkc, rfl⟩ := List.mem_map.mp hk
  obtain ⟨b, hb, hp0⟩ := g.start kc hkc
  have hne : b.kind ≠ .term := fun e => g.term _ _ hb e hp0
  obtain ⟨l, w', ch, us, bd, all, hdu, ne⟩ := walk_from hc hf.core hf.nocoal hkc _ _ _ hb (start_in hc g hkc hb) (Nat.le_refl _)
  refine ⟨l, w', ne hne, ch, ?_, ?_⟩
  · intro x hx hxu
    obtain ⟨o, u⟩ := us x hx hxu
    obtain ⟨n, hn⟩ := hf.liveok.live _ _ _ u
    obtain ⟨q, sz, o', e, hsz, u'⟩ := hf.liveok.used _ _ hn
    obtain rfl : q = x.addr := by omega
    obtain ⟨rfl, _⟩ := U_eq u u'
    exact ⟨n, hn, hsz⟩
  · rintro ⟨p, n⟩ hy h1 h2
    obtain ⟨q, sz, o, rfl, hsz, u⟩ := hf.liveok.used p n hy
    simp only at h1 h2
    have hq : kc.base + c.ch ≤ q ∧ q + sz ≤ kc.base + kc.size := by
      obtain ⟨b', hb', hk', hs', _⟩ := u
      obtain ⟨k', hk'', i1, i2, _⟩ := g.inside _ _ hb'
      have ex : ext c b' = b'.size := by simp [ext, hk']
      have sz' := (g.size _ _ hb' (by simp [hk'])).1
      by_cases e : kc = k'
      · subst e; omega
      · have := g.cdis kc hkc k' hk'' e
        omega
    exact ⟨_, all q sz o u hq.1 hq.2, rfl, rfl⟩

/-- C03: a chunk without blocks of the client consists of one free block. -/
theorem c03_unused_chunk (hc : c.Ok) {w : World} (h : Reach c w) {k : Nat × Nat} (hk : k ∈ w.mapped)
    (hno : ∀ y ∈ w.live, y.1 < k.1 ∨ k.1 + k.2 ≤ y.1) :
    Walk c w.s.mem (k.1 + c.ch) [⟨k.1 + c.ch, k.2 - extra c, false⟩] (k.1 + k.2 - c.hs) := by
  obtain ⟨l, hw, hne, hch, hu, _⟩ := c03_coalesced hc h hk
  obtain ⟨B, cs, fl, hf, hm⟩ := winv_reach hc h
  have g := hf.core.geo
  have hsb := hs_bounds hc
  have hk' := hk
  rw [hm] at hk'
  obtain ⟨kc, hkc, rfl⟩ := List.mem_map.mp hk'
  obtain ⟨b, hb, hp0⟩ := g.start kc hkc
  have hbne : b.kind ≠ .term := fun e => g.term _ _ hb e hp0
  -- no used block
  have nou : ∀ q sz o, U B q sz o → kc.base + c.ch ≤ q → q + sz ≤ kc.base + kc.size → False := by
    intro q sz o u h1 h2
    obtain ⟨n, hn⟩ := hf.liveok.live _ _ _ u
    have x := hno _ hn
    obtain ⟨b', hb', hk', hs', _⟩ := u
    have sz' := (g.size _ _ hb' (by simp [hk'])).1
    simp only at x
    omega
  have hin := start_in hc g hkc hb
  have hbf : b.kind = .free := by
    cases hkk : b.kind with
    | free => rfl
    | term => exact absurd hkk hbne
    | used =>
      exfalso
      have ex : ext c b = b.size := by simp [ext, hkk]
      have := hin.2.1
      exact nou _ _ _ ⟨b, hb, hkk, rfl, rfl⟩ (Nat.le_refl _) (by omega)
  obtain ⟨t, ht, tp, _⟩ := g.next _ _ hb hbne
  have hint := next_in hc g hkc hb hbne hin ht
  have htk : t.kind = .term := by
    cases hkk : t.kind with
    | term => rfl
    | free => exact absurd hkk (hf.nocoal _ _ _ hb hbf ht)
    | used =>
      exfalso
      have ex : ext c t = t.size := by simp [ext, hkk]
      have := hint.2.1
      exact nou _ _ _ ⟨t, ht, hkk, rfl, rfl⟩ (by omega) (by omega)
  have e := hint.2.2 htk
  have fsz : w.s.mem (kc.base + c.ch + c.hs + 16) = b.size := hf.core.memok.fsize _ _ hb hbf
  have tg : w.s.mem (kc.base + c.ch) = 0 := by
    have := hf.core.memok.tag _ _ hb; rw [Blk.tag, hbf] at this; exact this
  have tt : w.s.mem (kc.base + c.ch + b.size) = 1 := by
    have := hf.core.memok.tag _ _ ht; rw [Blk.tag, htk] at this; exact this
  have hsize : kc.size - extra c = b.size := by unfold extra; omega
  have := Walk.free (c := c) (m := w.s.mem) (kc.base + c.ch) [] (kc.base + kc.size - c.hs) tg (by
    rw [fsz, show kc.base + kc.size - c.hs = kc.base + c.ch + b.size by omega]
    exact .stop _ tt)
  rw [fsz] at this
  simp only [hsize]
  exact this

/-- C04: the counters are exact.  `w.s.mem (x.1 - c.hs)` is the size of the block as found in its header. -/
theorem c04_accounting (hc : c.Ok) {w : World} (h : Reach c w) :
    w.s.allocated = (w.live.map (fun x => w.s.mem (x.1 - c.hs))).sum ∧
    w.s.total = (w.mapped.map (fun k => k.2 - extra c)).sum ∧
    ∀ x ∈ w.live, x.2 + c.hs ≤ w.s.mem (x.1 - c.hs) := by
  obtain ⟨B, cs, fl, hf, hm⟩ := winv_reach hc h
  refine ⟨?_, ?_, ?_⟩
  · rw [hf.alloc, Nat.mod_eq_of_lt (Full.alloc_lt hf.core.geo hf.core hf.liveok)]
    simp [blocksOf, lsum, Function.comp_def]
  · rw [hf.total, Nat.mod_eq_of_lt (Full.total_lt hf.core.geo), hm]
    simp [usable, lsum, Function.comp_def]
  · rintro ⟨p, n⟩ hx
    obtain ⟨q, sz, o, rfl, hsz, u⟩ := hf.liveok.used p n hx
    simp only [Nat.add_sub_cancel, U_size hf.core u]
    exact hsz

/-- C05: `sljit_free_unused_memory_exec` terminates, and afterwards every mapped chunk contains a block of the client
(`c02_freeUnused_frame`: a chunk with a block of the client is not released). -/
theorem c05_free_unused (hc : c.Ok) {w : World} (h : Reach c w) (junk : Nat → Nat) :
    (∃ fuel, ∀ f ≥ fuel, ∃ r, freeUnused c f w.s junk = some r) ∧
    ∀ fuel r, freeUnused c fuel w.s junk = some r →
      (∀ k ∈ r.unmapped, k ∈ w.mapped) ∧
      (∀ k ∈ w.mapped, k ∉ r.unmapped ↔ ∃ x ∈ w.live, k.1 ≤ x.1 ∧ x.1 + x.2 ≤ k.1 + k.2) ∧
      (r.s.total = 0 → r.s.free = 0) := by
  obtain ⟨B, cs, fl, hf, hm⟩ := winv_reach hc h
  have hsb := hs_bounds hc
  constructor
  · refine ⟨fl.length, fun f hfl => ?_⟩
    unfold freeUnused
    rw [hf.core.head]
    exact loop_total hc junk fl [] ⟨w.s, []⟩ B cs f hf hfl
  · intro fuel r hr
    have frm := c02_freeUnused_frame hc h hr
    unfold freeUnused at hr
    rw [hf.core.head] at hr
    obtain ⟨B', cs', fl', un, h1, h2, h3, h4, h5, h6, fr⟩ := loop_full hc junk fl [] ⟨w.s, []⟩ B cs fuel hf (by simp) r hr
    simp only [List.nil_append] at h2
    have g := h1.core.geo
    refine ⟨fun k hk => (frm.2 k hk).1, ?_, ?_⟩
    · intro k hk
      constructor
      · intro hnu
        rw [hm] at hk
        rw [h2] at hnu
        have hk' : k ∈ pairs cs' := by
          rw [h3]; exact List.mem_filter.mpr ⟨hk, by simpa using hnu⟩
        obtain ⟨kc, hkc, rfl⟩ := List.mem_map.mp hk'
        obtain ⟨b, hb, hp0⟩ := g.start kc hkc
        have hbne : b.kind ≠ .term := fun e => g.term _ _ hb e hp0
        have hin := start_in hc g hkc hb
        have found : ∀ q b', B' q = some b' → b'.kind = .used → In c kc q b' →
            ∃ x ∈ w.live, kc.base ≤ x.1 ∧ x.1 + x.2 ≤ kc.base + kc.size := by
          intro q b' hb' hk' hi
          obtain ⟨n, hn⟩ := h1.liveok.live _ _ _ ⟨b', hb', hk', rfl, rfl⟩
          obtain ⟨q', sz, o, e, hsz, u⟩ := h1.liveok.used _ _ hn
          obtain rfl : q' = q := by omega
          have := (U_eq u ⟨b', hb', hk', rfl, rfl⟩).1
          have ex : ext c b' = b'.size := by simp [ext, hk']
          have i1 := hi.1
          have i2 := hi.2.1
          exact ⟨_, hn, by simp only; omega, by simp only; omega⟩
        cases hkk : b.kind with
        | used => exact found _ _ hb hkk hin
        | term => exact absurd hkk hbne
        | free =>
          obtain ⟨t, ht, tp, _⟩ := g.next _ _ hb hbne
          have hint := next_in hc g hkc hb hbne hin ht
          cases htk : t.kind with
          | used => exact found _ _ ht htk hint
          | free => exact absurd htk (h1.nocoal _ _ _ hb hkk ht)
          | term =>
            exfalso
            exact h5 _ ((h1.core.flok.mem _).mpr ⟨b, hb, hkk⟩) b t hb ht ⟨hp0, htk⟩
      · rintro ⟨x, hx, i1, i2⟩ hu
        rcases (frm.2 k hu).2 x hx with hd | hd
        · -- the block has a header, so it cannot be empty at the start of the chunk
          rw [hm] at hk
          obtain ⟨kc, hkc, rfl⟩ := List.mem_map.mp hk
          obtain ⟨p, n⟩ := x
          obtain ⟨q, sz, o, rfl, hsz, u⟩ := hf.liveok.used p n hx
          rw [h2] at hu
          have := (h6 _ hu).2 q sz o u
          simp only at this i1 i2 hd
          obtain ⟨b, hb, hk', hs', _⟩ := u
          have sz' := (hf.core.geo.size _ _ hb (by simp [hk'])).1
          obtain ⟨k', hk'', j1, j2, _⟩ := hf.core.geo.inside _ _ hb
          have ex : ext c b = b.size := by simp [ext, hk']
          by_cases e : kc = k'
          · subst e; omega
          · have := hf.core.geo.cdis kc hkc k' hk'' e
            omega
        · rw [hm] at hk
          obtain ⟨kc, hkc, rfl⟩ := List.mem_map.mp hk
          obtain ⟨p, n⟩ := x
          obtain ⟨q, sz, o, rfl, hsz, u⟩ := hf.liveok.used p n hx
          rw [h2] at hu
          have := (h6 _ hu).2 q sz o u
          simp only at this i1 i2 hd
          obtain ⟨b, hb, hk', hs', _⟩ := u
          have sz' := (hf.core.geo.size _ _ hb (by simp [hk'])).1
          obtain ⟨k', hk'', j1, j2, _⟩ := hf.core.geo.inside _ _ hb
          have ex : ext c b = b.size := by simp [ext, hk']
          by_cases e : kc = k'
          · subst e; omega
          · have := hf.core.geo.cdis kc hkc k' hk'' e
            omega
    · intro ht
      rw [h1.core.head]
      cases hfl : fl' with
      | nil => rfl
      | cons p t =>
        exfalso
        obtain ⟨b, hb, hbf⟩ := (h1.core.flok.mem p).mp (by simp [hfl])
        obtain ⟨k, hk, i1, i2, _⟩ := g.inside _ _ hb
        have ex : ext c b = b.size := by simp [ext, hbf]
        have sz := (g.size _ _ hb (by simp [hbf])).1
        obtain ⟨t', ht', _⟩ := g.next _ _ hb (by simp [hbf])
        have ht2 := (next_in hc g hk hb (by simp [hbf]) ⟨i1, i2, by simp [hbf]⟩ ht').2.1
        have ext' := g.ext_pos hc ht'
        have e := usable_erase (c := c) hk
        have lt := Full.total_lt (c := c) g
        rw [h1.total, Nat.mod_eq_of_lt lt] at ht
        have : extra c = c.hs + c.ch := rfl
        omega

/-- C03: memory is reused.  When `sljit_malloc_exec` asks the system for a chunk then no chunk contains a free block
which is large enough. -/
theorem c03_reuse (hc : c.Ok) {w : World} (h : Reach c w) {fuel n : Nat} (hn : Sane n) {os : Nat → Option OsChunk}
    {r : MallocRes} (hr : mallocExec c fuel w.s n os = some r) (hmap : r.mapped ≠ [] ∨ r.ptr = 0)
    {k : Nat × Nat} (hk : k ∈ w.mapped) {l : List Seen} (hw : Walk c w.s.mem (k.1 + c.ch) l (k.1 + k.2 - c.hs)) :
    ∀ x ∈ l, x.used = false → x.size < max (n + c.hs + 7) 64 := by
  obtain ⟨B, cs, fl, hf, hm⟩ := winv_reach hc h
  have g := hf.core.geo
  have hsb := hs_bounds hc
  obtain ⟨z1, z2, z3, z4, z5⟩ := reqSize_spec hc hn
  rw [hm] at hk
  obtain ⟨kc, hkc, rfl⟩ := List.mem_map.mp hk
  obtain ⟨b, hb, hp0⟩ := g.start kc hkc
  have hfree := walk_free hc hf.core hkc hw b hb (start_in hc g hkc hb)
  have hno : ∀ p ∈ fl, w.s.mem (fSize c p) < reqSize c n := by
    have far := hf.core.far hc
    unfold mallocExec at hr
    simp only at hr
    split at hr
    · cases hr
    · next hff =>
      rw [hf.core.head] at hff
      rcases findFree_sound far.pos hf.core.chain hff with ⟨_, h⟩ | ⟨hm, _⟩
      · exact h
      · exact absurd (far.pos _ hm) (by omega)
    · next fb hff =>
      exfalso
      have e := takeFree_ptr (c := c) (by omega) w.s (fb + 1) (reqSize c n)
      generalize takeFree c w.s (fb + 1) (reqSize c n) = q at e hr
      obtain rfl := Option.some.inj hr
      rcases hmap with h | h
      · exact h rfl
      · exact e h
  intro x hx hxu
  obtain ⟨b', hb', hk', hs'⟩ := hfree x hx hxu
  have := hno x.addr ((hf.core.flok.mem _).mpr ⟨b', hb', hk'⟩)
  have e : w.s.mem (fSize c x.addr) = b'.size := hf.core.memok.fsize _ _ hb' hk'
  omega

/-- C06, proved for requests of at most 2^64 - 128 bytes: the result is NULL and nothing has changed, or a block of at least `n` bytes
inside one mapped chunk. Missing: the remaining 127 sizes, for which the claim is false (`c06_false`). -/
theorem c06_malloc_size_partial (hc : c.Ok) {w : World} (h : Reach c w) {fuel n : Nat} {os : Nat → Option OsChunk} {r : MallocRes}
    (hn : Sane n) (hos : ∀ k o, os k = some o → OsOk w.mapped k o) (hos0 : os 0 = none)
    (hr : mallocExec c fuel w.s n os = some r) :
    (r.ptr = 0 ∧ r.s = w.s ∧ r.mapped = []) ∨ ∃ k ∈ r.mapped ++ w.mapped, k.1 ≤ r.ptr ∧ r.ptr + n ≤ k.1 + k.2 := by
  by_cases h0 : r.ptr = 0
  · obtain ⟨B, cs, fl, hf, hm⟩ := winv_reach hc h
    obtain ⟨_, _, _, _, _, h1, _⟩ := malloc_full hc hf hn (by rw [← hm]; exact hos) hos0 hr
    exact .inl ⟨h0, h1 h0⟩
  · have := (c01_no_overlap hc (h.step (.malloc w fuel n os r hn hos hos0 hr))).1 (r.ptr, n) (by simp [h0])
    exact .inr this.2.2

/-- A system which has one chunk at address `base` for non-empty requests up to `lim` bytes. -/
def oneChunk (base lim : Nat) : Nat → Option OsChunk :=
  fun k => if k = 0 ∨ lim < k then none else some ⟨base, 0, fun _ => 0⟩

theorem oneChunk_ok {base lim : Nat} (h1 : 4096 ≤ base) (h2 : base % 8 = 0) (h3 : base + lim ≤ W) :
    ∀ k o, oneChunk base lim k = some o → OsOk [] k o := by
  intro k o ho
  unfold oneChunk at ho
  split at ho
  · cases ho
  · cases ho
    refine ⟨h1, h2, ?_, by simp⟩
    simp only; omega

/-- C06 is false without the limit: a request of 2^64 - 1 bytes in a new process is answered with a pointer to a block of
16 (or 24) bytes. -/
theorem c06_false (hc : c.Ok) : ¬ ∀ (w : World), Reach c w → ∀ (fuel n : Nat) (os : Nat → Option OsChunk) (r : MallocRes), n < W →
    (∀ k o, os k = some o → OsOk w.mapped k o) → os 0 = none → mallocExec c fuel w.s n os = some r →
    r.ptr = 0 ∨ ∃ k ∈ r.mapped ++ w.mapped, k.1 ≤ r.ptr ∧ r.ptr + n ≤ k.1 + k.2 := by
  intro hall
  have rs : reqSize c (W - 1) < 32 := by
    rcases hc with ⟨h, h'⟩ | ⟨h, h'⟩ <;> simp [reqSize, alignSize, h, W]
  have cz : chunkSize c (reqSize c (W - 1)) = 65536 := by
    have ex : 16 ≤ extra c ∧ extra c ≤ 32 := by unfold extra; rcases hc with h | h <;> omega
    generalize reqSize c (W - 1) = z at *
    unfold chunkSize
    rw [Nat.mod_eq_of_lt (by have e : W = 18446744073709551616 := rfl; omega)]
    omega
  have hsb := hs_bounds hc
  obtain ⟨r, hr, hp, hm⟩ : ∃ r, mallocExec c 0 (World.init fun _ => 0).s (W - 1) (oneChunk 65536 65536) = some r ∧
      r.ptr = 65536 + c.ch + c.hs ∧ r.mapped = [(65536, 65536)] := by
    obtain ⟨r, h1, h2, h3⟩ := malloc_new (c := c) (s := (World.init fun _ => 0).s) (n := W - 1) (f := 0)
      (os := oneChunk 65536 65536) (o := ⟨65536, 0, fun _ => 0⟩) rfl (by rw [cz]; simp [oneChunk])
    rw [cz] at h3
    exact ⟨r, h1, h2, h3⟩
  have := hall (World.init fun _ => 0) (.init _) 0 (W - 1) (oneChunk 65536 65536) r (by simp [W])
    (oneChunk_ok (by omega) (by omega) (by simp [W])) (by simp [oneChunk]) hr
  rw [hm, hp] at this
  rcases this with h | ⟨k, hk, h1, h2⟩
  · omega
  · simp [World.init] at hk
    subst hk
    simp only at h2
    have e : W = 18446744073709551616 := rfl
    omega

/-- The hypotheses of this file are satisfiable: a history with two allocations (100 and 200 bytes), after which both
blocks are live; the first one is at its expected address.  Releasing it is a further step. -/
theorem alloc_example (hc : c.Ok) :
    ∃ w q, Reach c w ∧ w.live = [(q, 200), (65536 + c.ch + c.hs, 100)] ∧ q ≠ 0 ∧ (65536, 65536) ∈ w.mapped ∧
      Reach c ⟨(freeExec c w.s q (fun _ => 0)).s, [(65536 + c.ch + c.hs, 100)],
        w.mapped.filter (· ∉ (freeExec c w.s q (fun _ => 0)).unmapped)⟩ := by
  have hsb := hs_bounds hc
  have ex : 16 ≤ extra c ∧ extra c ≤ 32 := by unfold extra; rcases hc with h | h <;> omega
  have eW : W = 18446744073709551616 := rfl
  have cz : chunkSize c (reqSize c 100) = 65536 := by
    obtain ⟨z1, z2, z3, z4, z5⟩ := reqSize_spec hc (n := 100) (by unfold Sane; omega)
    obtain ⟨y1, y2, y3, y4⟩ := chunkSize_spec hc z2 (by omega)
    generalize chunkSize c (reqSize c 100) = y at *
    omega
  obtain ⟨r, h1, h2, h3⟩ := malloc_new (c := c) (s := (World.init fun _ => 0).s) (n := 100) (f := 0)
      (os := oneChunk 65536 65536) (o := ⟨65536, 0, fun _ => 0⟩) rfl (by rw [cz]; simp [oneChunk])
  rw [cz] at h3
  dsimp only at h2 h3
  have R1 : Reach c ⟨r.s, [(65536 + c.ch + c.hs, 100)], [(65536, 65536)]⟩ := by
    have := Reach.step (.init fun _ => 0) (Step.malloc _ 0 100 (oneChunk 65536 65536) r (by unfold Sane; omega)
      (oneChunk_ok (by omega) (by omega) (by omega)) (by simp [oneChunk]) h1)
    rw [h3, if_neg (by omega), h2] at this
    exact this
  obtain ⟨fuel, hall⟩ := c01_malloc_total hc R1 200 (by omega) (oneChunk 1048576 1048576)
  obtain ⟨r2, m1, m2⟩ := hall fuel (Nat.le_refl _)
  have hne : r2.ptr ≠ 0 := by
    intro h0
    obtain ⟨k, k1, k2, k3⟩ := m2 h0
    unfold oneChunk at k3
    rw [if_neg (by omega)] at k3
    cases k3
  have S2 := Step.malloc (c := c) _ fuel 200 (oneChunk 1048576 1048576) r2 (by unfold Sane; omega) (by
    intro k o ho
    obtain ⟨o1, o2, o3, _⟩ := oneChunk_ok (by omega) (by omega) (by omega) k o ho
    refine ⟨o1, o2, o3, ?_⟩
    unfold oneChunk at ho
    split at ho
    · cases ho
    · cases ho
      simp) (by simp [oneChunk]) m1
  rw [if_neg hne] at S2
  have R2 := R1.step S2
  refine ⟨_, r2.ptr, R2, rfl, hne, by simp, ?_⟩
  have := R2.step (.free _ (fun _ => 0) r2.ptr 200 (by simp))
  simpa using this

end Verif.Props
