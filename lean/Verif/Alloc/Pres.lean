import Verif.Alloc.Full

/-! # Preservation of the complete invariant -/

namespace Verif.Alloc

variable {c : Cfg} {B : Blocks} {cs : List Chunk} {fl : List Nat} {live : List (Nat × Nat)}

theorem findFree_sound {m : Nat → Nat} {l : List Nat} {prev size fuel r : Nat} (hpos : ∀ p ∈ l, 0 < p)
    (hch : Chain c m prev l) (hf : findFree c m size fuel (hd l) = some r) :
    (r = 0 ∧ ∀ p ∈ l, m (fSize c p) < size) ∨ (r ∈ l ∧ size ≤ m (fSize c r)) := by
  induction l generalizing prev fuel with
  | nil =>
    have : r = 0 := by cases fuel <;> simp [hd, findFree] at hf <;> omega
    exact .inl ⟨this, by simp⟩
  | cons p t ih =>
    have hp := hpos p (by simp)
    obtain ⟨p', rfl⟩ : ∃ p', p = p' + 1 := ⟨p - 1, by omega⟩
    have hf' : findFree c m size fuel (p' + 1) = some r := hf
    cases fuel with
    | zero => simp [findFree] at hf'
    | succ f =>
      unfold findFree at hf'
      split at hf'
      · next h => cases hf'; exact .inr ⟨by simp, h⟩
      · next h =>
        rw [hch.1] at hf'
        rcases ih (fun q hq => hpos q (by simp [hq])) hch.2.2 hf' with ⟨h1, h2⟩ | ⟨h1, h2⟩
        · left; refine ⟨h1, fun q hq => ?_⟩
          rcases List.mem_cons.mp hq with rfl | hq
          · exact Nat.lt_of_not_le h
          · exact h2 q hq
        · right; exact ⟨by simp [h1], h2⟩

theorem reqSize_spec (hc : c.Ok) {n : Nat} (hn : Sane n) :
    64 ≤ reqSize c n ∧ reqSize c n % 8 = 0 ∧ n + c.hs ≤ reqSize c n ∧ reqSize c n + extra c ≤ W ∧
    reqSize c n ≤ max (n + c.hs + 7) 64 := by
  unfold Sane at hn
  have e : W = 18446744073709551616 := rfl
  unfold reqSize alignSize extra
  rw [Nat.mod_eq_of_lt (by rcases hc with h | h <;> split <;> omega)]
  rcases hc with h | h <;> split <;> omega

theorem mod_add_sum {S t x : Nat} (ht : t = S % W) : (t + x) % W = (x + S) % W := by
  subst ht; rw [Nat.mod_add_mod, Nat.add_comm]

/-- What a call of `sljit_malloc_exec` does. -/
theorem malloc_full (hc : c.Ok) {s : ASt} (h : Full c s B cs fl live) {n fuel : Nat} (hn : Sane n)
    {os : Nat → Option OsChunk} (hos : ∀ k o, os k = some o → OsOk (pairs cs) k o) (hos0 : os 0 = none) {r : MallocRes}
    (hr : mallocExec c fuel s n os = some r) :
    ∃ B' cs' fl', Full c r.s B' cs' fl' (if r.ptr = 0 then live else (r.ptr, n) :: live) ∧ pairs cs' = r.mapped ++ pairs cs ∧
      (r.ptr = 0 → r.s = s ∧ r.mapped = []) ∧
      (∀ a, Safe c B cs a → (∀ k ∈ r.mapped, a < k.1 ∨ k.1 + k.2 ≤ a) → r.s.mem a = s.mem a) := by
  obtain ⟨z1, z2, z3, z4, z5⟩ := reqSize_spec hc hn
  have hsb := hs_bounds hc
  have hex : 16 ≤ extra c := by unfold extra; omega
  unfold mallocExec at hr
  simp only at hr
  have far := h.core.far hc
  split at hr
  · cases hr
  · next hff =>
    rw [h.core.head] at hff
    split at hr
    · cases hr
      exact ⟨B, cs, fl, by simpa using h, rfl, fun _ => ⟨rfl, rfl⟩, fun _ _ _ => rfl⟩
    · next o ho =>
      obtain ⟨o1, o2, o3, o4⟩ := hos _ _ ho
      have z4 : reqSize c n + extra c + 0x10000 ≤ W := by
        by_contra hlt
        have : chunkSize c (reqSize c n) = 0 := by
          have e : W = 18446744073709551616 := rfl
          have ex : extra c ≤ 32 := by unfold extra; rcases hc with h | h <;> omega
          show (reqSize c n + extra c + 65536 - 1) % 18446744073709551616 / 65536 * 65536 = 0
          omega
        rw [this, hos0] at ho
        cases ho
      have hd' : ∀ k' ∈ cs, o.base + chunkSize c (reqSize c n) ≤ k'.base ∨ k'.base + k'.size ≤ o.base := by
        intro k' hk'
        exact o4 (k'.base, k'.size) (List.mem_map.mpr ⟨k', hk', rfl⟩)
      have core1 := core_havoc hc h.core o.data hd'
      obtain ⟨B', fl', nn, cr, nc, hptr, l1, l2, l3, ua, ea, et, fr⟩ :=
        newChunk_ok hc core1 h.nocoal (eoff := o.eoff) z1 z2 z4 o1 o2 o3 hd'
      generalize newChunk c { s with mem := havoc s.mem o.base (chunkSize c (reqSize c n)) o.data } o.base o.eoff (reqSize c n) = res at *
      generalize chunkSize c (reqSize c n) = csz at *
      obtain ⟨rs, rp⟩ := res
      dsimp only at hptr cr ea et fr hr
      subst hptr
      have hne : o.base + c.ch + c.hs ≠ 0 := by omega
      obtain rfl := Option.some.inj hr
      dsimp only
      rw [if_neg hne]
      have lo := h.liveok.add (r := n) ua (by omega)
      refine ⟨B', _, fl', ⟨cr, nc, lo, ?_, ?_⟩, by simp [pairs], fun e => absurd e hne, ?_⟩
      · rw [ea]
        show (s.allocated + nn) % W = _
        rw [mod_add_sum h.alloc]
        congr 1
        have hb : blocksOf c rs.mem live = blocksOf c s.mem live := by
          apply blocksOf_same h.core cr
          intro p n' hp
          obtain ⟨q, sz, o', e, _, u⟩ := h.liveok.used p n' hp
          exact ⟨q, sz, o', e, u, (ua.1 _ _ _).mpr (.inl u)⟩
        have hcons : ∀ m, blocksOf c m ((o.base + c.ch + c.hs, n) :: live) = (o.base + c.ch, m (o.base + c.ch)) :: blocksOf c m live := by
          intro m; simp [blocksOf]
        rw [hcons, lsum_cons, hb]
        rw [U_size cr ((ua.1 _ _ _).mpr (.inr ⟨rfl, rfl, rfl⟩))]
      · rw [et, usable_cons]
        exact mod_add_sum h.total
      · intro a ha hm
        have hma := hm (o.base, csz) (by simp)
        rw [fr a ha hma]
        show havoc _ _ _ _ _ = _
        rw [havoc, if_neg (by simp only at hma; omega)]
  · next fb hff =>
    rw [h.core.head] at hff
    rcases findFree_sound far.pos h.core.chain hff with ⟨h0, _⟩ | ⟨hm, hge⟩
    · cases h0
    · obtain ⟨b, hb, hbf⟩ := (h.core.flok.mem _).mp hm
      rw [h.core.memok.fsize _ _ hb hbf] at hge
      obtain ⟨B', fl', hdr, nn, cr, nc, hptr, l1, l2, ua, p1, p2, ea, et, fr⟩ :=
        take_ok hc h.core h.nocoal hb hbf z1 z2 hge (by
          obtain ⟨k, hk, i⟩ := h.core.geo.inside _ _ hb
          have := h.core.geo.cfit k hk
          have ex : ext c b = b.size := by simp [ext, hbf]
          omega)
      cases hr
      simp only [hptr]
      have hne : hdr + c.hs ≠ 0 := by omega
      rw [if_neg hne]
      have lo := h.liveok.add (r := n) ua (by omega)
      refine ⟨B', cs, fl', ⟨cr, nc, lo, ?_, ?_⟩, by simp, fun e => absurd e hne, fun a ha _ => fr a ha⟩
      · rw [ea, mod_add_sum h.alloc]
        congr 1
        have hb : blocksOf c (takeFree c s (fb + 1) (reqSize c n)).1.mem live = blocksOf c s.mem live := by
          apply blocksOf_same h.core cr
          intro p n' hp
          obtain ⟨q, sz, o', e, _, u⟩ := h.liveok.used p n' hp
          exact ⟨q, sz, o', e, u, (ua.1 _ _ _).mpr (.inl u)⟩
        have hcons : ∀ m, blocksOf c m ((hdr + c.hs, n) :: live) = (hdr, m hdr) :: blocksOf c m live := by
          intro m; simp [blocksOf]
        rw [hcons, lsum_cons, hb]
        rw [U_size cr ((ua.1 _ _ _).mpr (.inr ⟨rfl, rfl, rfl⟩))]
      · rw [et]; exact h.total

/-- A block is owned by at most one chunk, and has a header in front of it. -/
theorem blocksOf_erase {m : Nat → Nat} {x : Nat × Nat} (h : x ∈ live) :
    lsum (blocksOf c m (live.erase x)) + m (x.1 - c.hs) = lsum (blocksOf c m live) := by
  induction live with
  | nil => cases h
  | cons y t ih =>
    by_cases e : y = x
    · subst e
      rw [List.erase_cons_head]; simp [blocksOf, lsum]; omega
    · rw [List.erase_cons_tail (by simpa using e)]
      have := ih (by simp at h; rcases h with h | h; exact absurd h.symm e; exact h)
      simp [blocksOf, lsum] at this ⊢
      omega

/-- Releasing a chunk keeps everything which is safe, safe. -/
theorem Safe.drop {B' : Blocks} {cs' : List Chunk} (hU : ∀ q n o, U B q n o → U B' q n o) (hcs : ∀ k ∈ cs', k ∈ cs) {a : Nat}
    (h : Safe c B cs a) : Safe c B' cs' a := by
  rcases h with ⟨p, b, hb, hk, h1, h2⟩ | h
  · obtain ⟨b', hb', hk', hs', _⟩ := hU p b.size b.off ⟨b, hb, hk, rfl, rfl⟩
    exact .inl ⟨p, b', hb', hk', h1, by omega⟩
  · exact .inr (fun k hk => h k (hcs k hk))

theorem filter_nil (l : List (Nat × Nat)) : l.filter (· ∉ ([] : List (Nat × Nat))) = l := by
  rw [List.filter_eq_self]; simp

/-- `drop_ok` together with the accounting. -/
theorem drop_full (hc : c.Ok) {s : ASt} (h : Full c s B cs fl live) {p : Nat} {b t : Blk} (hb : B p = some b)
    (hf : b.kind = .free) (hp : b.prev = 0) (ht : B (p + b.size) = some t) (htk : t.kind = .term) (junk : Nat → Nat) :
    ∃ k ∈ cs, ∃ B', p = k.base + c.ch ∧
      ((removeFree c { s with total := (s.total + W - b.size % W) % W } p).mem (fSize c p) + extra c) % W = k.size ∧ p - c.ch = k.base ∧
      Full c (freeChunk c (removeFree c { s with total := (s.total + W - b.size % W) % W } p) p k.size junk) B' (cs.erase k) (fl.erase p) live ∧
      (∀ q n o, U B' q n o ↔ U B q n o) ∧
      (∀ q b', B' q = some b' → B q = some b') ∧
      (∀ q n o, U B q n o → q + n ≤ k.base ∨ k.base + k.size ≤ q) ∧
      (∀ a, Safe c B cs a → (freeChunk c (removeFree c { s with total := (s.total + W - b.size % W) % W } p) p k.size junk).mem a = s.mem a) := by
  have core1 : Core c { s with total := (s.total + W - b.size % W) % W } B cs fl :=
    ⟨h.core.geo, h.core.memok, h.core.chain, h.core.head, h.core.flok⟩
  obtain ⟨k, hk, e1, e2, e3, e4, e5, cr, nc, hU, hUo, ea, et, fr⟩ := drop_ok hc core1 h.nocoal hb hf hp ht htk junk
  refine ⟨k, hk, _, e1, by rw [e3]; exact e4, e5, ⟨cr, nc, h.liveok.congr hU, ?_, ?_⟩, hU, fun q b' hq => (dropChunk_some hq).2.2, hUo, fr⟩
  · show (removeFree c _ p).allocated = _
    rw [ea]
    show s.allocated = _
    rw [blocksOf_same h.core cr]
    · exact h.alloc
    · intro p n hp
      obtain ⟨q, sz, o, e, _, u⟩ := h.liveok.used p n hp
      exact ⟨q, sz, o, e, u, (hU _ _ _).mpr u⟩
  · show (removeFree c _ p).total = _
    rw [et]
    apply mod_sub_sum h.total
    have := usable_erase (c := c) hk
    rw [← this]
    omega

/-- What a call of `sljit_free_exec` does. -/
theorem free_full (hc : c.Ok) {s : ASt} (h : Full c s B cs fl live) {p n : Nat} (hl : (p, n) ∈ live) (junk : Nat → Nat) :
    ∃ B' cs' fl', Full c (freeExec c s p junk).s B' cs' fl' (live.erase (p, n)) ∧
      pairs cs' = (pairs cs).filter (· ∉ (freeExec c s p junk).unmapped) ∧
      (∀ k ∈ (freeExec c s p junk).unmapped, k ∈ pairs cs ∧ ∀ q sz o, U B' q sz o → q + sz ≤ k.1 ∨ k.1 + k.2 ≤ q) ∧
      (∀ a, Safe c B' cs a → (freeExec c s p junk).s.mem a = s.mem a) := by
  obtain ⟨q, sz, o, rfl, hsz, u⟩ := h.liveok.used p n hl
  have usz := U_size h.core u
  obtain ⟨b, hb, hk, hs, ho⟩ := u
  have hq : q + c.hs - c.hs = q := by omega
  obtain ⟨B1, fl1, b1, c1, n1, hb1, hf1, u1, a1, t1, f1⟩ := freePrev_ok hc h.core h.nocoal hb hk
  obtain ⟨B2, fl2, b2, c2, n2, hb2, hf2, u2, a2, t2, f2⟩ := freeNext_ok hc c1 hb1 hf1 n1
  have u12 : ∀ q' n o, U B2 q' n o ↔ U B q' n o ∧ q' ≠ q := fun q' n o => (u2 _ _ _).trans (u1 _ _ _)
  have lo := h.liveok.erase hl u12
  have full2 : Full c (freeNext c (freePrev c s q).1 (freePrev c s q).2) B2 cs fl2 (live.erase (q + c.hs, n)) := by
    refine ⟨c2, n2, lo, ?_, ?_⟩
    · rw [a2, a1]
      have e := blocksOf_erase (c := c) (m := s.mem) hl
      simp only [hq, usz, ← hs] at e
      rw [mod_sub_sum h.alloc e]
      congr 2
      symm
      apply blocksOf_same h.core c2
      intro p' n' hp'
      obtain ⟨q', sz', o', e, _, u⟩ := lo.used p' n' hp'
      exact ⟨q', sz', o', e, ((u12 _ _ _).mp u).1, u⟩
    · rw [t2, t1]; exact h.total
  have fr2 : ∀ a, Safe c B2 cs a → (freeNext c (freePrev c s q).1 (freePrev c s q).2).mem a = s.mem a := by
    intro a ha
    have ha1 : Safe c B1 cs a := ha.drop (fun q n o u => (u2 _ _ _).mp u) (fun k hk => hk)
    rw [f2 a ha1, f1 a ha1]
  generalize hs2 : freeNext c (freePrev c s q).1 (freePrev c s q).2 = s2 at *
  generalize hp2 : (freePrev c s q).2 = p2 at *
  have ef : freeExec c s (q + c.hs) junk = freeTail c s2 p2 junk := by
    simp only [freeExec, hq, hp2, hs2]
  rw [ef]
  have g2 := c2.geo
  have hk2 : b2.kind ≠ .term := by simp [hf2]
  obtain ⟨t, ht, tp, to⟩ := g2.next _ _ hb2 hk2
  have fsz := c2.memok.fsize _ _ hb2 hf2
  have hpv := c2.memok.prev _ _ hb2
  have htg := c2.memok.tag _ _ ht
  have keep : ∃ B' cs' fl', Full c s2 B' cs' fl' (live.erase (q + c.hs, n)) ∧
      pairs cs' = (pairs cs).filter (· ∉ ([] : List (Nat × Nat))) ∧
      (∀ k ∈ ([] : List (Nat × Nat)), k ∈ pairs cs ∧ ∀ q sz o, U B' q sz o → q + sz ≤ k.1 ∨ k.1 + k.2 ≤ q) ∧
      (∀ a, Safe c B' cs a → s2.mem a = s.mem a) :=
    ⟨B2, cs, fl2, full2, (filter_nil _).symm, by simp, fr2⟩
  unfold freeTail
  simp only [fsz, hpv, htg]
  split
  · next hcond =>
    split
    · have htk := (tag_term g2 ht).mp hcond.2
      obtain ⟨k, hk, B', e1, e2, e3, f3, uu, _, hUo, fr⟩ := drop_full hc full2 hb2 hf2 hcond.1 ht htk junk
      simp only [e2, e3]
      refine ⟨B', cs.erase k, _, f3, erase_pairs g2 hk, ?_, ?_⟩
      · intro k' hk'
        simp only [List.mem_singleton] at hk'
        subst hk'
        exact ⟨List.mem_map.mpr ⟨k, hk, rfl⟩, fun q sz o u => hUo q sz o ((uu _ _ _).mp u)⟩
      · intro a ha
        have ha2 : Safe c B2 cs a := ha.drop (fun q n o u => (uu _ _ _).mp u) (fun k hk => hk)
        rw [fr a ha2, fr2 a ha2]
    · exact keep
  · exact keep

/-- The loop of `sljit_free_unused_memory_exec`. -/
theorem loop_full (hc : c.Ok) (junk : Nat → Nat) (l : List Nat) : ∀ (done : List Nat) (r : FreeRes) (B : Blocks) (cs : List Chunk)
    (fuel : Nat), Full c r.s B cs (done ++ l) live →
    (∀ p ∈ done, ∀ b t, B p = some b → B (p + b.size) = some t → ¬ (b.prev = 0 ∧ t.kind = .term)) →
    ∀ r', freeUnusedLoop c junk fuel r (hd l) = some r' →
    ∃ B' cs' fl' un, Full c r'.s B' cs' fl' live ∧ r'.unmapped = r.unmapped ++ un ∧
      pairs cs' = (pairs cs).filter (· ∉ un) ∧ (∀ q n o, U B' q n o ↔ U B q n o) ∧
      (∀ p ∈ fl', ∀ b t, B' p = some b → B' (p + b.size) = some t → ¬ (b.prev = 0 ∧ t.kind = .term)) ∧
      (∀ k ∈ un, k ∈ pairs cs ∧ ∀ q sz o, U B q sz o → q + sz ≤ k.1 ∨ k.1 + k.2 ≤ q) ∧
      (∀ a, Safe c B cs a → r'.s.mem a = r.s.mem a) := by
  induction l with
  | nil =>
    intro done r B cs fuel h hd' r' hr
    have : r' = r := by cases fuel <;> simp [hd, freeUnusedLoop] at hr <;> exact hr.symm
    subst this
    exact ⟨B, cs, done, [], by simpa using h, by simp, (filter_nil _).symm, fun _ _ _ => Iff.rfl, hd', by simp, fun _ _ => rfl⟩
  | cons p l ih =>
    intro done r B cs fuel h hd' r' hr
    have hpm : p ∈ done ++ p :: l := by simp
    have hpos := (h.core.far hc).pos p hpm
    obtain ⟨b, hb, hf⟩ := (h.core.flok.mem p).mp hpm
    have g := h.core.geo
    have hk : b.kind ≠ .term := by simp [hf]
    obtain ⟨t, ht, tp, to⟩ := g.next _ _ hb hk
    have fsz := h.core.memok.fsize _ _ hb hf
    have hpv := h.core.memok.prev _ _ hb
    have htg := h.core.memok.tag _ _ ht
    have hnx := (chain_links h.core.chain).1
    obtain ⟨p', rfl⟩ : ∃ p', p = p' + 1 := ⟨p - 1, by omega⟩
    have hr' : freeUnusedLoop c junk fuel r (p' + 1) = some r' := hr
    cases fuel with
    | zero => simp [freeUnusedLoop] at hr'
    | succ f =>
      unfold freeUnusedLoop at hr'
      simp only [Nat.succ_eq_add_one, fsz, hpv, htg, hnx] at hr'
      split at hr'
      · next hcond =>
        have htk := (tag_term g ht).mp hcond.2
        obtain ⟨k, hk, B1, e1, e2, e3, f3, uu, sub, hUo, fr⟩ := drop_full hc h hb hf hcond.1 ht htk junk
        simp only [e2, e3] at hr'
        rw [erase_mid h.core.flok.nodup] at f3
        obtain ⟨B', cs', fl', un, g1, g2, g3, g4, g5, g6, g7⟩ := ih done _ B1 (cs.erase k) f f3 (by
          intro q hq b' t' hb' ht'
          exact hd' q hq b' t' (sub _ _ hb') (sub _ _ ht')) r' hr'
        refine ⟨B', cs', fl', (k.base, k.size) :: un, g1, ?_, ?_, fun q n o => (g4 q n o).trans (uu q n o), g5, ?_, ?_⟩
        · rw [g2]; simp
        · rw [g3, erase_pairs g hk, List.filter_filter]
          apply List.filter_congr
          intro x _
          simp [Bool.and_comm, not_or]
        · intro k' hk'
          rcases List.mem_cons.mp hk' with rfl | hk'
          · exact ⟨List.mem_map.mpr ⟨k, hk, rfl⟩, hUo⟩
          · obtain ⟨m1, m2⟩ := g6 k' hk'
            refine ⟨?_, fun q sz o u => m2 q sz o ((uu _ _ _).mpr u)⟩
            rw [erase_pairs g hk] at m1
            exact (List.mem_filter.mp m1).1
        · intro a ha
          have ha1 : Safe c B1 (cs.erase k) a := ha.drop (fun q n o u => (uu _ _ _).mpr u) (fun k hk => List.mem_of_mem_erase hk)
          rw [g7 a ha1]
          exact fr a ha
      · next hcond =>
        have := ih (done ++ [p' + 1]) r B cs f (by simpa using h) (by
          intro q hq b' t' hb' ht'
          rcases List.mem_append.mp hq with hq | hq
          · exact hd' q hq b' t' hb' ht'
          · simp only [List.mem_singleton] at hq
            subst hq
            rw [hb] at hb'; obtain rfl := Option.some.inj hb'
            rw [ht] at ht'; obtain rfl := Option.some.inj ht'
            rintro ⟨x1, x2⟩
            exact hcond ⟨x1, (tag_term g ht).mpr x2⟩) r' hr'
        exact this

/-- The loop terminates. -/
theorem loop_total (hc : c.Ok) (junk : Nat → Nat) (l : List Nat) : ∀ (done : List Nat) (r : FreeRes) (B : Blocks) (cs : List Chunk)
    (fuel : Nat), Full c r.s B cs (done ++ l) live → l.length ≤ fuel → ∃ r', freeUnusedLoop c junk fuel r (hd l) = some r' := by
  induction l with
  | nil =>
    intro done r B cs fuel h _
    cases fuel <;> simp [hd, freeUnusedLoop]
  | cons p l ih =>
    intro done r B cs fuel h hfuel
    have hpm : p ∈ done ++ p :: l := by simp
    have hpos := (h.core.far hc).pos p hpm
    obtain ⟨b, hb, hf⟩ := (h.core.flok.mem p).mp hpm
    have g := h.core.geo
    have hk : b.kind ≠ .term := by simp [hf]
    obtain ⟨t, ht, tp, to⟩ := g.next _ _ hb hk
    have fsz := h.core.memok.fsize _ _ hb hf
    have hpv := h.core.memok.prev _ _ hb
    have htg := h.core.memok.tag _ _ ht
    have hnx := (chain_links h.core.chain).1
    obtain ⟨f, rfl⟩ : ∃ f, fuel = f + 1 := ⟨fuel - 1, by simp at hfuel; omega⟩
    obtain ⟨p', rfl⟩ : ∃ p', p = p' + 1 := ⟨p - 1, by omega⟩
    show ∃ r', freeUnusedLoop c junk (f + 1) r (p' + 1) = some r'
    unfold freeUnusedLoop
    simp only [Nat.succ_eq_add_one, fsz, hpv, htg, hnx]
    split
    · next hcond =>
      have htk := (tag_term g ht).mp hcond.2
      obtain ⟨k, hk, B1, e1, e2, e3, f3, uu, sub, hUo, fr⟩ := drop_full hc h hb hf hcond.1 ht htk junk
      simp only [e2, e3]
      rw [erase_mid h.core.flok.nodup] at f3
      exact ih done _ B1 (cs.erase k) f f3 (by simpa using hfuel)
    · exact ih (done ++ [p' + 1]) r B cs f (by simpa using h) (by simpa using hfuel)

/-- Writes of the client. -/
theorem client_full (hc : c.Ok) {s : ASt} (h : Full c s B cs fl live) {m' : Nat → Nat}
    (hm : ∀ a, ¬ ClientOwns ⟨s, live, pairs cs⟩ a → m' a = s.mem a) :
    Full c { s with mem := m' } B cs fl live := by
  have g := h.core.geo
  have hsb := hs_bounds hc
  have owns : ∀ a, ClientOwns ⟨s, live, pairs cs⟩ a → Safe c B cs a := by
    rintro a (⟨⟨p, n⟩, hk, h1, h2⟩ | h1)
    · obtain ⟨q, sz, o, e, hsz, b, hb, hk, hs, _⟩ := h.liveok.used p n hk
      simp only at h1 h2
      exact .inl ⟨q, b, hb, hk, by omega, by omega⟩
    · exact .inr (fun k hk => h1 (k.base, k.size) (List.mem_map.mpr ⟨k, hk, rfl⟩))
  have key : ∀ q b, B q = some b → ∀ a, q ≤ a → (a < q + c.hs ∨ (b.kind = .free ∧ a < q + b.size)) → m' a = s.mem a := by
    intro q b hq a h1 h2
    apply hm
    intro ho
    have := safe_out hc g (owns a ho) hq
    rcases h2 with h2 | ⟨h2, h3⟩
    · omega
    · have := this.imp_right (fun h => h.2 h2)
      omega
  refine ⟨⟨g, ⟨?_, ?_, ?_, ?_⟩, ?_, h.core.head, h.core.flok⟩, h.nocoal, h.liveok, ?_, h.total⟩
  · intro q b hq
    exact (key q b hq _ (by simp [hSize]) (by simp only [hSize]; omega)).trans (h.core.memok.tag _ _ hq)
  · intro q b hq
    exact (key q b hq _ (by simp [hPrev]) (by simp only [hPrev]; omega)).trans (h.core.memok.prev _ _ hq)
  · intro q b hq h24
    exact (key q b hq _ (by simp [hOff]) (by simp only [hOff]; omega)).trans (h.core.memok.off _ _ hq h24)
  · intro q b hq hf
    have := (g.size _ _ hq (by simp [hf])).1
    exact (key q b hq _ (by simp [fSize]; omega) (.inr ⟨hf, by simp only [fSize]; omega⟩)).trans (h.core.memok.fsize _ _ hq hf)
  · refine chain_frame (fun r hr => ?_) h.core.chain
    obtain ⟨b, hq, hf⟩ := (h.core.flok.mem r).mp hr
    have := (g.size _ _ hq (by simp [hf])).1
    exact ⟨key r b hq _ (by simp [fNext]) (.inr ⟨hf, by simp only [fNext]; omega⟩),
      key r b hq _ (by simp [fPrev]; omega) (.inr ⟨hf, by simp only [fPrev]; omega⟩)⟩
  · show s.allocated = lsum (blocksOf c m' live) % W
    rw [blocksOf_congr (m := s.mem)]
    · exact h.alloc
    · rintro ⟨p, n⟩ hx
      obtain ⟨q, sz, o, e, hsz, b, hb, hk, hs, _⟩ := h.liveok.used p n hx
      subst e
      simp only [Nat.add_sub_cancel]
      exact key q b hb q (by omega) (by omega)

/-- The invariant of reachable states. -/
def WInv (c : Cfg) (w : World) : Prop := ∃ B cs fl, Full c w.s B cs fl w.live ∧ w.mapped = pairs cs

theorem winv_init (c : Cfg) (m : Nat → Nat) : WInv c (World.init m) := by
  refine ⟨fun _ => none, [], [], ⟨⟨?_, ⟨?_, ?_, ?_, ?_⟩, trivial, rfl, ⟨List.nodup_nil, ?_⟩⟩, ?_, ⟨?_, ?_, ?_⟩, rfl, rfl⟩, rfl⟩
  · constructor <;> intros <;> first | contradiction | exact List.nodup_nil
  · intro p b h; cases h
  · intro p b h; cases h
  · intro p b h; cases h
  · intro p b h; cases h
  · intro p; simp
  · intro p b b' h; cases h
  · exact List.nodup_nil
  · intro p n h; cases h
  · rintro q sz o ⟨b, h, _⟩; cases h

theorem winv_step (hc : c.Ok) {w w' : World} (h : WInv c w) (hs : Step c w w') : WInv c w' := by
  obtain ⟨B, cs, fl, hf, hm⟩ := h
  cases hs with
  | malloc fuel n os r hn hos hos0 hr =>
    obtain ⟨B', cs', fl', h1, h2, _⟩ := malloc_full hc hf hn (by rw [← hm]; exact hos) hos0 hr
    exact ⟨B', cs', fl', h1, by rw [h2, hm]⟩
  | free junk p n hl =>
    obtain ⟨B', cs', fl', h1, h2, _⟩ := free_full hc hf hl junk
    exact ⟨B', cs', fl', h1, by rw [h2, hm]⟩
  | freeUnused junk fuel r hr =>
    unfold freeUnused at hr
    rw [hf.core.head] at hr
    obtain ⟨B', cs', fl', un, h1, h2, h3, _⟩ := loop_full hc junk fl [] ⟨w.s, []⟩ B cs fuel hf (by simp) r hr
    refine ⟨B', cs', fl', h1, ?_⟩
    simp only [List.nil_append] at h2
    rw [h3, hm, h2]
  | client m' hmm =>
    refine ⟨B, cs, fl, client_full hc hf ?_, hm⟩
    rw [← hm]; exact hmm

theorem winv_reach (hc : c.Ok) {w : World} (h : Reach c w) : WInv c w := by
  induction h with
  | init m => exact winv_init c m
  | step _ hs ih => exact winv_step hc ih hs

end Verif.Alloc
