import Verif.Alloc.NewChunk
import Verif.Alloc.World
import Verif.Alloc.Sum

/-! # The complete invariant and its preservation by every event -/

namespace Verif.Alloc

variable {c : Cfg} {B : Blocks} {cs : List Chunk} {fl : List Nat}

/-- Blocks owned by the client, with the size found in their header. -/
def blocksOf (c : Cfg) (m : Nat → Nat) (live : List (Nat × Nat)) : List (Nat × Nat) :=
  live.map (fun x => (x.1 - c.hs, m (x.1 - c.hs)))

def usable (c : Cfg) (mapped : List (Nat × Nat)) : List (Nat × Nat) := mapped.map (fun k => (k.1, k.2 - extra c))

def pairs (cs : List Chunk) : List (Nat × Nat) := cs.map (fun k => (k.base, k.size))

/-- The client's view agrees with the used blocks. -/
structure LiveOk (c : Cfg) (B : Blocks) (live : List (Nat × Nat)) : Prop where
  nodup : (live.map Prod.fst).Nodup
  used : ∀ p n, (p, n) ∈ live → ∃ q sz o, p = q + c.hs ∧ n + c.hs ≤ sz ∧ U B q sz o
  live : ∀ q sz o, U B q sz o → ∃ n, (q + c.hs, n) ∈ live

structure Full (c : Cfg) (s : ASt) (B : Blocks) (cs : List Chunk) (fl : List Nat) (live : List (Nat × Nat)) : Prop where
  core : Core c s B cs fl
  nocoal : NoCoal B
  liveok : LiveOk c B live
  alloc : s.allocated = lsum (blocksOf c s.mem live) % W
  total : s.total = lsum (usable c (pairs cs)) % W

theorem U_size {s : ASt} (h : Core c s B cs fl) {q n o : Nat} (u : U B q n o) : s.mem q = n := by
  obtain ⟨b, h1, h2, h3, _⟩ := u
  have := h.memok.tag _ _ h1
  simp [hSize, Blk.tag, h2] at this
  omega

theorem U_eq {q n o n' o' : Nat} (u : U B q n o) (u' : U B q n' o') : n = n' ∧ o = o' := by
  obtain ⟨b, h1, h2, h3, h4⟩ := u
  obtain ⟨b', h1', h2', h3', h4'⟩ := u'
  rw [h1] at h1'; obtain rfl := Option.some.inj h1'
  omega

theorem blocksOf_congr {m m' : Nat → Nat} {live : List (Nat × Nat)} (h : ∀ x ∈ live, m' (x.1 - c.hs) = m (x.1 - c.hs)) :
    blocksOf c m' live = blocksOf c m live := by
  apply List.map_congr_left
  intro x hx
  rw [h x hx]

/-- Headers of live blocks have the same contents in two states with the same used blocks. -/
theorem blocksOf_same {s s' : ASt} {B B' : Blocks} {cs cs' : List Chunk} {fl fl' : List Nat} (h : Core c s B cs fl)
    (h' : Core c s' B' cs' fl') {live : List (Nat × Nat)} (hl : ∀ p n, (p, n) ∈ live → ∃ q sz o, p = q + c.hs ∧ U B q sz o ∧ U B' q sz o) :
    blocksOf c s'.mem live = blocksOf c s.mem live := by
  apply blocksOf_congr
  rintro ⟨p, n⟩ hx
  obtain ⟨q, sz, o, e, u, u'⟩ := hl p n hx
  subst e
  simp only [Nat.add_sub_cancel]
  rw [U_size h u, U_size h' u']

theorem mod_sub_sum {S S' x t : Nat} (ht : t = S % W) (hS : S' + x = S) : (t + W - x % W) % W = S' % W := by
  subst ht; subst hS
  have h1 := Nat.mod_add_div (S' + x) W
  have h2 := Nat.mod_add_div x W
  have h3 : x % W < W := Nat.mod_lt _ (by decide)
  generalize (S' + x) % W = r at *
  generalize (S' + x) / W = d at *
  generalize x % W = r2 at *
  generalize x / W = d2 at *
  have : r + W - r2 = r + (W - r2) := by omega
  have hW : (0 : Nat) < W := by decide
  apply (Nat.add_mod_right _ _).symm.trans
  -- both sides agree modulo W
  have e : r + W - r2 + W + W * d = S' + W * (d2 + 2) := by
    rw [Nat.mul_add]
    have := Nat.mul_comm W 2
    omega
  calc (r + W - r2 + W) % W = (r + W - r2 + W + W * d) % W := (Nat.add_mul_mod_self_left _ _ _).symm
    _ = (S' + W * (d2 + 2)) % W := by rw [e]
    _ = S' % W := Nat.add_mul_mod_self_left _ _ _

/-- Sizes of the owned blocks never wrap around. -/
theorem Full.alloc_lt {s : ASt} {live : List (Nat × Nat)} (g : Geo c B cs) (hco : Core c s B cs fl)
    (hl : LiveOk c B live) : lsum (blocksOf c s.mem live) < W := by
  have hpw : (blocksOf c s.mem live).Pairwise (fun x y => x.1 + x.2 ≤ y.1 ∨ y.1 + y.2 ≤ x.1) := by
    unfold blocksOf
    rw [List.pairwise_map]
    have nd := hl.nodup
    unfold List.Nodup at nd
    rw [List.pairwise_map] at nd
    refine List.Pairwise.imp_of_mem ?_ nd
    rintro ⟨p, n⟩ ⟨p', n'⟩ h1 h2 hne
    obtain ⟨q, sz, o, e, _, u⟩ := hl.used p n h1
    obtain ⟨q', sz', o', e', _, u'⟩ := hl.used p' n' h2
    subst e; subst e'
    simp only [Nat.add_sub_cancel, U_size hco u, U_size hco u']
    obtain ⟨b, hb, hk, hs, _⟩ := u
    obtain ⟨b', hb', hk', hs', _⟩ := u'
    have := g.apart hb hb' (by simp only at hne; omega)
    simpa [ext, hk, hk', hs, hs'] using this
  have hin : ∀ x ∈ blocksOf c s.mem live, 1 ≤ x.1 ∧ x.1 + x.2 ≤ W := by
    intro x hx
    obtain ⟨⟨p, n⟩, h1, rfl⟩ := List.mem_map.mp hx
    obtain ⟨q, sz, o, e, _, u⟩ := hl.used p n h1
    subst e
    simp only [Nat.add_sub_cancel, U_size hco u]
    obtain ⟨b, hb, hk, hs, _⟩ := u
    have := g.bound hb
    simp [ext, hk, hs] at this
    omega
  have := lsum_le _ 1 W (by decide) hin hpw
  have : W - 1 < W := by decide
  omega

/-- Usable sizes of the chunks never wrap around. -/
theorem Full.total_lt (g : Geo c B cs) : lsum (usable c (pairs cs)) < W := by
  have hpw : (usable c (pairs cs)).Pairwise (fun x y => x.1 + x.2 ≤ y.1 ∨ y.1 + y.2 ≤ x.1) := by
    unfold usable pairs
    rw [List.map_map, List.pairwise_map]
    refine List.Pairwise.imp_of_mem ?_ g.nodup
    intro k k' h1 h2 hne
    have := g.cdis k h1 k' h2 hne
    simp only [Function.comp]
    omega
  have hin : ∀ x ∈ usable c (pairs cs), 1 ≤ x.1 ∧ x.1 + x.2 ≤ W := by
    intro x hx
    simp only [usable, pairs, List.map_map] at hx
    obtain ⟨k, h1, rfl⟩ := List.mem_map.mp hx
    have := g.cfit k h1
    simp only [Function.comp]
    omega
  have := lsum_le _ 1 W (by decide) hin hpw
  have : W - 1 < W := by decide
  omega

theorem erase_pairs (g : Geo c B cs) {k : Chunk} (hk : k ∈ cs) :
    pairs (cs.erase k) = (pairs cs).filter (· ∉ [(k.base, k.size)]) := by
  unfold pairs
  rw [List.filter_map, g.nodup.erase_eq_filter]
  congr 1
  apply List.filter_congr
  intro x hx
  have := g.cfit k hk
  by_cases e : x = k
  · subst e; simp
  · have d := g.cdis x hx k hk e
    have := g.cfit x hx
    have hb : x.base ≠ k.base := by omega
    simp [hb, e]

theorem usable_erase {k : Chunk} (hk : k ∈ cs) :
    lsum (usable c (pairs (cs.erase k))) + (k.size - extra c) = lsum (usable c (pairs cs)) := by
  induction cs with
  | nil => cases hk
  | cons x t ih =>
    by_cases e : x = k
    · subst e
      rw [List.erase_cons_head]; simp [usable, pairs, lsum]; omega
    · rw [List.erase_cons_tail (by simpa using e)]
      have := ih (by simp at hk; rcases hk with h | h; exact absurd h.symm e; exact h)
      simp [usable, pairs, lsum] at this ⊢
      omega

/-- A new chunk. -/
theorem usable_cons (k : Chunk) (cs : List Chunk) :
    lsum (usable c (pairs (k :: cs))) = (k.size - extra c) + lsum (usable c (pairs cs)) := by
  simp [usable, pairs, lsum]

/-- Adding a block to the client's list. -/
theorem LiveOk.add {B B' : Blocks} {live : List (Nat × Nat)} (h : LiveOk c B live) {hdr n o r : Nat} (hu : UAdd B B' hdr n o)
    (hr : r + c.hs ≤ n) : LiveOk c B' ((hdr + c.hs, r) :: live) := by
  refine ⟨?_, ?_, ?_⟩
  · simp only [List.map_cons, List.nodup_cons]
    refine ⟨fun hm => ?_, h.nodup⟩
    obtain ⟨⟨p, n'⟩, h1, h2⟩ := List.mem_map.mp hm
    obtain ⟨q, sz, o', e, _, u⟩ := h.used p n' h1
    simp only at h2
    obtain rfl : q = hdr := by omega
    exact hu.2 _ _ u
  · intro p n' hp
    rcases List.mem_cons.mp hp with e | hp
    · cases e
      exact ⟨hdr, n, o, rfl, hr, (hu.1 _ _ _).mpr (.inr ⟨rfl, rfl, rfl⟩)⟩
    · obtain ⟨q, sz, o', e, hl, u⟩ := h.used p n' hp
      exact ⟨q, sz, o', e, hl, (hu.1 _ _ _).mpr (.inl u)⟩
  · intro q sz o' u
    rcases (hu.1 _ _ _).mp u with u | ⟨rfl, _, _⟩
    · obtain ⟨n', h'⟩ := h.live _ _ _ u
      exact ⟨n', by simp [h']⟩
    · exact ⟨r, by simp⟩

theorem LiveOk.erase {B B' : Blocks} {live : List (Nat × Nat)} (h : LiveOk c B live) {q0 n0 : Nat} (hm : (q0 + c.hs, n0) ∈ live)
    (hu : ∀ q n o, U B' q n o ↔ U B q n o ∧ q ≠ q0) : LiveOk c B' (live.erase (q0 + c.hs, n0)) := by
  have nd : live.Nodup := by
    have := h.nodup
    unfold List.Nodup at this ⊢
    rw [List.pairwise_map] at this
    exact this.imp (fun hne e => hne (by rw [e]))
  have uniq : ∀ n, (q0 + c.hs, n) ∈ live → n = n0 := by
    intro n hn
    have := h.nodup
    unfold List.Nodup at this
    rw [List.pairwise_map] at this
    by_contra hne
    obtain ⟨l1, l2, rfl⟩ := List.append_of_mem hm
    rw [List.pairwise_append, List.pairwise_cons] at this
    simp only [List.mem_append, List.mem_cons, Prod.mk.injEq, true_and] at hn
    rcases hn with hn | hn | hn
    · exact this.2.2 _ hn (q0 + c.hs, n0) (by simp) rfl
    · exact hne hn
    · exact this.2.1.1 _ hn rfl
  refine ⟨?_, ?_, ?_⟩
  · exact h.nodup.sublist ((List.erase_sublist).map _)
  · intro p n hp
    rw [nd.mem_erase_iff] at hp
    obtain ⟨q, sz, o', e, hl, u⟩ := h.used p n hp.2
    refine ⟨q, sz, o', e, hl, (hu _ _ _).mpr ⟨u, ?_⟩⟩
    rintro rfl
    subst e
    exact hp.1 (by rw [uniq n hp.2])
  · intro q sz o u
    obtain ⟨u, hne⟩ := (hu _ _ _).mp u
    obtain ⟨n, hn⟩ := h.live _ _ _ u
    refine ⟨n, ?_⟩
    rw [nd.mem_erase_iff]
    refine ⟨?_, hn⟩
    intro e
    have := (Prod.mk.inj e).1
    exact hne (by omega)

theorem LiveOk.congr {B B' : Blocks} {live : List (Nat × Nat)} (h : LiveOk c B live) (hu : ∀ q n o, U B' q n o ↔ U B q n o) :
    LiveOk c B' live :=
  ⟨h.nodup, fun p n hp => by
    obtain ⟨q, sz, o, e, hl, u⟩ := h.used p n hp
    exact ⟨q, sz, o, e, hl, (hu _ _ _).mpr u⟩, fun q sz o u => h.live q sz o ((hu _ _ _).mp u)⟩

end Verif.Alloc
