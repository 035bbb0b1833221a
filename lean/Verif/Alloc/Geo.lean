import Verif.Alloc.Inv

/-! # Changes of the block structure -/

namespace Verif.Alloc

variable {c : Cfg} {B : Blocks} {cs : List Chunk}

/-- Look up in an updated block map. -/
theorem upd_some {B : Blocks} {p : Nat} {x : Option Blk} {q : Nat} {b : Blk} (h : upd B p x q = some b) :
    (q = p ∧ x = some b) ∨ (q ≠ p ∧ B q = some b) := by
  unfold upd at h
  split at h
  · exact .inl ⟨‹_›, h⟩
  · exact .inr ⟨‹_›, h⟩

/-- Changing the kind of a block. -/
def setKind (B : Blocks) (p : Nat) (b : Blk) (k : Kind) : Blocks := upd B p (some { b with kind := k })

theorem geo_setKind (g : Geo c B cs) {p : Nat} {b : Blk} {k : Kind} (hb : B p = some b) (h1 : b.kind ≠ .term)
    (h2 : k ≠ .term) : Geo c (setKind B p b k) cs := by
  have key : ∀ q b', setKind B p b k q = some b' → ∃ b0, B q = some b0 ∧ b'.size = b0.size ∧ b'.prev = b0.prev ∧
      b'.off = b0.off ∧ (b'.kind = .term ↔ b0.kind = .term) ∧ ext c b' = ext c b0 := by
    intro q b' h
    rcases upd_some h with ⟨rfl, e⟩ | ⟨hne, e⟩
    · obtain rfl := Option.some.inj e
      exact ⟨b, hb, rfl, rfl, rfl, by simp [h1, h2], by simp [ext, h1, h2]⟩
    · exact ⟨b', e, rfl, rfl, rfl, Iff.rfl, rfl⟩
  have key2 : ∀ q b0, B q = some b0 → ∃ b', setKind B p b k q = some b' ∧ b'.size = b0.size ∧ b'.prev = b0.prev ∧
      b'.off = b0.off ∧ (b'.kind = .term ↔ b0.kind = .term) := by
    intro q b0 h
    by_cases hq : q = p
    · subst hq
      rw [hb] at h; obtain rfl := Option.some.inj h
      exact ⟨{ b with kind := k }, by simp [setKind], rfl, rfl, rfl, by simp [h1, h2]⟩
    · exact ⟨b0, by rw [setKind, upd_ne _ _ _ _ hq]; exact h, rfl, rfl, rfl, Iff.rfl⟩
  constructor
  · intro q bq r br hq hr hlt
    obtain ⟨b1, e1, _, _, _, _, x1⟩ := key _ _ hq
    obtain ⟨b2, e2, _⟩ := key _ _ hr
    rw [x1]; exact g.dis _ _ _ _ e1 e2 hlt
  · intro q bq hq hk
    obtain ⟨b1, e1, s1, _, _, k1, x1⟩ := key _ _ hq
    rw [s1]; exact g.size _ _ e1 (by rwa [ne_eq, ← k1])
  · intro q bq hq
    obtain ⟨b1, e1, _⟩ := key _ _ hq
    exact g.align _ _ e1
  · intro q bq hq hk
    obtain ⟨b1, e1, s1, p1, o1, k1, x1⟩ := key _ _ hq
    obtain ⟨b2, e2, p2, o2⟩ := g.next _ _ e1 (by rwa [ne_eq, ← k1])
    obtain ⟨b3, e3, s3, p3, o3, k3⟩ := key2 _ _ e2
    exact ⟨b3, by rw [s1]; exact e3, by rw [p3, s1, p2], by rw [o3, o1, o2]⟩
  · intro q bq hq hk
    obtain ⟨b1, e1, s1, p1, o1, k1, x1⟩ := key _ _ hq
    obtain ⟨r, b2, e2, kd, s2, hr⟩ := g.prev _ _ e1 (by rwa [ne_eq, ← p1])
    obtain ⟨b3, e3, s3, p3, o3, k3⟩ := key2 _ _ e2
    exact ⟨r, b3, e3, by rwa [ne_eq, k3], by rw [s3, s2, p1], by rw [p1]; exact hr⟩
  · intro q bq hq hk
    obtain ⟨b1, e1, s1, p1, o1, k1, x1⟩ := key _ _ hq
    rw [p1]; exact g.term _ _ e1 (k1.mp hk)
  · intro q bq hq hk
    obtain ⟨b1, e1, s1, p1, o1, k1, x1⟩ := key _ _ hq
    exact g.first _ _ e1 (by rw [← p1]; exact hk)
  · intro k hk
    obtain ⟨b1, e1, p1⟩ := g.start k hk
    obtain ⟨b3, e3, s3, p3, o3, k3⟩ := key2 _ _ e1
    exact ⟨b3, e3, by rw [p3, p1]⟩
  · intro q bq hq
    obtain ⟨b1, e1, s1, p1, o1, k1, x1⟩ := key _ _ hq
    obtain ⟨k, hk, h⟩ := g.inside _ _ e1
    exact ⟨k, hk, h.1, by rw [x1]; exact h.2.1, by rw [o1]; exact h.2.2.1, fun ht => h.2.2.2 (k1.mp ht)⟩
  · exact g.cdis
  · exact g.cfit
  · exact g.nodup

/-- Cutting the block at `p` into a first part of `a` bytes and a second part of `n` bytes. -/
def split (B : Blocks) (p : Nat) (b nb : Blk) (a n : Nat) (k1 k2 : Kind) : Blocks :=
  upd (upd (upd B (p + b.size) (some { nb with prev := n })) p (some { b with kind := k1, size := a }))
    (p + a) (some ⟨k2, n, a, b.off⟩)

theorem split_some {p : Nat} {b nb : Blk} {a n : Nat} {k1 k2 : Kind} {q : Nat} {b' : Blk}
    (h : split B p b nb a n k1 k2 q = some b') :
    (q = p + a ∧ b' = ⟨k2, n, a, b.off⟩) ∨ (q ≠ p + a ∧ q = p ∧ b' = { b with kind := k1, size := a }) ∨
    (q ≠ p + a ∧ q ≠ p ∧ q = p + b.size ∧ b' = { nb with prev := n }) ∨
    (q ≠ p + a ∧ q ≠ p ∧ q ≠ p + b.size ∧ B q = some b') := by
  rcases upd_some h with ⟨h1, e⟩ | ⟨h1, e⟩
  · exact .inl ⟨h1, (Option.some.inj e).symm⟩
  rcases upd_some e with ⟨h2, e⟩ | ⟨h2, e⟩
  · exact .inr (.inl ⟨h1, h2, (Option.some.inj e).symm⟩)
  rcases upd_some e with ⟨h3, e⟩ | ⟨h3, e⟩
  · exact .inr (.inr (.inl ⟨h1, h2, h3, (Option.some.inj e).symm⟩))
  · exact .inr (.inr (.inr ⟨h1, h2, h3, e⟩))

theorem geo_split (hc : c.Ok) (g : Geo c B cs) {p : Nat} {b nb : Blk} {a n : Nat} {k1 k2 : Kind} (hb : B p = some b)
    (hk : b.kind ≠ .term) (hnb : B (p + b.size) = some nb) (hs : b.size = a + n) (ha : 64 ≤ a) (hn : 64 ≤ n)
    (ha8 : a % 8 = 0) (hk1 : k1 ≠ .term) (hk2 : k2 ≠ .term) :
    Geo c (split B p b nb a n k1 k2) cs := by
  obtain ⟨nb0, e0, np, no⟩ := g.next _ _ hb hk
  rw [hnb] at e0; obtain rfl := Option.some.inj e0
  have sz := g.size _ _ hb hk
  have al := g.align _ _ hb
  have exb : ext c b = b.size := by simp [ext, hk]
  have getA : split B p b nb a n k1 k2 (p + a) = some ⟨k2, n, a, b.off⟩ := by simp [split]
  have getP : split B p b nb a n k1 k2 p = some { b with kind := k1, size := a } := by
    rw [split, upd_ne _ _ _ _ (by omega), upd_same]
  have getN : split B p b nb a n k1 k2 (p + b.size) = some { nb with prev := n } := by
    rw [split, upd_ne _ _ _ _ (by omega), upd_ne _ _ _ _ (by omega), upd_same]
  have getO : ∀ q, q ≠ p + a → q ≠ p → q ≠ p + b.size → split B p b nb a n k1 k2 q = B q := by
    intro q h1 h2 h3
    rw [split, upd_ne _ _ _ _ h1, upd_ne _ _ _ _ h2, upd_ne _ _ _ _ h3]
  have noA : ∀ q b', B q = some b' → q ≠ p + a := by
    intro q b' h e
    have := g.dis p b q b' hb h (by omega)
    omega
  -- every block of the new map lies inside of a block of the old map
  have ex1 : ∀ a' : Nat, ext c (⟨k2, n, a', b.off⟩ : Blk) = n := by intro a'; simp [ext, hk2]
  have ex2 : ext c { b with kind := k1, size := a } = a := by simp [ext, hk1]
  have ex3 : ext c { nb with prev := n } = ext c nb := rfl
  have pn := g.ext_pos hc hnb
  constructor
  · intro q bq r br hq hr hlt
    rcases split_some hq with ⟨q1, rfl⟩ | ⟨q1, q2, rfl⟩ | ⟨q1, q2, q3, rfl⟩ | ⟨q1, q2, q3, q4⟩ <;>
    rcases split_some hr with ⟨r1, rfl⟩ | ⟨r1, r2, rfl⟩ | ⟨r1, r2, r3, rfl⟩ | ⟨r1, r2, r3, r4⟩ <;>
    (try simp only [ex1, ex2, ex3]) <;> try omega
    · have := g.apart hb r4 (fun h => r2 h.symm); omega
    · have := g.apart hb r4 (fun h => r2 h.symm); omega
    · subst q3
      have := g.apart hnb r4 (fun h => r3 h.symm); omega
    · have := g.apart hb q4 (fun h => q2 h.symm); omega
    · obtain rfl : p = r := r2.symm
      exact g.dis _ _ _ _ q4 hb hlt
    · subst r3
      exact g.dis _ _ _ _ q4 hnb hlt
    · exact g.dis _ _ _ _ q4 r4 hlt
  · intro q bq hq hk
    rcases split_some hq with ⟨q1, rfl⟩ | ⟨q1, q2, rfl⟩ | ⟨q1, q2, q3, rfl⟩ | ⟨q1, q2, q3, q4⟩
    · simp only; omega
    · simp only; omega
    · exact g.size _ nb hnb hk
    · exact g.size _ _ q4 hk
  · intro q bq hq
    rcases split_some hq with ⟨q1, rfl⟩ | ⟨q1, q2, rfl⟩ | ⟨q1, q2, q3, rfl⟩ | ⟨q1, q2, q3, q4⟩
    · omega
    · omega
    · omega
    · exact g.align _ _ q4
  · intro q bq hq hk
    rcases split_some hq with ⟨q1, rfl⟩ | ⟨q1, q2, rfl⟩ | ⟨q1, q2, q3, rfl⟩ | ⟨q1, q2, q3, q4⟩
    · subst q1
      exact ⟨{ nb with prev := n }, by rw [show p + a + n = p + b.size by omega]; exact getN, rfl, no⟩
    · obtain rfl : p = q := q2.symm
      exact ⟨_, getA, rfl, rfl⟩
    · subst q3
      obtain ⟨b2, e2, p2, o2⟩ := g.next _ _ hnb hk
      have s2 := g.size _ _ hnb hk
      have d := noA _ _ e2
      exact ⟨b2, by rw [getO _ (by simpa using d) (by simp; omega) (by simp; omega)]; exact e2, p2, o2⟩
    · obtain ⟨b2, e2, p2, o2⟩ := g.next _ _ q4 hk
      have s2 := g.size _ _ q4 hk
      by_cases hp : q + bq.size = p
      · rw [hp] at e2 ⊢
        rw [hb] at e2; obtain rfl := Option.some.inj e2
        exact ⟨_, getP, p2, o2⟩
      · by_cases hpn : q + bq.size = p + b.size
        · exfalso
          have := g.apart hb q4 (fun h => q2 h.symm)
          have ex4 : ext c bq = bq.size := by simp [ext, hk]
          omega
        · exact ⟨b2, by rw [getO _ (noA _ _ e2) hp hpn]; exact e2, p2, o2⟩
  · intro q bq hq hk
    rcases split_some hq with ⟨q1, rfl⟩ | ⟨q1, q2, rfl⟩ | ⟨q1, q2, q3, rfl⟩ | ⟨q1, q2, q3, q4⟩
    · exact ⟨p, _, getP, hk1, rfl, q1.symm⟩
    · obtain rfl : p = q := q2.symm
      obtain ⟨r, b2, e2, kd, s2, hr⟩ := g.prev _ _ hb hk
      have s3 := g.size _ _ e2 kd
      simp only at hk s2 hr
      exact ⟨r, b2, by rw [getO _ (noA _ _ e2) (by omega) (by omega)]; exact e2, kd, s2, hr⟩
    · subst q3
      exact ⟨p + a, _, getA, hk2, rfl, by simp only; omega⟩
    · obtain ⟨r, b2, e2, kd, s2, hr⟩ := g.prev _ _ q4 hk
      by_cases hrp : r = p
      · subst hrp
        rw [hb] at e2; obtain rfl := Option.some.inj e2
        omega
      · by_cases hrn : r = p + b.size
        · subst hrn
          rw [hnb] at e2; obtain rfl := Option.some.inj e2
          exact ⟨_, _, getN, kd, s2, hr⟩
        · exact ⟨r, b2, by rw [getO _ (noA _ _ e2) hrp hrn]; exact e2, kd, s2, hr⟩
  · intro q bq hq hkt
    rcases split_some hq with ⟨q1, rfl⟩ | ⟨q1, q2, rfl⟩ | ⟨q1, q2, q3, rfl⟩ | ⟨q1, q2, q3, q4⟩
    · exact absurd hkt hk2
    · exact absurd hkt hk1
    · simp only; omega
    · exact g.term _ _ q4 hkt
  · intro q bq hq hp
    rcases split_some hq with ⟨q1, rfl⟩ | ⟨q1, q2, rfl⟩ | ⟨q1, q2, q3, rfl⟩ | ⟨q1, q2, q3, q4⟩
    · simp only at hp; omega
    · obtain rfl : p = q := q2.symm; exact g.first _ _ hb hp
    · simp only at hp; omega
    · exact g.first _ _ q4 hp
  · intro k hk
    obtain ⟨b1, e1, p1⟩ := g.start k hk
    by_cases h1 : k.base + c.ch = p
    · rw [h1] at e1 ⊢
      rw [hb] at e1; obtain rfl := Option.some.inj e1
      exact ⟨_, getP, p1⟩
    · by_cases h2 : k.base + c.ch = p + b.size
      · rw [h2, hnb] at e1; obtain rfl := Option.some.inj e1; omega
      · exact ⟨b1, by rw [getO _ (noA _ _ e1) h1 h2]; exact e1, p1⟩
  · intro q bq hq
    obtain ⟨k, hk', h⟩ := g.inside _ _ hb
    rw [exb] at h
    rcases split_some hq with ⟨q1, rfl⟩ | ⟨q1, q2, rfl⟩ | ⟨q1, q2, q3, rfl⟩ | ⟨q1, q2, q3, q4⟩
    · exact ⟨k, hk', by omega, by rw [ex1]; omega, h.2.2.1, fun h => absurd h hk2⟩
    · exact ⟨k, hk', by omega, by rw [ex2]; omega, h.2.2.1, fun h => absurd h hk1⟩
    · subst q3
      exact g.inside _ nb hnb
    · exact g.inside _ _ q4
  · exact g.cdis
  · exact g.cfit
  · exact g.nodup

/-- Joining the block at `p` and the block after it. -/
def merge (B : Blocks) (p : Nat) (b b2 b3 : Blk) : Blocks :=
  upd (upd (upd B (p + b.size) none) p (some { b with size := b.size + b2.size }))
    (p + b.size + b2.size) (some { b3 with prev := b.size + b2.size })

theorem merge_some {p : Nat} {b b2 b3 : Blk} {q : Nat} {b' : Blk} (h : merge B p b b2 b3 q = some b') :
    (q = p + b.size + b2.size ∧ b' = { b3 with prev := b.size + b2.size }) ∨
    (q ≠ p + b.size + b2.size ∧ q = p ∧ b' = { b with size := b.size + b2.size }) ∨
    (q ≠ p + b.size + b2.size ∧ q ≠ p ∧ q ≠ p + b.size ∧ B q = some b') := by
  rcases upd_some h with ⟨h1, e⟩ | ⟨h1, e⟩
  · exact .inl ⟨h1, (Option.some.inj e).symm⟩
  rcases upd_some e with ⟨h2, e⟩ | ⟨h2, e⟩
  · exact .inr (.inl ⟨h1, h2, (Option.some.inj e).symm⟩)
  rcases upd_some e with ⟨h3, e⟩ | ⟨h3, e⟩
  · cases e
  · exact .inr (.inr ⟨h1, h2, h3, e⟩)

theorem geo_merge (hc : c.Ok) (g : Geo c B cs) {p : Nat} {b b2 b3 : Blk} (hb : B p = some b) (hk : b.kind ≠ .term)
    (hb2 : B (p + b.size) = some b2) (hk2 : b2.kind ≠ .term) (hb3 : B (p + b.size + b2.size) = some b3) :
    Geo c (merge B p b b2 b3) cs := by
  obtain ⟨b20, e0, np, no⟩ := g.next _ _ hb hk
  rw [hb2] at e0; obtain rfl := Option.some.inj e0
  obtain ⟨b30, e0, np2, no2⟩ := g.next _ _ hb2 hk2
  rw [hb3] at e0; obtain rfl := Option.some.inj e0
  have sz := g.size _ _ hb hk
  have sz2 := g.size _ _ hb2 hk2
  have al := g.align _ _ hb
  have exb : ext c b = b.size := by simp [ext, hk]
  have exb2 : ext c b2 = b2.size := by simp [ext, hk2]
  have getP : merge B p b b2 b3 p = some { b with size := b.size + b2.size } := by
    rw [merge, upd_ne _ _ _ _ (by omega), upd_same]
  have getN : merge B p b b2 b3 (p + b.size + b2.size) = some { b3 with prev := b.size + b2.size } := by
    rw [merge, upd_same]
  have getO : ∀ q, q ≠ p + b.size + b2.size → q ≠ p → q ≠ p + b.size → merge B p b b2 b3 q = B q := by
    intro q h1 h2 h3
    rw [merge, upd_ne _ _ _ _ h1, upd_ne _ _ _ _ h2, upd_ne _ _ _ _ h3]
  have ex2 : ext c { b with size := b.size + b2.size } = b.size + b2.size := by simp [ext, hk]
  have ex3 : ext c { b3 with prev := b.size + b2.size } = ext c b3 := rfl
  have pn := g.ext_pos hc hb3
  constructor
  · intro q bq r br hq hr hlt
    rcases merge_some hq with ⟨q1, rfl⟩ | ⟨q1, q2, rfl⟩ | ⟨q1, q2, q3, q4⟩ <;>
    rcases merge_some hr with ⟨r1, rfl⟩ | ⟨r1, r2, rfl⟩ | ⟨r1, r2, r3, r4⟩ <;>
    (try simp only [ex2, ex3]) <;> try omega
    · subst q1
      have := g.apart hb3 r4 (fun h => r1 h.symm); omega
    · have := g.apart hb r4 (fun h => r2 h.symm)
      have := g.apart hb2 r4 (fun h => r3 h.symm); omega
    · have := g.apart hb q4 (fun h => q2 h.symm)
      have := g.apart hb2 q4 (fun h => q3 h.symm)
      subst r1
      have := g.dis _ _ _ _ q4 hb3 hlt; omega
    · obtain rfl : p = r := r2.symm
      exact g.dis _ _ _ _ q4 hb hlt
    · exact g.dis _ _ _ _ q4 r4 hlt
  · intro q bq hq hk'
    rcases merge_some hq with ⟨q1, rfl⟩ | ⟨q1, q2, rfl⟩ | ⟨q1, q2, q3, q4⟩
    · exact g.size _ b3 hb3 hk'
    · simp only; omega
    · exact g.size _ _ q4 hk'
  · intro q bq hq
    rcases merge_some hq with ⟨q1, rfl⟩ | ⟨q1, q2, rfl⟩ | ⟨q1, q2, q3, q4⟩
    · subst q1; exact g.align _ b3 hb3
    · omega
    · exact g.align _ _ q4
  · intro q bq hq hk'
    rcases merge_some hq with ⟨q1, rfl⟩ | ⟨q1, q2, rfl⟩ | ⟨q1, q2, q3, q4⟩
    · subst q1
      obtain ⟨b4, e4, p4, o4⟩ := g.next _ b3 hb3 hk'
      have s3 := g.size _ b3 hb3 hk'
      exact ⟨b4, by rw [getO _ (by simp; omega) (by simp; omega) (by simp; omega)]; exact e4, p4, o4⟩
    · obtain rfl : p = q := q2.symm
      exact ⟨{ b3 with prev := b.size + b2.size }, by rw [← Nat.add_assoc]; exact getN, rfl, by simp only; omega⟩
    · obtain ⟨b4, e4, p4, o4⟩ := g.next _ _ q4 hk'
      have s3 := g.size _ _ q4 hk'
      have ex4 : ext c bq = bq.size := by simp [ext, hk']
      have a1 := g.apart hb q4 (fun h => q2 h.symm)
      have a2 := g.apart hb2 q4 (fun h => q3 h.symm)
      by_cases hp : q + bq.size = p
      · rw [hp] at e4 ⊢
        rw [hb] at e4; obtain rfl := Option.some.inj e4
        exact ⟨_, getP, p4, o4⟩
      · exact ⟨b4, by rw [getO _ (by omega) hp (by omega)]; exact e4, p4, o4⟩
  · intro q bq hq hk'
    rcases merge_some hq with ⟨q1, rfl⟩ | ⟨q1, q2, rfl⟩ | ⟨q1, q2, q3, q4⟩
    · exact ⟨p, _, getP, hk, rfl, by simp only; omega⟩
    · obtain rfl : p = q := q2.symm
      obtain ⟨r, b4, e4, kd, s4, hr⟩ := g.prev _ _ hb hk'
      have s3 := g.size _ _ e4 kd
      simp only at hk' s4 hr
      exact ⟨r, b4, by rw [getO _ (by omega) (by omega) (by omega)]; exact e4, kd, s4, hr⟩
    · obtain ⟨r, b4, e4, kd, s4, hr⟩ := g.prev _ _ q4 hk'
      have ex4 : ext c b4 = b4.size := by simp [ext, kd]
      by_cases hrp : r = p
      · subst hrp
        rw [hb] at e4; obtain rfl := Option.some.inj e4
        omega
      · by_cases hrn : r = p + b.size
        · subst hrn
          rw [hb2] at e4; obtain rfl := Option.some.inj e4
          omega
        · by_cases hr3 : r = p + b.size + b2.size
          · subst hr3
            rw [hb3] at e4; obtain rfl := Option.some.inj e4
            exact ⟨_, _, getN, kd, s4, hr⟩
          · exact ⟨r, b4, by rw [getO _ hr3 hrp hrn]; exact e4, kd, s4, hr⟩
  · intro q bq hq hkt
    rcases merge_some hq with ⟨q1, rfl⟩ | ⟨q1, q2, rfl⟩ | ⟨q1, q2, q3, q4⟩
    · simp only; omega
    · exact absurd hkt hk
    · exact g.term _ _ q4 hkt
  · intro q bq hq hp
    rcases merge_some hq with ⟨q1, rfl⟩ | ⟨q1, q2, rfl⟩ | ⟨q1, q2, q3, q4⟩
    · simp only at hp; omega
    · obtain rfl : p = q := q2.symm
      exact g.first _ _ hb hp
    · exact g.first _ _ q4 hp
  · intro k hk'
    obtain ⟨b1, e1, p1⟩ := g.start k hk'
    by_cases h1 : k.base + c.ch = p
    · rw [h1] at e1 ⊢
      rw [hb] at e1; obtain rfl := Option.some.inj e1
      exact ⟨_, getP, p1⟩
    · by_cases h2 : k.base + c.ch = p + b.size
      · rw [h2, hb2] at e1; obtain rfl := Option.some.inj e1; omega
      · by_cases h3 : k.base + c.ch = p + b.size + b2.size
        · rw [h3, hb3] at e1; obtain rfl := Option.some.inj e1; omega
        · exact ⟨b1, by rw [getO _ h3 h1 h2]; exact e1, p1⟩
  · intro q bq hq
    rcases merge_some hq with ⟨q1, rfl⟩ | ⟨q1, q2, rfl⟩ | ⟨q1, q2, q3, q4⟩
    · subst q1; exact g.inside _ b3 hb3
    · obtain rfl : p = q := q2.symm
      obtain ⟨k, hk', h⟩ := g.inside _ _ hb
      obtain ⟨k2, hk2', h2⟩ := g.inside _ _ hb2
      rw [exb] at h
      rw [exb2] at h2
      obtain ⟨k3, hk3', h3⟩ := g.inside _ _ hb3
      -- all three blocks are in the same chunk
      have e : k = k2 := by
        by_contra hne
        have f := g.first (p + b.size) b2 hb2
        rcases g.cdis k hk' k2 hk2' hne with hh | hh
        · -- the second block would be the first block of its chunk
          obtain ⟨b5, e5, p5⟩ := g.start k2 hk2'
          by_cases hs : k2.base + c.ch = p + b.size
          · rw [hs, hb2] at e5; obtain rfl := Option.some.inj e5; omega
          · by_cases hs2 : k2.base + c.ch < p
            · omega
            · by_cases hs3 : k2.base + c.ch = p
              · omega
              · have := g.dis p b _ b5 hb e5 (by omega)
                rw [exb] at this
                omega
        · omega
      subst e
      exact ⟨k, hk', h.1, by rw [ex2]; omega, h.2.2.1, fun ht => absurd ht hk⟩
    · exact g.inside _ _ q4
  · exact g.cdis
  · exact g.cfit
  · exact g.nodup

/-- A new chunk with a single block. -/
def addChunk (B : Blocks) (h n off : Nat) : Blocks :=
  upd (upd B h (some ⟨.used, n, 0, off⟩)) (h + n) (some ⟨.term, 0, n, off⟩)

theorem addChunk_some {h n off : Nat} {q : Nat} {b' : Blk} (e : addChunk B h n off q = some b') :
    (q = h + n ∧ b' = ⟨.term, 0, n, off⟩) ∨ (q ≠ h + n ∧ q = h ∧ b' = ⟨.used, n, 0, off⟩) ∨
    (q ≠ h + n ∧ q ≠ h ∧ B q = some b') := by
  rcases upd_some e with ⟨h1, e⟩ | ⟨h1, e⟩
  · exact .inl ⟨h1, (Option.some.inj e).symm⟩
  rcases upd_some e with ⟨h2, e⟩ | ⟨h2, e⟩
  · exact .inr (.inl ⟨h1, h2, (Option.some.inj e).symm⟩)
  · exact .inr (.inr ⟨h1, h2, e⟩)

theorem geo_addChunk (hc : c.Ok) (g : Geo c B cs) (k : Chunk) (n : Nat) (hn : 64 ≤ n) (hn8 : n % 8 = 0)
    (hs : k.size = n + extra c) (hb : 4096 ≤ k.base) (hb8 : k.base % 8 = 0) (hfit : k.base + k.size ≤ W)
    (hd : ∀ k' ∈ cs, k.base + k.size ≤ k'.base ∨ k'.base + k'.size ≤ k.base) :
    Geo c (addChunk B (k.base + c.ch) n k.off) (k :: cs) := by
  have hch : c.ch % 8 = 0 ∧ 16 ≤ c.hs := by rcases hc with h | h <;> omega
  unfold extra at hs
  have out : ∀ q b', B q = some b' → q + ext c b' ≤ k.base ∨ k.base + k.size ≤ q := by
    intro q b' h
    obtain ⟨k', hk', i⟩ := g.inside _ _ h
    have := hd k' hk'
    omega
  have outp : ∀ q b', B q = some b' → 16 ≤ ext c b' := fun q b' h => Nat.le_trans hch.2 (g.ext_pos hc h)
  have get1 : addChunk B (k.base + c.ch) n k.off (k.base + c.ch + n) = some ⟨.term, 0, n, k.off⟩ := by simp [addChunk]
  have get2 : addChunk B (k.base + c.ch) n k.off (k.base + c.ch) = some ⟨.used, n, 0, k.off⟩ := by
    rw [addChunk, upd_ne _ _ _ _ (by omega), upd_same]
  have getO : ∀ q b', B q = some b' → addChunk B (k.base + c.ch) n k.off q = some b' := by
    intro q b' h
    have := out q b' h
    have := outp q b' h
    rw [addChunk, upd_ne _ _ _ _ (by omega), upd_ne _ _ _ _ (by omega)]; exact h
  have exT : ext c (⟨.term, 0, n, k.off⟩ : Blk) = c.hs := by simp [ext]
  have exU : ext c (⟨.used, n, 0, k.off⟩ : Blk) = n := by simp [ext]
  constructor
  · intro q bq r br hq hr hlt
    rcases addChunk_some hq with ⟨q1, rfl⟩ | ⟨q1, q2, rfl⟩ | ⟨q1, q2, q3⟩ <;>
    rcases addChunk_some hr with ⟨r1, rfl⟩ | ⟨r1, r2, rfl⟩ | ⟨r1, r2, r3⟩ <;>
    (try simp only [exT, exU]) <;> try omega
    · have := out _ _ r3; have := outp _ _ r3; omega
    · have := out _ _ r3; have := outp _ _ r3; omega
    · have := out _ _ q3; have := outp _ _ q3; omega
    · have := out _ _ q3; have := outp _ _ q3; omega
    · exact g.dis _ _ _ _ q3 r3 hlt
  · intro q bq hq hk'
    rcases addChunk_some hq with ⟨q1, rfl⟩ | ⟨q1, q2, rfl⟩ | ⟨q1, q2, q3⟩
    · exact absurd rfl hk'
    · exact ⟨hn, hn8⟩
    · exact g.size _ _ q3 hk'
  · intro q bq hq
    rcases addChunk_some hq with ⟨q1, rfl⟩ | ⟨q1, q2, rfl⟩ | ⟨q1, q2, q3⟩
    · omega
    · omega
    · exact g.align _ _ q3
  · intro q bq hq hk'
    rcases addChunk_some hq with ⟨q1, rfl⟩ | ⟨q1, q2, rfl⟩ | ⟨q1, q2, q3⟩
    · exact absurd rfl hk'
    · subst q2
      exact ⟨_, get1, rfl, rfl⟩
    · obtain ⟨b4, e4, p4, o4⟩ := g.next _ _ q3 hk'
      exact ⟨b4, getO _ _ e4, p4, o4⟩
  · intro q bq hq hk'
    rcases addChunk_some hq with ⟨q1, rfl⟩ | ⟨q1, q2, rfl⟩ | ⟨q1, q2, q3⟩
    · exact ⟨_, _, get2, by simp, rfl, q1.symm⟩
    · exact absurd rfl hk'
    · obtain ⟨r, b4, e4, kd, s4, hr⟩ := g.prev _ _ q3 hk'
      exact ⟨r, b4, getO _ _ e4, kd, s4, hr⟩
  · intro q bq hq hkt
    rcases addChunk_some hq with ⟨q1, rfl⟩ | ⟨q1, q2, rfl⟩ | ⟨q1, q2, q3⟩
    · simp only; omega
    · cases hkt
    · exact g.term _ _ q3 hkt
  · intro q bq hq hp
    rcases addChunk_some hq with ⟨q1, rfl⟩ | ⟨q1, q2, rfl⟩ | ⟨q1, q2, q3⟩
    · simp only at hp; omega
    · exact ⟨k, by simp, q2⟩
    · obtain ⟨k', hk', e⟩ := g.first _ _ q3 hp
      exact ⟨k', by simp [hk'], e⟩
  · intro k' hk'
    rcases List.mem_cons.mp hk' with rfl | hk'
    · exact ⟨_, get2, rfl⟩
    · obtain ⟨b1, e1, p1⟩ := g.start k' hk'
      exact ⟨b1, getO _ _ e1, p1⟩
  · intro q bq hq
    rcases addChunk_some hq with ⟨q1, rfl⟩ | ⟨q1, q2, rfl⟩ | ⟨q1, q2, q3⟩
    · exact ⟨k, by simp, by omega, by rw [exT]; omega, rfl, fun _ => by omega⟩
    · exact ⟨k, by simp, by omega, by rw [exU]; omega, rfl, fun h => by cases h⟩
    · obtain ⟨k', hk', i⟩ := g.inside _ _ q3
      exact ⟨k', by simp [hk'], i⟩
  · intro k1 h1 k2 h2 hne
    rcases List.mem_cons.mp h1 with e1 | h3 <;> rcases List.mem_cons.mp h2 with e2 | h4
    · exact absurd (e1.trans e2.symm) hne
    · rw [e1]; exact hd k2 h4
    · rw [e2]; exact (hd k1 h3).symm
    · exact g.cdis _ h3 _ h4 hne
  · intro k' hk'
    rcases List.mem_cons.mp hk' with rfl | hk'
    · exact ⟨by omega, hfit, hb⟩
    · exact g.cfit _ hk'
  · refine List.nodup_cons.mpr ⟨fun hm => ?_, g.nodup⟩
    have := hd k hm
    omega

/-- Removing a chunk. -/
def dropChunk (B : Blocks) (p n : Nat) : Blocks := upd (upd B p none) (p + n) none

theorem dropChunk_some {p n : Nat} {q : Nat} {b' : Blk} (e : dropChunk B p n q = some b') :
    q ≠ p + n ∧ q ≠ p ∧ B q = some b' := by
  rcases upd_some e with ⟨h1, e⟩ | ⟨h1, e⟩
  · cases e
  rcases upd_some e with ⟨h2, e⟩ | ⟨h2, e⟩
  · cases e
  · exact ⟨h1, h2, e⟩

/-- The chunk of an unused first block which is followed by the terminator. -/
theorem whole_chunk (g : Geo c B cs) {p : Nat} {b t : Blk} (hb : B p = some b) (hk : b.kind ≠ .term)
    (hp : b.prev = 0) (ht : B (p + b.size) = some t) (htk : t.kind = .term) :
    ∃ k ∈ cs, p = k.base + c.ch ∧ k.size = b.size + extra c ∧ p + b.size + c.hs = k.base + k.size := by
  obtain ⟨k, hk', e⟩ := g.first _ _ hb hp
  obtain ⟨k1, hk1, i1⟩ := g.inside _ _ hb
  obtain ⟨k2, hk2, i2⟩ := g.inside _ _ ht
  have i2' := i2.2.2.2 htk
  have exb : ext c b = b.size := by simp [ext, hk]
  have ext' : ext c t = c.hs := by simp [ext, htk]
  have sz := g.size _ _ hb hk
  obtain ⟨k0, hk0, i0⟩ := g.inside _ _ hb
  rw [exb] at i1
  -- the terminator is in the same chunk
  have e12 : k1 = k2 := by
    by_contra hne
    rcases g.cdis k1 hk1 k2 hk2 hne with hh | hh
    · obtain ⟨b5, e5, p5⟩ := g.start k2 hk2
      by_cases hs : k2.base + c.ch = p + b.size
      · rw [hs, ht] at e5; obtain rfl := Option.some.inj e5
        exact g.term _ _ ht htk p5
      · by_cases hs3 : k2.base + c.ch = p
        · omega
        · by_cases hs2 : k2.base + c.ch < p
          · omega
          · have := g.dis p b _ b5 hb e5 (by omega)
            rw [exb] at this
            omega
    · omega
  subst e12
  obtain ⟨b6, e6, p6⟩ := g.start k1 hk1
  have : k1.base + c.ch = p := by
    by_contra hne
    obtain ⟨b7, e7, p7⟩ := g.start k hk'
    -- k and k1 overlap
    have : k = k1 := by
      by_contra hkk
      rcases g.cdis k hk' k1 hk1 hkk with hh | hh
      · obtain ⟨k8, hk8, i8⟩ := g.inside _ _ e6
        have := g.dis _ _ _ _ e6 hb (by omega)
        omega
      · omega
    subst this
    omega
  exact ⟨k1, hk1, this.symm, by unfold extra; omega, i2'⟩

theorem geo_dropChunk (hc : c.Ok) (g : Geo c B cs) {p : Nat} {b t : Blk} {k : Chunk} (hb : B p = some b) (hk : b.kind ≠ .term)
    (hp : b.prev = 0) (ht : B (p + b.size) = some t) (htk : t.kind = .term) (hkc : k ∈ cs) (hkp : p = k.base + c.ch)
    (hks : p + b.size + c.hs = k.base + k.size) :
    Geo c (dropChunk B p b.size) (cs.erase k) ∧
    ∀ q b', dropChunk B p b.size q = some b' → q + ext c b' ≤ k.base ∨ k.base + k.size ≤ q := by
  have sz := g.size _ _ hb hk
  have exb : ext c b = b.size := by simp [ext, hk]
  have ext' : ext c t = c.hs := by simp [ext, htk]
  have memE : ∀ k', k' ∈ cs.erase k ↔ k' ≠ k ∧ k' ∈ cs := fun k' => g.nodup.mem_erase_iff
  have notin : ∀ q b', B q = some b' → q ≠ p → q ≠ p + b.size → ∀ k' ∈ cs, k'.base + c.ch ≤ q →
      q + ext c b' ≤ k'.base + k'.size → k' ≠ k := by
    intro q b' hq h1 h2 k' hk' i1 i2 e
    subst e
    have := g.ext_pos hc hq
    have d := g.dis _ _ _ _ hb hq (by omega)
    have d2 := g.dis _ _ _ _ ht hq (by omega)
    have : 16 ≤ c.hs := by rcases hc with h | h <;> omega
    omega
  have getO : ∀ q b', B q = some b' → q ≠ p → q ≠ p + b.size → dropChunk B p b.size q = some b' := by
    intro q b' h h1 h2
    rw [dropChunk, upd_ne _ _ _ _ h2, upd_ne _ _ _ _ h1]; exact h
  refine ⟨?_, ?_⟩
  · constructor
    · intro q bq r br hq hr hlt
      exact g.dis _ _ _ _ (dropChunk_some hq).2.2 (dropChunk_some hr).2.2 hlt
    · intro q bq hq hk'
      exact g.size _ _ (dropChunk_some hq).2.2 hk'
    · intro q bq hq
      exact g.align _ _ (dropChunk_some hq).2.2
    · intro q bq hq hk'
      obtain ⟨h1, h2, h3⟩ := dropChunk_some hq
      obtain ⟨b4, e4, p4, o4⟩ := g.next _ _ h3 hk'
      have s4 := g.size _ _ h3 hk'
      refine ⟨b4, getO _ _ e4 ?_ ?_, p4, o4⟩
      · intro e
        rw [e, hb] at e4; obtain rfl := Option.some.inj e4; omega
      · intro e
        have ex4 : ext c bq = bq.size := by simp [ext, hk']
        have := g.apart hb h3 (fun h => h2 h.symm)
        omega
    · intro q bq hq hk'
      obtain ⟨h1, h2, h3⟩ := dropChunk_some hq
      obtain ⟨r, b4, e4, kd, s4, hr⟩ := g.prev _ _ h3 hk'
      refine ⟨r, b4, getO _ _ e4 ?_ ?_, kd, s4, hr⟩
      · intro e
        subst e
        rw [hb] at e4; obtain rfl := Option.some.inj e4; omega
      · intro e
        subst e
        rw [ht] at e4; obtain rfl := Option.some.inj e4; exact kd htk
    · intro q bq hq hkt
      exact g.term _ _ (dropChunk_some hq).2.2 hkt
    · intro q bq hq hp'
      obtain ⟨h1, h2, h3⟩ := dropChunk_some hq
      obtain ⟨k', hk', e⟩ := g.first _ _ h3 hp'
      exact ⟨k', (memE k').mpr ⟨fun h => by subst h; omega, hk'⟩, e⟩
    · intro k' hk'
      obtain ⟨hne, hm⟩ := (memE k').mp hk'
      obtain ⟨b1, e1, p1⟩ := g.start k' hm
      have hch := g.cdis k' hm k hkc hne
      refine ⟨b1, getO _ _ e1 ?_ ?_, p1⟩
      · intro e
        have : k'.base = k.base := by omega
        have := (g.cfit k' hm).1
        have := (g.cfit k hkc).1
        omega
      · intro e
        rw [e, ht] at e1; obtain rfl := Option.some.inj e1
        exact g.term _ _ ht htk p1
    · intro q bq hq
      obtain ⟨h1, h2, h3⟩ := dropChunk_some hq
      obtain ⟨k', hk', i⟩ := g.inside _ _ h3
      exact ⟨k', (memE k').mpr ⟨notin _ _ h3 h2 h1 k' hk' i.1 i.2.1, hk'⟩, i⟩
    · intro k1 h1 k2 h2 hne
      exact g.cdis _ ((memE _).mp h1).2 _ ((memE _).mp h2).2 hne
    · intro k' hk'
      exact g.cfit _ ((memE _).mp hk').2
    · exact g.nodup.erase _
  · intro q b' hq
    obtain ⟨h1, h2, h3⟩ := dropChunk_some hq
    obtain ⟨k', hk', i⟩ := g.inside _ _ h3
    have := g.cdis _ hk' _ hkc (notin _ _ h3 h2 h1 k' hk' i.1 i.2.1)
    omega

end Verif.Alloc
