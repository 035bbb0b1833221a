import Verif.Alloc.WX

/-!
# C42, C43: the W^X allocator
-/

namespace Verif.Props

open Verif.Util Verif.Alloc.WX

/-- C42: the pages whose protection is changed are exactly the pages which contain a byte of the patched range.  The
range must not reach into the last page of the address space. -/
theorem c42_wx_pages {k : Nat} (hk : k ≤ 63) {start fin : BitVec 64} (hlt : start.toNat < fin.toNat)
    (hw : fin.toNat + 2 ^ k ≤ 2 ^ 64) :
    let r := updateRange (pageMask k) start fin
    r.1.toNat % 2 ^ k = 0 ∧ r.2.toNat % 2 ^ k = 0 ∧ r.1.toNat + r.2.toNat ≤ 2 ^ 64 ∧
    ∀ a, (r.1.toNat ≤ a ∧ a < r.1.toNat + r.2.toNat) ↔ ∃ b, start.toNat ≤ b ∧ b < fin.toNat ∧ a / 2 ^ k = b / 2 ^ k := by
  have hp : 0 < 2 ^ k := Nat.two_pow_pos k
  have e1 := and_mask k hk start
  have e2 := and_mask k hk (fin + pageMask k)
  rw [BitVec.toNat_add, mask_toNat k hk, Nat.mod_eq_of_lt (by omega)] at e2
  intro r
  have r1 : r.1.toNat = start.toNat / 2 ^ k * 2 ^ k := e1
  generalize hP : 2 ^ k = P at *
  have hend : (fin.toNat + (P - 1)) / P = (fin.toNat - 1) / P + 1 := by
    rw [show fin.toNat + (P - 1) = (fin.toNat - 1) + P by omega, Nat.add_div_right _ hp]
  have hle : start.toNat / P ≤ (fin.toNat - 1) / P := Nat.div_le_div_right (by omega)
  have hle2 : start.toNat / P * P ≤ (fin.toNat - 1) / P * P := Nat.mul_le_mul_right _ hle
  rw [hend, Nat.succ_mul] at e2
  have r2 : r.2.toNat = (fin.toNat - 1) / P * P + P - start.toNat / P * P := by
    have : r.2 = ((fin + pageMask k) &&& ~~~pageMask k) - (start &&& ~~~pageMask k) := rfl
    rw [this, BitVec.toNat_sub_of_le (by rw [BitVec.le_def, e1, e2]; omega), e1, e2]
  have d1 := Nat.div_mul_le_self (fin.toNat - 1) P
  refine ⟨by rw [r1]; exact Nat.mul_mod_left _ _, ?_, by omega, ?_⟩
  · rw [r2, ← Nat.succ_mul, ← Nat.sub_mul]; exact Nat.mul_mod_left _ _
  · intro a
    rw [r1, r2]
    constructor
    · rintro ⟨h1, h2⟩
      have a1 : start.toNat / P ≤ a / P := (Nat.le_div_iff_mul_le hp).mpr h1
      have a2 : a / P < (fin.toNat - 1) / P + 1 := (Nat.div_lt_iff_lt_mul hp).mpr (by rw [Nat.succ_mul]; omega)
      by_cases h : a < start.toNat
      · refine ⟨start.toNat, Nat.le_refl _, hlt, ?_⟩
        have := Nat.div_le_div_right (c := P) (Nat.le_of_lt h)
        omega
      · by_cases h' : a < fin.toNat
        · exact ⟨a, by omega, h', rfl⟩
        · refine ⟨fin.toNat - 1, by omega, by omega, ?_⟩
          have := Nat.div_le_div_right (c := P) (show fin.toNat - 1 ≤ a by omega)
          omega
    · rintro ⟨b, h1, h2, h3⟩
      have b1 : start.toNat / P ≤ b / P := Nat.div_le_div_right h1
      have b2 : b / P ≤ (fin.toNat - 1) / P := Nat.div_le_div_right (by omega)
      rw [← h3] at b1 b2
      have c1 := Nat.mul_le_mul_right P b1
      have c2 := Nat.mul_le_mul_right P b2
      have d := Nat.div_add_mod a P
      have m := Nat.mod_lt a hp
      rw [Nat.mul_comm] at d
      omega

/-- A patch which crosses a page boundary. -/
example : updateRange (pageMask 12) 0x1ff8 0x2008 = (0x1000, 0x2000) := by decide

/-- State of a process which uses the W^X allocator: live blocks (pointer, size), and all mappings it owns. -/
structure WXWorld where
  s : St
  live : List (BitVec 64 × BitVec 64)
  mapped : List (BitVec 64 × BitVec 64)

/-- The answer of the system to a request: not empty, no wrap around, disjoint from all mappings. -/
def WXOsOk (mapped : List (BitVec 64 × BitVec 64)) (n p : BitVec 64) : Prop :=
  n ≠ 0 ∧ 0 < p.toNat ∧ p.toNat + n.toNat < 2 ^ 64 ∧
  ∀ k ∈ mapped, p.toNat + n.toNat ≤ k.1.toNat ∨ k.1.toNat + k.2.toNat ≤ p.toNat

/-- Histories.  The client may change everything except the memory of the mappings outside of its own blocks. -/
inductive WXReach : WXWorld → Prop
  | init (m : BitVec 64 → BitVec 64) : WXReach ⟨⟨-1, m⟩, [], []⟩
  | malloc (w : WXWorld) (n : BitVec 64) (mmap : BitVec 64 → Option (BitVec 64)) (exec rw : Bool) : WXReach w →
      n.toNat + 8 < 2 ^ 64 → (∀ n p, mmap n = some p → WXOsOk w.mapped n p) →
      WXReach ⟨(malloc w.s n mmap exec rw).1,
        if (malloc w.s n mmap exec rw).2.1 = 0 then w.live else ((malloc w.s n mmap exec rw).2.1, n) :: w.live,
        ((malloc w.s n mmap exec rw).2.2.mapped ++ w.mapped).filter (· ∉ (malloc w.s n mmap exec rw).2.2.unmapped)⟩
  | free (w : WXWorld) (x : BitVec 64 × BitVec 64) : WXReach w → x ∈ w.live →
      WXReach ⟨w.s, w.live.erase x, w.mapped.erase (free w.s x.1)⟩
  | client (w : WXWorld) (m : BitVec 64 → BitVec 64) : WXReach w →
      (∀ a, (∃ k ∈ w.mapped, k.1.toNat ≤ a.toNat ∧ a.toNat < k.1.toNat + k.2.toNat) →
        (∀ x ∈ w.live, a.toNat < x.1.toNat ∨ x.1.toNat + x.2.toNat ≤ a.toNat) → m a = w.s.mem a) →
      WXReach ⟨⟨w.s.wx, m⟩, w.live, w.mapped⟩

/-- The mapping which belongs to a block. -/
def mappingOf (x : BitVec 64 × BitVec 64) : BitVec 64 × BitVec 64 := (x.1 - 8, x.2 + 8)

/-- C43: there is exactly one mapping for each live block, which contains the size word and the whole block; the
mappings are disjoint; and releasing the block unmaps exactly its mapping.  Nothing is leaked, also when the system forbids
executable memory. -/
theorem c43_wx_blocks {w : WXWorld} (h : WXReach w) :
    w.mapped = w.live.map mappingOf ∧
    (∀ x ∈ w.live, free w.s x.1 = mappingOf x ∧ 8 < x.1.toNat ∧ (mappingOf x).1.toNat + 8 = x.1.toNat ∧
      (mappingOf x).2.toNat = x.2.toNat + 8 ∧ x.1.toNat + x.2.toNat < 2 ^ 64) ∧
    w.live.Pairwise (fun x y => x.1.toNat + x.2.toNat ≤ (mappingOf y).1.toNat ∨ y.1.toNat + y.2.toNat ≤ (mappingOf x).1.toNat) := by
  induction h with
  | init m => simp
  | malloc w n mmap exec rw h hn hos ih =>
    obtain ⟨i1, i2, i3⟩ := ih
    have n8 : (n + 8).toNat = n.toNat + 8 := by
      rw [BitVec.toNat_add]; exact Nat.mod_eq_of_lt hn
    have filt : ∀ l : List (BitVec 64 × BitVec 64), l.filter (fun _ => true) = l := fun l => List.filter_eq_self.mpr (by simp)
    have t8 : (8 : BitVec 64).toNat = 8 := rfl
    -- nothing happened
    have idle : ∀ s', s'.mem = w.s.mem → (w.mapped = w.live.map mappingOf ∧
        (∀ x ∈ w.live, free s' x.1 = mappingOf x ∧ 8 < x.1.toNat ∧ (mappingOf x).1.toNat + 8 = x.1.toNat ∧
        (mappingOf x).2.toNat = x.2.toNat + 8 ∧ x.1.toNat + x.2.toNat < 2 ^ 64) ∧
        w.live.Pairwise (fun x y => x.1.toNat + x.2.toNat ≤ (mappingOf y).1.toNat ∨ y.1.toNat + y.2.toNat ≤ (mappingOf x).1.toNat)) := by
      intro s' e
      refine ⟨i1, ?_, i3⟩
      intro x hx
      have := i2 x hx
      unfold free at this ⊢
      rw [e]; exact this
    unfold Verif.Alloc.WX.malloc
    by_cases hw : w.s.wx > 0
    · simp only [hw, if_true, List.nil_append, List.not_mem_nil, not_false_eq_true, decide_true, filt]
      exact idle _ rfl
    · simp only [hw, if_false]
      cases hm : mmap (n + 8) with
      | none =>
        simp only [if_true, List.nil_append, List.not_mem_nil, not_false_eq_true, decide_true, filt]
        exact idle _ rfl
      | some p =>
        obtain ⟨o1, o2, o3, o4⟩ := hos _ _ hm
        simp only
        generalize hs : (if w.s.wx < 0 then ({ w.s with wx := if (if exec = true then !rw else true) = true then 1 else 0 } : St) else w.s) = s'
        have hsm : s'.mem = w.s.mem := by rw [← hs]; split <;> rfl
        have p8 : (p + 8).toNat = p.toNat + 8 := by
          rw [BitVec.toNat_add]; exact Nat.mod_eq_of_lt (by rw [n8] at o3; omega)
        -- the new mapping is not an old one
        have hnew : (p, n + 8) ∉ w.mapped := by
          intro hk
          have := o4 _ hk
          simp only at this
          omega
        split
        · -- blocked
          simp only [if_true, List.cons_append, List.nil_append, List.mem_singleton]
          rw [List.filter_cons_of_neg (by simp), List.filter_eq_self.mpr]
          · exact idle _ hsm
          · intro k hk
            simp only [decide_not, Bool.not_eq_eq_eq_not, Bool.not_true, decide_eq_false_iff_not]
            rintro rfl; exact hnew hk
        · have hne : p + 8 ≠ 0 := by
            intro e
            have := congrArg BitVec.toNat e
            rw [p8] at this
            simp at this
          have pm : p + 8 - 8 = p := by
            apply BitVec.eq_of_toNat_eq
            rw [BitVec.toNat_sub_of_le (by rw [BitVec.le_def, p8]; simp), p8]; simp
          simp only [hne, if_false, List.cons_append, List.nil_append, List.not_mem_nil, not_false_eq_true, decide_true, filt]
          have mo : mappingOf (p + 8, n) = (p, n + 8) := by simp only [mappingOf, pm]
          refine ⟨by rw [i1, List.map_cons, mo], ?_, ?_⟩
          · intro x hx
            rcases List.mem_cons.mp hx with rfl | hx
            · rw [mo]
              refine ⟨?_, by simp only; omega, by simp only; omega, by simp only; omega, by simp only; omega⟩
              simp only [free, pm, if_true]
            · have hi := i2 x hx
              refine ⟨?_, hi.2⟩
              have hmem : mappingOf x ∈ w.mapped := by rw [i1]; exact List.mem_map.mpr ⟨x, hx, rfl⟩
              have hd := o4 _ hmem
              have hne' : x.1 - 8 ≠ p := by
                rintro rfl
                have e1 : (mappingOf x).1 = x.1 - 8 := rfl
                rw [e1] at hd
                omega
              have := hi.1
              unfold free at this ⊢
              simp only [hne', if_false, hsm]
              exact this
          · refine List.pairwise_cons.mpr ⟨?_, i3⟩
            intro y hy
            have hi := i2 y hy
            have hmem : mappingOf y ∈ w.mapped := by rw [i1]; exact List.mem_map.mpr ⟨y, hy, rfl⟩
            have hd := o4 _ hmem
            rw [mo]
            simp only
            omega
  | free w x h hx ih =>
    obtain ⟨i1, i2, i3⟩ := ih
    refine ⟨?_, fun y hy => i2 y (List.mem_of_mem_erase hy), i3.sublist List.erase_sublist⟩
    simp only
    rw [(i2 x hx).1, i1]
    -- erasing in a list of distinct blocks
    clear i1
    generalize w.live = l at *
    induction l with
    | nil => cases hx
    | cons y t iht =>
      by_cases e : y = x
      · subst e; simp
      · have e' : mappingOf y ≠ mappingOf x := by
          intro e2
          apply e
          have y1 := i2 y (by simp)
          have x1 := i2 x hx
          rw [e2] at y1
          apply Prod.ext <;> apply BitVec.eq_of_toNat_eq <;> omega
        have hx' : x ∈ t := by
          rcases List.mem_cons.mp hx with h | h
          · exact absurd h.symm e
          · exact h
        rw [List.map_cons, List.erase_cons_tail (by simpa using e'), List.erase_cons_tail (by simpa using e), List.map_cons,
          iht hx' (fun z hz => i2 z (by simp [hz])) (List.pairwise_cons.mp i3).2]
  | client w m h hf ih =>
    obtain ⟨i1, i2, i3⟩ := ih
    refine ⟨i1, ?_, i3⟩
    intro x hx
    have hi := i2 x hx
    refine ⟨?_, hi.2⟩
    have := hi.1
    unfold free at this ⊢
    rw [← this]
    have hmem : mappingOf x ∈ w.mapped := by rw [i1]; exact List.mem_map.mpr ⟨x, hx, rfl⟩
    have e1 : (mappingOf x).1 = x.1 - 8 := rfl
    rw [e1] at hi
    simp only [Prod.mk.injEq, true_and]
    apply hf
    · exact ⟨_, hmem, by rw [e1]; omega, by rw [e1]; omega⟩
    · intro y hy
      by_cases e : y = x
      · subst e; omega
      · have hd : y.1.toNat + y.2.toNat ≤ (mappingOf x).1.toNat ∨ x.1.toNat + x.2.toNat ≤ (mappingOf y).1.toNat := by
          clear i1 i2 hmem hf this hi e1
          generalize w.live = l at *
          induction l with
          | nil => cases hx
          | cons z t iht =>
            obtain ⟨p1, p2⟩ := List.pairwise_cons.mp i3
            rcases List.mem_cons.mp hx with hx2 | hx2 <;> rcases List.mem_cons.mp hy with hy2 | hy2
            · exact absurd (hy2.trans hx2.symm) e
            · subst hx2; exact (p1 _ hy2).symm
            · subst hy2; exact p1 _ hx2
            · exact iht p2 hx2 hy2
        have hiy := i2 y hy
        rw [e1] at hd
        omega

/-- C06 is false for this allocator too: a request of 2^64 - 1 bytes is answered with a mapping of 7 bytes. -/
theorem c06_wx_false : ∃ mmap : BitVec 64 → Option (BitVec 64), (∀ n p, mmap n = some p → WXOsOk [] n p) ∧
    let r := malloc ⟨-1, fun _ => 0⟩ (BitVec.ofNat 64 (2 ^ 64 - 1)) mmap true true
    r.2.1 = 0x10008 ∧ r.2.2.mapped = [(0x10000, 7)] := by
  refine ⟨fun n => if n = 7 then some 0x10000 else none, ?_, by decide⟩
  intro n p h
  dsimp only at h
  split at h
  · next e => subst e; cases h; exact ⟨by decide, by decide, by decide, by simp⟩
  · cases h

end Verif.Props
