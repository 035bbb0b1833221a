import Mathlib.Tactic.SplitIfs

/-! # Sum of the sizes of disjoint intervals -/

namespace Verif.Alloc

def lsum (l : List (Nat × Nat)) : Nat := (l.map Prod.snd).sum

theorem lsum_cons (x : Nat × Nat) (l) : lsum (x :: l) = x.2 + lsum l := by simp [lsum]

theorem lsum_filter (l : List (Nat × Nat)) (f : Nat × Nat → Bool) : lsum l = lsum (l.filter f) + lsum (l.filter (fun x => !f x)) := by
  induction l with
  | nil => rfl
  | cons x t ih =>
    rw [List.filter_cons, List.filter_cons, lsum_cons]
    cases f x <;> simp [lsum_cons] <;> omega

theorem lsum_erase {l : List (Nat × Nat)} {x : Nat × Nat} (h : x ∈ l) : lsum (l.erase x) + x.2 = lsum l := by
  induction l with
  | nil => cases h
  | cons y t ih =>
    by_cases e : y = x
    · subst e; rw [List.erase_cons_head, lsum_cons]; omega
    · rw [List.erase_cons_tail (by simpa using e), lsum_cons, lsum_cons]
      have := ih (by simp at h; rcases h with h | h; exact absurd h.symm e; exact h)
      omega

/-- Disjoint intervals inside of `[a, b)`. -/
theorem lsum_le (l : List (Nat × Nat)) (a b : Nat) (hab : a ≤ b) (hin : ∀ x ∈ l, a ≤ x.1 ∧ x.1 + x.2 ≤ b)
    (hp : l.Pairwise (fun x y => x.1 + x.2 ≤ y.1 ∨ y.1 + y.2 ≤ x.1)) : lsum l ≤ b - a := by
  induction hn : l.length using Nat.strongRecOn generalizing l a b with
  | _ n ih =>
    cases l with
    | nil => simp [lsum]
    | cons x t =>
      obtain ⟨hx, ht⟩ := List.pairwise_cons.mp hp
      have ⟨h1, h2⟩ := hin x (by simp)
      rw [lsum_cons, lsum_filter t (fun y => decide (y.1 + y.2 ≤ x.1))]
      have l1 := ih _ (by subst hn; simp only [List.length_cons]; exact Nat.lt_succ_of_le (List.length_filter_le (fun y => decide (y.1 + y.2 ≤ x.1)) t))
        (t.filter (fun y => decide (y.1 + y.2 ≤ x.1))) a x.1 h1 (by
          intro y hy
          obtain ⟨hy1, hy2⟩ := List.mem_filter.mp hy
          have := hin y (by simp [hy1])
          simp at hy2
          omega) (ht.filter _) rfl
      have l2 := ih _ (by subst hn; simp only [List.length_cons]; exact Nat.lt_succ_of_le (List.length_filter_le (fun y => !decide (y.1 + y.2 ≤ x.1)) t))
        (t.filter (fun y => !decide (y.1 + y.2 ≤ x.1))) (x.1 + x.2) b (by omega) (by
          intro y hy
          obtain ⟨hy1, hy2⟩ := List.mem_filter.mp hy
          have := hin y (by simp [hy1])
          have := hx y hy1
          simp at hy2
          omega) (ht.filter _) rfl
      omega

end Verif.Alloc
