import Verif.Alloc.Geo

/-! # The free list -/

namespace Verif.Alloc

variable {c : Cfg}

theorem st_same (m : Nat → Nat) (a v : Nat) : st m a v a = v := by simp [st]
theorem st_ne (m : Nat → Nat) (a v x : Nat) (h : x ≠ a) : st m a v x = m x := by simp [st, h]

/-- Elements of a free list are real addresses and at least 64 bytes apart. -/
structure Far (l : List Nat) : Prop where
  nodup : l.Nodup
  pos : ∀ p ∈ l, 0 < p
  far : ∀ p ∈ l, ∀ q ∈ l, p ≠ q → p + 64 ≤ q ∨ q + 64 ≤ p

theorem chain_frame {m m' : Nat → Nat} {l : List Nat} {prev : Nat}
    (h : ∀ p ∈ l, m' (fNext c p) = m (fNext c p) ∧ m' (fPrev c p) = m (fPrev c p)) (hc : Chain c m prev l) :
    Chain c m' prev l := by
  induction l generalizing prev with
  | nil => trivial
  | cons p t ih =>
    have hp := h p (by simp)
    exact ⟨hp.1.trans hc.1, hp.2.trans hc.2.1, ih (fun q hq => h q (by simp [hq])) hc.2.2⟩

/-- Only the back link of the first element depends on the previous element. -/
theorem chain_prev {m m' : Nat → Nat} {l : List Nat} {prev prev' : Nat} (hn : l.Nodup)
    (hf : ∀ p ∈ l, m' (fNext c p) = m (fNext c p)) (hp : ∀ p ∈ l, p ≠ hd l → m' (fPrev c p) = m (fPrev c p))
    (hfirst : l ≠ [] → m' (fPrev c (hd l)) = prev') (hc : Chain c m prev l) : Chain c m' prev' l := by
  cases l with
  | nil => trivial
  | cons p t =>
    refine ⟨(hf p (by simp)).trans hc.1, hfirst (by simp), chain_frame (fun q hq => ?_) hc.2.2⟩
    have : q ≠ p := fun e => (List.nodup_cons.mp hn).1 (e ▸ hq)
    exact ⟨hf q (by simp [hq]), hp q (by simp [hq]) this⟩

/-- Links of an element in the middle of the chain. -/
theorem chain_links {m : Nat → Nat} {l1 l2 : List Nat} {p prev : Nat} (hc : Chain c m prev (l1 ++ p :: l2)) :
    m (fNext c p) = hd l2 ∧ m (fPrev c p) = l1.getLastD prev := by
  induction l1 generalizing prev with
  | nil => exact ⟨hc.1, hc.2.1⟩
  | cons q t ih =>
    have := ih hc.2.2
    rw [List.getLastD_cons]
    exact this

/-- Unlinking `p`. -/
theorem chain_remove {m m' : Nat → Nat} {l1 l2 : List Nat} {p prev : Nat} (hfar : Far (l1 ++ p :: l2))
    (ha : ∀ q ∈ l1 ++ l2, (q ≠ l1.getLastD 0 ∨ l1 = [] → m' (fNext c q) = m (fNext c q)) ∧
      (q ≠ hd l2 ∨ l2 = [] → m' (fPrev c q) = m (fPrev c q)))
    (hb : l2 ≠ [] → m' (fPrev c (hd l2)) = l1.getLastD prev)
    (hl : l1 ≠ [] → m' (fNext c (l1.getLastD 0)) = hd l2)
    (hc : Chain c m prev (l1 ++ p :: l2)) : Chain c m' prev (l1 ++ l2) := by
  induction l1 generalizing prev with
  | nil =>
    simp only [List.nil_append] at *
    refine chain_prev (List.nodup_cons.mp hfar.nodup).2 (fun q hq => (ha q hq).1 (.inr trivial)) (fun q hq hne => (ha q hq).2 (.inl hne)) ?_ hc.2.2
    intro h; simpa using hb h
  | cons q t ih =>
    have hnd : q ∉ t ++ p :: l2 := (List.nodup_cons.mp hfar.nodup).1
    have hfar' : Far (t ++ p :: l2) := ⟨(List.nodup_cons.mp hfar.nodup).2, fun x hx => hfar.pos x (by simp at hx ⊢; grind),
      fun x hx y hy => hfar.far x (by simp at hx ⊢; grind) y (by simp at hy ⊢; grind)⟩
    have hqprev : m' (fPrev c q) = prev := by
      rw [← hc.2.1]
      apply (ha q (by simp)).2
      cases l2 with
      | nil => right; rfl
      | cons r l2' => left; intro e; apply hnd; simp [hd] at e; simp [e]
    rw [List.getLastD_cons] at hb
    cases t with
    | nil =>
      simp only [List.nil_append, List.cons_append] at *
      refine ⟨by simpa using hl (by simp), hqprev, ?_⟩
      refine chain_prev (List.nodup_cons.mp hfar'.nodup).2 (fun x hx => ?_) (fun x hx hne => (ha x (by simp [hx])).2 (.inl hne)) (fun h => by simpa using hb h) hc.2.2.2.2
      apply (ha x (by simp [hx])).1
      left
      intro e
      simp at e
      apply hnd
      subst e
      simp [hx]
    | cons r t' =>
      have hgl : ∀ a b : Nat, (r :: t').getLastD a = (r :: t').getLastD b := by
        intro a b; rw [List.getLastD_cons, List.getLastD_cons]
      refine ⟨?_, hqprev, ih hfar' ?_ ?_ ?_ hc.2.2⟩
      · rw [(ha q (by simp)).1 ?_]
        · exact hc.1
        · left
          rw [List.getLastD_cons, hgl q 0]
          intro e
          apply hnd
          have hm : (r :: t').getLastD 0 ∈ r :: t' := by
            rw [List.getLastD_eq_getLast?, List.getLast?_eq_some_getLast (by simp)]
            simp only [Option.getD_some]
            exact List.getLast_mem _
          rw [e]
          exact List.mem_append.mpr (.inl hm)
      · intro x hx
        refine ⟨fun h => (ha x (by simp at hx ⊢; grind)).1 ?_, (ha x (by simp at hx ⊢; grind)).2⟩
        rcases h with h | h
        · left; rw [List.getLastD_cons, hgl q 0]; exact h
        · cases h
      · intro h; rw [hb h]
      · intro _
        have := hl (by simp)
        rw [List.getLastD_cons, hgl q 0] at this
        exact this

end Verif.Alloc
