import Verif.Prog.Patch

/-!
# Changing the target of jumps: helper lemmas
-/

namespace Verif.Lir

theorem map_set_same {α β : Type} (g : α → β) {l : List α} {a : Nat} {f f' : α} (h : l[a]? = some f) (e : g f' = g f) : (l.set a f').map g = l.map g := by
  rw [List.map_set]
  apply List.ext_getElem?
  intro i
  rw [List.getElem?_set]
  split
  · next e' =>
    subst e'
    rw [List.getElem?_map, h, e]
    have : a < l.length := (List.getElem?_eq_some_iff.mp h).1
    simp [this]
  · rfl

theorem retarget_record {g : Goal} {i i' : Ins} (h : i.retarget g = some i') : i'.record = i.record ∧ (i' == .label) = (i == .label) := by
  cases g with
  | label k =>
    cases i with
    | jump t rew k0 =>
      cases rew <;> cases h
      exact ⟨rfl, rfl⟩
    | cmp type is32 s1 s2 rew k0 =>
      cases rew <;> cases h
      exact ⟨rfl, rfl⟩
    | call as ret rew who => cases rew <;> cases who <;> cases h
    | _ => cases h
  | fn f =>
    cases i with
    | call as ret rew who =>
      cases rew <;> cases who <;> cases h
      exact ⟨rfl, rfl⟩
    | jump t rew k0 => cases rew <;> cases h
    | cmp type is32 s1 s2 rew k0 => cases rew <;> cases h
    | _ => cases h

theorem nlab_set {P : List Ins} {k : Nat} {i i' : Ins} (h : P[k]? = some i) (e : (i' == .label) = (i == .label)) : nlab (P.set k i') = nlab P := by
  have := map_set_same (fun j : Ins => j == .label) h e
  have c := congrArg (List.countP id) this
  rw [List.countP_map, List.countP_map] at c
  exact c

theorem split_at {α : Type} {l : List α} {a : Nat} {f : α} (h : l[a]? = some f) (f' : α) :
    l = l.take a ++ f :: l.drop (a + 1) ∧ l.set a f' = l.take a ++ f' :: l.drop (a + 1) := by
  obtain ⟨ha, rfl⟩ := List.getElem?_eq_some_iff.mp h
  refine ⟨?_, List.set_eq_take_append_cons_drop ▸ by rw [if_pos ha]⟩
  rw [List.getElem_cons_drop, List.take_append_drop]

theorem mem_set_or {α : Type} {l : List α} {a : Nat} {x y : α} (h : x ∈ l.set a y) : x ∈ l ∨ x = y := List.mem_or_eq_of_mem_set h

end Verif.Lir
