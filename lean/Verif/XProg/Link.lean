import Verif.XProg.Compile
import Verif.X86.GenSpec

/-! # Merged labels on x86-64: helper lemmas -/

namespace Verif.XLir
open Verif.X86

/-- The items which the calls of `Lir.Ins` produce, with label targets below `nl`. -/
def Plain (nl : Nat) : Item → Prop
  | .bytes bs => bs ≠ []
  | .label => True
  | .jump j => j.type < 40 ∧ j.tgt.Ok nl
  | _ => False

theorem lmap_length {nl : Nat} : ∀ (is : List Item) (prev : Bool) (n : Nat), (∀ i ∈ is, Plain nl i) → (lmap prev n is).length = Prog.labels is
  | [], _, _, _ => rfl
  | i :: is, prev, n, h => by
    have h' : ∀ i ∈ is, Plain nl i := fun i hi => h i (List.mem_cons_of_mem _ hi)
    have hi := h i List.mem_cons_self
    cases i with
    | label => cases prev <;> simp [lmap, Prog.labels, lmap_length is _ _ h']
    | bytes bs => simp only [lmap, Prog.labels]; exact lmap_length is _ _ h'
    | jump j => simp only [lmap, Prog.labels]; exact lmap_length is _ _ h'
    | _ => exact hi.elim

/-- The number of a label is below the number of labels. -/
theorem lmap_lt {nl : Nat} : ∀ (is : List Item) (prev : Bool) (n : Nat), (∀ i ∈ is, Plain nl i) → (prev = true → 0 < n) →
    ∀ x ∈ lmap prev n is, x < n + Prog.labels (dedup prev is)
  | [], _, _, _, _ => by simp [lmap]
  | i :: is, prev, n, h, hn => by
    have h' : ∀ i ∈ is, Plain nl i := fun i hi => h i (List.mem_cons_of_mem _ hi)
    have hi := h i List.mem_cons_self
    cases i with
    | label =>
      cases prev with
      | true =>
        have := hn rfl
        intro x hx
        simp only [lmap, if_true, List.mem_cons] at hx
        simp only [dedup, if_true]
        rcases hx with rfl | hx
        · omega
        · exact lmap_lt is true n h' (fun _ => this) x hx
      | false =>
        intro x hx
        simp only [lmap, Bool.false_eq_true, if_false, List.mem_cons] at hx
        simp only [dedup, Bool.false_eq_true, if_false, Prog.labels]
        rcases hx with rfl | hx
        · omega
        · have := lmap_lt is true (n + 1) h' (fun _ => by omega) x hx; omega
    | bytes bs => exact lmap_lt is false n h' (by simp)
    | jump j => exact lmap_lt is false n h' (by simp)
    | _ => exact hi.elim

theorem labels_ren (f : Nat → Nat) : ∀ is, Prog.labels (is.map (ren f)) = Prog.labels is
  | [] => rfl
  | i :: is => by
    have ih := labels_ren f is
    cases i with
    | jump j => rcases j with ⟨type, rew, n | a⟩ <;> simpa [ren, Prog.labels] using ih
    | mov r t => cases t <;> simpa [ren, Prog.labels] using ih
    | _ => simpa [ren, Prog.labels] using ih

/-- What is placed for the merged labels is placed for the calls. -/
theorem unlink {c : IMem} {off a0 : BitVec 64} {laddr laddr' : List (BitVec 64)} {fin : BitVec 64} {f : Nat → Nat}
    (hf : ∀ n, n < laddr'.length → laddr.getD (f n) 0#64 = laddr'.getD n 0#64) :
    ∀ (is : List Item) (prev : Bool) (a : BitVec 64) (li li' : Nat) (ca : List (BitVec 64)) (ja : List Nat),
      (∀ i ∈ is, Plain laddr'.length i) →
      (prev = true → 0 < li ∧ laddr.getD (li - 1) 0#64 = a) → laddr'.length = li' + Prog.labels is →
      (∀ k, k < Prog.labels is → laddr'.getD (li' + k) 0#64 = laddr.getD ((lmap prev li is).getD k 0) 0#64) →
      Placed c false off a0 laddr ((dedup prev is).map (ren f)) a li ca ja fin → Placed c false off a0 laddr' is a li' ca ja fin
  | [], _, a, li, li', ca, ja, _, _, hl, _, hp => by
    obtain ⟨h1, h2, h3⟩ := hp
    exact ⟨h1, by simpa [Prog.labels] using hl.symm, h3⟩
  | i :: is, prev, a, li, li', ca, ja, h, hprev, hl, hk, hp => by
    have h' : ∀ i ∈ is, Plain laddr'.length i := fun i hi => h i (List.mem_cons_of_mem _ hi)
    have hi := h i List.mem_cons_self
    have some_of : ∀ x : BitVec 64, Prog.labels (i :: is) ≠ Prog.labels is → laddr'.getD li' 0#64 = x → laddr'[li']? = some x := by
      intro x hx e
      have hlt : li' < laddr'.length := by
        have : Prog.labels (i :: is) = Prog.labels is ∨ 0 < Prog.labels (i :: is) := by
          cases i <;> simp [Prog.labels]
        omega
      rw [List.getD_eq_getElem?_getD, List.getElem?_eq_getElem hlt] at e
      rw [List.getElem?_eq_getElem hlt]; exact congrArg some e
    cases i with
    | label =>
      have e0 := hk 0 (by simp [Prog.labels])
      have hl' : laddr'.length = li' + 1 + Prog.labels is := by rw [hl]; simp only [Prog.labels]; omega
      cases prev with
      | true =>
        obtain ⟨q1, q2⟩ := hprev rfl
        simp only [dedup, if_true] at hp
        refine ⟨some_of _ (by simp [Prog.labels]) ?_, unlink hf is true a li (li' + 1) ca ja h' (fun _ => ⟨q1, q2⟩) hl' ?_ hp⟩
        · rw [Nat.add_zero] at e0
          rw [e0]; simpa [lmap] using q2
        · intro k hk'
          have := hk (k + 1) (by simp only [Prog.labels]; omega)
          simp only [lmap, if_true, List.getD_cons_succ] at this
          rw [← this]; congr 1; omega
      | false =>
        simp only [dedup, Bool.false_eq_true, if_false, List.map_cons, ren] at hp
        obtain ⟨q1, q2⟩ := hp
        have q1' : laddr.getD li 0#64 = a := by rw [List.getD_eq_getElem?_getD, q1]; rfl
        refine ⟨some_of _ (by simp [Prog.labels]) ?_, unlink hf is true a (li + 1) (li' + 1) ca ja h' (fun _ => ⟨by omega, q1'⟩) hl' ?_ q2⟩
        · rw [Nat.add_zero] at e0
          rw [e0]; simpa [lmap] using q1'
        · intro k hk'
          have := hk (k + 1) (by simp only [Prog.labels]; omega)
          simp only [lmap, Bool.false_eq_true, if_false, List.getD_cons_succ] at this
          rw [← this]; congr 1; omega
    | bytes hs => exact ⟨hp.1, unlink hf is false _ li li' ca ja h' (by simp) hl hk hp.2⟩
    | jump j =>
      rcases j with ⟨type, rew, n | x⟩
      · have e := hf n hi.2
        obtain ⟨k, x, ja', p0, p1, p2, p3⟩ := hp
        have et : tgtOf laddr (.label (f n)) = tgtOf laddr' (.label n) := e
        refine ⟨k, x, ja', p0, ?_, ?_, unlink hf is false _ li li' ca ja' h' (by simp) hl hk p3⟩
        · intro s hs
          have := p1 s hs
          rw [et] at this
          exact this
        · intro hr
          have := p2 hr
          rw [et] at this
          exact this
      · obtain ⟨k, y, ja', p0, p1, p2, p3⟩ := hp
        exact ⟨k, y, ja', p0, p1, p2, unlink hf is false _ li li' ca ja' h' (by simp) hl hk p3⟩
    | _ => exact hi.elim

/-- The merged program is well formed when its parts are. -/
theorem link_ok {nl nl' : Nat} {f : Nat → Nat} (hf : ∀ n, n < nl → f n < nl') :
    ∀ (is : List Item) (prev : Bool), (∀ i ∈ is, Plain nl i) →
      (prev = true → Item.isLabel ((dedup prev is).map (ren f)) = false) ∧ Prog.Ok nl' ((dedup prev is).map (ren f))
  | [], _, _ => ⟨fun _ => rfl, trivial⟩
  | i :: is, prev, h => by
    have h' : ∀ i ∈ is, Plain nl i := fun i hi => h i (List.mem_cons_of_mem _ hi)
    have hi := h i List.mem_cons_self
    have ih := link_ok hf is
    cases i with
    | label =>
      cases prev with
      | true => simpa [dedup] using ih true h'
      | false =>
        obtain ⟨q1, q2⟩ := ih true h'
        simp only [dedup, Bool.false_eq_true, if_false, List.map_cons, ren]
        exact ⟨by simp, q1 rfl, q2⟩
    | bytes hs => exact ⟨fun _ => rfl, hi, (ih false h').2⟩
    | jump j =>
      obtain ⟨type, rew, n | a⟩ := j
      · exact ⟨fun _ => rfl, ⟨hi.1, hf n hi.2⟩, (ih false h').2⟩
      · exact ⟨fun _ => rfl, ⟨hi.1, trivial⟩, (ih false h').2⟩
    | _ => exact hi.elim

theorem dedup_mem {i : Item} : ∀ {is : List Item} {prev : Bool}, i ∈ dedup prev is → i ∈ is
  | [], _, h => h
  | j :: is, prev, h => by
    cases j with
    | label =>
      cases prev with
      | true => exact List.mem_cons_of_mem _ (dedup_mem (prev := true) (by simpa [dedup] using h))
      | false =>
        simp only [dedup, Bool.false_eq_true, if_false, List.mem_cons] at h
        rcases h with rfl | h
        · exact List.mem_cons_self
        · exact List.mem_cons_of_mem _ (dedup_mem h)
    | _ =>
      simp only [dedup, List.mem_cons] at h
      rcases h with rfl | h
      · exact List.mem_cons_self
      · exact List.mem_cons_of_mem _ (dedup_mem h)

/-- Only jumps to absolute addresses can be at an edge. -/
theorem noedge {nl : Nat} {is : List Item} (h : ∀ i ∈ is, Plain nl i) {a0 : BitVec 64} {n : Nat}
    (ha : ∀ type rew a, Item.jump ⟨type, rew, .addr a⟩ ∈ is → NoEdge a0 n (.jump ⟨type, rew, .addr a⟩)) : ∀ i ∈ link is, NoEdge a0 n i := by
  intro i hi
  obtain ⟨j, hj, rfl⟩ := List.mem_map.mp hi
  have hj := dedup_mem hj
  have hp := h j hj
  cases j with
  | jump j =>
    obtain ⟨type, rew, k | a⟩ := j
    · trivial
    · exact ha _ _ _ hj
  | label => trivial
  | bytes => trivial
  | _ => exact hp.elim

end Verif.XLir
