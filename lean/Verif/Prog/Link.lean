import Verif.Prog.Compile
import Verif.RISCV.GenSpec

/-! # Merged labels: helper lemmas -/

namespace Verif.Lir
open Verif.RV

theorem lmap_length : ∀ (is : List Item) (prev : Bool) (n : Nat), (∀ al, .alabel al ∉ is) → (lmap prev n is).length = Prog.labels is
  | [], _, _, _ => rfl
  | i :: is, prev, n, h => by
    have h' : ∀ al, Item.alabel al ∉ is := fun al ha => h al (List.mem_cons_of_mem _ ha)
    cases i with
    | label => cases prev <;> simp [lmap, Prog.labels, lmap_length is _ _ h']
    | alabel al => exact absurd List.mem_cons_self (h al)
    | _ => simp only [lmap, Prog.labels]; exact lmap_length is _ _ h'

/-- The number of a label is below the number of labels. -/
theorem lmap_lt : ∀ (is : List Item) (prev : Bool) (n : Nat), (∀ al, .alabel al ∉ is) → (prev = true → 0 < n) →
    ∀ x ∈ lmap prev n is, x < n + Prog.labels (dedup prev is)
  | [], _, _, _, _ => by simp [lmap]
  | i :: is, prev, n, h, hn => by
    have h' : ∀ al, Item.alabel al ∉ is := fun al ha => h al (List.mem_cons_of_mem _ ha)
    cases i with
    | label =>
      cases prev with
      | true =>
        have := hn rfl
        intro x hx
        simp only [lmap, if_true, List.mem_cons] at hx
        simp only [dedup, if_true]
        rcases hx with rfl | hx
        · omega
        · exact lmap_lt is true n h' (fun _ => this) x hx
      | false =>
        intro x hx
        simp only [lmap, Bool.false_eq_true, if_false, List.mem_cons] at hx
        simp only [dedup, Bool.false_eq_true, if_false, Prog.labels]
        rcases hx with rfl | hx
        · omega
        · have := lmap_lt is true (n + 1) h' (fun _ => by omega) x hx; omega
    | alabel al => exact absurd List.mem_cons_self (h al)
    | _ => exact lmap_lt is false n h' (by simp)

theorem labels_ren (f : Nat → Nat) : ∀ is, Prog.labels (is.map (ren f)) = Prog.labels is
  | [] => rfl
  | i :: is => by
    have ih := labels_ren f is
    cases i with
    | jump j => rcases j with ⟨br, rew, call, n | a⟩ <;> simpa [ren, Prog.labels] using ih
    | mov r t => cases t <;> simpa [ren, Prog.labels] using ih
    | _ => simpa [ren, Prog.labels] using ih

/-- The target of an item is a label below `n`, or an address. -/
def Item.tgtLt (n : Nat) : Item → Prop
  | .jump j => ∀ k, j.tgt = .label k → k < n
  | .mov _ t => ∀ k, t = .label k → k < n
  | _ => True

/-- What is placed for the merged labels is placed for the calls. -/
theorem unlink {code : Code} {off : BitVec 64} {laddr laddr' : List (BitVec 64)} {fin : BitVec 64} {f : Nat → Nat}
    (hf : ∀ n, n < laddr'.length → laddr.getD (f n) 0#64 = laddr'.getD n 0#64) :
    ∀ (is : List Item) (prev : Bool) (a : BitVec 64) (li li' : Nat) (ca : List (BitVec 64)),
      (∀ al, .alabel al ∉ is) → (∀ i ∈ is, Item.tgtLt laddr'.length i) →
      (prev = true → 0 < li ∧ laddr.getD (li - 1) 0#64 = a) → laddr'.length = li' + Prog.labels is →
      (∀ k, k < Prog.labels is → laddr'.getD (li' + k) 0#64 = laddr.getD ((lmap prev li is).getD k 0) 0#64) →
      Placed code off laddr ((dedup prev is).map (ren f)) a li ca fin → Placed code off laddr' is a li' ca fin
  | [], _, a, li, li', ca, _, _, _, hl, _, hp => by
    obtain ⟨h1, h2, h3⟩ := hp
    exact ⟨h1, by simpa [Prog.labels] using hl.symm, h3⟩
  | i :: is, prev, a, li, li', ca, h, ht, hprev, hl, hk, hp => by
    have h' : ∀ al, Item.alabel al ∉ is := fun al ha => h al (List.mem_cons_of_mem _ ha)
    have ht' : ∀ i ∈ is, Item.tgtLt laddr'.length i := fun i hi => ht i (List.mem_cons_of_mem _ hi)
    have hi := ht i List.mem_cons_self
    cases i with
    | alabel al => exact absurd List.mem_cons_self (h al)
    | label =>
      have e0 := hk 0 (by simp [Prog.labels])
      have hl' : laddr'.length = li' + 1 + Prog.labels is := by rw [hl]; simp only [Prog.labels]; omega
      cases prev with
      | true =>
        obtain ⟨q1, q2⟩ := hprev rfl
        simp only [dedup, if_true] at hp
        refine ⟨?_, unlink hf is true a li (li' + 1) ca h' ht' (fun _ => ⟨q1, q2⟩) hl' ?_ hp⟩
        · rw [Nat.add_zero] at e0
          rw [e0]; simpa [lmap] using q2
        · intro k hk'
          have := hk (k + 1) (by simp only [Prog.labels]; omega)
          simp only [lmap, if_true, List.getD_cons_succ] at this
          rw [← this]; congr 1; omega
      | false =>
        simp only [dedup, Bool.false_eq_true, if_false, List.map_cons, ren] at hp
        obtain ⟨q1, q2⟩ := hp
        refine ⟨?_, unlink hf is true a (li + 1) (li' + 1) ca h' ht' (fun _ => ⟨by omega, q1⟩) hl' ?_ q2⟩
        · rw [Nat.add_zero] at e0
          rw [e0]; simpa [lmap] using q1
        · intro k hk'
          have := hk (k + 1) (by simp only [Prog.labels]; omega)
          simp only [lmap, Bool.false_eq_true, if_false, List.getD_cons_succ] at this
          rw [← this]; congr 1; omega
    | code hs => exact ⟨hp.1, unlink hf is false _ li li' ca h' ht' (by simp) hl hk hp.2⟩
    | const hs =>
      obtain ⟨p1, ca', p2, p3⟩ := hp
      exact ⟨p1, ca', p2, unlink hf is false _ li li' ca' h' ht' (by simp) hl hk p3⟩
    | jump j =>
      rcases j with ⟨br, rew, call, n | x⟩
      · have e := hf n (hi n rfl)
        obtain ⟨k, p1, p2, p3⟩ := hp
        refine ⟨k, ?_, ?_, unlink hf is false _ li li' ca h' ht' (by simp) hl hk p3⟩
        · intro s hs
          have := p1 s hs
          simp only [tgtOf, e] at this
          exact this
        · intro hr
          have := p2 hr
          simp only [tgtOf, e] at this
          exact this
      · obtain ⟨k, p1, p2, p3⟩ := hp
        exact ⟨k, p1, p2, unlink hf is false _ li li' ca h' ht' (by simp) hl hk p3⟩
    | mov r t =>
      cases t with
      | label n =>
        have e := hf n (hi n rfl)
        obtain ⟨k, p1, p3⟩ := hp
        refine ⟨k, ?_, unlink hf is false _ li li' ca h' ht' (by simp) hl hk p3⟩
        intro s hs
        have := p1 s hs
        simp only [tgtOf, e] at this
        exact this
      | addr x =>
        obtain ⟨k, p1, p3⟩ := hp
        exact ⟨k, p1, unlink hf is false _ li li' ca h' ht' (by simp) hl hk p3⟩

/-- The merged program is well formed when its parts are. -/
theorem link_ok {cfg : Cfg} {nl nl' : Nat} {f : Nat → Nat} (hf : ∀ n, n < nl → f n < nl') :
    ∀ (is : List Item) (prev : Bool), (∀ al, .alabel al ∉ is) → (∀ i ∈ is, i.Ok cfg nl) →
      (prev = true → Item.isLabel ((dedup prev is).map (ren f)) = false) ∧ Prog.Ok cfg nl' ((dedup prev is).map (ren f))
  | [], _, _, _ => ⟨fun _ => rfl, trivial⟩
  | i :: is, prev, h, ho => by
    have h' : ∀ al, Item.alabel al ∉ is := fun al ha => h al (List.mem_cons_of_mem _ ha)
    have ho' : ∀ i ∈ is, i.Ok cfg nl := fun i hi => ho i (List.mem_cons_of_mem _ hi)
    have hi := ho i List.mem_cons_self
    have ih := link_ok (cfg := cfg) hf is
    cases i with
    | alabel al => exact absurd List.mem_cons_self (h al)
    | label =>
      cases prev with
      | true => simpa [dedup] using ih true h' ho'
      | false =>
        obtain ⟨q1, q2⟩ := ih true h' ho'
        simp only [dedup, Bool.false_eq_true, if_false, List.map_cons, ren]
        exact ⟨by simp, q1 rfl, q2⟩
    | code hs => exact ⟨fun _ => rfl, hi, (ih false h' ho').2⟩
    | const hs => exact ⟨fun _ => rfl, hi, (ih false h' ho').2⟩
    | jump j =>
      rcases j with ⟨br, rew, call, n | x⟩
      · refine ⟨fun _ => rfl, ⟨hi.1, hi.2.1, hf n hi.2.2.1, fun _ => Or.inr ⟨_, rfl⟩⟩, (ih false h' ho').2⟩
      · exact ⟨fun _ => rfl, hi, (ih false h' ho').2⟩
    | mov r t =>
      cases t with
      | label n => exact ⟨fun _ => rfl, ⟨hf n hi.1, hi.2⟩, (ih false h' ho').2⟩
      | addr x => exact ⟨fun _ => rfl, hi, (ih false h' ho').2⟩

/-- A program that ends in plain instructions keeps that end. -/
theorem link_end {f : Nat → Nat} {e : List (BitVec 16)} : ∀ (is : List Item) (prev : Bool), (∀ al, .alabel al ∉ is) →
    ∃ q, (dedup prev (is ++ [.code e])).map (ren f) = q ++ [.code e] ∧ Prog.Tail (q ++ [.code e])
  | [], _, _ => ⟨[], rfl, trivial⟩
  | i :: is, prev, h => by
    have h' : ∀ al, Item.alabel al ∉ is := fun al ha => h al (List.mem_cons_of_mem _ ha)
    have mem : ∀ q : List Item, ∃ i ∈ q ++ [Item.code e], i ≠ .label := fun q => ⟨.code e, by simp, by simp⟩
    cases i with
    | alabel al => exact absurd List.mem_cons_self (h al)
    | label =>
      obtain ⟨q, q1, q2⟩ := link_end (f := f) (e := e) is true h'
      cases prev with
      | true => exact ⟨q, by simpa [dedup] using q1, q2⟩
      | false => exact ⟨.label :: q, by simp [dedup, ren, q1], q2⟩
    | jump j =>
      obtain ⟨q, q1, q2⟩ := link_end (f := f) (e := e) is false h'
      refine ⟨ren f (.jump j) :: q, by simp [dedup, q1], ?_⟩
      rcases j with ⟨br, rew, call, n | x⟩ <;> exact ⟨fun _ => mem q, q2⟩
    | mov r t =>
      obtain ⟨q, q1, q2⟩ := link_end (f := f) (e := e) is false h'
      refine ⟨ren f (.mov r t) :: q, by simp [dedup, q1], ?_⟩
      cases t <;> exact q2
    | code hs =>
      obtain ⟨q, q1, q2⟩ := link_end (f := f) (e := e) is false h'
      exact ⟨.code hs :: q, by simp [dedup, ren, q1], q2⟩
    | const hs =>
      obtain ⟨q, q1, q2⟩ := link_end (f := f) (e := e) is false h'
      exact ⟨.const hs :: q, by simp [dedup, ren, q1], q2⟩

end Verif.Lir
