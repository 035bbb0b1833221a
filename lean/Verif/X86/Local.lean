import Verif.X86.MachLemmas

/-!
# Decoding does not look past an instruction; straight line code on the machine with an instruction pointer
-/

namespace Verif.X86

/-- `f` consumes a prefix of at most `k` bytes and does not depend on the rest. -/
def Local {α : Type} (f : List Byte → Option (α × List Byte)) (k : Nat) : Prop :=
  ∀ bs x r, f bs = some (x, r) → ∃ p, bs = p ++ r ∧ p.length ≤ k ∧ ∀ t, f (p ++ t) = some (x, t)

theorem Local.mono {α : Type} {f : List Byte → Option (α × List Byte)} {k k' : Nat} (h : Local f k) (hk : k ≤ k') : Local f k' := fun bs x r e => by
  obtain ⟨p, h1, h2, h3⟩ := h bs x r e
  exact ⟨p, h1, by omega, h3⟩

theorem Local.map {α β : Type} {f : List Byte → Option (α × List Byte)} {k : Nat} (h : Local f k) (g : α → β) :
    Local (fun bs => (f bs).map fun (v, r) => (g v, r)) k := fun bs x r e => by
  obtain ⟨⟨v, r'⟩, e1, e2⟩ := Option.map_eq_some_iff.mp e
  cases e2
  obtain ⟨p, h1, h2, h3⟩ := h bs v _ e1
  exact ⟨p, h1, h2, fun t => by simp [h3 t]⟩

theorem Local.bind {α β : Type} {f : List Byte → Option (α × List Byte)} {g : α → List Byte → Option (β × List Byte)} {k k' : Nat} (h : Local f k) (hg : ∀ a, Local (g a) k') :
    Local (fun bs => (f bs).bind fun (v, r) => g v r) (k + k') := fun bs x r e => by
  obtain ⟨⟨v, r'⟩, e1, e2⟩ := Option.bind_eq_some_iff.mp e
  obtain ⟨p, h1, h2, h3⟩ := h bs v _ e1
  obtain ⟨q, i1, i2, i3⟩ := hg v r' x r e2
  refine ⟨p ++ q, by rw [h1, i1, List.append_assoc], by simp; omega, fun t => ?_⟩
  show (f ((p ++ q) ++ t)).bind _ = _
  rw [List.append_assoc, h3]
  exact i3 t

theorem Local.cons {α : Type} {f : List Byte → Option (α × List Byte)} {g : Byte → List Byte → Option (α × List Byte)} {k : Nat} (h0 : f [] = none) (hf : ∀ b bs, f (b :: bs) = g b bs)
    (hg : ∀ b, Local (g b) k) : Local f (k + 1) := fun bs x r e => by
  cases bs with
  | nil => rw [h0] at e; cases e
  | cons b bs =>
    rw [hf] at e
    obtain ⟨p, h1, h2, h3⟩ := hg b bs x r e
    refine ⟨b :: p, by rw [h1]; rfl, by simp; omega, fun t => ?_⟩
    rw [List.cons_append, hf]; exact h3 t

theorem Local.pure {α : Type} (x : α) (k : Nat) : Local (fun bs => some (x, bs)) k := fun bs y r e => by
  cases e; exact ⟨[], rfl, by simp, fun t => rfl⟩

theorem Local.none {α : Type} (k : Nat) : Local (fun _ => (Option.none : Option (α × List Byte))) k := fun bs y r e => by cases e

theorem Local.ite {α : Type} {c : Prop} [Decidable c] {f g : List Byte → Option (α × List Byte)} {k : Nat} (hf : Local f k) (hg : Local g k) :
    Local (fun bs => if c then f bs else g bs) k := by
  by_cases h : c
  · simpa [h] using hf
  · simpa [h] using hg

theorem le_local : ∀ n, Local (le n) n
  | 0 => Local.pure _ _
  | n + 1 => Local.cons rfl (fun _ _ => rfl) fun b => Local.map (le_local n) fun v => b.setWidth 64 ||| v <<< 8

theorem sle_local (n : Nat) : Local (sle' n) n := Local.map (le_local n) (sext n)

/-- The same for a result of two parts. -/
def Local2 {α β : Type} (f : List Byte → Option (α × β × List Byte)) (k : Nat) : Prop := Local (fun bs => (f bs).map fun (a, b, r) => ((a, b), r)) k

theorem Local2.ite {α β : Type} {c : Prop} [Decidable c] {f g : List Byte → Option (α × β × List Byte)} {k : Nat} (hf : Local2 f k) (hg : Local2 g k) :
    Local2 (fun bs => if c then f bs else g bs) k := by
  by_cases h : c
  · simpa [h] using hf
  · simpa [h] using hg

theorem Local2.pure {α β : Type} (x : α) (y : β) (k : Nat) : Local2 (fun bs => some (x, y, bs)) k := Local.pure (x, y) k

theorem Local2.map {α β γ : Type} {f : List Byte → Option (γ × List Byte)} {k : Nat} (h : Local f k) (x : α) (g : γ → β) :
    Local2 (fun bs => (f bs).map fun (v, r) => (x, g v, r)) k := by
  have := Local.map h fun v => (x, g v)
  unfold Local2
  simpa only [Option.map_map, Function.comp_def] using this

theorem Local2.cons {α β : Type} {f : List Byte → Option (α × β × List Byte)} {g : Byte → List Byte → Option (α × β × List Byte)} {k : Nat} (h0 : f [] = Option.none)
    (hf : ∀ b bs, f (b :: bs) = g b bs) (hg : ∀ b, Local2 (g b) k) : Local2 f (k + 1) := by
  refine Local.cons (g := fun b bs => (g b bs).map fun (a, b, r) => ((a, b), r)) (by rw [h0]; rfl) (fun b bs => by rw [hf]) fun b => ?_
  exact hg b

theorem parseRM_local (rex : Byte) : Local2 (parseRM rex) 6 := by
  refine Local2.cons rfl (fun _ _ => rfl) fun m => ?_
  refine Local2.ite (Local2.pure _ _ _) (Local2.ite ?_ (Local2.ite (Local2.ite ?_ (Local2.pure _ _ _)) ?_))
  · refine Local2.cons (g := fun sib bs => _) rfl (fun _ _ => rfl) fun sib => ?_
    refine Local2.ite (Local2.ite (Local2.map (sle_local 4) _ fun d => _) (Local2.pure _ _ _)) ?_
    exact Local2.map ((sle_local _).mono (by split <;> omega)) _ fun d => _
  · exact Local2.map ((sle_local 4).mono (by omega)) _ fun d => _
  · exact Local2.map ((sle_local _).mono (by split <;> omega)) _ fun d => _

theorem immSize_le (pre : Byte) (map : Nat) (op : Byte) (reg : BitVec 3) : immSize pre map op reg ≤ 4 := by
  unfold immSize; split
  · split <;> omega
  · split
    · split <;> omega
    · split <;> omega

theorem shortSize_le {pre rex : Byte} {map : Nat} {op : Byte} {n : Nat} (h : shortSize pre rex map op = some n) : n ≤ 8 := by
  unfold shortSize at h
  split at h
  · split at h <;> cases h; omega
  · split at h
    · cases h; split <;> omega
    · split at h
      · cases h; split
        · omega
        · split <;> omega
      · split at h <;> cases h; omega

theorem parseOp_short {pre rex : Byte} {map : Nat} {op : Byte} {n : Nat} (h : shortSize pre rex map op = some n) (bs : List Byte) :
    parseOp pre rex map (op :: bs) = (sle' n bs).map fun (i, r) => (Inst.short pre rex map op i, r) := by simp only [parseOp, h]

theorem parseOp_long {pre rex : Byte} {map : Nat} {op : Byte} (h : shortSize pre rex map op = none) (bs : List Byte) :
    parseOp pre rex map (op :: bs) = ((parseRM rex bs).map fun (a, b, r) => ((a, b), r)).bind fun (a, bs) =>
      (sle' (immSize pre map op (a.1.setWidth 3)) bs).map fun (i, r) => (Inst.rm pre rex map op a.1 a.2 i, r) := by
  simp only [parseOp, h, Option.bind_map, Function.comp_def]

theorem parseOp_local (pre rex : Byte) (map : Nat) : Local (parseOp pre rex map) 11 := by
  refine Local.cons (g := fun op bs => parseOp pre rex map (op :: bs)) rfl (fun _ _ => rfl) fun op => ?_
  cases h : shortSize pre rex map op with
  | some n =>
    have e : (fun bs => parseOp pre rex map (op :: bs)) = _ := funext (parseOp_short h)
    rw [e]
    exact Local.map ((sle_local n).mono (by have := shortSize_le h; omega)) fun i => Inst.short pre rex map op i
  | none =>
    have e : (fun bs => parseOp pre rex map (op :: bs)) = _ := funext (parseOp_long h)
    rw [e]
    have h1 : Local (fun bs => (parseRM rex bs).map fun (a, b, r) => ((a, b), r)) 6 := parseRM_local rex
    have h2 : ∀ a : BitVec 4 × RM, Local (fun bs => (sle' (immSize pre map op (a.1.setWidth 3)) bs).map fun (i, r) => (Inst.rm pre rex map op a.1 a.2 i, r)) 4 :=
      fun a => Local.map ((sle_local _).mono (immSize_le ..)) fun i => Inst.rm pre rex map op a.1 a.2 i
    exact Local.bind h1 h2

theorem parseMap_local (pre rex : Byte) : Local (parseMap pre rex) 12 := by
  intro bs x r e
  cases bs with
  | nil => cases e
  | cons b bs =>
    simp only [parseMap] at e
    by_cases h : b = 0x0f#8
    · rw [if_pos h] at e
      obtain ⟨p, h1, h2, h3⟩ := parseOp_local _ _ _ _ _ _ e
      exact ⟨b :: p, by rw [h1]; rfl, by simp only [List.length_cons]; omega, fun t => by simp only [List.cons_append, parseMap, if_pos h]; exact h3 t⟩
    · rw [if_neg h] at e
      obtain ⟨p, h1, h2, h3⟩ := parseOp_local _ _ _ _ _ _ e
      cases p with
      | nil => cases h3 []
      | cons c p =>
        obtain ⟨rfl, h1⟩ := List.cons.inj h1
        exact ⟨b :: p, by rw [h1], by simp only [List.length_cons] at h2 ⊢; omega, fun t => by simp only [List.cons_append, parseMap, if_neg h]; exact h3 t⟩

theorem parseRex_local (pre : Byte) : Local (parseRex pre) 13 := by
  intro bs x r e
  cases bs with
  | nil => cases e
  | cons b bs =>
    simp only [parseRex] at e
    by_cases h : fld b 4 4 = 4#4
    · rw [if_pos h] at e
      obtain ⟨p, h1, h2, h3⟩ := parseMap_local _ _ _ _ _ e
      exact ⟨b :: p, by rw [h1]; rfl, by simp only [List.length_cons]; omega, fun t => by simp only [List.cons_append, parseRex, if_pos h]; exact h3 t⟩
    · rw [if_neg h] at e
      obtain ⟨p, h1, h2, h3⟩ := parseMap_local _ _ _ _ _ e
      cases p with
      | nil => cases h3 []
      | cons c p =>
        obtain ⟨rfl, h1⟩ := List.cons.inj h1
        exact ⟨b :: p, by rw [h1], by simp only [List.length_cons] at h2 ⊢; omega, fun t => by simp only [List.cons_append, parseRex, if_neg h]; exact h3 t⟩

/-- Decoding an instruction looks at its own bytes only, and these are at most 14 (of the instructions covered here). -/
theorem parse_local : Local parse 14 := by
  intro bs x r e
  cases bs with
  | nil => cases e
  | cons b bs =>
    simp only [parse] at e
    by_cases h : b = 0x66#8 ∨ b = 0xf2#8 ∨ b = 0xf3#8
    · rw [if_pos h] at e
      obtain ⟨p, h1, h2, h3⟩ := parseRex_local _ _ _ _ e
      exact ⟨b :: p, by rw [h1]; rfl, by simp only [List.length_cons]; omega, fun t => by simp only [List.cons_append, parse, if_pos h]; exact h3 t⟩
    · rw [if_neg h] at e
      obtain ⟨p, h1, h2, h3⟩ := parseRex_local _ _ _ _ e
      cases p with
      | nil => cases h3 []
      | cons c p =>
        obtain ⟨rfl, h1⟩ := List.cons.inj h1
        exact ⟨b :: p, by rw [h1], by simp only [List.length_cons] at h2 ⊢; omega, fun t => by simp only [List.cons_append, parse, if_neg h]; exact h3 t⟩

/-! ## Straight line code -/

theorem fetch_add (c : IMem) : ∀ (n k : Nat) (a : BitVec 64), fetch c a (n + k) = fetch c a n ++ fetch c (a + BitVec.ofNat 64 n) k
  | 0, k, a => by simp [fetch]
  | n + 1, k, a => by
    rw [show n + 1 + k = n + k + 1 by omega, fetch, fetch_add c n k, fetch, List.cons_append]
    congr 3
    rw [BitVec.add_assoc, Nat.add_comm n 1, BitVec.ofNat_add]

theorem fetch_bytes {c : IMem} : ∀ {bs : List Byte} {a : BitVec 64}, BytesAt c a bs → fetch c a bs.length = bs
  | [], _, _ => rfl
  | b :: bs, a, ⟨h1, h2⟩ => by rw [List.length_cons, fetch, h1, fetch_bytes h2]

/-- One instruction. -/
theorem step_local {c : IMem} {s s' : St} {a : BitVec 64} {n : Nat} {i : Inst} {r : List Byte} (hp : parse (fetch c a n) = some (i, r)) (he : exec i s = some s') :
    ∃ k, k ≤ n ∧ r = fetch c (a + BitVec.ofNat 64 k) (n - k) ∧ step c ⟨s, a⟩ = some ⟨s', a + BitVec.ofNat 64 k⟩ := by
  obtain ⟨p, h1, h2, h3⟩ := parse_local _ _ _ hp
  have hl := congrArg List.length h1
  rw [fetch_length, List.length_append] at hl
  have e := fetch_add c p.length (n - p.length) a
  rw [show p.length + (n - p.length) = n by omega, h1] at e
  obtain ⟨e1, e2⟩ := List.append_inj e (by rw [fetch_length])
  refine ⟨p.length, by omega, e2, ?_⟩
  have e15 := fetch_add c p.length (15 - p.length) a
  rw [show p.length + (15 - p.length) = 15 by omega, ← e1] at e15
  simp only [step, e15, h3, Option.bind_some, he, Option.map_some, fetch_length]
  rw [show 15 - (15 - p.length) = p.length by omega]

theorem run_psteps {c : IMem} : ∀ {n : Nat} {k : Nat} {a : BitVec 64} {s s' : St} {rest : List Byte}, run n (fetch c a k) s = some (rest, s') → 15 ≤ rest.length →
    PSteps c ⟨s, a⟩ ⟨s', a + BitVec.ofNat 64 (k - rest.length)⟩ ∧ rest.length ≤ k
  | 0, k, a, s, s', rest, e, h => by
    cases e
    rw [fetch_length, Nat.sub_self]
    exact ⟨by simpa using PSteps.refl _, Nat.le_refl _⟩
  | n + 1, k, a, s, s', rest, e, h => by
    obtain ⟨⟨i, r⟩, e1, e2⟩ := Option.bind_eq_some_iff.mp e
    obtain ⟨s1, e3, e4⟩ := Option.bind_eq_some_iff.mp e2
    have hr : rest.length ≤ r.length := run_length e4
    have hk : r.length ≤ k := by
      obtain ⟨p, h1, -, -⟩ := parse_local _ _ _ e1
      have := congrArg List.length h1
      rw [fetch_length, List.length_append] at this; omega
    obtain ⟨j, j1, j2, j3⟩ := step_local e1 e3
    rw [j2] at e4
    obtain ⟨g1, g2⟩ := run_psteps e4 h
    refine ⟨.step j3 ?_, by omega⟩
    rw [BitVec.add_assoc, ← BitVec.ofNat_add, show j + (k - j - rest.length) = k - rest.length by omega] at g1
    exact g1
where
  run_length : ∀ {n : Nat} {bs rest : List Byte} {s s' : St}, run n bs s = some (rest, s') → rest.length ≤ bs.length
    | 0, bs, rest, s, s', e => by cases e; exact Nat.le_refl _
    | n + 1, bs, rest, s, s', e => by
      obtain ⟨⟨i, r⟩, e1, e2⟩ := Option.bind_eq_some_iff.mp e
      obtain ⟨s1, e3, e4⟩ := Option.bind_eq_some_iff.mp e2
      obtain ⟨p, h1, -, -⟩ := parse_local _ _ _ e1
      have := run_length e4
      rw [h1, List.length_append]; omega

/-- Straight line code which is in the instruction memory is executed. -/
theorem Steps.psteps {c : IMem} {bs : List Byte} {s s' : St} (h : Steps bs s s') {a : BitVec 64} (hb : BytesAt c a bs) :
    PSteps c ⟨s, a⟩ ⟨s', a + BitVec.ofNat 64 bs.length⟩ := by
  obtain ⟨n, h⟩ := h
  have e := h 0 (fetch c (a + BitVec.ofNat 64 bs.length) 15)
  have e' := fetch_add c bs.length 15 a
  rw [fetch_bytes hb] at e'
  rw [← e'] at e
  have := (run_psteps (n := n + 0) e (by simp [fetch_length])).1
  rwa [fetch_length, show bs.length + 15 - 15 = bs.length by omega] at this

end Verif.X86
