import Verif.Props.C20

/-!
# C22: multi-word addition and subtraction with carry (RV64)
-/

namespace Verif.Props.C22
open Verif.RV Verif.Props.Rv Verif.Props.C20

/-- One word of a multi-word operation. -/
structure Word where
  dst : Opd
  src1 : Opd
  src2 : Opd

/-- The emitted chain: SLJIT_ADD (or SUB) on the first word, SLJIT_ADDC (or SUBC) on the others, all with
SLJIT_SET_CARRY. -/
def rest (cfg : Cfg) (sub : Bool) : List Word → Emit
  | [] => []
  | w :: ws => emitOp2 cfg ⟨if sub then .subc else .addc, false, false, .carry⟩ w.dst w.src1 w.src2 ++ rest cfg sub ws
def chain (cfg : Cfg) (sub : Bool) : List Word → Emit
  | [] => []
  | w :: ws => emitOp2 cfg ⟨if sub then .sub else .add, false, false, .carry⟩ w.dst w.src1 w.src2 ++ rest cfg sub ws

/-- The number represented by a list of words, least significant word first. -/
def num : List (BitVec 64) → Nat
  | [] => 0
  | w :: ws => w.toNat + 2 ^ 64 * num ws

/-- Writing `w.dst` does not change the operand `o` in states satisfying `P`, nor `P` itself. -/
def Indep (P : St → Prop) (d o : Opd) : Prop :=
  ∀ s s' v, P s → Result false d v s s' → value false s' o = value false s o

/-- The words can be processed one after the other: no destination is used by a later word. -/
def Sep (P : St → Prop) : List Word → Prop
  | [] => True
  | w :: ws => (∀ u ∈ ws, Indep P w.dst u.src1 ∧ Indep P w.dst u.src2 ∧ Indep P u.dst w.dst) ∧ Sep P ws

/-- The operands are legal, and the carry of every word is computed (see `C20.CarryDefect`). -/
def Legal (P : St → Prop) (sub : Bool) (ws : List Word) : Prop :=
  ∀ w ∈ ws, Dst w.dst ∧ Src w.src1 ∧ Src w.src2 ∧ (∀ s s' v, P s → Result false w.dst v s s' → P s' ∧ value false s' w.dst = v) ∧
    (sub = false → ¬ CarryDefect ⟨.add, false, false, .carry⟩ w.dst w.src1 w.src2)

theorem num_append_lt (l : List (BitVec 64)) : num l < 2 ^ (64 * l.length) := by
  induction l with
  | nil => simp [num]
  | cons w ws ih =>
    have := w.isLt
    simp only [num, List.length_cons, Nat.mul_add, Nat.pow_add]
    simp only [Nat.mul_one]
    nlinarith

/-- One step of the chain. -/
theorem word_ok {cfg : Cfg} {sub : Bool} {w : Word} {s : St} {cin first : Bool} (hd : Dst w.dst) (h1 : Src w.src1) (h2 : Src w.src2)
    (hc : sub = false → ¬ CarryDefect ⟨.add, false, false, .carry⟩ w.dst w.src1 w.src2)
    (hcin : first = false → carryFlag s cin) (hf : first = true → cin = false) :
    ∃ s' r cout, run (emitOp2 cfg ⟨if sub then (if first then .sub else .subc) else (if first then .add else .addc), false, false, .carry⟩
        w.dst w.src1 w.src2) s = some s' ∧ Result false w.dst r s s' ∧ carryFlag s' cout ∧
      (if sub then r.toNat + (value false s w.src2).toNat + cin.toNat = (value false s w.src1).toNat + 2 ^ 64 * cout.toNat
       else r.toNat + 2 ^ 64 * cout.toNat = (value false s w.src1).toNat + (value false s w.src2).toNat + cin.toNat) := by
  have la := (value false s w.src1).isLt
  have lb := (value false s w.src2).isLt
  have key : ∀ code, code = (if sub then (if first then OpC.sub else .subc) else (if first then OpC.add else .addc)) →
      ∃ s', run (emitOp2 cfg ⟨code, false, false, .carry⟩ w.dst w.src1 w.src2) s = some s' ∧
        Result false w.dst (val code (value false s w.src1) (value false s w.src2) cin) s s' ∧
        carryFlag s' (flagVal code .carry (value false s w.src1) (value false s w.src2) cin) := by
    intro code hcode
    obtain ⟨s', a, b, -, -, e⟩ := c21_flags_partial cfg ⟨code, false, false, .carry⟩ w.dst w.src1 w.src2 s cin
      (Or.inl (by rw [hcode]; cases sub <;> cases first <;> simp [Arith]))
      (by rw [hcode]; cases sub <;> cases first <;> simp [Op.flagOk]) (Or.inl hd) h1 h2
      (by
        intro h; apply hcin
        rw [hcode] at h
        cases first
        · rfl
        · cases sub <;> simp at h)
      (fun h => by cases h) (by rintro ⟨h, -⟩; cases h)
      (by
        cases sub
        · rintro ⟨h, h', h''⟩
          exact hc rfl ⟨rfl, Or.inl rfl, h''⟩
        · rintro ⟨h, h', h''⟩
          rw [hcode] at h'
          cases first <;> simp at h')
    exact ⟨s', a, b, e rfl⟩
  obtain ⟨s', a, b, e⟩ := key _ rfl
  refine ⟨s', _, _, a, b, e, ?_⟩
  generalize value false s w.src1 = A at *
  generalize value false s w.src2 = B at *
  cases sub <;> cases first <;> simp only [Bool.false_eq_true, if_false, if_true]
  · simp only [val, flagVal, BitVec.toNat_ofNat]
    have : cin.toNat ≤ 1 := by cases cin <;> decide
    by_cases h : 2 ^ 64 ≤ A.toNat + B.toNat + cin.toNat <;> simp only [h, decide_true, decide_false, Bool.toNat_true, Bool.toNat_false] <;> omega
  · have hz : cin = false := hf rfl
    simp only [val, flagVal, BitVec.toNat_ofNat, hz, Bool.toNat_false]
    by_cases h : 2 ^ 64 ≤ A.toNat + B.toNat <;> simp only [h, decide_true, decide_false, Bool.toNat_true, Bool.toNat_false] <;> omega
  · simp only [val, flagVal, BitVec.toNat_ofInt]
    have : cin.toNat ≤ 1 := by cases cin <;> decide
    by_cases h : A.toNat < B.toNat + cin.toNat <;> simp only [h, decide_true, decide_false, Bool.toNat_true, Bool.toNat_false] <;> omega
  · have hz : cin = false := hf rfl
    simp only [val, flagVal, BitVec.toNat_ofInt, hz, Bool.toNat_false]
    by_cases h : A.toNat < B.toNat <;> simp only [h, decide_true, decide_false, Bool.toNat_true, Bool.toNat_false] <;> omega

/-- The values of a list of operands. -/
def vals (s : St) (l : List Opd) : List (BitVec 64) := l.map (value false s)

theorem vals_eq {s s' : St} {l : List Opd} (h : ∀ o ∈ l, value false s' o = value false s o) : vals s' l = vals s l :=
  List.map_congr_left h

theorem step_num {sub : Bool} {x y : Nat} {A B R : List (BitVec 64)} {a b r : BitVec 64} {n cin c1 cout : Nat} (hn : y = 2 ^ 64 * x)
    (hw : if sub then r.toNat + b.toNat + cin = a.toNat + 2 ^ 64 * c1 else r.toNat + 2 ^ 64 * c1 = a.toNat + b.toNat + cin)
    (hr : if sub then num R + num B + c1 = num A + x * cout else num R + x * cout = num A + num B + c1) :
    if sub then num (r :: R) + num (b :: B) + cin = num (a :: A) + y * cout
    else num (r :: R) + y * cout = num (a :: A) + num (b :: B) + cin := by
  subst hn
  have e : 2 ^ 64 * x * cout = 2 ^ 64 * (x * cout) := by rw [Nat.mul_assoc]
  rw [e]
  generalize x * cout = z at *
  cases sub
  · simp only [num, Bool.false_eq_true, if_false] at *; omega
  · simp only [num, if_true] at *; omega

/-- The equation between the numbers: exact sum, or exact difference. -/
def Exact (sub : Bool) (n : Nat) (A B R : Nat) (cin cout : Bool) : Prop :=
  if sub then R + B + cin.toNat = A + 2 ^ (64 * n) * cout.toNat else R + 2 ^ (64 * n) * cout.toNat = A + B + cin.toNat

theorem rest_ok {P : St → Prop} {cfg : Cfg} {sub : Bool} : ∀ (ws : List Word) (s : St) (cin : Bool), P s → Legal P sub ws → Sep P ws →
    carryFlag s cin → ∃ s' cout, run (rest cfg sub ws) s = some s' ∧ carryFlag s' cout ∧ P s' ∧
      (∀ o, (∀ w ∈ ws, Indep P w.dst o) → value false s' o = value false s o) ∧
      Exact sub ws.length (num (vals s (ws.map Word.src1))) (num (vals s (ws.map Word.src2))) (num (vals s' (ws.map Word.dst))) cin cout := by
  intro ws
  induction ws with
  | nil =>
    intro s cin hP _ _ hc
    refine ⟨s, cin, rfl, hc, hP, fun _ _ => rfl, ?_⟩
    cases sub <;> simp [Exact, vals, num]
  | cons w ws ih =>
    intro s cin hP hL hS hc
    obtain ⟨hd, h1, h2, hp, hcy⟩ := hL w (by simp)
    obtain ⟨s1, r, c1, e1, e2, e3, e4⟩ := word_ok (cfg := cfg) (first := false) hd h1 h2 hcy (fun _ => hc) (fun h => by cases h)
    obtain ⟨hP1, hv1⟩ := hp _ _ _ hP e2
    obtain ⟨s', cout, f1, f2, f3, f4, f5⟩ := ih s1 c1 hP1 (fun u hu => hL u (by simp [hu])) hS.2 e3
    refine ⟨s', cout, ?_, f2, f3, ?_, ?_⟩
    · simp only [rest]
      simp only [Bool.false_eq_true, if_false] at e1
      rw [run_append e1]
      exact f1
    · intro o ho
      rw [f4 o fun u hu => ho u (by simp [hu])]
      exact ho w (by simp) _ _ _ hP e2
    · have a1 : vals s1 (ws.map Word.src1) = vals s (ws.map Word.src1) := by
        apply vals_eq; intro o ho
        obtain ⟨u, hu, rfl⟩ := List.mem_map.mp ho
        exact (hS.1 u hu).1 _ _ _ hP e2
      have a2 : vals s1 (ws.map Word.src2) = vals s (ws.map Word.src2) := by
        apply vals_eq; intro o ho
        obtain ⟨u, hu, rfl⟩ := List.mem_map.mp ho
        exact (hS.1 u hu).2.1 _ _ _ hP e2
      have a3 : value false s' w.dst = r := by
        rw [f4 w.dst fun u hu => (hS.1 u hu).2.2]; exact hv1
      rw [a1, a2] at f5
      unfold Exact at f5 ⊢
      simp only [List.map_cons, vals, List.length_cons, a3] at f5 ⊢
      exact step_num (n := 0) (by rw [Nat.mul_add, Nat.pow_add]; simp only [Nat.mul_one]; rw [Nat.mul_comm]) e4 f5

/-- **C22, general form.**  For every number of words and all operands of the forms `Legal` and `Sep`: the chain runs to its
end, and the number left in the destinations and the final carry are exactly the sum (or difference) of the two source
numbers as they were before the chain.  `P` is an invariant that the operands may rely on (for example the values of base
registers). -/
theorem c22_chain_partial (P : St → Prop) (cfg : Cfg) (sub : Bool) (ws : List Word) (s : St) (hne : ws ≠ []) (hP : P s)
    (hL : Legal P sub ws) (hS : Sep P ws) :
    ∃ s' cout, run (chain cfg sub ws) s = some s' ∧ carryFlag s' cout ∧ P s' ∧
      Exact sub ws.length (num (vals s (ws.map Word.src1))) (num (vals s (ws.map Word.src2))) (num (vals s' (ws.map Word.dst))) false cout := by
  cases ws with
  | nil => exact absurd rfl hne
  | cons w ws =>
    obtain ⟨hd, h1, h2, hp, hcy⟩ := hL w (by simp)
    obtain ⟨s1, r, c1, e1, e2, e3, e4⟩ := word_ok (cfg := cfg) (s := s) (cin := false) (first := true) hd h1 h2 hcy
      (fun h => by cases h) (fun _ => rfl)
    obtain ⟨hP1, hv1⟩ := hp _ _ _ hP e2
    obtain ⟨s', cout, f1, f2, f3, f4, f5⟩ := rest_ok (cfg := cfg) ws s1 c1 hP1 (fun u hu => hL u (by simp [hu])) hS.2 e3
    refine ⟨s', cout, ?_, f2, f3, ?_⟩
    · simp only [chain]
      simp only [if_true] at e1
      rw [run_append e1]
      exact f1
    · have a1 : vals s1 (ws.map Word.src1) = vals s (ws.map Word.src1) := by
        apply vals_eq; intro o ho
        obtain ⟨u, hu, rfl⟩ := List.mem_map.mp ho
        exact (hS.1 u hu).1 _ _ _ hP e2
      have a2 : vals s1 (ws.map Word.src2) = vals s (ws.map Word.src2) := by
        apply vals_eq; intro o ho
        obtain ⟨u, hu, rfl⟩ := List.mem_map.mp ho
        exact (hS.1 u hu).2.1 _ _ _ hP e2
      have a3 : value false s' w.dst = r := by
        rw [f4 w.dst fun u hu => (hS.1 u hu).2.2]; exact hv1
      rw [a1, a2] at f5
      unfold Exact at f5 ⊢
      simp only [List.map_cons, vals, List.length_cons, a3] at f5 ⊢
      exact step_num (n := 0) (by rw [Nat.mul_add, Nat.pow_add]; simp only [Nat.mul_one]; rw [Nat.mul_comm]) e4 f5

/-! ## Registers -/

/-- **C22 for registers.**  Destinations and sources in registers: no destination is a source or destination of a later
word; a word may be computed in place, and the two sources may be the same register. -/
theorem c22_registers (cfg : Cfg) (sub : Bool) (ws : List (Nat × Nat × Nat)) (s : St) (hne : ws ≠ [])
    (hreg : ∀ w ∈ ws, UserReg w.1 ∧ UserReg w.2.1 ∧ UserReg w.2.2)
    (hsep : ws.Pairwise fun w u => w.1 ≠ u.1 ∧ w.1 ≠ u.2.1 ∧ w.1 ≠ u.2.2) :
    ∃ s' cout, run (chain cfg sub (ws.map fun w => ⟨.reg w.1, .reg w.2.1, .reg w.2.2⟩)) s = some s' ∧ carryFlag s' cout ∧
      Exact sub ws.length (num (ws.map fun w => s.rd (regMap w.2.1))) (num (ws.map fun w => s.rd (regMap w.2.2)))
        (num (ws.map fun w => s'.rd (regMap w.1))) false cout := by
  have ind : ∀ d o, UserReg o → d ≠ o → Indep (fun _ => True) (.reg d) (.reg o) := by
    intro d o ho hne s s' v _ h
    exact h.user o ho (by simpa using hne)
  obtain ⟨s', cout, h1, h2, -, h3⟩ := c22_chain_partial (fun _ => True) cfg sub (ws.map fun w => ⟨.reg w.1, .reg w.2.1, .reg w.2.2⟩) s
    (by simpa using hne) trivial
    (by
      intro w hw
      obtain ⟨u, hu, rfl⟩ := List.mem_map.mp hw
      obtain ⟨r1, r2, r3⟩ := hreg u hu
      refine ⟨r1, r2, r3, fun s s' v _ h => ⟨trivial, h.reg u.1 rfl r1⟩, ?_⟩
      rintro - ⟨-, -, ⟨⟨v, h, -⟩, -⟩ | ⟨⟨v, h, -⟩, -⟩⟩ <;> cases h)
    (by
      clear hne
      induction ws with
      | nil => trivial
      | cons w ws ih =>
        rw [List.pairwise_cons] at hsep
        refine ⟨?_, ih (fun u hu => hreg u (by simp [hu])) hsep.2⟩
        intro u hu
        obtain ⟨q, hq, rfl⟩ := List.mem_map.mp hu
        obtain ⟨r1, r2, r3⟩ := hreg q (by simp [hq])
        obtain ⟨n1, n2, n3⟩ := hsep.1 q hq
        exact ⟨ind _ _ r2 n2, ind _ _ r3 n3, ind _ _ (hreg w (by simp)).1 n1.symm⟩)
  refine ⟨s', cout, h1, h2, ?_⟩
  simpa only [vals, List.map_map, List.length_map, Function.comp_def, value] using h3

/-! ## Memory -/

/-- Two 8 byte cells that do not overlap. -/
def Disj8 (a b : BitVec 64) : Prop := 8 ≤ (b - a).toNat ∧ 8 ≤ (a - b).toNat

theorem st64_byte (m : BitVec 64 → BitVec 8) (a v q : BitVec 64) (h : 8 ≤ (q - a).toNat) : st64 m a v q = m q := by
  have n : ∀ k : BitVec 64, k.toNat < 8 → q ≠ a + k := by
    rintro k hk rfl
    have e : a + k - a = k := by rw [BitVec.add_comm, BitVec.add_sub_cancel]
    rw [e] at h
    omega
  have n0 : q ≠ a := by have := n 0#64 (by decide); simpa using this
  simp only [st64, st32, st16, st8, BitVec.add_assoc]
  simp only [BitVec.reduceAdd]
  simp only [if_neg n0, if_neg (n 1#64 (by decide)), if_neg (n 2#64 (by decide)), if_neg (n 3#64 (by decide)), if_neg (n 4#64 (by decide)),
    if_neg (n 5#64 (by decide)), if_neg (n 6#64 (by decide)), if_neg (n 7#64 (by decide))]

theorem ld64_st64_ne {m : BitVec 64 → BitVec 8} {a b v : BitVec 64} (h : Disj8 a b) : ld64 (st64 m a v) b = ld64 m b := by
  obtain ⟨h1, h2⟩ := h
  have n : ∀ k : BitVec 64, k.toNat < 8 → st64 m a v (b + k) = m (b + k) := by
    intro k hk
    apply st64_byte
    bv_omega
  have n0 : st64 m a v b = m b := by have := n 0#64 (by decide); simpa using this
  simp only [ld64, ld32, ld16, ld8, BitVec.add_assoc]
  simp only [BitVec.reduceAdd]
  rw [n0, n 1#64 (by decide), n 2#64 (by decide), n 3#64 (by decide), n 4#64 (by decide), n 5#64 (by decide), n 6#64 (by decide), n 7#64 (by decide)]

theorem ld64_st64 (m : BitVec 64 → BitVec 8) (a v : BitVec 64) : ld64 (st64 m a v) a = v := by
  have ne : ∀ k l : BitVec 64, k ≠ l → a + k ≠ a + l := by
    intro k l h e; exact h (by simpa using e)
  have ne0 : ∀ k : BitVec 64, k ≠ 0#64 → a ≠ a + k := by
    intro k h e; exact h (by simpa using e.symm)
  simp only [ld64, ld32, ld16, ld8, st64, st32, st16, st8, BitVec.add_assoc]
  simp only [BitVec.reduceAdd]
  simp [ne, ne0]
  bits []

/-- Word `i` of an array at offset `o` from base register `b`. -/
def cell (b : Nat) (o : BitVec 64) (i : Nat) : Opd := .mem b 0 (o + BitVec.ofNat 64 (8 * i))

/-- The number stored in `n` consecutive words from address `a`. -/
def numAt (s : St) (a : BitVec 64) (n : Nat) : Nat :=
  num ((List.range n).map fun i => ld64 s.mem (a + BitVec.ofNat 64 (8 * i)))

theorem value_cell {s : St} {b : Nat} (hb : UserReg b) (o : BitVec 64) (i : Nat) :
    value false s (cell b o i) = ld64 s.mem (s.rd (regMap b) + o + BitVec.ofNat 64 (8 * i)) := by
  have : b ≠ 0 := by have := hb.1; omega
  simp only [cell, value, addr, if_neg this, Bool.false_eq_true, if_false, if_true, BitVec.add_assoc]

/-- **C22 for numbers in memory, of any length.**  `D`, `A`, `B` are base registers.  No word of the destination overlaps a
later word of a source (the destination may coincide with a source) or another word of the destination. -/
theorem c22_memory (cfg : Cfg) (sub : Bool) (n : Nat) (D A B : Nat) (od oa ob : BitVec 64) (s : St) (hn : 0 < n)
    (hD : UserReg D) (hA : UserReg A) (hB : UserReg B)
    (hsep : ∀ i j, i < j → j < n →
      Disj8 (s.rd (regMap D) + od + BitVec.ofNat 64 (8 * i)) (s.rd (regMap A) + oa + BitVec.ofNat 64 (8 * j)) ∧
      Disj8 (s.rd (regMap D) + od + BitVec.ofNat 64 (8 * i)) (s.rd (regMap B) + ob + BitVec.ofNat 64 (8 * j)) ∧
      Disj8 (s.rd (regMap D) + od + BitVec.ofNat 64 (8 * j)) (s.rd (regMap D) + od + BitVec.ofNat 64 (8 * i))) :
    ∃ s' cout, run (chain cfg sub ((List.range n).map fun i => ⟨cell D od i, cell A oa i, cell B ob i⟩)) s = some s' ∧
      carryFlag s' cout ∧
      Exact sub n (numAt s (s.rd (regMap A) + oa) n) (numAt s (s.rd (regMap B) + ob) n) (numAt s' (s.rd (regMap D) + od) n) false cout := by
  let P : St → Prop := fun q => q.rd (regMap D) = s.rd (regMap D) ∧ q.rd (regMap A) = s.rd (regMap A) ∧ q.rd (regMap B) = s.rd (regMap B)
  have hPs : ∀ q q' v i, P q → Result false (cell D od i) v q q' → P q' := by
    intro q q' v i hq h
    refine ⟨(h.user D hD (by simp [cell])).trans hq.1, (h.user A hA (by simp [cell])).trans hq.2.1, (h.user B hB (by simp [cell])).trans hq.2.2⟩
  have hmem : ∀ q q' v i, P q → Result false (cell D od i) v q q' →
      q'.mem = st64 q.mem (s.rd (regMap D) + od + BitVec.ofNat 64 (8 * i)) v := by
    intro q q' v i hq h
    have := h.mem
    have hD0 : D ≠ 0 := by have := hD.1; omega
    simp only [cell, addr, Bool.false_eq_true, if_false, if_true, if_neg hD0, hq.1] at this
    rw [this, BitVec.add_assoc]
  have ind : ∀ (X : Nat) (ox : BitVec 64) (i j : Nat), UserReg X → (∀ q, P q → q.rd (regMap X) = s.rd (regMap X)) →
      Disj8 (s.rd (regMap D) + od + BitVec.ofNat 64 (8 * i)) (s.rd (regMap X) + ox + BitVec.ofNat 64 (8 * j)) →
      Indep P (cell D od i) (cell X ox j) := by
    intro X ox i j hX hPX hdis q q' v hq h
    rw [value_cell hX, value_cell hX, hmem q q' v i hq h, hPX q hq, hPX q' (hPs q q' v i hq h)]
    exact ld64_st64_ne hdis
  have sep : ∀ l : List Nat, l.Pairwise (· < ·) → (∀ i ∈ l, i < n) → Sep P (l.map fun i => ⟨cell D od i, cell A oa i, cell B ob i⟩) := by
    intro l
    induction l with
    | nil => intros; trivial
    | cons i l ih =>
      intro hp hl
      rw [List.pairwise_cons] at hp
      refine ⟨?_, ih hp.2 fun j hj => hl j (by simp [hj])⟩
      intro u hu
      obtain ⟨j, hj, rfl⟩ := List.mem_map.mp hu
      obtain ⟨d1, d2, d3⟩ := hsep i j (hp.1 j hj) (hl j (by simp [hj]))
      exact ⟨ind A oa i j hA (fun q hq => hq.2.1) d1, ind B ob i j hB (fun q hq => hq.2.2) d2, ind D od j i hD (fun q hq => hq.1) d3⟩
  obtain ⟨s', cout, h1, h2, hP', h3⟩ := c22_chain_partial P cfg sub ((List.range n).map fun i => ⟨cell D od i, cell A oa i, cell B ob i⟩) s
    (by simp; omega) ⟨rfl, rfl, rfl⟩
    (by
      intro w hw
      obtain ⟨i, hi, rfl⟩ := List.mem_map.mp hw
      refine ⟨⟨hD.2, by decide⟩, ⟨hA.2, by decide⟩, ⟨hB.2, by decide⟩, ?_, ?_⟩
      · intro q q' v hq h
        refine ⟨hPs q q' v i hq h, ?_⟩
        rw [value_cell hD, (hPs q q' v i hq h).1, hmem q q' v i hq h, ld64_st64]
      · rintro - ⟨-, -, ⟨⟨v, h, -⟩, -⟩ | ⟨⟨v, h, -⟩, -⟩⟩ <;> cases h)
    (sep _ List.pairwise_lt_range (fun i hi => List.mem_range.mp hi))
  refine ⟨s', cout, h1, h2, ?_⟩
  simp only [vals, List.map_map, List.length_map, List.length_range, Function.comp_def, value_cell hA, value_cell hB, value_cell hD] at h3
  rw [hP'.1] at h3
  exact h3

/-! ## Where the claim fails -/

/-- Three words in R0, R1, R2 = 2^64 - 1, 5, 7 incremented in place by 1: the exact sum is 0, 6, 7, but the words left are
0, 6, 8 because the second SLJIT_ADDC does not compute its carry (`C20.c21_carry_false`). -/
theorem c22_false : ∃ (cfg : Cfg) (s : St),
    (run (chain cfg false [⟨.reg 1, .reg 1, .imm 1#64⟩, ⟨.reg 2, .reg 2, .imm 0#64⟩, ⟨.reg 3, .reg 3, .imm 0#64⟩]) s).map
      (fun s' => (s'.rd (regMap 1), s'.rd (regMap 2), s'.rd (regMap 3))) = some (0#64, 6#64, 8#64) ∧
    num [0#64, 6#64, 8#64] ≠ num [s.rd (regMap 1), s.rd (regMap 2), s.rd (regMap 3)] + 1 :=
  ⟨⟨true, false, false⟩, ⟨fun r => if r = 10#5 then 0xffffffffffffffff#64 else if r = 11#5 then 5#64 else 7#64, fun _ => 0#64, fun _ => 0#8, 0#64⟩,
    by decide +kernel, by decide +kernel⟩

/-! ## The hypotheses can be met -/

/-- A sum of two four word numbers in place: `[S0] += [S1]`. -/
example (cfg : Cfg) (f : Reg → BitVec 64) (m : BitVec 64 → BitVec 8) : ∃ s' cout,
    run (chain cfg false ((List.range 4).map fun i => ⟨cell 23 0#64 i, cell 23 0#64 i, cell 22 8#64 i⟩))
      ⟨fun r => if r = 8#5 then 0x10000#64 else 0x20000#64, f, m, 0#64⟩ = some s' ∧ carryFlag s' cout ∧
    numAt s' 0x10000#64 4 + 2 ^ 256 * cout.toNat =
      numAt ⟨fun r => if r = 8#5 then 0x10000#64 else 0x20000#64, f, m, 0#64⟩ 0x10000#64 4 +
      numAt ⟨fun r => if r = 8#5 then 0x10000#64 else 0x20000#64, f, m, 0#64⟩ 0x20008#64 4 := by
  obtain ⟨s', cout, h1, h2, h3⟩ := c22_memory cfg false 4 23 23 22 0#64 0#64 8#64
    ⟨fun r => if r = 8#5 then 0x10000#64 else 0x20000#64, f, m, 0#64⟩ (by decide) ⟨by decide, by decide⟩ ⟨by decide, by decide⟩ ⟨by decide, by decide⟩
    (by
      intro i j hij hj
      have : j < 4 := hj
      have : i < 4 := by omega
      simp only [St.rd, show regMap 23 = 8#5 from rfl, show regMap 22 = 9#5 from rfl, Disj8]
      interval_cases i <;> interval_cases j <;> first | omega | decide)
  exact ⟨s', cout, h1, h2, h3⟩

end Verif.Props.C22
