import Verif.Generic.FlagsProof

/-!
# C14: status flag discipline

Specification from the comments in sljitLir.h: which calls define a condition, which calls leave the flags alone.
-/

namespace Verif.Props.C14
open Verif.Generic.Flags

/-- The variable flag an operation is asked to set: `SLJIT_SET(c)` and `SLJIT_SET(c ^ 1)` are the same flag. -/
def VarFlag (op c : W) : Prop := 2#32 ≤ c ∧ (op >>> 10) &&& 0x3e#32 = c &&& 0xfe#32

/-- The call defines condition `c` (sljitLir.h: the "Flags:" comments). -/
def Sets : Call → W → Prop
  | .op2 op _, c => (c ≤ 1#32 ∧ op &&& SET_Z ≠ 0) ∨ VarFlag op c
  | .cmpF op, c => 16#32 ≤ c ∧ VarFlag op c
  | .op2cmpz op, c => VarFlag op c
  | .opFlags op _, c => OP_ADD ≤ op &&& 0xff#32 ∧ c ≤ 1#32 ∧ op &&& SET_Z ≠ 0
  | .atomicStore op, c => VarFlag op c
  | .setCurrent f, c => f &&& ~~~(ALL_STATUS_FLAGS_MASK ||| 0x10f#32) = 0 ∧ ((c ≤ 1#32 ∧ f &&& SET_Z ≠ 0) ∨ VarFlag f c)
  | _, _ => False

/-- The flags are the same after the call.  Jumps and selects on carry may destroy it (sljitLir.h:1746). SLJIT_FAST_ENTER
is an entry point, and control does not continue after SLJIT_FAST_RETURN. -/
def Preserves : Call → Prop
  | .op0 op => op < 2#32 ∨ op = 8#32 ∨ op = 9#32
  | .op1 op => op &&& 0xff#32 < OP_CLZ
  | .opSrc op => 114#32 ≤ op
  | .opDst op => op = 119#32
  | .jump type => type &&& 0xfe#32 ≠ COND_CARRY
  | .select type => type &&& 0xfe#32 ≠ COND_CARRY
  | .ijump => True
  | .opFlags op _ => op &&& 0xff#32 < OP_ADD
  | .quiet => True
  | _ => False

/-- The most recent call which defines or destroys flags defined `c` (calls: newest first). -/
def Defined (hist : List Call) (c : W) : Prop :=
  ∃ post x pre, hist = post ++ x :: pre ∧ Sets x c ∧ ∀ y ∈ post, Preserves y

/-- Calls for which the checker follows the specification; see the counterexamples below for the others. -/
def Tracked : Call → Prop
  | .op1 op => op &&& 0xff#32 < OP_CLZ
  | .cmpF op => 16#32 ≤ (op >>> 10) &&& 0x3e#32
  | .op2cmpz op => op &&& REWRITABLE_JUMP = 0
  | .shiftInto | .fop | .call | .fcmp _ => False
  | _ => True

theorem defined_nil (c : W) : ¬ Defined [] c := by
  rintro ⟨post, x, pre, h, -⟩
  simp at h

theorem defined_cons (x : Call) (hist : List Call) (c : W) : Defined (x :: hist) c ↔ Sets x c ∨ (Preserves x ∧ Defined hist c) := by
  constructor
  · rintro ⟨post, y, pre, h, hs, hp⟩
    cases post with
    | nil =>
      simp only [List.nil_append, List.cons.injEq] at h
      exact .inl (h.1 ▸ hs)
    | cons z post =>
      simp only [List.cons_append, List.cons.injEq] at h
      exact .inr ⟨h.1 ▸ hp z (by simp), post, y, pre, h.2, hs, fun w hw => hp w (by simp [hw])⟩
  · rintro (h | ⟨h, post, y, pre, e, hs, hp⟩)
    · exact ⟨[], x, hist, rfl, h, by simp⟩
    · refine ⟨x :: post, y, pre, by simp [e], hs, fun w hw => ?_⟩
      rcases List.mem_cons.mp hw with rfl | hw
      · exact h
      · exact hp w hw

theorem le1_or {c : W} : ¬ c ≤ 1#32 ↔ 2#32 ≤ c := by
  simp only [BitVec.le_def, BitVec.toNat_ofNat]; omega

/-- `usable` after flags were set from the bits of an operation. -/
theorem usable_set {op : W} (h : Small op) (m c : W) (hm : m = OP_32 ∨ m = OP_32 ||| SET_Z) :
    usable (flagType op ||| (op &&& m)) c ↔ (c ≤ 1#32 ∧ op &&& m &&& SET_Z ≠ 0) ∨ VarFlag op c := by
  obtain ⟨h1, h2⟩ := small_set h m hm
  unfold usable VarFlag
  rw [h1, h2, ← le1_or]
  by_cases hc : c ≤ 1#32
  · simp [hc]
  · simp only [if_neg hc, hc, false_and, false_or, not_false_eq_true, true_and]
    exact eq_comm

theorem lt36 {P : W → Prop} (c : W) (hc : c < 36#32) (h : ∀ k : Nat, k < 36 → P (BitVec.ofNat 32 k)) : P c := by
  have := h c.toNat (BitVec.lt_def.mp hc)
  simpa using this

theorem usable_zero (c : W) (hc : c < 36#32) : ¬ usable 0 c := by
  unfold usable
  exact lt36 (P := fun c => ¬ if c ≤ 1#32 then (0 : W) &&& SET_Z ≠ 0 else c &&& 0xfe#32 = 0 &&& 0xff#32) c hc (by decide)

theorem condCheck_some {arm : Bool} {lf c lf' : W} (h : condCheck arm lf c = some lf') :
    usable lf c ∧ lf' = if c &&& 0xfe#32 = COND_CARRY then 0 else lf := by
  have hle : c ≤ 1#32 → c &&& 0xfe#32 ≠ COND_CARRY := by
    intro h1
    have h2 := Nat.and_le_left (n := c.toNat) (m := 254)
    have h1 := BitVec.le_def.mp h1
    intro h3
    have h3 := congrArg BitVec.toNat h3
    simp at h1 h3
    omega
  unfold condCheck at h
  simp only [unordered_dead, Bool.false_eq_true, or_false] at h
  unfold usable
  split at h
  · rename_i hc
    rw [if_pos hc, if_neg (hle hc)]
    split at h
    · rename_i h1; exact ⟨h1, by simpa using h.symm⟩
    · simp at h
  · rename_i hc
    rw [if_neg hc]
    split at h
    · rename_i h1
      split at h
      · rename_i h2; rw [h1, h2]; exact ⟨rfl, by simpa using h.symm⟩
      · simp at h
    · rename_i h1
      split at h
      · rename_i h2; rw [if_neg (by rw [h2]; exact h1)]; exact ⟨h2, by simpa using h.symm⟩
      · simp at h

theorem condCheck_isSome (arm : Bool) (lf c : W) : (condCheck arm lf c).isSome = true ↔ usable lf c := by
  constructor
  · intro h
    obtain ⟨lf', h⟩ := Option.isSome_iff_exists.mp h
    exact (condCheck_some h).1
  · intro h
    unfold condCheck usable at *
    split at h
    · rename_i hc; rw [if_pos hc, if_pos h]; rfl
    · rename_i hc
      simp only [if_neg hc, h]
      split <;> simp

theorem keep_iff {P : Prop} {lf c : W} {S : Prop} (hs : ¬ S) (hp : P) : usable lf c ↔ S ∨ (P ∧ usable lf c) := by
  simp [hs, hp]

theorem lose_iff {P : Prop} {lf c : W} {S : Prop} (hc : c < 36#32) (hs : ¬ S) (hp : ¬ P) : usable 0 c ↔ S ∨ (P ∧ usable lf c) := by
  have := usable_zero c hc
  simp only [hs, hp, this, false_and, or_false]

theorem small_ok {op : W} {a b : W} (h : a ≤ checkOpcode op 0 ∧ checkOpcode op 0 ≤ b) (hb : b < 256#32) : Small op :=
  small_of_lt (f := 0) (by have h := h.2; simp only [BitVec.le_def, BitVec.lt_def] at *; omega) (fun i _ => by simp)

theorem lt_of_bits (x : W) (n : Nat) (h : ∀ i, n ≤ i → x.getLsbD i = false) : x.toNat < 2 ^ n :=
  Nat.lt_pow_two_of_testBit _ fun i hi => h i hi

theorem lt_all {P : W → Prop} (n : Nat) (c : W) (hc : c.toNat < n) (h : ∀ k : Nat, k < n → P (BitVec.ofNat 32 k)) : P c := by
  have := h c.toNat hc
  simpa using this

theorem bit_and_not {x m : W} {i n : Nat} (h : (x &&& ~~~m).toNat < 2 ^ n) (hn : n ≤ i) (hm : m.getLsbD i = false) : x.getLsbD i = false := by
  by_cases hi : i < 32
  · have : (x &&& ~~~m).getLsbD i = false := bit_of_lt (Nat.lt_of_lt_of_le h (Nat.pow_le_pow_right (by omega) hn))
    rw [BitVec.getLsbD_and, BitVec.getLsbD_not, hm] at this
    simpa [hi] using this
  · exact BitVec.getLsbD_of_ge _ _ (by omega)

theorem high_bit {m : W} {n i : Nat} (hm : m.toNat < 2 ^ n) (hi : n ≤ i) : m.getLsbD i = false :=
  bit_of_lt (Nat.lt_of_lt_of_le hm (Nat.pow_le_pow_right (by omega) hi))

/-- All arguments of sljit_emit_op0 which are accepted. -/
theorem op0_all : ∀ k < 512, let op := BitVec.ofNat 32 k
    (op ≤ 3#32 ∨ (4#32 ≤ op &&& ~~~OP_32 ∧ op &&& ~~~OP_32 ≤ 7#32) ∨ (8#32 ≤ op ∧ op ≤ 10#32)) →
    (((2#32 ≤ checkOpcode op 0 ∧ checkOpcode op 0 ≤ 7#32) ∨ op = 10#32) ↔ ¬ (op < 2#32 ∨ op = 8#32 ∨ op = 9#32)) := by decide +kernel

theorem op0_case {op : W} (h : op ≤ 3#32 ∨ (4#32 ≤ op &&& ~~~OP_32 ∧ op &&& ~~~OP_32 ≤ 7#32) ∨ (8#32 ≤ op ∧ op ≤ 10#32)) :
    ((2#32 ≤ checkOpcode op 0 ∧ checkOpcode op 0 ≤ 7#32) ∨ op = 10#32) ↔ ¬ (op < 2#32 ∨ op = 8#32 ∨ op = 9#32) := by
  have hl : op.toNat < 512 := by
    rcases h with h | h | h
    · have := BitVec.le_def.mp h; simp at this; omega
    · have h1 : (op &&& ~~~OP_32).toNat < 2 ^ 9 := by have := BitVec.le_def.mp h.2; simp only [BitVec.toNat_ofNat] at this; omega
      exact lt_of_bits op 9 fun i hi => bit_and_not h1 hi (high_bit (n := 9) (by decide) hi)
    · have := BitVec.le_def.mp h.2; simp at this; omega
  have := op0_all op.toNat hl
  simp only [BitVec.ofNat_toNat, BitVec.setWidth_eq] at this
  exact this h

theorem jump_case {t : W} (h : t &&& 0xfe#32 = COND_CARRY) : t &&& 0xff#32 < 36#32 := by
  have h2 : t &&& 0xff#32 &&& 0xfe#32 = COND_CARRY := by rw [BitVec.and_assoc]; exact h
  have h1 : (t &&& 0xff#32).toNat < 256 := by
    rw [BitVec.toNat_and]; exact Nat.lt_of_le_of_lt Nat.and_le_right (by decide)
  exact lt_all (P := fun x => x &&& 0xfe#32 = COND_CARRY → x < 36#32) 256 _ h1 (by decide +kernel) h2

theorem var_zero {op c : W} (hc : c < 36#32) (h : op &&& VARIABLE_FLAG_MASK = 0) : ¬ VarFlag op c := by
  rintro ⟨h1, h2⟩
  have h3 : (op >>> 10) &&& 0x3e#32 = 0 := by
    have : (op >>> 10) &&& 0x3e#32 = (op &&& VARIABLE_FLAG_MASK) >>> 10 := by
      rw [BitVec.ushiftRight_and_distrib]; rfl
    rw [this, h]; rfl
  rw [h3] at h2
  exact lt36 (P := fun c => 2#32 ≤ c → 0 = c &&& 0xfe#32 → False) c hc (by decide) h1 h2

theorem mask_low {type : W} : type &&& ~~~OP_32 &&& 0xfe#32 = type &&& 0xfe#32 := by rw [BitVec.and_assoc]; rfl

theorem stored_set (op : W) : (flagTypeMask op ||| (op &&& OP_32)) &&& 0xff#32 = flagTypeMask op ∧ (flagTypeMask op ||| (op &&& OP_32)) &&& SET_Z = 0 := by
  refine ⟨bits32 fun i hi => ?_, bits32 fun i hi => ?_⟩
  · interval_cases i <;> simp [flagTypeMask]
  · interval_cases i <;> simp [flagTypeMask]

theorem and_and_Z (op : W) : op &&& (OP_32 ||| SET_Z) &&& SET_Z = op &&& SET_Z ∧ op &&& OP_32 &&& SET_Z = 0 := by
  constructor
  · rw [BitVec.and_assoc]; rfl
  · rw [BitVec.and_assoc]; show op &&& 0#32 = 0; simp

theorem step_usable {arm : Bool} {x : Call} {lf lf' c : W} (ht : Tracked x) (h : check arm lf x = some lf') (hc : c < 36#32) :
    usable lf' c ↔ Sets x c ∨ (Preserves x ∧ usable lf c) := by
  cases x with
  | op0 op =>
    simp only [check] at h
    split at h
    · rename_i h1
      split at h
      · rename_i h2
        cases h
        refine lose_iff hc (by simp [Sets]) ?_
        exact (op0_case h1).mp h2
      · rename_i h2
        cases h
        refine keep_iff (by simp [Sets]) ?_
        exact Classical.not_not.mp fun hh => h2 ((op0_case h1).mpr hh)
    · cases h
  | op1 op =>
    simp only [check] at h
    have : lf' = lf := by
      split at h
      · cases h
      · split at h <;> split at h <;> cases h <;> rfl
    subst this
    exact keep_iff (by simp [Sets]) ht
  | op2 op unset =>
    simp only [check] at h
    split at h; · cases h
    rename_i h1
    split at h; · cases h
    split at h; · cases h
    cases h
    rw [usable_set (small_ok (Decidable.not_not.mp h1) (by decide)) _ _ (.inr rfl), (and_and_Z op).1]
    simp [Sets, Preserves]
  | mulAdd => cases h; exact lose_iff hc (by simp [Sets]) (by simp [Preserves])
  | shiftInto => exact ht.elim
  | opSrc op =>
    simp only [check] at h
    split at h
    · split at h
      · rename_i h2
        cases h
        refine lose_iff hc (by simp [Sets]) ?_
        simp only [Preserves, BitVec.le_def, BitVec.toNat_ofNat] at *
        omega
      · rename_i h2
        cases h
        refine keep_iff (by simp [Sets]) ?_
        simp only [Preserves, BitVec.le_def, BitVec.toNat_ofNat] at *
        omega
    · cases h
  | opDst op =>
    simp only [check] at h
    split at h
    · rename_i h1; cases h; subst h1
      exact lose_iff hc (by simp [Sets]) (by simp [Preserves])
    · split at h
      · rename_i h1; cases h; subst h1
        exact keep_iff (by simp [Sets]) (by simp [Preserves])
      · cases h
  | cmpF op =>
    simp only [check] at h
    split at h
    · rename_i h1
      cases h
      rw [usable_set (small_of_lt (by rw [h1.1]; decide) (by simp)) _ _ (.inl rfl), (and_and_Z op).2]
      simp only [ne_eq, not_true_eq_false, and_false, false_or, Sets, Preserves, false_and, or_false]
      refine ⟨fun hv => ⟨?_, hv⟩, fun hv => hv.2⟩
      have h2 := ht
      simp only [Tracked] at h2
      rw [hv.2] at h2
      refine BitVec.le_trans h2 (BitVec.le_def.mpr ?_)
      rw [BitVec.toNat_and]
      exact Nat.and_le_left
    · cases h
  | fop => exact ht.elim
  | label => cases h; exact lose_iff hc (by simp [Sets]) (by simp [Preserves])
  | jump type =>
    simp only [check] at h
    split at h
    · cases h
    · rename_i h1
      split at h
      · obtain ⟨h2, h3⟩ := condCheck_some h
        have e : type &&& 0xff#32 &&& 0xfe#32 = type &&& 0xfe#32 := by rw [BitVec.and_assoc]; rfl
        rw [e] at h3
        split at h3
        · rename_i h4; subst h3
          exact lose_iff hc (by simp [Sets]) (by simp [Preserves, h4])
        · rename_i h4; subst h3
          exact keep_iff (by simp [Sets]) (by simp [Preserves, h4])
      · rename_i h5
        cases h
        refine keep_iff (by simp [Sets]) ?_
        simp only [Preserves]
        intro h6
        exact h5 (jump_case h6)
  | call => exact ht.elim
  | cmp => cases h; exact lose_iff hc (by simp [Sets]) (by simp [Preserves])
  | fcmp type => exact ht.elim
  | op2cmpz op =>
    simp only [check] at h
    split at h; · cases h
    rename_i h1
    split at h; · cases h
    cases h
    have hs : Small op := by
      have h2 := (Decidable.not_not.mp h1).2
      have h3 : (op &&& ~~~(OP_32 ||| ALL_STATUS_FLAGS_MASK ||| REWRITABLE_JUMP)).toNat < 2 ^ 8 := by
        have := BitVec.le_def.mp h2; simp only [checkOpcode, BitVec.toNat_ofNat] at this; omega
      intro i hi
      by_cases h16 : i = 16
      · subst h16
        have := congrArg (BitVec.getLsbD · 16) ht
        simpa [Tracked] using this
      · refine bit_and_not h3 (by omega) ?_
        by_cases hi32 : i < 32
        · rcases hi with rfl | hi
          · decide
          · interval_cases i <;> first | omega | decide
        · exact BitVec.getLsbD_of_ge _ _ (by omega)
    rw [usable_set hs _ _ (.inl rfl), (and_and_Z op).2]
    simp [Sets, Preserves]
  | ijump => cases h; exact keep_iff (by simp [Sets]) (by simp [Preserves])
  | opFlags op type =>
    simp only [check] at h
    split at h; · cases h
    split at h; · cases h
    rename_i h2
    split at h; · cases h
    rename_i h3
    have hs : Small op := by
      rcases Decidable.not_not.mp h2 with rfl | rfl | h2
      · exact small_of_lt (f := 0) (by decide) (fun i _ => by simp)
      · exact small_of_lt (f := 0) (by decide) (fun i _ => by simp)
      · exact small_ok h2 (by decide)
    have h3 := var_zero hc (Decidable.not_not.mp h3)
    by_cases h4 : if type ≤ 1#32 then lf &&& SET_Z ≠ 0 else type &&& 0xfe#32 = lf &&& 0xff#32 ∨ checkUnordered arm type lf = true
    · rw [if_pos h4] at h
      by_cases h5 : OP_ADD ≤ opcode op
      · rw [if_pos h5] at h
        cases h
        rw [usable_set hs _ _ (.inr rfl), (and_and_Z op).1]
        have h6 : ¬ Preserves (.opFlags op type) := by
          simp only [Preserves]
          simp only [opcode, BitVec.le_def, BitVec.lt_def] at *
          omega
        simp only [h6, h3, false_and, or_false]
        exact ⟨fun h => ⟨h5, h⟩, fun h => h.2⟩
      · rw [if_neg h5] at h
        cases h
        refine keep_iff (fun hh => h5 hh.1) ?_
        simp only [Preserves]
        simp only [opcode, BitVec.le_def, BitVec.lt_def] at *
        omega
    · rw [if_neg h4] at h; cases h
  | select type =>
    simp only [check] at h
    split at h
    · obtain ⟨h2, h3⟩ := condCheck_some h
      rw [mask_low] at h3
      split at h3
      · rename_i h4; subst h3
        exact lose_iff hc (by simp [Sets]) (by simp [Preserves, h4])
      · rename_i h4; subst h3
        exact keep_iff (by simp [Sets]) (by simp [Preserves, h4])
    · cases h
  | atomicStore op =>
    simp only [check] at h
    split at h
    · rename_i h1
      cases h
      obtain ⟨e1, e2⟩ := stored_set op
      unfold usable
      rw [e1, e2]
      simp only [Sets, Preserves, VarFlag, ← le1_or, false_and, or_false]
      by_cases hc1 : c ≤ 1#32
      · simp [hc1]
      · simp only [if_neg hc1, hc1, not_false_eq_true, true_and]; exact eq_comm
    · cases h
  | reset => cases h; exact lose_iff hc (by simp [Sets]) (by simp [Preserves])
  | quiet => cases h; exact keep_iff (by simp [Sets]) (by simp [Preserves])
  | setCurrent f =>
    simp only [check] at h
    split at h
    · rename_i h1
      cases h
      have hs : Small f := by
        have h3 : (f &&& ~~~(ALL_STATUS_FLAGS_MASK ||| 0x10f#32)).toNat < 2 ^ 0 := by rw [h1]; decide
        intro i hi
        refine bit_and_not h3 (by omega) ?_
        by_cases hi32 : i < 32
        · rcases hi with rfl | hi
          · decide
          · interval_cases i <;> decide
        · exact BitVec.getLsbD_of_ge _ _ (by omega)
      rw [usable_set hs _ _ (.inr rfl), (and_and_Z f).1]
      simp only [Sets, Preserves, h1, true_and, false_and, or_false]
    · rename_i h1
      cases h
      exact lose_iff hc (fun hh => h1 hh.1) (by simp [Preserves])

theorem run_usable (arm : Bool) (hist : List Call) (ht : ∀ x ∈ hist, Tracked x) (lf : W) (h : run arm hist = some lf) (c : W) (hc : c < 36#32) :
    usable lf c ↔ Defined hist c := by
  induction hist generalizing lf with
  | nil =>
    cases h
    exact ⟨fun h => (usable_zero c hc h).elim, fun h => (defined_nil c h).elim⟩
  | cons x hist ih =>
    simp only [run, Option.bind_eq_some_iff] at h
    obtain ⟨lf0, h0, h1⟩ := h
    rw [defined_cons, step_usable (ht x (by simp)) h1 hc, ih (fun y hy => ht y (by simp [hy])) lf0 h0]

/-- C14 (partial): after any accepted sequence of tracked calls, a conditional jump, a select and sljit_emit_op_flags on a
condition are accepted if and only if the condition is defined.  Missing: the calls which are not tracked, for which the
claim is false (`c14_*_false`). -/
theorem c14_partial (arm : Bool) (hist : List Call) (ht : ∀ x ∈ hist, Tracked x) (ha : (run arm hist).isSome) (c : W) (hc : c < 36#32) :
    ((run arm (.jump c :: hist)).isSome ↔ Defined hist c) ∧
    ((run arm (.select c :: hist)).isSome ↔ Defined hist c) ∧
    ((run arm (.opFlags OP_MOV c :: hist)).isSome ↔ Defined hist c) := by
  obtain ⟨lf, h⟩ := Option.isSome_iff_exists.mp ha
  have hu := run_usable arm hist ht lf h c hc
  have e1 : c &&& 0xff#32 = c := lt36 (P := fun c => c &&& 0xff#32 = c) c hc (by decide)
  have e2 : c &&& ~~~OP_32 = c := lt36 (P := fun c => c &&& ~~~OP_32 = c) c hc (by decide)
  have e3 : c &&& ~~~(0xff#32 ||| REWRITABLE_JUMP) = 0 := lt36 (P := fun c => c &&& ~~~(0xff#32 ||| REWRITABLE_JUMP) = 0) c hc (by decide)
  have e4 : c ≤ 37#32 := lt36 (P := fun c => c ≤ 37#32) c hc (by decide)
  have e5 : c ≤ 35#32 := lt36 (P := fun c => c ≤ 35#32) c hc (by decide)
  refine ⟨?_, ?_, ?_⟩
  · rw [← hu, ← condCheck_isSome arm]
    simp only [run, h, Option.bind_some, check, e1, e3, e4, hc, if_true, ne_eq, not_true_eq_false, or_self, if_false]
  · rw [← hu, ← condCheck_isSome arm]
    simp only [run, h, Option.bind_some, check, e2, e5, if_true]
  · rw [← hu]
    simp only [run, h, Option.bind_some, check, e5, not_true_eq_false, if_false, true_or, unordered_dead, Bool.false_eq_true, or_false]
    unfold usable
    have e6 : ¬ OP_ADD ≤ opcode OP_MOV := by decide
    have e7 : ¬ ((OP_MOV : W) &&& VARIABLE_FLAG_MASK ≠ 0) := by decide
    rw [if_neg e6, if_neg e7]
    by_cases hh : if c ≤ 1#32 then lf &&& SET_Z ≠ 0 else c &&& 0xfe#32 = lf &&& 0xff#32
    · rw [if_pos hh]; exact ⟨fun _ => hh, fun _ => rfl⟩
    · rw [if_neg hh]; exact ⟨fun h => (by cases h), fun h => (hh h).elim⟩

/-- C14 for SLJIT_ADDC and SLJIT_SUBC without flags: accepted only if the carry is defined. -/
theorem c14_carry (arm : Bool) (hist : List Call) (ht : ∀ x ∈ hist, Tracked x) (op : W) (hop : op = OP_ADDC ∨ op = OP_SUBC)
    (ha : (run arm (.op2 op false :: hist)).isSome) : Defined hist COND_CARRY := by
  obtain ⟨lf', h⟩ := Option.isSome_iff_exists.mp ha
  simp only [run, Option.bind_eq_some_iff] at h
  obtain ⟨lf, h0, h1⟩ := h
  rw [← run_usable arm hist ht lf h0 _ (by decide)]
  simp only [check] at h1
  split at h1; · cases h1
  split at h1; · cases h1
  rename_i h2
  have h2 := Decidable.not_not.mp h2
  have : lf &&& 0xff#32 = COND_CARRY := by
    rcases hop with rfl | rfl <;> simp [op2Operation, opcode] at h2 <;> exact h2.1
  unfold usable
  rw [this, if_neg (by decide)]; rfl

/-- The claim is about something: SUB sets Z and LESS, a move, then two jumps. -/
example : (run false [.jump 1#32, .jump 3#32, .op1 OP_MOV, .op2 (OP_SUB ||| SET_Z ||| (2#32 <<< 10)) true]).isSome = true := by decide
example : (run false [.jump 4#32, .op2 (OP_SUB ||| SET_Z ||| (2#32 <<< 10)) true]).isSome = false := by decide
example : (run false [.jump 0#32, .label, .op2 (OP_SUB ||| SET_Z) true]).isSome = false := by decide

/-- A history without a definition of `c`, if its newest call neither sets nor preserves. -/
theorem not_defined {x : Call} {hist : List Call} {c : W} (h1 : ¬ Sets x c) (h2 : ¬ Preserves x) : ¬ Defined (x :: hist) c := by
  rw [defined_cons]; rintro (h | h)
  · exact h1 h
  · exact h2 h.1

/-- SLJIT_CLZ may destroy flags (sljitLir.h:1274), but the checker accepts a jump after it. -/
theorem c14_clz_false : ∃ hist, (run false (.jump 0#32 :: hist)).isSome ∧ ¬ Defined hist 0#32 :=
  ⟨[.op1 OP_CLZ, .op2 (OP_SUB ||| SET_Z) true], by decide, not_defined (by simp [Sets]) (by simp [Preserves])⟩

/-- Calls destroy all flags (sljitLir.h:1841), but the checker accepts a jump after them. -/
theorem c14_call_false : ∃ hist, (run false (.jump 2#32 :: hist)).isSome ∧ ¬ Defined hist 2#32 :=
  ⟨[.call, .op2 (OP_SUB ||| (2#32 <<< 10)) true], by decide, not_defined (by simp [Sets]) (by simp [Preserves])⟩

/-- sljit_emit_shift_into may destroy flags (sljitLir.h:1456). -/
theorem c14_shift_into_false : ∃ hist, (run false (.jump 0#32 :: hist)).isSome ∧ ¬ Defined hist 0#32 :=
  ⟨[.shiftInto, .op2 (OP_SUB ||| SET_Z) true], by decide, not_defined (by simp [Sets]) (by simp [Preserves])⟩

/-- Float operations may destroy flags (sljitLir.h:1531-1579). -/
theorem c14_fop_false : ∃ hist, (run false (.jump 0#32 :: hist)).isSome ∧ ¬ Defined hist 0#32 :=
  ⟨[.fop, .op2 (OP_SUB ||| SET_Z) true], by decide, not_defined (by simp [Sets]) (by simp [Preserves])⟩

/-- sljit_emit_fcmp destroys flags (sljitLir.h:1865), but a jump on the same condition is accepted after it. -/
theorem c14_fcmp_false : ∃ hist, (run false (.jump 16#32 :: hist)).isSome ∧ ¬ Defined hist 16#32 :=
  ⟨[.fcmp 16#32], by decide, not_defined (by simp [Sets]) (by simp [Preserves])⟩

/-- SLJIT_CMP_F64 can only set float conditions (sljitLir.h:1553), but SLJIT_SET_LESS is accepted. -/
theorem c14_cmpF_false : ∃ hist, (run false (.jump 2#32 :: hist)).isSome ∧ ¬ Defined hist 2#32 :=
  ⟨[.cmpF (OP_CMP_F64 ||| (2#32 <<< 10))], by decide, not_defined (by simp [Sets]) (by simp [Preserves])⟩

/-- sljit_emit_op2cmpz with SLJIT_REWRITABLE_JUMP: the flag it sets cannot be used. -/
theorem c14_op2cmpz_false : ∃ hist, (run false hist).isSome ∧ Defined hist 2#32 ∧ ¬ (run false (.jump 2#32 :: hist)).isSome :=
  ⟨[.op2cmpz (OP_SUB ||| REWRITABLE_JUMP ||| (2#32 <<< 10))], by decide,
    ⟨[], _, [], rfl, by simp [Sets, VarFlag], by simp⟩, by decide⟩

end Verif.Props.C14
