import Verif.Generic.Flags
import Mathlib.Tactic.IntervalCases

/-!
# Lemmas about the flag checker
-/

namespace Verif.Generic.Flags

/-- The condition `c` is usable in a state. -/
def usable (lf c : W) : Prop := if c ≤ 1#32 then lf &&& SET_Z ≠ 0 else c &&& 0xfe#32 = lf &&& 0xff#32

theorem unordered_dead (arm : Bool) (type lf : W) : checkUnordered arm type lf = false := by
  have : (type &&& 0xfe#32 == 23#32) = false := by
    rw [beq_eq_false_iff_ne]
    intro h
    have := congrArg (BitVec.getLsbD · 0) h
    simp at this
  simp [checkUnordered, this]

theorem bits32 {x y : W} (h : ∀ i < 32, x.getLsbD i = y.getLsbD i) : x = y := BitVec.eq_of_getLsbD_eq h

/-- No bits other than the opcode, SLJIT_32 and flags. -/
def Small (op : W) : Prop := ∀ i, i = 10 ∨ 16 ≤ i → op.getLsbD i = false

theorem small_set {op : W} (h : Small op) (m : W) (hm : m = OP_32 ∨ m = OP_32 ||| SET_Z) :
    (flagType op ||| (op &&& m)) &&& 0xff#32 = flagTypeMask op ∧ (flagType op ||| (op &&& m)) &&& SET_Z = op &&& m &&& SET_Z := by
  have g (i : Nat) (hi : i < 32) (hh : i = 10 ∨ 16 ≤ i) : op[i] = false := by rw [← BitVec.getLsbD_eq_getElem]; exact h i hh
  refine ⟨bits32 fun i hi => ?_, bits32 fun i hi => ?_⟩
  · rcases hm with rfl | rfl <;> interval_cases i <;> simp [flagType, flagTypeMask, g]
  · rcases hm with rfl | rfl <;> interval_cases i <;> simp [flagType, g]

theorem bit_of_lt {x : W} {i : Nat} (h : x.toNat < 2 ^ i) : x.getLsbD i = false := by
  rw [BitVec.getLsbD]; exact Nat.testBit_lt_two_pow h

theorem small_of_lt {op f : W} (h : checkOpcode op f < 256#32) (hf : ∀ i, i = 10 ∨ 16 ≤ i → f.getLsbD i = false) : Small op := by
  intro i hi
  by_cases hi32 : i < 32
  · have h1 : (checkOpcode op f).getLsbD i = false := by
      rw [BitVec.lt_def] at h
      apply bit_of_lt
      have : (2 : Nat) ^ 8 ≤ 2 ^ i := Nat.pow_le_pow_right (by omega) (by omega)
      exact Nat.lt_of_lt_of_le h this
    have h2 := hf i hi
    have h3 : (OP_32 ||| ALL_STATUS_FLAGS_MASK : W).getLsbD i = false := by
      rcases hi with rfl | hi
      · decide
      · interval_cases i <;> decide
    rw [checkOpcode, BitVec.getLsbD_and, BitVec.getLsbD_not, BitVec.getLsbD_or, h2, h3] at h1
    simpa [hi32] using h1
  · exact BitVec.getLsbD_of_ge _ _ (by omega)

end Verif.Generic.Flags
