import Verif.Generic.Operands
import Mathlib.Tactic.IntervalCases

/-!
# Lemmas about the operand checks
-/

namespace Verif.Generic.Operands

theorem bits32 {x y : BitVec 32} (h : ∀ i < 32, x.getLsbD i = y.getLsbD i) : x = y := BitVec.eq_of_getLsbD_eq h

/-- SLJIT_MEM2 and its parts. -/
def mem2 (b x : BitVec 7) : BitVec 32 := 0x80#32 ||| b.setWidth 32 ||| (x.setWidth 32 <<< 8)

theorem mem2_lo (b x : BitVec 7) : mem2 b x &&& 0x7f#32 = b.setWidth 32 := by
  refine bits32 fun i hi => ?_
  interval_cases i <;> simp [mem2]

theorem mem2_hi (b x : BitVec 7) : (mem2 b x >>> 8) &&& 0x7f#32 = x.setWidth 32 := by
  refine bits32 fun i hi => ?_
  interval_cases i <;> simp [mem2]

theorem mem2_hi' (b x : BitVec 7) : mem2 b x &&& 0x7f00#32 = x.setWidth 32 <<< 8 := by
  refine bits32 fun i hi => ?_
  interval_cases i <;> simp [mem2]

theorem mem2_mem (b x : BitVec 7) : mem2 b x &&& 0x80#32 = 0x80#32 := by
  refine bits32 fun i hi => ?_
  interval_cases i <;> simp [mem2]

theorem mem2_rest (b x : BitVec 7) : mem2 b x &&& ~~~(0x80#32 ||| 0x7f#32 ||| 0x7f00#32) = 0 := by
  refine bits32 fun i hi => ?_
  interval_cases i <;> simp [mem2]

theorem mem2_eq {p : BitVec 32} (h1 : p &&& 0x80#32 ≠ 0) (h2 : p &&& ~~~(0x80#32 ||| 0x7f#32 ||| 0x7f00#32) = 0) :
    p = mem2 (p.setWidth 7) ((p >>> 8).setWidth 7) := by
  have h7 : p.getLsbD 7 = true := by
    cases h : p.getLsbD 7 with
    | true => rfl
    | false =>
      exfalso; apply h1
      refine bits32 fun i hi => ?_
      have h : p[7] = false := by simpa using h
      interval_cases i <;> simp [h]
  have h7 : p[7] = true := by simpa using h7
  have g (k : Nat) (hk : k < 32) (h15 : 15 ≤ k) : p[k] = false := by
    have := congrArg (BitVec.getLsbD · k) h2
    interval_cases k <;> simpa using this
  refine bits32 fun i hi => ?_
  interval_cases i <;> simp [mem2, h7, g]

theorem mem2_inj {b x b' x' : BitVec 7} (h : mem2 b x = mem2 b' x') : b = b' ∧ x = x' := by
  have h1 := mem2_lo b x
  have h2 := mem2_hi b x
  rw [h, mem2_lo] at h1
  rw [h, mem2_hi] at h2
  constructor
  · have := congrArg (BitVec.setWidth 7) h1
    simpa using this.symm
  · have := congrArg (BitVec.setWidth 7) h2
    simpa using this.symm

theorem toInt7 (b : BitVec 7) : (b.setWidth 32).toInt = b.toNat := by
  rw [BitVec.toInt_eq_toNat_of_lt]
  · rw [BitVec.toNat_setWidth]; have := b.isLt; omega
  · rw [BitVec.toNat_setWidth]; have := b.isLt; omega

theorem setWidth7_eq_zero (b : BitVec 7) : b.setWidth 32 = 0 ↔ b = 0 := by
  constructor
  · intro h
    have := congrArg (BitVec.setWidth 7) h
    simpa using this
  · rintro rfl; rfl

theorem shl8_eq_zero (b : BitVec 7) : b.setWidth 32 <<< 8 = 0 ↔ b = 0 := by
  constructor
  · intro h
    have h := congrArg (fun x : BitVec 32 => (x >>> 8).setWidth 7) h
    have e : (b.setWidth 32 <<< 8 >>> 8).setWidth 7 = b := by
      apply BitVec.eq_of_getLsbD_eq
      intro i hi
      interval_cases i <;> simp
    simp only [e] at h
    simpa using h
  · rintro rfl; rfl

end Verif.Generic.Operands
