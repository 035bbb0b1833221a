import Verif.Imm.Arm32Lemmas

/-! # Modified immediates of Thumb-2 (helper lemmas) -/

namespace Verif.Imm.Thumb
open Arm32 (rotl_bit rotr_bit rotl_rotl rotr_rotl rotr_eq rotl_congr zero_bits)

/-- The masks of the steps. -/
def steps : List (BitVec 32 × Nat) :=
  [(0xffff0000#32, 16), (0xff000000#32, 8), (0xf0000000#32, 4), (0xc0000000#32, 2), (0x80000000#32, 1)]

theorem mask_bit {mask : BitVec 32} {k : Nat} (hk : (mask, k) ∈ steps) : k ≤ 16 ∧ ∀ i, i < 32 → mask.getLsbD i = decide (32 ≤ i + k) := by
  simp only [steps, List.mem_cons, Prod.mk.injEq, List.not_mem_nil, or_false] at hk
  rcases hk with ⟨rfl, rfl⟩ | ⟨rfl, rfl⟩ | ⟨rfl, rfl⟩ | ⟨rfl, rfl⟩ | ⟨rfl, rfl⟩ <;> refine ⟨by omega, ?_⟩ <;> intro i hi <;>
    interval_cases i <;> rfl

/-- The invariant: the value is X rotated by counter - 8, and no bit was lost. -/
def Inv (X : BitVec 32) (p : BitVec 32 × Nat) : Prop :=
  p.1 = X.rotateLeft (24 + p.2) ∧ X = p.1 >>> (p.2 - 8) ∧ 8 ≤ p.2

theorem Inv.step {X mask k p} (hk : (mask, k) ∈ steps) (h : Inv X p) : Inv X (shiftStep mask k p) := by
  obtain ⟨h1, h2, h3⟩ := h
  obtain ⟨hk16, hb⟩ := mask_bit hk
  unfold shiftStep
  split
  next hz =>
    have hz' := zero_bits hz
    have hz'' : ∀ i, i < 32 → 32 ≤ i + k → p.1.getLsbD i = false := fun i hi h => hz' i (by rw [hb i hi]; simpa using h)
    have e1 : p.1 <<< k = p.1.rotateLeft k := by
      apply BitVec.eq_of_getLsbD_eq
      intro i hi
      rw [rotl_bit _ _ _ hi, BitVec.getLsbD_shiftLeft]
      by_cases hik : i < k
      · rw [hz'' ((i + 32 - k % 32) % 32) (by omega) (by omega)]; simp [hik]
      · simp only [hi, hik, decide_true, decide_false, Bool.true_and, Bool.not_false]; congr 1; omega
    have e2 : p.1 = (p.1 <<< k) >>> k := by
      apply BitVec.eq_of_getLsbD_eq
      intro i hi
      rw [BitVec.getLsbD_ushiftRight, BitVec.getLsbD_shiftLeft]
      by_cases hik : k + i < 32
      · simp [-BitVec.getLsbD_eq_getElem, hik]
      · rw [hz'' i hi (by omega)]; simp [hik]
    refine ⟨?_, ?_, by show 8 ≤ p.2 + k; omega⟩
    · show p.1 <<< k = _
      rw [e1, h1, rotl_rotl]; exact rotl_congr _ (by simp only; omega)
    · show X = p.1 <<< k >>> (p.2 + k - 8)
      rw [show p.2 + k - 8 = k + (p.2 - 8) by omega, BitVec.shiftRight_add, ← e2]
      exact h2
  next => exact ⟨h1, h2, h3⟩

/-- A step keeps a bit in the upper part, which halves. -/
theorem top_step {mask mask' : BitVec 32} {k : Nat} {p : BitVec 32 × Nat} (hk : (mask, k) ∈ steps)
    (hm : ∀ i, i < 32 → mask'.getLsbD i = decide (32 ≤ i + 2 * k)) (h : p.1 &&& mask' ≠ 0#32) : (shiftStep mask k p).1 &&& mask ≠ 0#32 := by
  obtain ⟨hk16, hb⟩ := mask_bit hk
  unfold shiftStep
  split
  next hz =>
    intro hz2
    apply h
    have z1 := zero_bits hz
    have z2 := zero_bits hz2
    apply BitVec.eq_of_getLsbD_eq
    intro i hi
    rw [BitVec.getLsbD_and, hm i hi]
    by_cases h2k : 32 ≤ i + 2 * k
    · by_cases h1k : 32 ≤ i + k
      · rw [z1 i (by rw [hb i hi]; simpa using h1k)]; simp
      · have := z2 (i + k) (by rw [hb _ (by omega)]; simp; omega)
        simp only [BitVec.getLsbD_shiftLeft] at this
        simp only [show i + k < 32 by omega, decide_true, Bool.true_and, show ¬ (i + k < k) by omega, decide_false, Bool.not_false,
          Nat.add_sub_cancel] at this
        rw [this]; simp
    · simp [h2k]
  next hz => exact hz

/-- A field of the modified immediate: bits 26, 14-12, 7-0. -/
def IsImm (w : BitVec 32) : Prop := w &&& ~~~ 0x040070ff#32 = 0#32

macro "bits" "[" ls:Lean.Parser.Tactic.simpLemma,* "]" : tactic =>
  `(tactic| (apply BitVec.eq_of_getLsbD_eq; intro k hk; interval_cases k <;> simp [-BitVec.getLsbD_eq_getElem, -BitVec.setWidth_eq, $ls,*]))

theorem field_of (a c : BitVec 32) (w) (hw : w = (a &&& 0x7f#32) ||| copyBits c 4 26 1 ||| copyBits c 1 12 3 ||| copyBits c 0 7 1) :
    (A32.thumbField w).extractLsb' 7 5 = c.setWidth 5 ∧ (A32.thumbField w).extractLsb' 0 7 = a.setWidth 7 ∧ IsImm w := by
  subst hw
  refine ⟨?_, ?_, ?_⟩
  · bits [A32.thumbField, A32.fld, copyBits]
  · bits [A32.thumbField, A32.fld, copyBits]
  · unfold IsImm; bits [copyBits]

theorem rotated_sound {imm : BitVec 32} (h0 : ¬ imm ≤ 0xff#32) (h : rotated imm ≠ INVALID_IMM) :
    IsImm (rotated imm) ∧ A32.expandThumb (A32.thumbField (rotated imm)) = some imm := by
  have hne : imm ≠ 0#32 := by rintro rfl; exact h0 (by decide)
  have hi : Inv imm (imm, 8) := ⟨by rw [rotl_congr imm (a := 24 + 8) (b := 0 + 0) (by omega), ← rotl_rotl, rotr_rotl _ _ _ (by omega)],
    by simp, by simp⟩
  have t1 : (shiftStep 0xffff0000#32 16 (imm, 8)).1 &&& 0xffff0000#32 ≠ 0#32 :=
    top_step (mask' := 0xffffffff#32) (by simp [steps]) (fun i hi => by interval_cases i <;> rfl) (by
      rw [show (0xffffffff#32) = BitVec.allOnes 32 from rfl, BitVec.and_allOnes]; exact hne)
  have t2 := top_step (mask := 0xff000000#32) (k := 8) (by simp [steps]) (mask_bit (k := 16) (by simp [steps])).2 t1
  have t3 := top_step (mask := 0xf0000000#32) (k := 4) (by simp [steps]) (mask_bit (k := 8) (by simp [steps])).2 t2
  have t4 := top_step (mask := 0xc0000000#32) (k := 2) (by simp [steps]) (mask_bit (k := 4) (by simp [steps])).2 t3
  have t5 := top_step (mask := 0x80000000#32) (k := 1) (by simp [steps]) (mask_bit (k := 2) (by simp [steps])).2 t4
  have i5 := ((((hi.step (mask := 0xffff0000#32) (k := 16) (by simp [steps])).step (mask := 0xff000000#32) (k := 8) (by simp [steps])).step
    (mask := 0xf0000000#32) (k := 4) (by simp [steps])).step (mask := 0xc0000000#32) (k := 2) (by simp [steps])).step
    (mask := 0x80000000#32) (k := 1) (by simp [steps])
  unfold rotated at h ⊢
  simp only at h ⊢
  generalize shiftStep 0x80000000#32 1 (shiftStep 0xc0000000#32 2 (shiftStep 0xf0000000#32 4 (shiftStep 0xff000000#32 8
    (shiftStep 0xffff0000#32 16 (imm, 8))))) = p at h i5 t5 ⊢
  split at h
  next => exact absurd rfl h
  next hz =>
  rw [if_neg hz]
  replace hz := Classical.not_not.mp hz
  obtain ⟨h1, h2, h3⟩ := i5
  obtain ⟨v, c⟩ := p
  simp only at *
  have hc : c < 32 := by
    by_contra hc
    apply h0
    rw [h2]
    show (v >>> (c - 8)).toNat ≤ 255
    rw [show c - 8 = 24 + (c - 32) by omega, BitVec.shiftRight_add]
    have := v.isLt
    simp only [BitVec.toNat_ushiftRight, Nat.shiftRight_eq_div_pow]
    refine Nat.le_trans (Nat.div_le_self _ _) ?_
    omega
  have hb := zero_bits hz
  have hb31 : v.getLsbD 31 = true := by
    by_contra hf
    apply t5
    apply BitVec.eq_of_getLsbD_eq
    intro i hi
    have : v.getLsbD 31 = false := by simpa using hf
    interval_cases i <;> simp [-BitVec.getLsbD_eq_getElem, this]
  have hv : v = (v >>> 24).rotateLeft 24 := by
    apply BitVec.eq_of_getLsbD_eq
    intro i hi
    rw [rotl_bit _ _ _ hi]
    interval_cases i <;> simp [-BitVec.getLsbD_eq_getElem] <;> exact (hb _ (by decide))
  have hx : imm = (v >>> 24).rotateRight c := by
    have e2 := congrArg (fun v => v.rotateLeft (8 + (32 - c % 32))) (h1.symm.trans hv)
    rw [rotr_rotl _ _ _ (by omega)] at e2
    rw [e2, rotl_rotl, rotr_eq _ _ (32 - c % 32) (by omega)]
    exact rotl_congr _ (by omega)
  generalize hw : ((v >>> 24) &&& 0x7f#32) ||| copyBits (BitVec.ofNat 32 c) 4 26 1 ||| copyBits (BitVec.ofNat 32 c) 1 12 3 |||
    copyBits (BitVec.ofNat 32 c) 0 7 1 = w
  obtain ⟨hf1, hf2, hf4⟩ := field_of _ _ w hw.symm
  have hc5 : ((BitVec.ofNat 32 c).setWidth 5).toNat = c := by simp; omega
  have hf3 : (A32.thumbField w).extractLsb' 10 2 ≠ 0#2 := by
    have : (A32.thumbField w).extractLsb' 10 2 = ((A32.thumbField w).extractLsb' 7 5).extractLsb' 3 2 := by bits []
    rw [this, hf1]
    intro h
    have := congrArg BitVec.toNat h
    rw [BitVec.extractLsb'_toNat, hc5] at this
    simp [Nat.shiftRight_eq_div_pow] at this
    omega
  refine ⟨hf4, ?_⟩
  unfold A32.expandThumb
  simp only
  rw [if_neg hf3, hf1, hf2, hc5, hx]
  congr 2
  bits [hb31]

end Verif.Imm.Thumb
