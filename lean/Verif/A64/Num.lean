import Verif.A64.Mem

/-! # Shifts, bitfields and products (helper lemmas) -/

namespace Verif.A64
open Verif (RV.OpC RV.Op RV.Flag RV.val RV.flagVal RV.Op.flagOk)

variable {w : Nat}

/-! ## Bitfield moves -/

theorem bfm_shl (x : BitVec w) {k : Nat} (hk : k < w) : bfm false x ((w - k) % w) (w - 1 - k) = x <<< k := by
  simp only [bfm, Bool.false_eq_true, if_false]
  have e : w - 1 - (w - 1 - k) = k := by omega
  rw [e]
  by_cases h0 : k = 0
  · subst h0
    rw [Nat.sub_zero, Nat.mod_self, if_pos (by omega)]; simp
  · rw [Nat.mod_eq_of_lt (by omega), if_neg (by omega), show w - (w - k) = k by omega]
    apply BitVec.eq_of_getLsbD_eq; intro j hj
    simp only [BitVec.getLsbD_shiftLeft, BitVec.getLsbD_ushiftRight, hj, decide_true, Bool.true_and]
    by_cases hjk : j < k
    · simp [hjk]
    · simp only [hjk, decide_false, Bool.not_false, Bool.true_and]
      rw [show decide (k + (j - k) < w) = true by simp; omega, show decide (k + (j - k) < k) = false by simp]
      simp only [Bool.not_false, Bool.true_and]; congr 1; omega

theorem bfm_shr (x : BitVec w) {k : Nat} (hk : k < w) : bfm false x k (w - 1) = x >>> k := by
  simp only [bfm, Bool.false_eq_true, if_false, Nat.sub_self]
  rw [if_pos (by omega)]; simp

theorem bfm_sar (x : BitVec w) {k : Nat} (hk : k < w) : bfm true x k (w - 1) = x.sshiftRight k := by
  simp only [bfm, if_true, Nat.sub_self]
  rw [if_pos (by omega)]; simp

/-! ## Rotations -/

theorem rotr_bit (x : BitVec w) (n i : Nat) (hi : i < w) : (x.rotateRight n).getLsbD i = x.getLsbD ((i + n) % w) := by
  rw [BitVec.getLsbD_rotateRight, cond_eq_ite]; simp only [decide_eq_true_eq]
  have hn : n % w < w := Nat.mod_lt _ (by omega)
  have e : (i + n) % w = (i + n % w) % w := by rw [Nat.add_mod_mod]
  rw [e]
  generalize n % w = q at hn ⊢
  by_cases h : i < w - q
  · rw [if_pos h, Nat.mod_eq_of_lt (by omega)]; congr 1; omega
  · rw [if_neg h, Nat.mod_eq_sub_mod (by omega), Nat.mod_eq_of_lt (by omega)]
    simp only [hi, decide_true, Bool.true_and]; congr 1; omega

theorem rotl_bit (x : BitVec w) (n i : Nat) (hi : i < w) : (x.rotateLeft n).getLsbD i = x.getLsbD ((i + (w - n % w)) % w) := by
  rw [BitVec.getLsbD_rotateLeft, cond_eq_ite]; simp only [decide_eq_true_eq]
  have hn : n % w < w := Nat.mod_lt _ (by omega)
  generalize n % w = q at hn ⊢
  by_cases h : i < q
  · rw [if_pos h, Nat.mod_eq_of_lt (by omega)]; congr 1; omega
  · rw [if_neg h, Nat.mod_eq_sub_mod (by omega), Nat.mod_eq_of_lt (by omega)]
    simp only [hi, decide_true, Bool.true_and]; congr 1; omega

theorem rotl_rotr (x : BitVec w) (n m : Nat) (h : (n + m) % w = 0) : x.rotateLeft n = x.rotateRight m := by
  apply BitVec.eq_of_getLsbD_eq; intro i hi
  rw [rotl_bit _ _ _ hi, rotr_bit _ _ _ hi]
  have hn : n % w < w := Nat.mod_lt _ (by omega)
  have hm : m % w < w := Nat.mod_lt _ (by omega)
  congr 1
  rw [← Nat.add_mod_mod i m]
  rw [Nat.add_mod] at h
  generalize n % w = p at *
  generalize m % w = q at *
  by_cases h0 : p = 0
  · subst h0
    rw [Nat.zero_add, Nat.mod_eq_of_lt hm] at h
    rw [h]; simp
  · have : p + q = w := by
      rcases Nat.lt_or_ge (p + q) w with hl | hl
      · rw [Nat.mod_eq_of_lt hl] at h; omega
      · rw [Nat.mod_eq_sub_mod hl, Nat.mod_eq_of_lt (by omega)] at h; omega
    rw [show w - p = q by omega]

theorem rotr_mod (x : BitVec w) (n : Nat) : x.rotateRight (n % w) = x.rotateRight n := by
  apply BitVec.eq_of_getLsbD_eq; intro i hi
  rw [rotr_bit _ _ _ hi, rotr_bit _ _ _ hi, Nat.add_mod_mod]
theorem rotl_mod (x : BitVec w) (n : Nat) : x.rotateLeft (n % w) = x.rotateLeft n := by
  apply BitVec.eq_of_getLsbD_eq; intro i hi
  rw [rotl_bit _ _ _ hi, rotl_bit _ _ _ hi, Nat.mod_mod]

theorem extr_bit (x y : BitVec w) (n i : Nat) (hi : i < w) : ((x ++ y).extractLsb' n w).getLsbD i = if n + i < w then y.getLsbD (n + i) else x.getLsbD (n + i - w) := by
  rw [BitVec.getLsbD_extractLsb', BitVec.getLsbD_append]
  simp [hi]

theorem extr_rotr (x : BitVec w) {n : Nat} (hn : n < w) : (x ++ x).extractLsb' n w = x.rotateRight n := by
  apply BitVec.eq_of_getLsbD_eq; intro i hi
  rw [extr_bit _ _ _ _ hi, rotr_bit _ _ _ hi, Nat.add_comm i n]
  by_cases h : n + i < w
  · rw [if_pos h, Nat.mod_eq_of_lt h]
  · rw [if_neg h, Nat.mod_eq_sub_mod (by omega), Nat.mod_eq_of_lt (by omega)]

/-! ## Products -/

/-- The product of two words fits if its upper half is the sign of the lower half. -/
theorem mul_ov64 (a b : BitVec 64) : (BitVec.ofInt 64 (a.toInt * b.toInt / 2 ^ 64) - (a * b).sshiftRight 63 = 0#64) ↔
    ¬ (a.toInt * b.toInt < -2 ^ 63 ∨ 2 ^ 63 ≤ a.toInt * b.toInt) := by
  have h1 := BitVec.toInt_mul_toInt_le (x := a) (y := b)
  have h2 := BitVec.le_toInt_mul_toInt (x := a) (y := b)
  have h3 : ((a * b).toNat : Int) = (a.toInt * b.toInt) % 2 ^ 64 := by
    have := BitVec.toInt_mul a b
    have e : (a * b) = BitVec.ofInt 64 (a.toInt * b.toInt) := by
      apply BitVec.eq_of_toInt_eq; rw [this, BitVec.toInt_ofInt]
    rw [e, BitVec.toNat_ofInt]
    have := Int.emod_nonneg (a.toInt * b.toInt) (b := 2 ^ 64) (by decide)
    omega
  have h4 : ((a * b).sshiftRight 63).toInt = (a * b).toInt / 2 ^ 63 := by rw [BitVec.toInt_sshiftRight, Int.shiftRight_eq_div_pow]; rfl
  have h5 := int_nat (a * b)
  generalize a.toInt * b.toInt = p at *
  rw [sub_zero_iff, ← BitVec.toInt_inj, h4, BitVec.toInt_ofInt]
  simp only [Nat.reduceMul, Nat.reduceSub] at h1 h2
  have h6 : (p / 2 ^ 64).bmod (2 ^ 64) = p / 2 ^ 64 := by
    apply Int.bmod_eq_of_le <;> omega
  rw [h6]
  omega

/-- The product of two 32 bit numbers. -/
theorem mul_ov32 (a b : BitVec 32) : ((a.signExtend 64 * b.signExtend 64).sshiftRight 31 - (a.signExtend 64 * b.signExtend 64).sshiftRight 63 = 0#64) ↔
    ¬ (a.toInt * b.toInt < -2 ^ 31 ∨ 2 ^ 31 ≤ a.toInt * b.toInt) := by
  have h1 := BitVec.toInt_mul_toInt_le (x := a) (y := b)
  have h2 := BitVec.le_toInt_mul_toInt (x := a) (y := b)
  have h3 : (a.signExtend 64 * b.signExtend 64).toInt = a.toInt * b.toInt := by
    rw [BitVec.toInt_mul, BitVec.toInt_signExtend_of_le (by decide), BitVec.toInt_signExtend_of_le (by decide)]
    simp only [Nat.reduceMul, Nat.reduceSub] at h1 h2
    apply Int.bmod_eq_of_le <;> omega
  generalize a.signExtend 64 * b.signExtend 64 = x at *
  have h4 : ∀ k : Nat, (x.sshiftRight k).toInt = x.toInt / 2 ^ k := fun k => by rw [BitVec.toInt_sshiftRight, Int.shiftRight_eq_div_pow]; push_cast; rfl
  rw [sub_zero_iff, ← BitVec.toInt_inj, h4, h4, h3]
  generalize a.toInt * b.toInt = p at *
  simp only [Nat.reduceMul, Nat.reduceSub] at h1 h2
  omega

theorem mul_lo32 (a b : BitVec 32) : (a.signExtend 64 * b.signExtend 64).setWidth 32 = a * b := by
  rw [BitVec.setWidth_mul _ _ (by decide)]
  congr 1 <;> (apply BitVec.eq_of_getLsbD_eq; intro k hk; simp [BitVec.getLsbD_signExtend, hk, -BitVec.getLsbD_eq_getElem]; omega)

end Verif.A64
