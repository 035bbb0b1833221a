/-!
# Page masks
-/

namespace Verif.Util

/-- `get_page_alignment()`: page size minus one, where the page size is `2^k` (sljit_src/sljitUtils.c:130-167).  The
page size comes from the system; that it is a power of two is an assumption of the code. -/
def pageMask (k : Nat) : BitVec 64 := BitVec.ofNat 64 (2 ^ k - 1)

theorem mask_bit (k i : Nat) (hk : k ≤ 63) : (pageMask k).getLsbD i = decide (i < k) := by
  unfold pageMask
  rw [BitVec.getLsbD_ofNat, Nat.testBit_two_pow_sub_one]
  by_cases h : i < k
  · simp [h]; omega
  · simp [h]

/-- Clearing the page offset rounds down to a multiple of the page size. -/
theorem and_mask (k : Nat) (hk : k ≤ 63) (x : BitVec 64) : (x &&& ~~~pageMask k).toNat = x.toNat / 2 ^ k * 2 ^ k := by
  have e : x &&& ~~~pageMask k = (x >>> k) <<< k := by
    apply BitVec.eq_of_getLsbD_eq
    intro i hi
    simp only [BitVec.getLsbD_and, BitVec.getLsbD_not, mask_bit k i hk, BitVec.getLsbD_shiftLeft, BitVec.getLsbD_ushiftRight]
    by_cases h : i < k
    · simp [h]
    · rw [show k + (i - k) = i by omega]; simp [h, hi]
  rw [e, BitVec.toNat_shiftLeft, BitVec.toNat_ushiftRight, Nat.shiftRight_eq_div_pow, Nat.shiftLeft_eq]
  apply Nat.mod_eq_of_lt
  exact Nat.lt_of_le_of_lt (Nat.div_mul_le_self _ _) x.isLt

theorem mask_toNat (k : Nat) (hk : k ≤ 63) : (pageMask k).toNat = 2 ^ k - 1 := by
  unfold pageMask
  rw [BitVec.toNat_ofNat]
  apply Nat.mod_eq_of_lt
  have := Nat.pow_le_pow_right (n := 2) (by omega) hk
  omega

end Verif.Util
