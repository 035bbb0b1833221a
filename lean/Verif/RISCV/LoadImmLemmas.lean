import Verif.RISCV.Exec
import Verif.RISCV.LoadImm

/-! # Immediate loading: helper lemmas -/

namespace Verif.RV

theorem and800 (v : BitVec 64) : v &&& 0x800#64 ≠ 0#64 ↔ v.toNat / 2048 % 2 = 1 := by
  rw [ne_eq, ← BitVec.toNat_inj]
  have : (v &&& 0x800#64).toNat = v.toNat / 2048 % 2 * 2048 := by
    rw [BitVec.toNat_and]
    have e : v.toNat &&& 2048 = v.toNat / 2048 % 2 * 2048 := by
      apply Nat.eq_of_testBit_eq
      intro k
      rw [Nat.testBit_and, show (2048 : Nat) = 2 ^ 11 from rfl, Nat.testBit_two_pow, Nat.testBit_mul_two_pow]
      by_cases hk : 11 = k
      · subst hk
        simp [Nat.testBit_eq_decide_div_mod_eq]
      · have : (v.toNat / 2 ^ 11 % 2).testBit (k - 11) = decide (k - 11 = 0 ∧ v.toNat / 2^11 % 2 = 1) := by
          by_cases h0 : k - 11 = 0
          · rw [h0]; simp
          · rw [Nat.testBit_lt_two_pow]
            · simp [h0]
            · have : 2 ^ 1 ≤ 2 ^ (k - 11) := Nat.pow_le_pow_right (by decide) (by omega)
              omega
        rw [this]
        simp [hk]; omega
    simpa using e
  rw [this]; simp

theorem andfff (v : BitVec 64) : (v &&& 0xfff#64).toNat = v.toNat % 4096 := by
  rw [BitVec.toNat_and]; exact Nat.and_two_pow_sub_one_eq_mod v.toNat 12

theorem sext12_toInt (c : BitVec 12) : (c.signExtend 64).toInt = if c.toNat < 2048 then (c.toNat : Int) else c.toNat - 4096 := by
  rw [BitVec.toInt_signExtend_of_le (by decide), BitVec.toInt_eq_toNat_cond]
  split <;> split <;> omega

theorem uimm_toInt (u : BitVec 20) : (uimm u).toInt = if u.toNat < 2^19 then (u.toNat * 4096 : Int) else u.toNat * 4096 - 2^32 := by
  have := u.isLt
  rw [uimm, BitVec.toInt_signExtend_of_le (by decide), BitVec.toInt_eq_toNat_cond]
  simp [Nat.shiftLeft_eq]
  split <;> split <;> omega

def round (v : BitVec 64) : BitVec 64 := if v &&& 0x800#64 ≠ 0#64 then v + 0x1000#64 else v

theorem round_toNat (v : BitVec 64) : (round v).toNat = if v.toNat / 2048 % 2 = 1 then (v.toNat + 4096) % 2^64 else v.toNat := by
  unfold round
  simp only [and800]
  split <;> simp

theorem L1 (v : BitVec 64) (h1 : v.toInt ≤ S32_MAX) (h2 : S32_MIN ≤ v.toInt) :
  uimm ((round v).extractLsb' 12 20) + ((round v &&& 0xfff#64).setWidth 12).signExtend 64 = v := by
  apply BitVec.eq_of_toInt_eq
  have := v.isLt
  rw [BitVec.toInt_add, uimm_toInt, sext12_toInt]
  rw [BitVec.toInt_eq_toNat_cond] at *
  simp only [BitVec.extractLsb'_toNat, BitVec.toNat_setWidth, andfff, round_toNat, Nat.shiftRight_eq_div_pow]
  simp only [Int.bmod] at *
  by_cases hb : v.toNat / 2048 % 2 = 1
  · simp only [hb, if_true]
    omega
  · simp only [hb, if_false]
    omega

theorem run_seq {a b : Emit} {s s1 s2 : St} (h1 : run a s = some s1) (h2 : run b s1 = some s2) :
    run (a ++ b) s = some s2 := by rw [run_append h1, h2]

theorem cimm12 (v : BitVec 64) (h : v.toInt ≤ 0x1f ∨ 0xfe0 ≤ v.toInt) (hv : v.toNat < 4096) :
    (v.setWidth 6).signExtend 12 = v.setWidth 12 := by
  have hi := BitVec.toInt_eq_toNat_cond v
  apply BitVec.eq_of_toInt_eq
  rw [BitVec.toInt_signExtend_of_le (by decide), BitVec.toInt_eq_toNat_cond, BitVec.toInt_eq_toNat_cond]
  simp only [BitVec.toNat_setWidth]
  omega

theorem cli (v : BitVec 64) (h1 : v.toInt ≤ 0x1f) (h2 : -0x20 ≤ v.toInt) :
    ((v.setWidth 6).signExtend 12).signExtend 64 = v := by
  have hi := BitVec.toInt_eq_toNat_cond v
  apply BitVec.eq_of_toInt_eq
  rw [BitVec.toInt_signExtend_of_le (by decide), BitVec.toInt_signExtend_of_le (by decide), BitVec.toInt_eq_toNat_cond]
  simp only [BitVec.toNat_setWidth]
  omega

theorem sext12_self (v : BitVec 64) (h1 : v.toInt ≤ 0x7ff) (h2 : -0x800 ≤ v.toInt) :
    (v.setWidth 12).signExtend 64 = v := by
  have hi := BitVec.toInt_eq_toNat_cond v
  apply BitVec.eq_of_toInt_eq
  rw [BitVec.toInt_signExtend_of_le (by decide), BitVec.toInt_eq_toNat_cond]
  simp only [BitVec.toNat_setWidth]
  omega

theorem run_low (cfg : Cfg) (d : Nat) (v : BitVec 64) (s : St) (hd : regMap d ≠ 0#5) :
    ∃ s', run (loadImmLow cfg d v) s = some s' ∧
      s'.rd (regMap d) = s.rd (regMap d) + ((v &&& 0xfff#64).setWidth 12).signExtend 64 ∧ Keep [regMap d] s s' := by
  unfold loadImmLow
  simp only
  split
  · next h => exact ⟨s, rfl, by rw [h]; simp, Keep.refl _ _⟩
  · split
    · next h0 h =>
      simp only [Bool.and_eq_true, Bool.or_eq_true, decide_eq_true_eq] at h
      refine ⟨_, by rw [run_w16' (by simp), dec_C_ADDI]; rfl, ?_, ?_⟩
      · simp only [rd_adv, rd_wr, hd, if_false, if_true, IOp.eval]
        rw [cimm12 _ h.2 (by rw [andfff]; omega)]
      · exact (Keep.wr _ _ _ _ (by simp)).adv _
    · refine ⟨_, by rw [run_w32' (by simp), dec_ADDI]; rfl, ?_, ?_⟩
      · simp [rd_wr, hd, IOp.eval]
      · exact (Keep.wr _ _ _ _ (by simp)).adv _

theorem round_small (v : BitVec 64) (h1 : v.toInt ≤ 0x1f7ff) (h2 : -0x20000 ≤ v.toInt) :
    ((round v).extractLsb' 12 6).signExtend 20 = (round v).extractLsb' 12 20 := by
  have hi := BitVec.toInt_eq_toNat_cond v
  have := v.isLt
  apply BitVec.eq_of_toInt_eq
  rw [BitVec.toInt_signExtend_of_le (by decide), BitVec.toInt_eq_toNat_cond, BitVec.toInt_eq_toNat_cond]
  simp only [BitVec.extractLsb'_toNat, round_toNat, Nat.shiftRight_eq_div_pow]
  by_cases hb : v.toNat / 2048 % 2 = 1
  · simp only [hb, if_true]
    omega
  · simp only [hb, if_false]
    omega

theorem round_nz (v : BitVec 64) (h1 : v.toInt ≤ 0x1f7ff) (h2 : -0x20000 ≤ v.toInt)
    (h3 : 0x7ff < v.toInt ∨ v.toInt < -0x800) : (round v).extractLsb' 12 6 ≠ 0#6 := by
  have hi := BitVec.toInt_eq_toNat_cond v
  have := v.isLt
  rw [ne_eq, ← BitVec.toNat_inj]
  simp only [BitVec.extractLsb'_toNat, round_toNat, Nat.shiftRight_eq_div_pow]
  by_cases hb : v.toNat / 2048 % 2 = 1
  · simp only [hb, if_true]
    simp
    omega
  · simp only [hb, if_false]
    simp
    omega

/-- Below the sign extended 12 bit value all bits are those of `v`; above them they are copies of bit 11. -/
theorem xor_hi (v c : BitVec 64) (k : Nat) (hk : k < 64) :
    (c ^^^ (v.setWidth 12).signExtend 64).getLsbD k = (c.getLsbD k ^^ (if k < 12 then v.getLsbD k else v.getLsbD 11)) := by
  simp only [BitVec.getLsbD_xor, BitVec.getLsbD_signExtend, hk, decide_true, Bool.true_and]
  congr 1
  split
  · next h => simp [h]
  · simp [BitVec.msb_eq_getLsbD_last]

theorem toNat_bits (v : BitVec 64) : v = BitVec.ofNat 64 v.toNat := by simp

theorem xor_top (v : BitVec 64) (h1 : 0x7ffff7ff < v.toInt) (h2 : v.toInt ≤ 0x7fffffff) :
    uimm 0x80000#20 ^^^ (v.setWidth 12).signExtend 64 = v := by
  have hi := BitVec.toInt_eq_toNat_cond v
  have hl := v.isLt
  have hn : v.toNat / 2048 = 0x7fffffff / 2048 := by omega
  have hb : ∀ k, 11 ≤ k → v.getLsbD k = (0x7fffffff).testBit k := by
    intro k hk
    rw [BitVec.getLsbD]
    have e1 : v.toNat.testBit k = (v.toNat / 2 ^ 11).testBit (k - 11) := by
      rw [Nat.testBit_div_two_pow]; congr 1; omega
    have e2 : (0x7fffffff : Nat).testBit k = (0x7fffffff / 2 ^ 11).testBit (k - 11) := by
      rw [Nat.testBit_div_two_pow]; congr 1; omega
    rw [e1, e2, show 2 ^ 11 = 2048 from rfl, hn]
  apply BitVec.eq_of_getLsbD_eq
  intro k hk
  rw [xor_hi _ _ _ hk]
  by_cases h12 : k < 11
  · have : (uimm 524288#20).getLsbD k = false := by
      interval_cases k <;> decide
    simp [this, show k < 12 by omega]
  · rw [hb k (by omega)]
    rw [hb 11 (by omega)]
    interval_cases k <;> simp_all <;> decide

theorem xor_topC (v : BitVec 64) (h1 : 0x1f7ff < v.toInt) (h2 : v.toInt ≤ 0x1ffff) :
    uimm 0xfffe0#20 ^^^ (v.setWidth 12).signExtend 64 = v := by
  have hi := BitVec.toInt_eq_toNat_cond v
  have hl := v.isLt
  have hn : v.toNat / 2048 = 0x1ffff / 2048 := by omega
  have hb : ∀ k, 11 ≤ k → v.getLsbD k = (0x1ffff).testBit k := by
    intro k hk
    rw [BitVec.getLsbD]
    have e1 : v.toNat.testBit k = (v.toNat / 2 ^ 11).testBit (k - 11) := by
      rw [Nat.testBit_div_two_pow]; congr 1; omega
    have e2 : (0x1ffff : Nat).testBit k = (0x1ffff / 2 ^ 11).testBit (k - 11) := by
      rw [Nat.testBit_div_two_pow]; congr 1; omega
    rw [e1, e2, show 2 ^ 11 = 2048 from rfl, hn]
  apply BitVec.eq_of_getLsbD_eq
  intro k hk
  rw [xor_hi _ _ _ hk]
  by_cases h12 : k < 11
  · have : (uimm 0xfffe0#20).getLsbD k = false := by
      interval_cases k <;> decide
    simp [this, show k < 12 by omega]
  · rw [hb k (by omega)]
    rw [hb 11 (by omega)]
    interval_cases k <;> simp_all <;> decide

end Verif.RV
