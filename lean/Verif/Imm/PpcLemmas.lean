import Verif.Imm.Bits
import Verif.Imm.Ppc

/-! # load_immediate of PPC64 (helper lemmas) -/

namespace Verif.Imm.Ppc
open Pp

/-- A 16 bit operand. -/
def Half (v : BitVec 32) : Prop := ∀ k, 16 ≤ k → v.getLsbD k = false

theorem half_imm (v : BitVec 64) : Half (IMM v) := by
  intro k hk
  by_cases h : k < 32
  · interval_cases k <;> simp [-BitVec.getLsbD_eq_getElem, IMM]
  · exact BitVec.getLsbD_of_ge _ _ (by omega)

theorem half_hi (v : BitVec 64) : Half ((v >>> 48).setWidth 32) := by
  intro k hk
  rw [BitVec.getLsbD_setWidth, BitVec.getLsbD_ushiftRight, BitVec.getLsbD_of_ge v _ (by omega), Bool.and_false]

theorem half_lt {v : BitVec 64} (h : v.toNat < 2 ^ 16) : Half (v.setWidth 32) := by
  intro k hk
  rw [BitVec.getLsbD_setWidth, bits_lt h k hk, Bool.and_false]

theorem dec_d {opc : BitVec 6} (d a : BitVec 5) {v : BitVec 32} (hv : Half v) (w) (hw : w = opc.setWidth 32 <<< 26 ||| d.setWidth 32 <<< 21 ||| a.setWidth 32 <<< 16 ||| v) :
    fld w 26 6 = opc ∧ fld w 21 5 = d ∧ fld w 16 5 = a ∧ fld w 0 16 = v.setWidth 16 := by
  subst hw
  have hv' : ∀ k, 16 ≤ k → v.getLsbD k = false := hv
  refine ⟨?_, ?_, ?_, ?_⟩ <;> bits64 [fld, hv']

theorem run_ADDI {reg : Nat} {v : BitVec 32} (hv : Half v) (ws x) :
    run ((ADDI ||| D reg ||| A 0 ||| v) :: ws) x = run ws (put x (regMap reg) ((v.setWidth 16).signExtend 64)) := by
  obtain ⟨h1, h2, h3, h4⟩ := dec_d (opc := 14#6) (regMap reg) (regMap 0) hv _ rfl
  have e : ADDI ||| D reg ||| A 0 ||| v = (14#6).setWidth 32 <<< 26 ||| (regMap reg).setWidth 32 <<< 21 ||| (regMap 0).setWidth 32 <<< 16 ||| v := rfl
  rw [← e] at h1 h2 h3 h4
  simp only [run, decode, h1, h2, h3, h4, if_true, Option.bind_some, exec]
  have : base x (regMap 0) = 0#64 := rfl
  rw [this, BitVec.zero_add]

theorem run_ADDIS {reg : Nat} {v : BitVec 32} (hv : Half v) (ws x) :
    run ((ADDIS ||| D reg ||| A 0 ||| v) :: ws) x = run ws (put x (regMap reg) ((v.setWidth 16).signExtend 64 <<< 16)) := by
  obtain ⟨h1, h2, h3, h4⟩ := dec_d (opc := 15#6) (regMap reg) (regMap 0) hv _ rfl
  have e : ADDIS ||| D reg ||| A 0 ||| v = (15#6).setWidth 32 <<< 26 ||| (regMap reg).setWidth 32 <<< 21 ||| (regMap 0).setWidth 32 <<< 16 ||| v := rfl
  rw [← e] at h1 h2 h3 h4
  simp only [run, decode, h1, h2, h3, h4, if_true, Option.bind_some, exec, show ¬ (15#6 = 14#6) by decide, if_false]
  have : base x (regMap 0) = 0#64 := rfl
  rw [this, BitVec.zero_add]

theorem run_ORI {s reg : Nat} {v : BitVec 32} (hv : Half v) (ws x) :
    run ((ORI ||| S s ||| A reg ||| v) :: ws) x = run ws (put x (regMap reg) (x (regMap s) ||| (v.setWidth 16).setWidth 64)) := by
  obtain ⟨h1, h2, h3, h4⟩ := dec_d (opc := 24#6) (regMap s) (regMap reg) hv _ rfl
  have e : ORI ||| S s ||| A reg ||| v = (24#6).setWidth 32 <<< 26 ||| (regMap s).setWidth 32 <<< 21 ||| (regMap reg).setWidth 32 <<< 16 ||| v := rfl
  rw [← e] at h1 h2 h3 h4
  simp only [run, decode, h1, h2, h3, h4, if_true, Option.bind_some, exec, show ¬ (24#6 = 14#6) by decide, show ¬ (24#6 = 15#6) by decide, if_false]

theorem run_ORIS {s reg : Nat} {v : BitVec 32} (hv : Half v) (ws x) :
    run ((ORIS ||| S s ||| A reg ||| v) :: ws) x = run ws (put x (regMap reg) (x (regMap s) ||| ((v.setWidth 16).setWidth 64 <<< 16))) := by
  obtain ⟨h1, h2, h3, h4⟩ := dec_d (opc := 25#6) (regMap s) (regMap reg) hv _ rfl
  have e : ORIS ||| S s ||| A reg ||| v = (25#6).setWidth 32 <<< 26 ||| (regMap s).setWidth 32 <<< 21 ||| (regMap reg).setWidth 32 <<< 16 ||| v := rfl
  rw [← e] at h1 h2 h3 h4
  simp only [run, decode, h1, h2, h3, h4, if_true, Option.bind_some, exec, show ¬ (25#6 = 14#6) by decide, show ¬ (25#6 = 15#6) by decide,
    show ¬ (25#6 = 24#6) by decide, if_false]

theorem dec_rldicr (s a : BitVec 5) (u v : BitVec 32) (w) (hw : w = RLDICR ||| s.setWidth 32 <<< 21 ||| a.setWidth 32 <<< 16 ||| RLDI_SH u ||| RLDI_ME v) :
    decode w = some (.rldicr a s (u.setWidth 6) (v.setWidth 6)) := by
  have f1 : fld w 26 6 = 30#6 := by subst hw; bits64 [fld, RLDICR, RLDI_SH, RLDI_ME]
  have f2 : fld w 2 3 = 1#3 := by subst hw; bits64 [fld, RLDICR, RLDI_SH, RLDI_ME]
  have f3 : fld w 0 1 = 0#1 := by subst hw; bits64 [fld, RLDICR, RLDI_SH, RLDI_ME]
  have f4 : fld w 21 5 = s := by subst hw; bits64 [fld, RLDICR, RLDI_SH, RLDI_ME]
  have f5 : fld w 16 5 = a := by subst hw; bits64 [fld, RLDICR, RLDI_SH, RLDI_ME]
  have f6 : (fld w 1 1).setWidth 6 <<< 5 ||| (fld w 11 5).setWidth 6 = u.setWidth 6 := by subst hw; bits64 [fld, RLDICR, RLDI_SH, RLDI_ME]
  have f7 : (fld w 5 1).setWidth 6 <<< 5 ||| (fld w 6 5).setWidth 6 = v.setWidth 6 := by subst hw; bits64 [fld, RLDICR, RLDI_SH, RLDI_ME]
  simp only [decode, f1, f2, f3, f4, f5, f6, f7]
  rfl

/-- PUSH_SLDI_NEG shifts left by 63 - shift. -/
theorem run_sldi {reg shift : Nat} (h : shift ≤ 63) (ws x) :
    run (sldiNeg reg shift :: ws) x = run ws (put x (regMap reg) (x (regMap reg) <<< (63 - shift))) := by
  have e := dec_rldicr (regMap reg) (regMap reg) (BitVec.ofNat 32 (63 - shift)) (BitVec.ofNat 32 shift) (sldiNeg reg shift) rfl
  simp only [run, e, Option.bind_some, exec]
  have e1 : ((BitVec.ofNat 32 (63 - shift)).setWidth 6).toNat = 63 - shift := by simp; omega
  have e2 : ((BitVec.ofNat 32 shift).setWidth 6).toNat = shift := by simp; omega
  congr 2
  rw [e1, mask0, e2]
  apply BitVec.eq_of_getLsbD_eq
  intro k hk
  rw [BitVec.getLsbD_and, BitVec.getLsbD_rotateLeft, BitVec.getLsbD_shiftLeft, BitVec.getLsbD_shiftLeft, Nat.mod_eq_of_lt (show 63 - shift < 64 by omega)]
  by_cases hk2 : k < 63 - shift
  · simp [hk2]
  · simp only [hk2, hk, decide_true, decide_false, cond_false, Bool.true_and, Bool.not_false]
    rw [BitVec.getLsbD_allOnes]
    simp; omega

theorem put_put (x : Regs) (d a b) : put (put x d a) d b = put x d b := by funext q; simp only [put]; split <;> rfl
theorem put_self (x : Regs) (d a) : put x d a d = a := by simp [put]
theorem fin {x : Regs} {r : BitVec 5} {a b : BitVec 64} (h : a = b) : some (put x r a) = some (put x r b) := by rw [h]

theorem clz_spec {v : BitVec 64} (h : v ≠ 0#64) : cntlzd v ≤ 63 ∧ v.getLsbD (63 - cntlzd v) = true ∧ ∀ k, 63 - cntlzd v < k → v.getLsbD k = false := by
  have hn : v.toNat ≠ 0 := by intro h0; exact h (BitVec.eq_of_toNat_eq (by simpa using h0))
  have hl : Nat.log2 v.toNat < 64 := (Nat.log2_lt hn).mpr v.isLt
  have e : cntlzd v = 63 - Nat.log2 v.toNat := by simp only [cntlzd, h, if_false]
  have e2 : 63 - cntlzd v = Nat.log2 v.toNat := by omega
  refine ⟨by omega, ?_, ?_⟩
  · rw [e2, ← BitVec.testBit_toNat]
    exact Nat.testBit_log2 hn
  · intro k hk
    rw [e2] at hk
    exact bits_lt (n := Nat.log2 v.toNat + 1) Nat.lt_log2_self k hk

/-- The high part of a constant whose upper bits repeat the sign. -/
theorem high16 {c : BitVec 64} {s : Nat} (hs : s ≤ 48) (hc : ∀ k, 63 - s ≤ k → k < 64 → c.getLsbD k = c.getLsbD 63) :
    ((((c <<< s) >>> 48).setWidth 32).setWidth 16).signExtend 64 = c.sshiftRight (48 - s) := by
  apply BitVec.eq_of_getLsbD_eq
  intro k hk
  simp only [BitVec.getLsbD_signExtend, BitVec.msb_eq_getLsbD_last, BitVec.getLsbD_setWidth, BitVec.getLsbD_ushiftRight, BitVec.getLsbD_shiftLeft,
    BitVec.getLsbD_sshiftRight, hk, decide_true, Bool.true_and, show ¬ (64 ≤ k) by omega, decide_false, Bool.not_false]
  by_cases h16 : k < 16
  · simp only [h16, if_true, decide_true, Bool.true_and, show k < 32 by omega, show 48 + k < 64 by omega, show ¬ (48 + k < s) by omega, decide_false,
      Bool.not_false, show 48 - s + k < 64 by omega]
    congr 1; omega
  · simp only [h16, if_false, show (16 : Nat) - 1 < 16 by omega, show 16 - 1 < 32 by omega, show 48 + (16 - 1) < 64 by omega, show ¬ (48 + (16 - 1) < s) by omega,
      decide_true, decide_false, Bool.not_false, Bool.true_and]
    rw [hc _ (by omega) (by omega)]
    split
    next h => exact (hc _ (by omega) h).symm
    next => rfl

/-- The same for 32 bits. -/
theorem high32 {c : BitVec 64} {s : Nat} (hs : s ≤ 32) (hc : ∀ k, 63 - s ≤ k → k < 64 → c.getLsbD k = c.getLsbD 63) :
    (((((c <<< s) >>> 48).setWidth 32).setWidth 16).signExtend 64 <<< 16) ||| ((IMM ((c <<< s) >>> 32)).setWidth 16).setWidth 64 =
      c.sshiftRight (32 - s) := by
  rw [high16 (by omega) hc]
  apply BitVec.eq_of_getLsbD_eq
  intro k hk
  have hm : ∀ j, (IMM ((c <<< s) >>> 32)).getLsbD j = (decide (j < 16) && ((c <<< s) >>> 32).getLsbD j) := by
    intro j
    by_cases h : j < 16
    · interval_cases j <;> simp [-BitVec.getLsbD_eq_getElem, IMM]
    · rw [half_imm _ j (by omega)]; simp [h]
  simp only [BitVec.getLsbD_or, BitVec.getLsbD_setWidth, BitVec.getLsbD_shiftLeft, BitVec.getLsbD_sshiftRight, hm, BitVec.getLsbD_ushiftRight, hk, decide_true, Bool.true_and,
    show ¬ (64 ≤ k) by omega, show ¬ (64 ≤ k - 16) by omega, decide_false, Bool.not_false]
  by_cases h16 : k < 16
  · simp only [h16, decide_true, Bool.not_true, Bool.false_and, Bool.false_or, Bool.true_and, show 32 + k < 64 by omega, show ¬ (32 + k < s) by omega, decide_false, Bool.not_false,
      show 32 - s + k < 64 by omega, if_true]
    congr 1; omega
  · simp only [h16, decide_false, Bool.not_false, Bool.true_and, Bool.false_and, Bool.or_false]
    rw [show 48 - s + (k - 16) = 32 - s + k by omega]

theorem low_mask (c : BitVec 64) {n : Nat} (hn : n < 64) (k : Nat) : (c &&& BitVec.ofNat 64 (2 ^ n - 1)).getLsbD k = (decide (k < n) && c.getLsbD k) := by
  rw [BitVec.getLsbD_and, BitVec.getLsbD_ofNat, Nat.testBit_two_pow_sub_one]
  by_cases h : k < n
  · simp [h, show k < 64 by omega, -BitVec.getLsbD_eq_getElem]
  · simp [h]

/-- Joining the high part and the rest. -/
theorem join {c : BitVec 64} {n : Nat} (hn : n < 64) : (c.sshiftRight n <<< n) ||| (c &&& BitVec.ofNat 64 (2 ^ n - 1)) = c := by
  apply BitVec.eq_of_getLsbD_eq
  intro k hk
  rw [BitVec.getLsbD_or, low_mask c hn, BitVec.getLsbD_shiftLeft, BitVec.getLsbD_sshiftRight]
  by_cases h : k < n
  · simp [h, hk]
  · simp [h, hk, -BitVec.getLsbD_eq_getElem, show ¬ (64 ≤ k - n) by omega, show n + (k - n) = k by omega]

/-- A constant without low bits. -/
theorem join0 {c : BitVec 64} {n : Nat} (hn : n < 64) (h : ∀ k, k < n → c.getLsbD k = false) : c.sshiftRight n <<< n = c := by
  have : c &&& BitVec.ofNat 64 (2 ^ n - 1) = 0#64 := by
    apply BitVec.eq_of_getLsbD_eq
    intro k hk
    rw [low_mask c hn]
    by_cases hk : k < n
    · simp [h k hk]
    · simp [hk]
  have e := join (c := c) hn
  rwa [this, BitVec.or_zero] at e

theorem imm_join (v : BitVec 64) (h : v.toNat < 2 ^ 32) :
    (((v >>> 16).setWidth 32).setWidth 16).setWidth 64 <<< 16 ||| ((IMM v).setWidth 16).setWidth 64 = v := by
  have hz := bits_lt (x := v) (n := 32) h
  bits64 [IMM, hz]

theorem zext16 (v : BitVec 64) (h : v.toNat < 2 ^ 16) : ((v.setWidth 32).setWidth 16).setWidth 64 = v := by
  have hz := bits_lt (x := v) (n := 16) h
  bits64 [hz]

theorem imm_hi (v : BitVec 64) : IMM (v >>> 48) = (v >>> 48).setWidth 32 := by
  bits64 [IMM]

theorem loadWide_run {reg : Nat} {c : BitVec 64} {s : Nat} (hs : s ≤ 31) (hc : ∀ k, 63 - s ≤ k → k < 64 → c.getLsbD k = c.getLsbD 63) (x : Regs) :
    run (loadWide reg c s) x = some (put x (regMap reg) c) := by
  unfold loadWide
  simp only
  split
  next h =>
    have hz := zero_bits64 h
    rw [run_ADDI (half_hi _), run_sldi (by omega)]
    simp only [run, put_self, put_put]
    refine fin ?_
    rw [high16 (by omega) hc, show 63 - (s + 15) = 48 - s by omega]
    refine join0 (by omega) fun k hk => ?_
    have := hz (k + s) (by
      have : k + s < 48 := by omega
      generalize k + s = j at this
      interval_cases j <;> rfl)
    simpa [-BitVec.getLsbD_eq_getElem, show k + s < 64 by omega] using this
  next =>
  split
  next h =>
    have hz := zero_bits64 h
    rw [run_ADDIS (half_hi _), run_ORI (half_imm _), run_sldi (by omega)]
    simp only [run, put_self, put_put]
    refine fin ?_
    rw [high32 (by omega) hc, show 63 - (s + 31) = 32 - s by omega]
    refine join0 (by omega) fun k hk => ?_
    have := hz (k + s) (by
      have : k + s < 32 := by omega
      generalize k + s = j at this
      interval_cases j <;> rfl)
    simpa [-BitVec.getLsbD_eq_getElem, show k + s < 64 by omega] using this
  next =>
  rw [show 63 - (s + 15) = 48 - s by omega]
  have hj := join (c := c) (n := 48 - s) (by omega)
  have hm := low_mask c (n := 48 - s) (by omega)
  generalize c &&& BitVec.ofNat 64 (2 ^ (48 - s) - 1) = t at hj hm ⊢
  split
  next h =>
    have ht : t.toNat < 2 ^ 16 := by have : t.toNat ≤ 65535 := h; omega
    rw [run_ADDI (half_hi _), run_sldi (by omega), run_ORI (half_lt ht)]
    simp only [run, put_self, put_put]
    refine fin ?_
    rw [high16 (by omega) hc, show 63 - (s + 15) = 48 - s by omega, zext16 t ht, hj]
  next =>
  split
  next h =>
    have ht : t.toNat < 2 ^ 32 := by have : t.toNat ≤ 4294967295 := h; omega
    have hh : Half ((t >>> 16).setWidth 32) := half_lt (by rw [BitVec.toNat_ushiftRight, Nat.shiftRight_eq_div_pow]; omega)
    simp only [List.cons_append, List.nil_append]
    rw [imm_hi, run_ADDI (half_hi _), run_sldi (by omega), run_ORIS hh]
    simp only [put_self, put_put]
    rw [high16 (by omega) hc, show 63 - (s + 15) = 48 - s by omega]
    split
    next =>
      rw [run_ORI (half_imm _)]
      simp only [run, put_self, put_put]
      refine fin ?_
      rw [BitVec.or_assoc, imm_join t ht, hj]
    next h0 =>
      have hz := zero_bits64 (Classical.not_not.mp h0)
      simp only [run]
      refine fin ?_
      have : (IMM t).setWidth 16 = 0#16 := by
        apply BitVec.eq_of_getLsbD_eq
        intro k hk
        have h1 := hz k (by interval_cases k <;> rfl)
        have h2 := hm k
        rw [h1, Bool.and_false] at h2
        interval_cases k <;> simpa [-BitVec.getLsbD_eq_getElem, IMM] using h2
      have e := imm_join t ht
      rw [this] at e
      rw [show (0#16).setWidth 64 = 0#64 from rfl, BitVec.or_zero] at e
      rw [e, hj]
  next ht =>
  have ht' : ¬ t.toNat < 2 ^ 32 := fun h => ht (by show t.toNat ≤ 4294967295; omega)
  have hne : t ≠ 0#64 := by rintro rfl; exact ht' (by simp)
  obtain ⟨hl, hb, hz⟩ := clz_spec hne
  generalize cntlzd t = z at hl hb hz ⊢
  have hz1 : z ≤ 31 := by
    by_contra hcon
    apply ht'
    refine Nat.lt_pow_two_of_testBit _ fun i hi => ?_
    rw [BitVec.testBit_toNat]
    exact hz i (by omega)
  have hz2 : 16 + s ≤ z := by
    rw [hm] at hb
    simp only [Bool.and_eq_true, decide_eq_true_eq] at hb
    omega
  split
  next h =>
    have h48 := zero_bits64 h
    rw [run_ADDI (half_hi _), run_sldi (by omega), run_ORI (half_hi _), run_sldi (by omega)]
    simp only [run, put_self, put_put]
    refine fin ?_
    rw [high16 (by omega) hc, show 63 - (s + 15 + (63 - (z + 15))) = z - s by omega, show 63 - (z + 15) = 48 - z by omega]
    refine Eq.trans ?_ hj
    apply BitVec.eq_of_getLsbD_eq
    intro k hk
    have hlow : k < 48 - z → t.getLsbD k = false := by
      intro hk'
      have := h48 (k + z) (by
        have : k + z < 48 := by omega
        generalize k + z = j at this
        interval_cases j <;> rfl)
      simpa [-BitVec.getLsbD_eq_getElem, show k + z < 64 by omega] using this
    simp only [BitVec.getLsbD_or, BitVec.getLsbD_shiftLeft, BitVec.getLsbD_setWidth, BitVec.getLsbD_ushiftRight, hk, decide_true, Bool.true_and]
    by_cases h1 : k < 48 - z
    · simp only [h1, decide_true, Bool.not_true, Bool.false_and, hlow h1, Bool.or_false, show k < 48 - s by omega]
    · simp only [h1, decide_false, Bool.not_false, Bool.true_and, show k - (48 - z) < 64 by omega, show k - (48 - z) < 32 ∨ ¬ (k - (48 - z) < 32) by omega, decide_true]
      have e1 : k - (48 - z) - (z - s) = k - (48 - s) := by omega
      have e2 : 48 + (k - (48 - z)) - z = k := by omega
      have e3 : (k - (48 - z) < z - s) ↔ k < 48 - s := by omega
      simp only [e1, e2, e3]
      refine congrArg₂ _ ?_ ?_
      · by_cases h3 : k < 48 - s <;> simp [h3]
      by_cases h2 : k - (48 - z) < 16
      · simp only [h2, show k - (48 - z) < 32 by omega, show 48 + (k - (48 - z)) < 64 by omega, show ¬ (48 + (k - (48 - z)) < z) by omega, decide_true, decide_false,
          Bool.not_false, Bool.true_and]
      · simp only [h2, decide_false, Bool.false_and]
        exact (hz k (by omega)).symm
  next =>
    rw [run_ADDIS (half_hi _), run_ORI (half_imm _), run_sldi (by omega), run_ORIS (half_imm _), run_ORI (half_imm _)]
    simp only [run, put_self, put_put]
    refine fin ?_
    bits64 [IMM, BitVec.getLsbD_sshiftRight, BitVec.getLsbD_signExtend, BitVec.msb_eq_getLsbD_last]

theorem loadImmediate_run {reg : Nat} (c : BitVec 64) (x : Regs) (hx : x (regMap TMP_ZERO) = 0#64) :
    ∃ ws, loadImmediate reg c = some ws ∧ run ws x = some (put x (regMap reg) c) := by
  unfold loadImmediate
  have hlow : ∀ (v : BitVec 64) (y : Regs), (∀ k, k < 16 → v.getLsbD k = false) → (∀ k, 16 ≤ k → k < 64 → v.getLsbD k = c.getLsbD k) →
      run (if c &&& 0xffff#64 ≠ 0#64 then [ORI ||| S reg ||| A reg ||| IMM c] else []) (put y (regMap reg) v) = some (put y (regMap reg) c) := by
    intro v y h1 h2
    split
    next =>
      rw [run_ORI (half_imm _)]
      simp only [run, put_self, put_put]
      refine fin ?_
      bits64 [IMM, h1, h2]
    next h0 =>
      have hz := zero_bits64 (Classical.not_not.mp h0)
      have hz' : ∀ k, k < 16 → c.getLsbD k = false := fun k hk => hz k (by interval_cases k <;> rfl)
      simp only [run]
      refine fin ?_
      apply BitVec.eq_of_getLsbD_eq
      intro k hk
      by_cases h : k < 16
      · rw [h1 k h, hz' k h]
      · exact h2 k (by omega) hk
  split
  next h =>
    have hr := bits_sle h 15
    refine ⟨_, rfl, ?_⟩
    rw [run_ADDI (half_imm _)]
    simp only [run]
    refine fin ?_
    bits64 [BitVec.getLsbD_signExtend, BitVec.msb_eq_getLsbD_last, hr, IMM]
  next =>
  split
  next h =>
    have hb : ∀ k, k < 64 → 16 ≤ k → c.getLsbD k = false := by
      intro k hk hk'
      have := congrArg (fun v => v.getLsbD (k - 16)) h
      simpa [-BitVec.getLsbD_eq_getElem, show 16 + (k - 16) = k by omega] using this
    refine ⟨_, rfl, ?_⟩
    rw [run_ORI (half_imm _), hx]
    simp only [run]
    refine fin ?_
    bits64 [hb, IMM]
  next =>
  simp only
  split
  next h =>
    have hr := bits_sle h 31
    refine ⟨_, rfl, ?_⟩
    rw [run_ADDIS (half_imm _)]
    refine hlow _ x ?_ ?_
    · intro k hk; interval_cases k <;> simp [-BitVec.getLsbD_eq_getElem]
    · intro k hk hk'
      interval_cases k <;> simp [-BitVec.getLsbD_eq_getElem, BitVec.getLsbD_signExtend, BitVec.msb_eq_getLsbD_last, hr, IMM, BitVec.getLsbD_sshiftRight]
  next hr32 =>
  split
  next h =>
    have hb : ∀ k, k < 64 → 32 ≤ k → c.getLsbD k = false := by
      intro k hk hk'
      have := congrArg (fun v => v.getLsbD (k - 32)) h
      simpa [-BitVec.getLsbD_eq_getElem, show 32 + (k - 32) = k by omega] using this
    refine ⟨_, rfl, ?_⟩
    rw [run_ORIS (half_imm _), hx]
    refine hlow _ x ?_ ?_
    · intro k hk; interval_cases k <;> simp [-BitVec.getLsbD_eq_getElem]
    · intro k hk hk'
      interval_cases k <;> simp [-BitVec.getLsbD_eq_getElem, hb, IMM, BitVec.getLsbD_sshiftRight]
  next hu32 =>
    generalize hv : (if (0#64).sle c then c else ~~~ c) = v
    have hc63 : (0#64).sle c = !c.getLsbD 63 := by
      rw [show c.getLsbD 63 = c.msb by rw [BitVec.msb_eq_getLsbD_last]]
      rw [BitVec.sle_eq_not_slt, BitVec.slt_zero_eq_msb]
    have hvb : ∀ k, k < 64 → v.getLsbD k = (c.getLsbD k != c.getLsbD 63) := by
      intro k hk
      rw [← hv, hc63]
      cases h63 : c.getLsbD 63 with
      | false => simp [-BitVec.getLsbD_eq_getElem]
      | true => simp [-BitVec.getLsbD_eq_getElem, hk]
    have hv63 : v.getLsbD 63 = false := by rw [hvb 63 (by omega)]; simp
    -- some bit above 30 is set
    have hbig : ∃ k, 31 ≤ k ∧ k < 64 ∧ v.getLsbD k = true := by
      by_contra hcon
      have hall : ∀ k, 31 ≤ k → k < 64 → c.getLsbD k = c.getLsbD 63 := by
        intro k hk hk'
        by_contra hne
        exact hcon ⟨k, hk, hk', by rw [hvb k hk']; simpa using hne⟩
      apply hr32
      have e : c = (c.setWidth 32).signExtend 64 := by
        apply BitVec.eq_of_getLsbD_eq
        intro k hk
        simp only [BitVec.getLsbD_signExtend, BitVec.msb_eq_getLsbD_last, BitVec.getLsbD_setWidth, hk, decide_true, Bool.true_and]
        split
        next h => simp [h, -BitVec.getLsbD_eq_getElem]
        next h => rw [hall k (by omega) hk]; simp [-BitVec.getLsbD_eq_getElem, hall 31 (by omega) (by omega)]
      rw [sle_iff, sle_iff, e, BitVec.toInt_signExtend_of_le (by omega)]
      have := BitVec.toInt_lt (x := c.setWidth 32)
      have := BitVec.le_toInt (x := c.setWidth 32)
      have e1 : (0x7fffffff#64).toInt = 2147483647 := by decide
      have e2 : (-0x80000000#64).toInt = -2147483648 := by decide
      omega
    have hne : v ≠ 0#64 := by
      rintro rfl
      obtain ⟨k, _, _, h⟩ := hbig
      simp at h
    obtain ⟨hl, hb, hz⟩ := clz_spec hne
    generalize cntlzd v = z at hl hb hz ⊢
    have hz0 : z ≠ 0 := by rintro rfl; rw [hv63] at hb; exact absurd hb (by decide)
    have hz1 : z ≤ 32 := by
      obtain ⟨k, h1, h2, h3⟩ := hbig
      by_contra hcon
      rw [hz k (by omega)] at h3
      exact absurd h3 (by decide)
    rw [if_neg hz0]
    refine ⟨_, rfl, loadWide_run (by omega) ?_ x⟩
    intro k hk hk'
    have := hvb k hk'
    rw [hz k (by omega)] at this
    simpa using this.symm

end Verif.Imm.Ppc
