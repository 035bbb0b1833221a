import Verif.Imm.PpcLemmas
import Verif.Imm.Mips

/-! # load_immediate of MIPS64 (helper lemmas) -/

namespace Verif.Imm.Mips
open Mi
open Ppc (low_mask join join0)

/-- The k highest bits. -/
def Top (mask : BitVec 64) (k : Nat) : Prop := ∀ i, i < 64 → mask.getLsbD i = decide (64 ≤ i + k)

theorem top_ff : Top 0xff00000000000000#64 8 := by intro i hi; interval_cases i <;> rfl
theorem top_f : Top 0xf000000000000000#64 4 := by intro i hi; interval_cases i <;> rfl
theorem top_c : Top 0xc000000000000000#64 2 := by intro i hi; interval_cases i <;> rfl
theorem top_8 : Top 0x8000000000000000#64 1 := by intro i hi; interval_cases i <;> rfl

/-- The value is v shifted left by t, and no bit was lost. -/
def Inv (v : BitVec 64) (p : BitVec 64 × Nat) : Prop := p.1 = v <<< p.2 ∧ ∀ k, k < 64 → 64 ≤ k + p.2 → v.getLsbD k = false

theorem Inv.shift {v u : BitVec 64} {t k : Nat} {mask : BitVec 64} (hm : Top mask k) (hk : k ≤ 64) (h : Inv v (u, t)) (hz : u &&& mask = 0#64) :
    Inv v (u <<< k, t + k) := by
  obtain ⟨h1, h2⟩ := h
  simp only at h1 h2
  refine ⟨?_, ?_⟩
  · simp only; rw [h1, BitVec.shiftLeft_add]
  · intro i hi hik
    simp only at hik
    by_cases h : 64 ≤ i + t
    · exact h2 i hi h
    · have := zero_bits64 hz (i + t) (by rw [hm _ (by omega)]; simp; omega)
      rw [h1] at this
      simpa [-BitVec.getLsbD_eq_getElem, show i + t < 64 by omega] using this

theorem Inv.step {v : BitVec 64} {p : BitVec 64 × Nat} {k : Nat} {mask : BitVec 64} (hm : Top mask k) (hk : k ≤ 64) (h : Inv v p) : Inv v (Mips.step mask k p) := by
  unfold Mips.step
  split
  next hz => exact Inv.shift hm hk h hz
  next => exact h

/-- A step keeps a bit in the upper part, which halves. -/
theorem top_step {mask mask' : BitVec 64} {k : Nat} {p : BitVec 64 × Nat} (hk : Top mask k) (hm : Top mask' (2 * k)) (h0 : k ≤ 32) (h : p.1 &&& mask' ≠ 0#64) :
    (Mips.step mask k p).1 &&& mask ≠ 0#64 := by
  unfold Mips.step
  split
  next hz =>
    intro hz2
    apply h
    have z1 := zero_bits64 hz
    have z2 := zero_bits64 hz2
    apply BitVec.eq_of_getLsbD_eq
    intro i hi
    rw [BitVec.getLsbD_and, hm i hi]
    by_cases h2k : 64 ≤ i + 2 * k
    · by_cases h1k : 64 ≤ i + k
      · rw [z1 i (by rw [hk i hi]; simpa using h1k)]; simp
      · have := z2 (i + k) (by rw [hk _ (by omega)]; simp; omega)
        simp only [BitVec.getLsbD_shiftLeft] at this
        simp only [show i + k < 64 by omega, decide_true, Bool.true_and, show ¬ (i + k < k) by omega, decide_false, Bool.not_false,
          Nat.add_sub_cancel] at this
        rw [this]; simp
    · simp [h2k]
  next hz => exact hz

/-- The loop ends if the value has a bit. -/
theorem skip_some {v mask : BitVec 64} {k : Nat} (hm : Top mask k) (hk : k ≤ 64) (hk0 : 0 < k) (hv : v ≠ 0#64) (fuel : Nat) :
    ∀ u t, Inv v (u, t) → 64 < t + k * fuel → ∃ p, skip mask k fuel u t = some p ∧ Inv v p ∧ p.1 &&& mask ≠ 0#64 := by
  induction fuel with
  | zero =>
    intro u t h hf
    exfalso
    apply hv
    apply BitVec.eq_of_getLsbD_eq
    intro i hi
    rw [h.2 i hi (by simp only; omega)]
    simp
  | succ n ih =>
    intro u t h hf
    unfold skip
    split
    next hz => exact ih _ _ (Inv.shift hm hk h hz) (by rw [Nat.mul_succ] at hf; omega)
    next hz => exact ⟨_, rfl, h, hz⟩

theorem top1_bit {u : BitVec 64} (h : u &&& 0x8000000000000000#64 ≠ 0#64) : u.getLsbD 63 = true := by
  by_contra hf
  apply h
  have : u.getLsbD 63 = false := by simpa using hf
  apply BitVec.eq_of_getLsbD_eq
  intro i hi
  rw [BitVec.getLsbD_and, top_8 i hi]
  by_cases h : i = 63
  · rw [h, this]; simp
  · simp; omega

theorem put_put (x : Regs) (d a b) : put (put x d a) d b = put x d b := by funext q; simp only [put]; split <;> rfl
theorem rd_put {d : BitVec 5} (hd : d ≠ 0#5) (x : Regs) (a) : rd (put x d a) d = a := by simp [rd, put, hd]
theorem fin {x : Regs} {r : BitVec 5} {a b : BitVec 64} (h : a = b) : some (put x r a) = some (put x r b) := by rw [h]

theorem dec_i {opc : BitVec 6} (s t : BitVec 5) (v : BitVec 64) (w) (hw : w = opc.setWidth 32 <<< 26 ||| s.setWidth 32 <<< 21 ||| t.setWidth 32 <<< 16 ||| IMM v) :
    fld w 26 6 = opc ∧ fld w 21 5 = s ∧ fld w 16 5 = t ∧ fld w 0 16 = v.setWidth 16 := by
  subst hw
  refine ⟨?_, ?_, ?_, ?_⟩ <;> bits64 [fld, IMM]

theorem run_ORI {s d : BitVec 5} (hd : d ≠ 0#5) (v : BitVec 64) (ws x) :
    run ((ORI ||| SA s ||| TA d ||| IMM v) :: ws) x = run ws (put x d (rd x s ||| (v.setWidth 16).setWidth 64)) := by
  obtain ⟨h1, h2, h3, h4⟩ := dec_i (opc := 13#6) s d v _ rfl
  have e : ORI ||| SA s ||| TA d ||| IMM v = (13#6).setWidth 32 <<< 26 ||| s.setWidth 32 <<< 21 ||| d.setWidth 32 <<< 16 ||| IMM v := rfl
  rw [← e] at h1 h2 h3 h4
  simp only [run, decode, h1, h2, h3, h4, if_true, Option.bind_some, exec, show ¬ (13#6 = 9#6) by decide, if_false, hd]

theorem run_LUI {d : BitVec 5} (hd : d ≠ 0#5) (v : BitVec 64) (ws x) :
    run ((LUI ||| TA d ||| IMM v) :: ws) x = run ws (put x d ((v.setWidth 16).signExtend 64 <<< 16)) := by
  obtain ⟨h1, h2, h3, h4⟩ := dec_i (opc := 15#6) 0#5 d v _ rfl
  have e : LUI ||| TA d ||| IMM v = (15#6).setWidth 32 <<< 26 ||| (0#5).setWidth 32 <<< 21 ||| d.setWidth 32 <<< 16 ||| IMM v := by
    simp [LUI, TA]
  rw [← e] at h1 h2 h3 h4
  simp only [run, decode, h1, h2, h3, h4, if_true, Option.bind_some, exec, show ¬ (15#6 = 9#6) by decide, show ¬ (15#6 = 13#6) by decide, if_false, hd, and_self]

theorem run_ADDIU {d : BitVec 5} (hd : d ≠ 0#5) (v : BitVec 64) (ws x) :
    run ((ADDIU ||| SA 0#5 ||| TA d ||| IMM v) :: ws) x = run ws (put x d ((v.setWidth 16).signExtend 32 |>.signExtend 64)) := by
  obtain ⟨h1, h2, h3, h4⟩ := dec_i (opc := 9#6) 0#5 d v _ rfl
  have e : ADDIU ||| SA 0#5 ||| TA d ||| IMM v = (9#6).setWidth 32 <<< 26 ||| (0#5).setWidth 32 <<< 21 ||| d.setWidth 32 <<< 16 ||| IMM v := rfl
  rw [← e] at h1 h2 h3 h4
  have hr : rd x 0#5 = 0#64 := rfl
  simp only [run, decode, h1, h2, h3, h4, if_true, Option.bind_some, exec, hd, hr]
  simp

theorem run_DSLL {d : BitVec 5} (hd : d ≠ 0#5) {n : Nat} (hn : n < 32) (ws x) :
    run ((DSLL ||| TA d ||| DA d ||| SH_IMM n) :: ws) x = run ws (put x d (rd x d <<< n)) := by
  have hs : SH_IMM n = (BitVec.ofNat 5 n).setWidth 32 <<< 6 := by
    unfold SH_IMM
    congr 1
    apply BitVec.eq_of_toNat_eq
    simp
    omega
  rw [hs]
  have key : ∀ (q : BitVec 5) w, w = DSLL ||| TA d ||| DA d ||| q.setWidth 32 <<< 6 →
      fld w 26 6 = 0#6 ∧ fld w 21 5 = 0#5 ∧ fld w 0 6 = 56#6 ∧ fld w 11 5 = d ∧ fld w 16 5 = d ∧ fld w 6 5 = q := by
    intro q w hw
    subst hw
    refine ⟨?_, ?_, ?_, ?_, ?_, ?_⟩ <;> bits64 [fld, DSLL, TA, DA]
  obtain ⟨f1, f2, f3, f4, f5, f6⟩ := key (BitVec.ofNat 5 n) _ rfl
  have e : (BitVec.ofNat 5 n).toNat = n := by simp; omega
  simp only [run, decode, f1, f2, f3, f4, f5, f6, e, show ¬ (0#6 = 9#6) by decide, show ¬ (0#6 = 13#6) by decide, show ¬ (0#6 = 15#6) by decide, if_false, false_and,
    and_self, if_true, Option.bind_some, exec, hd]

theorem run_DSLL32 {d : BitVec 5} (hd : d ≠ 0#5) (ws x) :
    run ((DSLL32 ||| TA d ||| DA d) :: ws) x = run ws (put x d (rd x d <<< 32)) := by
  generalize hw : DSLL32 ||| TA d ||| DA d = w
  have f1 : fld w 26 6 = 0#6 := by subst hw; bits64 [fld, DSLL32, TA, DA]
  have f2 : fld w 21 5 = 0#5 := by subst hw; bits64 [fld, DSLL32, TA, DA]
  have f3 : fld w 0 6 = 60#6 := by subst hw; bits64 [fld, DSLL32, TA, DA]
  have f4 : fld w 11 5 = d := by subst hw; bits64 [fld, DSLL32, TA, DA]
  have f5 : fld w 16 5 = d := by subst hw; bits64 [fld, DSLL32, TA, DA]
  have f6 : fld w 6 5 = 0#5 := by subst hw; bits64 [fld, DSLL32, TA, DA]
  simp only [run, decode, f1, f2, f3, f4, f5, f6, show ¬ (0#6 = 9#6) by decide, show ¬ (0#6 = 13#6) by decide, show ¬ (0#6 = 15#6) by decide, if_false, false_and,
    and_self, if_true, show ¬ (60#6 = 56#6) by decide, Option.bind_some, exec, hd]
  rfl

/-- The two instructions of the upper word: the upper word of u, sign extended. -/
theorem run_upper {d : BitVec 5} (hd : d ≠ 0#5) (u : BitVec 64) (ws x) : run (upper d u ++ ws) x = run ws (put x d (u.sshiftRight 32)) := by
  unfold upper
  by_cases h : u &&& 0x0000ffff00000000#64 ≠ 0#64
  · rw [if_pos h]
    simp only [List.cons_append, List.nil_append]
    rw [run_LUI hd, run_ORI hd]
    simp only [rd_put hd, put_put]
    refine congrArg (fun v => run ws (put x d v)) ?_
    bits64 [BitVec.getLsbD_sshiftRight, BitVec.getLsbD_signExtend, BitVec.msb_eq_getLsbD_last]
  · rw [if_neg h]
    have hz := zero_bits64 (Classical.not_not.mp h)
    have hz' : ∀ k, 32 ≤ k → k < 48 → u.getLsbD k = false := fun k h1 h2 => hz k (by interval_cases k <;> rfl)
    simp only [List.cons_append, List.nil_append]
    rw [run_LUI hd]
    refine congrArg (fun v => run ws (put x d v)) ?_
    bits64 [BitVec.getLsbD_sshiftRight, BitVec.getLsbD_signExtend, BitVec.msb_eq_getLsbD_last, hz']

/-- The last instruction: a value of 16 bits is inserted. -/
theorem run_lowest {d : BitVec 5} (hd : d ≠ 0#5) {v : BitVec 64} (hv : v.toNat < 2 ^ 16) (x : Regs) (a : BitVec 64) :
    run (lowest d v) (put x d a) = some (put x d (a ||| v)) := by
  have hz := bits_lt hv
  unfold lowest
  split
  next h =>
    have h0 := zero_bits64 h
    have : v = 0#64 := by
      apply BitVec.eq_of_getLsbD_eq
      intro k hk
      by_cases h16 : k < 16
      · rw [h0 k (by interval_cases k <;> rfl)]; simp
      · rw [hz k (by omega)]; simp
    rw [this, BitVec.or_zero]; rfl
  next =>
    rw [run_ORI hd]
    simp only [run, rd_put hd, put_put]
    refine fin ?_
    have : (v.setWidth 16).setWidth 64 = v := by bits64 [hz]
    rw [this]

theorem lt_of_bits {v : BitVec 64} {n : Nat} (h : ∀ k, n ≤ k → k < 64 → v.getLsbD k = false) : v.toNat < 2 ^ n := by
  apply Nat.lt_pow_two_of_testBit
  intro k hk
  rw [BitVec.testBit_toNat]
  by_cases hk2 : k < 64
  · exact h k hk hk2
  · exact BitVec.getLsbD_of_ge _ _ (by omega)

theorem high_zero {v : BitVec 64} (h : v &&& ~~~ 0xffff#64 = 0#64) : v.toNat < 2 ^ 16 :=
  lt_of_bits fun k h1 h2 => zero_bits64 h k (by interval_cases k <;> rfl)

theorem high_bit {v : BitVec 64} (h : v &&& ~~~ 0xffff#64 ≠ 0#64) : ∃ k, 16 ≤ k ∧ k < 64 ∧ v.getLsbD k = true := by
  by_contra hn
  apply h
  apply BitVec.eq_of_getLsbD_eq
  intro k hk
  rw [BitVec.getLsbD_and]
  by_cases h16 : 16 ≤ k
  · have : v.getLsbD k = false := by
      by_contra hc
      exact hn ⟨k, h16, hk, by simpa using hc⟩
    simp [this]
  · have : (~~~ 0xffff#64 : BitVec 64).getLsbD k = false := by
      have : k < 16 := by omega
      interval_cases k <;> rfl
    rw [this, Bool.and_false]; simp

theorem or4 (a b c e : BitVec 32) : a ||| b ||| c ||| e = a ||| c ||| e ||| b := by ac_rfl

theorem loadRest_run {d : BitVec 5} (hd : d ≠ 0#5) {u imm : BitVec 64} {shift : Nat} (h0 : 0 < shift) (h32 : shift ≤ 32)
    (hu : ∀ i, i < shift → u.getLsbD (32 - shift + i) = imm.getLsbD i) (x : Regs) :
    ∃ ws, loadRest d u imm shift = some ws ∧ run ws (put x d (imm.sshiftRight shift)) = some (put x d imm) := by
  unfold loadRest
  dsimp only
  by_cases hz : imm &&& BitVec.ofNat 64 (2 ^ shift - 1) &&& ~~~ 0xffff#64 = 0#64
  · rw [if_pos hz]
    refine ⟨_, rfl, ?_⟩
    have : ∀ ws, run (((if shift = 32 then DSLL32 else DSLL ||| SH_IMM shift) ||| TA d ||| DA d) :: ws) (put x d (imm.sshiftRight shift)) =
        run ws (put x d (imm.sshiftRight shift <<< shift)) := by
      intro ws
      by_cases hs : shift = 32
      · rw [if_pos hs, run_DSLL32 hd, rd_put hd, put_put, hs]
      · rw [if_neg hs]
        rw [or4, run_DSLL hd (by omega), rd_put hd, put_put]
    rw [this, run_lowest hd (high_zero hz), join (by omega)]
  · rw [if_neg hz]
    obtain ⟨q, hq1, hq2, hq⟩ := high_bit hz
    rw [low_mask imm (by omega)] at hq
    have hqs : q < shift := by
      by_contra h
      simp [h] at hq
    have hqi : imm.getLsbD q = true := by simpa [hqs, -BitVec.getLsbD_eq_getElem] using hq
    have hv : ∀ i, i < shift → (u <<< 32).getLsbD (64 - shift + i) = imm.getLsbD i := by
      intro i hi
      rw [BitVec.getLsbD_shiftLeft, ← hu i hi]
      simp only [show 64 - shift + i < 64 by omega, show ¬ (64 - shift + i < 32) by omega, decide_true, decide_false, Bool.not_false, Bool.true_and]
      congr 1
      omega
    generalize hv2 : u <<< 32 = v at hv
    have hv0 : v ≠ 0#64 := by
      intro h
      have := hv q hqs
      rw [hqi, h] at this
      simp at this
    obtain ⟨p, hp, hpi, hpm⟩ := skip_some (mask := 0xf000000000000000#64) (k := 4) top_f (by omega) (by omega) hv0 17 v 0
      ⟨by simp, by intro k hk h; simp only at h; omega⟩ (by omega)
    rw [hp]
    simp only [Option.bind_some]
    have i1 := Inv.step top_c (by omega) hpi
    have m1 := top_step top_c (by exact top_f) (by omega) hpm
    have i2 := Inv.step top_8 (by omega) i1
    have m2 := top_step top_8 (by exact top_c) (by omega) m1
    generalize step 0x8000000000000000#64 1 (step 0xc000000000000000#64 2 p) = r at i2 m2 ⊢
    obtain ⟨u2, z⟩ := r
    obtain ⟨i3, i4⟩ := i2
    simp only at i3 i4 m2 ⊢
    have hzq : 64 - shift + q + z < 64 := by
      by_contra h
      have := i4 (64 - shift + q) (by omega) (by omega)
      rw [hv q hqs, hqi] at this
      simp at this
    have e2 : ((shift : Int) - 16 - z).toNat = shift - 16 - z := by omega
    rw [if_pos ⟨m2, by omega, by omega⟩, e2]
    refine ⟨_, rfl, ?_⟩
    simp only [List.cons_append, List.nil_append]
    rw [run_DSLL hd (by omega), run_ORI hd, run_DSLL hd (by omega)]
    simp only [rd_put hd, put_put]
    rw [run_lowest hd (lt_of_bits (by
      intro k h1 h2
      rw [low_mask _ (by omega)]
      simp [show ¬ (k < shift - 16 - z) by omega]))]
    refine fin ?_
    have eA : imm.sshiftRight shift <<< (shift - (shift - 16 - z)) ||| ((u2 >>> 48).setWidth 16).setWidth 64 = imm.sshiftRight (shift - 16 - z) := by
      apply BitVec.eq_of_getLsbD_eq
      intro i hi
      rw [BitVec.getLsbD_or, BitVec.getLsbD_shiftLeft, BitVec.getLsbD_sshiftRight, BitVec.getLsbD_sshiftRight, BitVec.getLsbD_setWidth,
        BitVec.getLsbD_setWidth, BitVec.getLsbD_ushiftRight, i3, BitVec.getLsbD_shiftLeft]
      simp only [hi, decide_true, Bool.true_and, show ¬ (64 ≤ i) by omega, decide_false, Bool.not_false]
      by_cases h16 : i < 16
      · have := hv (shift - 16 - z + i) (by omega)
        rw [show 64 - shift + (shift - 16 - z + i) = 48 + i - z by omega] at this
        simp only [h16, show i < shift - (shift - 16 - z) by omega, decide_true, Bool.not_true, Bool.false_and, Bool.false_or, Bool.true_and,
          show 48 + i < 64 by omega, show ¬ (48 + i < z) by omega, decide_false, Bool.not_false, this, show shift - 16 - z + i < 64 by omega, if_true]
      · simp only [h16, decide_false, Bool.false_and, Bool.or_false]
        by_cases hn : i < shift - (shift - 16 - z)
        · have := hv (shift - 16 - z + i) (by omega)
          rw [i4 _ (by omega) (by omega)] at this
          simp only [hn, decide_true, Bool.not_true, Bool.false_and, ← this, ite_self]
          simp only [show shift - 16 - z + i < 64 by omega, if_true]
        · simp only [hn, decide_false, Bool.not_false, Bool.true_and, show ¬ (64 ≤ i - (shift - (shift - 16 - z))) by omega,
            show shift + (i - (shift - (shift - 16 - z))) = shift - 16 - z + i by omega]
    rw [eA]
    have eB : imm &&& BitVec.ofNat 64 (2 ^ shift - 1) &&& BitVec.ofNat 64 (2 ^ (shift - 16 - z) - 1) = imm &&& BitVec.ofNat 64 (2 ^ (shift - 16 - z) - 1) := by
      apply BitVec.eq_of_getLsbD_eq
      intro i hi
      rw [low_mask _ (by omega), low_mask _ (by omega), low_mask _ (by omega)]
      by_cases h : i < shift - 16 - z
      · simp [h, show i < shift by omega]
      · simp [h]
    rw [eB, join (by omega)]

theorem loadImmediate_run {d : BitVec 5} (hd : d ≠ 0#5) (imm : BitVec 64) (x : Regs) :
    ∃ ws, loadImmediate d imm = some ws ∧ run ws x = some (put x d imm) := by
  unfold loadImmediate
  split
  next h =>
    refine ⟨_, rfl, ?_⟩
    have hz := bits_lt (high_zero h)
    rw [run_ORI hd]
    simp only [run]
    refine fin ?_
    have hr : rd x 0#5 = 0#64 := rfl
    rw [hr]
    bits64 [hz]
  split
  next h =>
    refine ⟨_, rfl, ?_⟩
    have hb := bits_range (n := 15) (by decide) (x := imm) (by have := h.2; rw [sle_iff] at this; exact Int.le_trans (by decide) this)
      (by have := h.1; rw [slt_iff] at this; exact Int.lt_trans this (by decide))
    rw [run_ADDIU hd]
    simp only [run]
    refine fin ?_
    have hb' : ∀ k, 15 ≤ k → k < 63 → imm.getLsbD k = imm.getLsbD 63 := fun k h1 h2 => hb k h1 (by omega)
    bits64 [BitVec.getLsbD_signExtend, BitVec.msb_eq_getLsbD_last, hb']
  split
  next h =>
    refine ⟨_, rfl, ?_⟩
    have hb := bits_sle h 31
    have hb' : ∀ k, 31 ≤ k → k < 63 → imm.getLsbD k = imm.getLsbD 63 := fun k h1 h2 => hb k h1 (by omega)
    rw [run_LUI hd]
    split
    next =>
      rw [run_ORI hd]
      simp only [run, rd_put hd, put_put]
      refine fin ?_
      bits64 [BitVec.getLsbD_signExtend, BitVec.msb_eq_getLsbD_last, BitVec.getLsbD_sshiftRight, hb']
    next h2 =>
      have hz := zero_bits64 (Classical.not_not.mp h2)
      have hz' : ∀ k, k < 16 → imm.getLsbD k = false := fun k h1 => hz k (by interval_cases k <;> rfl)
      simp only [run]
      refine fin ?_
      bits64 [BitVec.getLsbD_signExtend, BitVec.msb_eq_getLsbD_last, BitVec.getLsbD_sshiftRight, hb', hz']
  next hA hB hC =>
    dsimp only
    generalize hv : (if imm.slt 0#64 = true then ~~~ imm else imm) = v
    have hs : imm.slt 0#64 = imm.getLsbD 63 := by rw [BitVec.slt_zero_eq_msb, BitVec.msb_eq_getLsbD_last]
    have hvb : ∀ i, i < 64 → v.getLsbD i = (imm.getLsbD i ^^ imm.getLsbD 63) := by
      intro i hi
      rw [← hv]
      split
      next h => rw [← hs, h, BitVec.getLsbD_not]; simp [hi]
      next h => rw [← hs, Bool.eq_false_iff.mpr h]; simp
    have h63 : v.getLsbD 63 = false := by rw [hvb 63 (by omega)]; simp
    have hv0 : v ≠ 0#64 := by
      intro h
      apply hC
      have hall : ∀ i, i < 64 → imm.getLsbD i = imm.getLsbD 63 := by
        intro i hi
        have := hvb i hi
        rw [h] at this
        simpa [-BitVec.getLsbD_eq_getElem] using this.symm
      cases hc : imm.getLsbD 63 with
      | false =>
        have : imm = 0#64 := by apply BitVec.eq_of_getLsbD_eq; intro i hi; rw [hall i hi, hc]; simp
        rw [this]; decide
      | true =>
        have : imm = -1#64 := by apply BitVec.eq_of_getLsbD_eq; intro i hi; rw [hall i hi, hc]; interval_cases i <;> rfl
        rw [this]; decide
    obtain ⟨p, hp, hpi, hpm⟩ := skip_some (mask := 0xff00000000000000#64) (k := 8) top_ff (by omega) (by omega) hv0 9 v 0
      ⟨by simp, by intro k hk h; simp only at h; omega⟩ (by omega)
    rw [hp]
    simp only [Option.bind_some]
    have i1 := Inv.step top_f (by omega) hpi
    have m1 := top_step top_f (by exact top_ff) (by omega) hpm
    have i2 := Inv.step top_c (by omega) i1
    have m2 := top_step top_c (by exact top_f) (by omega) m1
    generalize step 0xc000000000000000#64 2 (step 0xf000000000000000#64 4 p) = r at i2 m2 ⊢
    obtain ⟨u, t⟩ := r
    simp only at m2 ⊢
    -- the value after the correction by one
    have hu := i2.1
    have hl := i2.2
    simp only at hu hl
    have hu63 : u.slt 0#64 = u.getLsbD 63 := by rw [BitVec.slt_zero_eq_msb, BitVec.msb_eq_getLsbD_last]
    have hub : ∀ i, i < 64 → u.getLsbD i = (!decide (i < t) && v.getLsbD (i - t)) := by
      intro i hi
      rw [hu, BitVec.getLsbD_shiftLeft]; simp [hi]
    have hfix : ∃ t' : Nat, t' ≤ 62 ∧ (if u.slt 0#64 = true then (u >>> 1, (32 : Int) - t + 1) else (u, 32 - (t : Int))) = (v <<< t', 32 - (t' : Int)) ∧
        (∀ k, k < 64 → 63 ≤ k + t' → v.getLsbD k = false) ∧ v.getLsbD (62 - t') = true := by
      rw [hu63]
      cases hc : u.getLsbD 63 with
      | true =>
        have h1 := hub 63 (by omega)
        rw [hc] at h1
        have ht : ¬ (63 < t) := by intro h; simp [h] at h1
        have ht0 : t ≠ 0 := by intro h; rw [h] at h1; simp [-BitVec.getLsbD_eq_getElem, h63] at h1
        refine ⟨t - 1, by omega, ?_, ?_, ?_⟩
        · simp only [if_true]
          refine Prod.ext ?_ ?_
          · simp only
            apply BitVec.eq_of_getLsbD_eq
            intro i hi
            rw [BitVec.getLsbD_ushiftRight, BitVec.getLsbD_shiftLeft]
            by_cases h : i = 63
            · rw [h, BitVec.getLsbD_of_ge _ _ (by omega), hl (63 - (t - 1)) (by omega) (by omega)]; simp
            · rw [hub _ (by omega)]
              simp only [hi, decide_true, Bool.true_and, show 1 + i - t = i - (t - 1) by omega]
              congr 2
              exact decide_eq_decide.mpr (by omega)
          · simp only; omega
        · intro k hk h; exact hl k hk (by omega)
        · have := h1.symm
          rw [show 62 - (t - 1) = 63 - t by omega]
          simpa [ht, -BitVec.getLsbD_eq_getElem] using this
      | false =>
        have h1 := hub 63 (by omega)
        have hb : u.getLsbD 62 = true := by
          by_contra hf
          apply m2
          apply BitVec.eq_of_getLsbD_eq
          intro i hi
          rw [BitVec.getLsbD_and, top_c i hi]
          by_cases h : 62 ≤ i
          · by_cases he : i = 62
            · rw [he, Bool.eq_false_iff.mpr hf]; simp
            · rw [show i = 63 by omega, hc]; simp
          · simp; omega
        have h2 := hub 62 (by omega)
        rw [hc] at h1
        rw [hb] at h2
        have ht : ¬ (62 < t) := by intro h; simp [h] at h2
        refine ⟨t, by omega, ?_, ?_, ?_⟩
        · simp only [Bool.false_eq_true, if_false, ← hu]
        · intro k hk h
          by_cases he : k + t = 63
          · have := h1.symm
            rw [show 63 - t = k by omega] at this
            simpa [show ¬ (63 < t) by omega, -BitVec.getLsbD_eq_getElem] using this
          · exact hl k hk (by omega)
        · simpa [ht, -BitVec.getLsbD_eq_getElem] using h2.symm
    obtain ⟨n, hn62, hn, hnz, hn1⟩ := hfix
    rw [hn]
    simp only
    have hn31 : n < 32 := by
      by_contra h
      apply hC
      have hlt : v.toNat < 2 ^ 31 := lt_of_bits fun k h1 h2 => hnz k h2 (by omega)
      rw [sle_iff, sle_iff]
      cases hc : imm.slt 0#64 with
      | true =>
        rw [hc, if_pos rfl] at hv
        have hm : imm.msb = true := by rw [← BitVec.slt_zero_eq_msb]; exact hc
        rw [← hv, BitVec.toNat_not] at hlt
        have hlt2 := imm.isLt
        rw [BitVec.toInt_eq_msb_cond, hm]
        simp only [if_true]
        constructor
        · exact Int.le_trans (b := 0) (by omega) (by decide)
        · exact Int.le_trans (b := -2147483648) (by decide) (by omega)
      | false =>
        rw [hc, if_neg (by decide)] at hv
        have hm : imm.msb = false := by rw [← BitVec.slt_zero_eq_msb]; exact hc
        rw [← hv] at hlt
        rw [BitVec.toInt_eq_msb_cond, hm]
        simp only [Bool.false_eq_true, if_false]
        constructor
        · exact Int.le_trans (b := 2147483647) (by omega) (by decide)
        · exact Int.le_trans (b := 0) (by decide) (by omega)
    have hvs : ∀ i, i < 64 → (v <<< n).getLsbD i = (!decide (i < n) && v.getLsbD (i - n)) := by
      intro i hi
      rw [BitVec.getLsbD_shiftLeft]; simp [hi]
    have htop : v <<< n &&& 0xc000000000000000#64 = 0x4000000000000000#64 := by
      apply BitVec.eq_of_getLsbD_eq
      intro i hi
      rw [BitVec.getLsbD_and, top_c i hi]
      by_cases h : 62 ≤ i
      · by_cases he : i = 62
        · subst he
          rw [hvs 62 (by omega), hn1]; simp [show n ≤ 62 by omega]
        · have he : i = 63 := by omega
          subst he
          rw [hvs 63 (by omega), hnz (63 - n) (by omega) (by omega)]; simp
      · simp only [h, show ¬ (64 ≤ i + 2) by omega, decide_false, Bool.and_false]
        have : i < 62 := by omega
        interval_cases i <;> rfl
    rw [if_pos ⟨htop, by omega, by omega⟩]
    have en : ((32 : Int) - n).toNat = 32 - n := by omega
    rw [en]
    generalize hw : (if imm.slt 0#64 = true then ~~~ (v <<< n) else v <<< n) = w
    have hwb : ∀ i, n ≤ i → i < 64 → w.getLsbD i = (v.getLsbD (i - n) ^^ imm.getLsbD 63) := by
      intro i h1 h2
      rw [← hw]
      split
      next h => rw [BitVec.getLsbD_not, hvs i h2, ← hs, h]; simp [h2, show ¬ (i < n) by omega]
      next h => rw [hvs i h2, ← hs, Bool.eq_false_iff.mpr h]; simp [show ¬ (i < n) by omega]
    have hwi : ∀ i, n ≤ i → i < 64 → w.getLsbD i = imm.getLsbD (i - n) := by
      intro i h1 h2
      rw [hwb i h1 h2, hvb _ (by omega)]; simp
    have hsgn : ∀ k, k < 64 → 63 ≤ k + n → imm.getLsbD k = imm.getLsbD 63 := by
      intro k h1 h2
      have := hnz k h1 h2
      rw [hvb k h1] at this
      simpa [-BitVec.getLsbD_eq_getElem] using this
    obtain ⟨ws, e1, e2⟩ := loadRest_run hd (u := w) (imm := imm) (shift := 32 - n) (by omega) (by omega)
      (by intro i hi; rw [hwi _ (by omega) (by omega)]; congr 1; omega) x
    rw [e1]
    refine ⟨_, rfl, ?_⟩
    rw [run_upper hd, ← e2]
    refine congrArg (fun q => run ws (put x d q)) ?_
    apply BitVec.eq_of_getLsbD_eq
    intro i hi
    rw [BitVec.getLsbD_sshiftRight, BitVec.getLsbD_sshiftRight]
    have hm1 : w.msb = imm.getLsbD 63 := by
      rw [BitVec.msb_eq_getLsbD_last, hwi _ (by omega) (by omega)]; exact hsgn _ (by omega) (by omega)
    have hm2 : imm.msb = imm.getLsbD 63 := by rw [BitVec.msb_eq_getLsbD_last]
    rw [hm1, hm2]
    simp only [show ¬ (64 ≤ i) by omega, decide_false, Bool.not_false, Bool.true_and]
    by_cases h : 32 + i < 64
    · rw [if_pos h, hwi _ (by omega) h, if_pos (by omega)]; congr 1; omega
    · rw [if_neg h]
      split
      next h2 => rw [hsgn _ h2 (by omega)]
      next => rfl

end Verif.Imm.Mips
