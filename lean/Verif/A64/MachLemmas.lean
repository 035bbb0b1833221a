import Verif.A64.Mach
import Verif.A64.Steps

/-! # The A64 machine with a program counter (helper lemmas) -/

namespace Verif.A64
open Verif.Imm.A64 (fld bitMask)
open Verif.Imm.Arm64 (regMap RD RN TMP_ZERO W_OP ORRI)

/-- Part of a field. -/
theorem fld_sub {w : BitVec 32} {a n : Nat} {v : BitVec n} (h : fld w a n = v) (b m : Nat) (h1 : a ≤ b) (h2 : b + m ≤ a + n) :
    fld w b m = v.extractLsb' (b - a) m := by
  subst h
  apply BitVec.eq_of_getLsbD_eq
  intro k hk
  rw [fld_bit _ _ _ _ hk, BitVec.getLsbD_extractLsb', fld_bit _ _ _ _ (by omega)]
  simp only [hk, decide_true, Bool.true_and]
  congr 1; omega

/-- Plain instructions are neither control instructions nor transfers. -/
theorem ctl_not {w : BitVec 32} {i : Inst} (h : decode w = some i) : ctl w = none := by
  unfold ctl
  unfold decode at h
  split at h
  · rename_i h4
    rw [if_neg (fun e => by have := fld_sub e 26 3 (by omega) (by omega); rw [h4] at this; revert this; decide)]
    rw [if_neg (fun e => by have := fld_sub e 26 3 (by omega) (by omega); rw [h4] at this; revert this; decide)]
    rw [if_neg (fun e => by have := fld_sub e 26 3 (by omega) (by omega); rw [h4] at this; revert this; decide)]
    rw [if_neg, if_neg (fun e => by have := fld_sub e.1 26 3 (by omega) (by omega); rw [h4] at this; revert this; decide),
      if_neg (fun e => by have := fld_sub e.1 26 3 (by omega) (by omega); rw [h4] at this; revert this; decide),
      if_neg (fun e => by have := fld_sub e.1 26 3 (by omega) (by omega); rw [h4] at this; revert this; decide),
      if_neg (fun e => by rw [e] at h4; revert h4; decide)]
    intro e
    have e2 : fld w 24 2 = 0#2 := fld_sub e 24 2 (by omega) (by omega)
    have e3 : (fld w 23 3).toNat = 0 ∨ (fld w 23 3).toNat = 1 := by
      have h1 : (fld w 23 3).extractLsb' 1 2 = 0#2 := (fld_sub (rfl : fld w 23 3 = _) 24 2 (by omega) (by omega)).symm.trans e2
      revert h1; generalize fld w 23 3 = x; revert x; decide
    unfold decodeImm at h
    rcases e3 with e3 | e3 <;> rw [e3] at h <;> exact absurd h (by simp)
  · split at h
    · rename_i h4
      rw [if_neg (fun e => by have e1 := fld_sub e 26 2 (by omega) (by omega); have e2 := fld_sub h4 26 2 (by omega) (by omega); rw [e2] at e1; revert e1; decide)]
      rw [if_neg (fun e => by have := fld_sub e 25 3 (by omega) (by omega); rw [h4] at this; revert this; decide)]
      rw [if_neg (fun e => by have := fld_sub e 25 3 (by omega) (by omega); rw [h4] at this; revert this; decide)]
      rw [if_neg (fun e => by have := fld_sub e 25 3 (by omega) (by omega); rw [h4] at this; revert this; decide)]
      rw [if_neg (fun e => by have := fld_sub e.1 25 3 (by omega) (by omega); rw [h4] at this; revert this; decide),
        if_neg (fun e => by have := fld_sub e.1 25 3 (by omega) (by omega); rw [h4] at this; revert this; decide),
        if_neg (fun e => by have := fld_sub e.1 25 3 (by omega) (by omega); rw [h4] at this; revert this; decide),
        if_neg (fun e => by rw [e] at h4; revert h4; decide)]
    · split at h
      · rename_i h4
        obtain ⟨h4, h5⟩ := h4
        rw [if_neg (fun e => by have e1 := fld_sub e 27 3 (by omega) (by omega); rw [h4] at e1; revert e1; decide)]
        rw [if_neg (fun e => by have := fld_sub e 27 3 (by omega) (by omega); rw [h4] at this; revert this; decide)]
        rw [if_neg (fun e => by have := fld_sub e 27 3 (by omega) (by omega); rw [h4] at this; revert this; decide)]
        rw [if_neg (fun e => by have e1 := fld_sub e 27 2 (by omega) (by omega); have e2 := fld_sub h4 27 2 (by omega) (by omega); rw [e2] at e1; revert e1; decide)]
        rw [if_neg (fun e => by have := fld_sub e.1 27 3 (by omega) (by omega); rw [h4] at this; revert this; decide),
          if_neg (fun e => by have := fld_sub e.1 27 3 (by omega) (by omega); rw [h4] at this; revert this; decide),
          if_neg (fun e => by have := fld_sub e.1 27 3 (by omega) (by omega); rw [h4] at this; revert this; decide),
          if_neg (fun e => by rw [e] at h4; revert h4; decide)]
      · exact absurd h (by simp)

theorem xfer_not {w : BitVec 32} {i : Inst} (h : decode w = some i) : xfer w = none := by
  unfold xfer
  unfold decode at h
  split at h
  · rename_i h4
    rw [if_neg (fun e => by have e1 := fld_sub e.1 27 2 (by omega) (by omega); have e2 := fld_sub h4 27 2 (by omega) (by omega); rw [e2] at e1; revert e1; decide)]
    rw [if_neg (fun e => by have := fld_sub e 26 3 (by omega) (by omega); rw [h4] at this; revert this; decide),
      if_neg (fun e => by have := fld_sub e.1 26 3 (by omega) (by omega); rw [h4] at this; revert this; decide)]
  · split at h
    · rename_i h4
      rw [if_neg (c := fld w 23 9 = 0x1fa#9) (fun e => by have := fld_sub e 25 3 (by omega) (by omega); rw [h4] at this; revert this; decide),
        if_neg (c := fld w 23 9 = 0x1f0#9 ∧ _) (fun e => by have := fld_sub e.1 25 3 (by omega) (by omega); rw [h4] at this; revert this; decide)]
      have hb : (fld w 23 3).extractLsb' 2 1 = 1#1 := (fld_sub (rfl : fld w 23 3 = _) 25 1 (by omega) (by omega)).symm.trans (fld_sub h4 25 1 (by omega) (by omega))
      have hm : xferIdx (fld w 23 3) = none := by
        revert hb; generalize fld w 23 3 = x; revert x; decide
      rw [hm]
      exact ite_self _
    · split at h
      · rename_i h4
        obtain ⟨h4, h5⟩ := h4
        rw [if_neg (fun e => by rw [h4] at e; exact absurd e.1 (by decide)),
          if_neg (fun e => by have := fld_sub e 25 2 (by omega) (by omega); rw [h5] at this; revert this; decide)]
        rw [if_neg]
        rintro ⟨e1, e2, e3⟩
        have e4 : bit w 24 = false := by
          have := congrArg (fun x : BitVec 9 => x.getLsbD 1) e1
          simp only [fld_bit w 23 9 1 (by omega)] at this
          exact this
        rw [decodeMem, e4, e2] at h
        simp only [Bool.false_eq_true, if_false] at h
        rw [if_neg] at h
        · exact absurd h (by simp)
        · intro e
          have := congrArg (fun x : BitVec 2 => x.getLsbD 0) e
          simp only [fld_bit w 10 2 0 (by omega)] at this
          rw [bit] at e3
          rw [show 10 + 0 = 10 from rfl, e3] at this
          exact absurd this (by decide)
      · exact absurd h (by simp)

end Verif.A64
