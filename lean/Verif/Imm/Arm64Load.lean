import Verif.Imm.Arm64Lemmas

/-! # load_immediate of ARM64 (helper lemmas) -/

namespace Verif.Imm.Arm64
open A64

macro "bits" "[" ls:Lean.Parser.Tactic.simpLemma,* "]" : tactic =>
  `(tactic| (apply BitVec.eq_of_getLsbD_eq; intro k hk; interval_cases k <;> simp [-BitVec.getLsbD_eq_getElem, -BitVec.setWidth_eq, $ls,*]))

/-- A move wide word. -/
def wideWord (base : BitVec 32) (r : BitVec 5) (h : BitVec 16) (hw : BitVec 2) : BitVec 32 :=
  base ||| r.setWidth 32 ||| (h.setWidth 32 <<< 5) ||| (hw.setWidth 32 <<< 21)

section
variable (r : BitVec 5) (h : BitVec 16) (hw : BitVec 2)

theorem wide_fields (base : BitVec 32) (hb : base &&& 0x7fffff#32 = 0#32) :
    fld (wideWord base r h hw) 0 5 = r ∧ fld (wideWord base r h hw) 5 16 = h ∧ fld (wideWord base r h hw) 21 2 = hw ∧
    fld (wideWord base r h hw) 23 6 = fld base 23 6 ∧ fld (wideWord base r h hw) 29 2 = fld base 29 2 ∧
    fld (wideWord base r h hw) 31 1 = fld base 31 1 ∧ fld (wideWord base r h hw) 22 1 = hw.extractLsb' 1 1 := by
  have hz : ∀ k, k < 23 → base.getLsbD k = false := by
    intro k hk
    have := congrArg (fun x => x.getLsbD k) hb
    interval_cases k <;> simpa [-BitVec.getLsbD_eq_getElem] using this
  refine ⟨?_, ?_, ?_, ?_, ?_, ?_, ?_⟩ <;> bits [fld, wideWord, hz]

theorem dec_MOVZ : decode (wideWord MOVZ r h hw) = some (.wide 1#1 2#2 hw h r) := by
  obtain ⟨h1, h2, h3, h4, h5, h6, h7⟩ := wide_fields r h hw MOVZ (by decide)
  simp only [decode, h1, h2, h3, h4, h5, h6, h7]; rfl
theorem dec_MOVN : decode (wideWord MOVN r h hw) = some (.wide 1#1 0#2 hw h r) := by
  obtain ⟨h1, h2, h3, h4, h5, h6, h7⟩ := wide_fields r h hw MOVN (by decide)
  simp only [decode, h1, h2, h3, h4, h5, h6, h7]; rfl
theorem dec_MOVK : decode (wideWord MOVK r h hw) = some (.wide 1#1 3#2 hw h r) := by
  obtain ⟨h1, h2, h3, h4, h5, h6, h7⟩ := wide_fields r h hw MOVK (by decide)
  simp only [decode, h1, h2, h3, h4, h5, h6, h7]; rfl
theorem dec_MOVNw (hh : hw.extractLsb' 1 1 = 0#1) : decode (wideWord (MOVN ^^^ W_OP) r h hw) = some (.wide 0#1 0#2 hw h r) := by
  obtain ⟨h1, h2, h3, h4, h5, h6, h7⟩ := wide_fields r h hw (MOVN ^^^ W_OP) (by decide)
  simp only [decode, h1, h2, h3, h4, h5, h6, h7, hh]; rfl

/-- A logical immediate word with the zero register as source. -/
theorem orr_fields (base : BitVec 32) (f : BitVec 13) (hb : base &&& 0x7fffff#32 = 0#32) :
    fld (base ||| r.setWidth 32 ||| RN TMP_ZERO ||| f.setWidth 32 <<< 10) 0 5 = r ∧
    fld (base ||| r.setWidth 32 ||| RN TMP_ZERO ||| f.setWidth 32 <<< 10) 5 5 = 31#5 ∧
    fld (base ||| r.setWidth 32 ||| RN TMP_ZERO ||| f.setWidth 32 <<< 10) 10 13 = f ∧
    fld (base ||| r.setWidth 32 ||| RN TMP_ZERO ||| f.setWidth 32 <<< 10) 23 6 = fld base 23 6 ∧
    fld (base ||| r.setWidth 32 ||| RN TMP_ZERO ||| f.setWidth 32 <<< 10) 29 2 = fld base 29 2 ∧
    fld (base ||| r.setWidth 32 ||| RN TMP_ZERO ||| f.setWidth 32 <<< 10) 31 1 = fld base 31 1 := by
  have hz : ∀ k, k < 23 → base.getLsbD k = false := by
    intro k hk
    have := congrArg (fun x => x.getLsbD k) hb
    interval_cases k <;> simpa [-BitVec.getLsbD_eq_getElem] using this
  have hrn : RN TMP_ZERO = 0x3e0#32 := by decide
  rw [hrn]
  refine ⟨?_, ?_, ?_, ?_, ?_, ?_⟩ <;> bits [fld, hz]

theorem dec_ORR (f : BitVec 13) (m : BitVec 64) (hm : bitMask 1#1 f = some m) :
    decode (ORRI ||| r.setWidth 32 ||| RN TMP_ZERO ||| f.setWidth 32 <<< 10) = some (.logic 1#1 1#2 m 31#5 r) := by
  obtain ⟨h1, h2, h3, h4, h5, h6⟩ := orr_fields r ORRI f (by decide)
  have e : fld ORRI 31 1 = 1#1 := by decide
  simp only [decode, h1, h2, h3, h4, h5, h6, e, hm]; rfl
theorem dec_ORRw (f : BitVec 13) (m : BitVec 64) (hm : bitMask 0#1 f = some m) :
    decode ((ORRI ^^^ W_OP) ||| r.setWidth 32 ||| RN TMP_ZERO ||| f.setWidth 32 <<< 10) = some (.logic 0#1 1#2 m 31#5 r) := by
  obtain ⟨h1, h2, h3, h4, h5, h6⟩ := orr_fields r (ORRI ^^^ W_OP) f (by decide)
  have e : fld (ORRI ^^^ W_OP) 31 1 = 0#1 := by decide
  simp only [decode, h1, h2, h3, h4, h5, h6, e, hm]; rfl
end

/-- The registers after the constant was loaded. -/
def set (x : Regs) (r : BitVec 5) (v : BitVec 64) : Regs := fun q => if q = r then v else x q

theorem put_one (x : Regs) (r v) : put x 1#1 r v = set x r v := by funext q; simp [put, set]
theorem put_zero (x : Regs) (r v) : put x 0#1 r v = set x r ((v.setWidth 32).setWidth 64) := by funext q; simp [put, set]
theorem set_set (x : Regs) (r v w) : set (set x r v) r w = set x r w := by funext q; simp only [set]; split <;> rfl
theorem set_self (x : Regs) (r v) : set x r v r = v := by simp [set]

variable {r : BitVec 5} (hr : r ≠ 31#5) (x : Regs)
include hr

theorem run_MOVZ (h hw ws) : run (wideWord MOVZ r h hw :: ws) x = run ws (set x r (h.setWidth 64 <<< (16 * hw.toNat))) := by
  simp [run, dec_MOVZ, exec, hr, put_one]
theorem run_MOVN (h hw ws) : run (wideWord MOVN r h hw :: ws) x = run ws (set x r (~~~ (h.setWidth 64 <<< (16 * hw.toNat)))) := by
  simp [run, dec_MOVN, exec, hr, put_one]
theorem run_MOVNw (h hw ws) (hh : hw.extractLsb' 1 1 = 0#1) : run (wideWord (MOVN ^^^ W_OP) r h hw :: ws) x =
    run ws (set x r (((~~~ (h.setWidth 64 <<< (16 * hw.toNat))).setWidth 32).setWidth 64)) := by
  simp [run, dec_MOVNw _ _ _ hh, exec, hr, put_zero]
theorem run_MOVK (h hw ws) : run (wideWord MOVK r h hw :: ws) x =
    run ws (set x r ((x r &&& ~~~ ((0xffff#64) <<< (16 * hw.toNat))) ||| (h.setWidth 64 <<< (16 * hw.toNat)))) := by
  simp [run, dec_MOVK, exec, hr, put_one]
theorem run_ORR (f m) (hm : bitMask 1#1 f = some m) : run [ORRI ||| r.setWidth 32 ||| RN TMP_ZERO ||| f.setWidth 32 <<< 10] x = some (set x r m) := by
  simp [run, dec_ORR _ _ _ hm, exec, hr, put_one, A64.get]
theorem run_ORRw (f m) (hm : bitMask 0#1 f = some m) :
    run [(ORRI ^^^ W_OP) ||| r.setWidth 32 ||| RN TMP_ZERO ||| f.setWidth 32 <<< 10] x = some (set x r ((m.setWidth 32).setWidth 64)) := by
  simp [run, dec_ORRw _ _ _ hm, exec, hr, put_zero, A64.get]


/-- The loop over the halfwords.  `c` is the constant (simm is its inverse with `inv`). -/
theorem run_halfLoop (dst : Nat) (hd : regMap dst = r) (inv : Bool) (c : BitVec 64) :
    ∀ n i first (x : Regs) (simm : BitVec 64), n + i = 4 → simm = (if inv then ~~~ c else c).sshiftRight (16 * i) →
    (first = true → ∀ k, k < 16 * i → c.getLsbD k = inv) →
    (first = false → ∀ k, k < 64 → (x r).getLsbD k = if k < 16 * i then c.getLsbD k else inv) →
    (first = true → ∃ k, k < 64 ∧ c.getLsbD k ≠ inv) →
    run (halfLoop inv dst n i first simm) x = some (set x r c) := by
  intro n
  induction n with
  | zero =>
    intro i first x simm hn hs h1 h2 h3
    obtain rfl : i = 4 := by omega
    cases first
    · simp only [halfLoop, run]
      congr 1
      funext q
      simp only [set]
      split
      next h =>
        subst h
        apply BitVec.eq_of_getLsbD_eq
        intro k hk
        rw [h2 rfl k hk, if_pos (by omega)]
      next => rfl
    · obtain ⟨k, hk, hk'⟩ := h3 rfl
      exact absurd (h1 rfl k (by omega)) hk'
  | succ n ih =>
    intro i first x simm hn hs h1 h2 h3
    have hs' : simm.sshiftRight 16 = (if inv then ~~~ c else c).sshiftRight (16 * (i + 1)) := by
      rw [hs, ← BitVec.sshiftRight_add, show 16 * i + 16 = 16 * (i + 1) by omega]
    have hsb : ∀ j, j < 16 → simm.getLsbD j = (inv ^^ c.getLsbD (16 * i + j)) := by
      intro j hj
      rw [hs, BitVec.getLsbD_sshiftRight]
      have : 16 * i + j < 64 := by omega
      have h64 : ¬ 64 ≤ j := by omega
      cases inv <;> simp [-BitVec.getLsbD_eq_getElem, this, h64]
    rw [halfLoop.eq_def]
    simp only
    split
    next hz =>
      have hz' : ∀ j, j < 16 → c.getLsbD (16 * i + j) = inv := by
        intro j hj
        have := and_mask_zero (k := 16) hz j hj
        rw [hsb j hj] at this
        revert this; cases inv <;> cases c.getLsbD (16 * i + j) <;> simp
      refine ih (i + 1) first x _ (by omega) hs' (fun hf k hk => ?_) (fun hf k hk => ?_) h3
      · by_cases hki : k < 16 * i
        · exact h1 hf k hki
        · have := hz' (k - 16 * i) (by omega)
          rwa [show 16 * i + (k - 16 * i) = k by omega] at this
      · rw [h2 hf k hk]
        by_cases hki : k < 16 * i
        · rw [if_pos hki, if_pos (by omega)]
        · rw [if_neg hki]
          split
          · have := hz' (k - 16 * i) (by omega)
            rw [show 16 * i + (k - 16 * i) = k by omega] at this
            exact this.symm
          · rfl
    next hnz =>
      have hi : BitVec.ofNat 32 i <<< 21 = (BitVec.ofNat 2 i).setWidth 32 <<< 21 := by
        have : i < 4 := by omega
        interval_cases i <;> rfl
      have hi' : (BitVec.ofNat 2 i).toNat = i := by
        have : i < 4 := by omega
        interval_cases i <;> rfl
      have hm : ∀ a : BitVec 64, ((a.setWidth 32) &&& 0xffff#32) <<< 5 = (a.setWidth 16).setWidth 32 <<< 5 := by
        intro a; bits []
      have hm' : ∀ a : BitVec 64, ((~~~ (a.setWidth 32)) &&& 0xffff#32) <<< 5 = (~~~ (a.setWidth 16)).setWidth 32 <<< 5 := by
        intro a; bits []
      rw [hi]
      cases first
      · simp only [Bool.false_eq_true, if_false]
        have e : (if inv then ~~~ (simm.setWidth 32) else simm.setWidth 32) &&& 0xffff#32 =
            (if inv then ~~~ (simm.setWidth 16) else simm.setWidth 16).setWidth 32 := by
          cases inv <;> simp only [if_true, Bool.false_eq_true, if_false] <;> bits []
        rw [e, RD, hd]
        show run (wideWord MOVK r _ _ :: _) x = _
        rw [run_MOVK hr, hi']
        rw [ih (i + 1) false _ _ (by omega) hs' (by simp) (fun _ k hk => ?_) (by simp), set_set]
        rw [set_self]
        simp only [BitVec.getLsbD_or, BitVec.getLsbD_and, BitVec.getLsbD_not, BitVec.getLsbD_shiftLeft, hk, decide_true, Bool.true_and,
          h2 rfl k hk, BitVec.getLsbD_setWidth]
        by_cases hki : k < 16 * i
        · simp [hki, show k < 16 * (i + 1) by omega]
        · by_cases hki' : k < 16 * (i + 1)
          · have hff : (0xffff#64).getLsbD (k - 16 * i) = true := by
              rw [show (0xffff#64) = BitVec.ofNat 64 (2 ^ 16 - 1) from rfl, mask_bit]; simp; omega
            have h16 : k - 16 * i < 16 := by omega
            have := hsb (k - 16 * i) h16
            rw [show 16 * i + (k - 16 * i) = k by omega] at this
            cases inv <;> simp [-BitVec.getLsbD_eq_getElem, hki, hki', hff, h16, this, show k - 16 * i < 64 by omega]
          · have hff : (0xffff#64).getLsbD (k - 16 * i) = false := by
              rw [show (0xffff#64) = BitVec.ofNat 64 (2 ^ 16 - 1) from rfl, mask_bit]; simp; omega
            have h16 : ¬ k - 16 * i < 16 := by omega
            have hg : ∀ v : BitVec 16, v.getLsbD (k - 16 * i) = false := fun v => BitVec.getLsbD_of_ge _ _ (by omega)
            simp [-BitVec.getLsbD_eq_getElem, hki, hki', hff, hg]
      · simp only [if_true]
        rw [hm, RD, hd]
        have hfin : ∀ k, k < 64 → (if inv then ~~~ ((simm.setWidth 16).setWidth 64 <<< (16 * i)) else
            (simm.setWidth 16).setWidth 64 <<< (16 * i)).getLsbD k = if k < 16 * (i + 1) then c.getLsbD k else inv := by
          intro k hk
          by_cases hki : k < 16 * i
          · have := h1 rfl k hki
            cases inv <;> simp [-BitVec.getLsbD_eq_getElem, hki, show k < 16 * (i + 1) by omega, this, hk]
          · by_cases hki' : k < 16 * (i + 1)
            · have h16 : k - 16 * i < 16 := by omega
              have := hsb (k - 16 * i) h16
              rw [show 16 * i + (k - 16 * i) = k by omega] at this
              cases inv <;> simp [-BitVec.getLsbD_eq_getElem, hki, hki', h16, this, hk, show k - 16 * i < 64 by omega]
            · have h16 : ¬ k - 16 * i < 16 := by omega
              have hg : ∀ v : BitVec 16, v.getLsbD (k - 16 * i) = false := fun v => BitVec.getLsbD_of_ge _ _ (by omega)
              cases inv <;> simp [-BitVec.getLsbD_eq_getElem, hki, hki', h16, hk]
        cases inv
        · simp only [Bool.false_eq_true, if_false] at hfin ⊢
          show run (wideWord MOVZ r _ _ :: _) x = _
          rw [run_MOVZ hr, hi', ih (i + 1) false _ _ (by omega) hs' (by simp) (fun _ k hk => ?_) (by simp), set_set]
          rw [set_self]; exact hfin k hk
        · simp only [if_true] at hfin ⊢
          show run (wideWord MOVN r _ _ :: _) x = _
          rw [run_MOVN hr, hi', ih (i + 1) false _ _ (by omega) hs' (by simp) (fun _ k hk => ?_) (by simp), set_set]
          rw [set_self]; exact hfin k hk


omit hr in
theorem lo16 {c : BitVec 64} (h : c ≤ 0xffff#64) : (c.setWidth 16).setWidth 64 = c := by
  apply BitVec.eq_of_toNat_eq
  have : c.toNat ≤ 65535 := h
  simp [BitVec.toNat_setWidth]; omega

omit hr in
theorem lo32 {c : BitVec 64} (h : c ≤ 0xffffffff#64) : (c.setWidth 32).setWidth 64 = c := by
  apply BitVec.eq_of_toNat_eq
  have : c.toNat ≤ 4294967295 := h
  simp [BitVec.toNat_setWidth]; omega

omit hr in
theorem bits_of_and {c m v : BitVec 64} (h : c &&& m = v) : ∀ k, k < 64 → m.getLsbD k = true → c.getLsbD k = v.getLsbD k := by
  intro k hk hm
  rw [← h, BitVec.getLsbD_and, hm, Bool.and_true]

omit hr in
/-- A negative number not below -2^m has all bits from m set. -/
theorem neg_bits {c : BitVec 64} {m : Nat} (hm : m < 63) (h0 : c.slt 0#64 = true) (h : (-(BitVec.ofNat 64 (2 ^ m))).sle c = true) :
    ∀ k, m ≤ k → k < 64 → c.getLsbD k = true := by
  intro k hk hk64
  have hc : 2 ^ 64 - 2 ^ m ≤ c.toNat := by
    have hp : 2 ^ m < 2 ^ 63 := Nat.pow_lt_pow_right (by omega) hm
    have hp0 : 0 < 2 ^ m := Nat.two_pow_pos m
    rw [BitVec.slt_iff_toInt_lt] at h0
    rw [BitVec.sle_iff_toInt_le] at h
    have e : (-(BitVec.ofNat 64 (2 ^ m))).toInt = -(2 ^ m : Nat) := by
      rw [BitVec.toInt_neg, BitVec.toInt_ofNat']
      simp only [Int.bmod_def]
      omega
    rw [e] at h
    rw [BitVec.toInt_eq_toNat_cond] at h h0
    simp only [BitVec.toInt_zero] at h0
    have := c.isLt
    split at h0 <;> split at h <;> omega
  have hn : (~~~ c).toNat < 2 ^ k := by
    have := c.isLt
    have hp0 : 0 < 2 ^ m := Nat.two_pow_pos m
    have : 2 ^ m ≤ 2 ^ k := Nat.pow_le_pow_right (by omega) hk
    rw [BitVec.toNat_not]; omega
  have := Nat.testBit_lt_two_pow hn
  have h2 : (~~~ c).getLsbD k = false := this
  rw [BitVec.getLsbD_not] at h2
  simpa [-BitVec.getLsbD_eq_getElem, hk64] using h2

omit hr in
theorem some_set {v w : BitVec 64} (h : v = w) : some (set x r v) = some (set x r w) := by rw [h]

set_option maxHeartbeats 1000000 in
theorem loadImmediate_run (dst : Nat) (hd : regMap dst = r) (c : BitVec 64) :
    ∃ ws, loadImmediate dst c = some ws ∧ run ws x = some (set x r c) := by
  have m5 : ∀ a : BitVec 64, ((a.setWidth 32) &&& 0xffff#32) <<< 5 = (a.setWidth 16).setWidth 32 <<< 5 := by intro a; bits []
  have n5 : ∀ a : BitVec 64, (~~~ (a.setWidth 32) &&& 0xffff#32) <<< 5 = (~~~ (a.setWidth 16)).setWidth 32 <<< 5 := by intro a; bits []
  have m11 : ∀ a : BitVec 64, ((a.setWidth 32) &&& 0xffff0000#32) >>> 11 = ((a >>> 16).setWidth 16).setWidth 32 <<< 5 := by
    intro a; bits []
  have n11 : ∀ a : BitVec 64, (~~~ (a.setWidth 32) &&& 0xffff0000#32) >>> 11 = (~~~ ((a >>> 16).setWidth 16)).setWidth 32 <<< 5 := by
    intro a; bits []
  have w0 : ∀ base h, base ||| r.setWidth 32 ||| ((h : BitVec 16).setWidth 32 <<< 5) = wideWord base r h 0#2 := by
    intro base h; simp [wideWord]
  have w1 : ∀ base h, wideWord base r h 0#2 ||| (1#32 <<< 21) = wideWord base r h 1#2 := by
    intro base h; simp [wideWord]
  unfold loadImmediate
  simp only [RD, hd, m5, n5, m11, n11, w0, w1]
  split
  next h1 =>
    refine ⟨_, rfl, ?_⟩
    have e : c.setWidth 32 <<< 5 = (c.setWidth 16).setWidth 32 <<< 5 := by
      rw [← lo16 h1]; bits []
    rw [e, w0, run_MOVZ hr]
    simp [run, lo16 h1]
  next h1 =>
  split
  next h2 =>
    refine ⟨_, rfl, ?_⟩
    rw [run_MOVN hr]
    simp only [run]
    apply some_set
    have hb := neg_bits (m := 16) (by omega) h2.1 h2.2
    apply BitVec.eq_of_getLsbD_eq
    intro k hk
    by_cases hk16 : k < 16
    · simp [-BitVec.getLsbD_eq_getElem, hk, hk16]
    · rw [hb k (by omega) hk]; simp [-BitVec.getLsbD_eq_getElem, hk, BitVec.getLsbD_of_ge, show 16 ≤ k by omega]
  next h2 =>
  split
  next h3 =>
    split
    next h4 =>
      refine ⟨_, rfl, ?_⟩
      have e : (c >>> 16).setWidth 32 <<< 5 = ((c >>> 16).setWidth 16).setWidth 32 <<< 5 := by
        rw [← lo32 h3]; bits []
      rw [e, w0, w1, run_MOVZ hr]
      simp only [run]
      apply some_set
      have hb := bits_of_and h4
      conv_rhs => rw [← lo32 h3]
      apply BitVec.eq_of_getLsbD_eq
      intro k hk
      have := hb k hk
      interval_cases k <;> simp [-BitVec.getLsbD_eq_getElem] at this ⊢ <;> assumption
    next h4 =>
    split
    next h5 =>
      refine ⟨_, rfl, ?_⟩
      rw [run_MOVNw hr _ _ _ _ (by decide)]
      simp only [run]
      apply some_set
      have hb := bits_of_and h5
      conv_rhs => rw [← lo32 h3]
      apply BitVec.eq_of_getLsbD_eq
      intro k hk
      have := hb k hk
      interval_cases k <;> simp [-BitVec.getLsbD_eq_getElem] at this ⊢ <;> assumption
    next h5 =>
    split
    next h6 =>
      refine ⟨_, rfl, ?_⟩
      rw [run_MOVNw hr _ _ _ _ (by decide)]
      simp only [run]
      apply some_set
      have hb := bits_of_and h6
      conv_rhs => rw [← lo32 h3]
      apply BitVec.eq_of_getLsbD_eq
      intro k hk
      have := hb k hk
      interval_cases k <;> simp [-BitVec.getLsbD_eq_getElem] at this ⊢ <;> assumption
    next h6 =>
      obtain ⟨ins, hi⟩ := logicalImm_some (imm := c) (w := 16) (check := false) (Or.inl ⟨rfl, by
          intro h; apply h4; rw [← lo32 h3, h]; rfl, by
          intro h; apply h6; rw [← lo32 h3, h]; rfl⟩)
      rw [hi]
      refine ⟨_, rfl, ?_⟩
      simp only
      split
      next hne =>
        obtain ⟨f, hf, m, hm, hmb⟩ := logicalImm_sound (Or.inl rfl) hi hne
        rw [hf, run_ORRw hr x f m (by simpa using hm)]
        apply some_set
        rw [← lo32 h3]
        congr 1
        apply BitVec.eq_of_getLsbD_eq
        intro k hk
        have := hmb k (by omega)
        simpa [-BitVec.getLsbD_eq_getElem, hk] using this
      next =>
        rw [run_MOVZ hr, run_MOVK hr, set_set, set_self]
        simp only [run]
        apply some_set
        conv_rhs => rw [← lo32 h3]
        apply BitVec.eq_of_getLsbD_eq
        intro k hk
        interval_cases k <;> simp [-BitVec.getLsbD_eq_getElem]
  next h3 =>
    have hc0 : c ≠ 0#64 := by rintro rfl; exact h1 (by decide)
    have hc1 : c ≠ -1#64 := by rintro rfl; exact h2 (by decide)
    obtain ⟨ins, hi⟩ := logicalImm_some (imm := c) (w := 32) (check := false) (Or.inr ⟨rfl, hc0, hc1⟩)
    rw [hi]
    refine ⟨_, rfl, ?_⟩
    simp only
    split
    next hne =>
      obtain ⟨f, hf, m, hm, hmb⟩ := logicalImm_sound (Or.inr rfl) hi hne
      rw [hf, run_ORR hr x f m (by simpa using hm)]
      apply some_set
      apply BitVec.eq_of_getLsbD_eq
      intro k hk
      exact hmb k (by omega)
    next =>
    split
    next h7 =>
      have hn := neg_bits (m := 32) (by omega) h7.1 h7.2
      have hn' : ∀ k, k < 64 → 32 ≤ k → c.getLsbD k = true := fun k h h' => hn k h' h
      split
      next h8 =>
        rw [run_MOVN hr]
        simp only [run]
        apply some_set
        have hb := bits_of_and h8
        apply BitVec.eq_of_getLsbD_eq
        intro k hk
        have := hb k hk
        have h := hn' k hk
        interval_cases k <;> simp [-BitVec.getLsbD_eq_getElem] at this h ⊢ <;> simp only [*]
      next h8 =>
        rw [run_MOVN hr, run_MOVK hr, set_set, set_self]
        simp only [run]
        apply some_set
        apply BitVec.eq_of_getLsbD_eq
        intro k hk
        have h := hn' k hk
        interval_cases k <;> simp [-BitVec.getLsbD_eq_getElem] at h ⊢ <;> simp only [*]
    next h7 =>
      have hex : ∀ inv : Bool, ∃ k, k < 64 ∧ c.getLsbD k ≠ inv := by
        intro inv
        by_contra hc
        have hall : ∀ k, k < 64 → c.getLsbD k = inv := fun k hk => by
          by_contra h; exact hc ⟨k, hk, h⟩
        cases inv
        · exact hc0 (BitVec.eq_of_getLsbD_eq fun k hk => by rw [hall k hk]; simp)
        · apply hc1
          rw [show (-1#64) = BitVec.allOnes 64 from rfl]
          exact BitVec.eq_of_getLsbD_eq fun k hk => by rw [hall k hk, BitVec.getLsbD_allOnes]; simp [hk]
      split
      · exact run_halfLoop hr dst hd true c 4 0 true x _ rfl (by simp) (by simp) (by simp) (fun _ => hex true)
      · exact run_halfLoop hr dst hd false c 4 0 true x _ rfl (by simp) (by simp) (by simp) (fun _ => hex false)

end Verif.Imm.Arm64
