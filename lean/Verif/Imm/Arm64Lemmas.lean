import Verif.Imm.A64
import Verif.Imm.Arm64
import Mathlib.Tactic.IntervalCases
import Mathlib.Tactic.Ring

/-! # The bitmask immediates of ARM64 (helper lemmas) -/

namespace Verif.Imm.Arm64

theorem mask_bit (k j : Nat) : (BitVec.ofNat 64 (2 ^ k - 1)).getLsbD j = (decide (j < 64) && decide (j < k)) := by
  rw [BitVec.getLsbD_ofNat, Nat.testBit_two_pow_sub_one]

theorem and_mask_zero {v : BitVec 64} {k : Nat} (h : v &&& BitVec.ofNat 64 (2 ^ k - 1) = 0#64) :
    ∀ j, j < k → v.getLsbD j = false := by
  intro j hj
  by_cases h64 : j < 64
  · have := congrArg (fun x => x.getLsbD j) h
    simpa [-BitVec.getLsbD_eq_getElem, BitVec.getLsbD_and, mask_bit, hj, h64] using this
  · exact BitVec.getLsbD_of_ge _ _ (by omega)

/-- The invariant of COUNT_TRAILING_ZERO. -/
def CtzInv (sh : BitVec 64 → Nat → BitVec 64) (v : BitVec 64) (p : BitVec 64 × Nat) : Prop :=
  p.1 = sh v p.2 ∧ ∀ j, j < p.2 → j < 64 → v.getLsbD j = false

theorem ctz_foldl {sh v} (hs : ∀ p k, CtzInv sh v p → CtzInv sh v (ctzStep sh p k)) :
    ∀ (l : List Nat) p, CtzInv sh v p → CtzInv sh v (l.foldl (ctzStep sh) p)
  | [], _, h => h
  | k :: l, p, h => ctz_foldl hs l _ (hs p k h)

theorem ctz_shr (v : BitVec 64) : CtzInv (· >>> ·) v (countTrailingZero (· >>> ·) v) := by
  refine ctz_foldl ?_ _ _ ⟨by simp, by simp⟩
  rintro ⟨q, r⟩ k ⟨h1, h2⟩
  simp only at h1 h2
  unfold ctzStep
  split
  next h =>
    simp only at h
    have hz := and_mask_zero h
    subst h1
    refine ⟨by simp [BitVec.shiftRight_add], fun j hj h64 => ?_⟩
    simp only at hj
    by_cases hjr : j < r
    · exact h2 j hjr h64
    · have := hz (j - r) (by omega)
      rw [BitVec.getLsbD_ushiftRight] at this
      rwa [show r + (j - r) = j by omega] at this
  next => exact ⟨h1, h2⟩

theorem ctz_sar (v : BitVec 64) : CtzInv (·.sshiftRight ·) v (countTrailingZero (·.sshiftRight ·) v) := by
  refine ctz_foldl ?_ _ _ ⟨by simp, by simp⟩
  rintro ⟨q, r⟩ k ⟨h1, h2⟩
  simp only at h1 h2
  unfold ctzStep
  split
  next h =>
    simp only at h
    have hz := and_mask_zero h
    subst h1
    refine ⟨by simp [BitVec.sshiftRight_add], fun j hj h64 => ?_⟩
    simp only at hj
    by_cases hjr : j < r
    · exact h2 j hjr h64
    · have := hz (j - r) (by omega)
      rw [BitVec.getLsbD_sshiftRight] at this
      rw [show r + (j - r) = j by omega] at this
      simpa [-BitVec.getLsbD_eq_getElem, show ¬ 64 ≤ j - r by omega, h64] using this
  next => exact ⟨h1, h2⟩

/-- What the two counts find: a run of `ones` ones above `right` zeros. -/
theorem run_of_counts {u : BitVec 64}
    (h : ~~~ (countTrailingZero (·.sshiftRight ·) (~~~ (countTrailingZero (· >>> ·) u).1)).1 = 0#64) :
    ∀ k, k < 64 → u.getLsbD k = (decide ((countTrailingZero (· >>> ·) u).2 ≤ k) &&
      decide (k < (countTrailingZero (· >>> ·) u).2 + (countTrailingZero (·.sshiftRight ·) (~~~ (countTrailingZero (· >>> ·) u).1)).2)) := by
  obtain ⟨a1, a2⟩ := ctz_shr u
  generalize countTrailingZero (· >>> ·) u = p at *
  obtain ⟨b1, b2⟩ := ctz_sar (~~~ p.1)
  generalize countTrailingZero (·.sshiftRight ·) (~~~ p.1) = q at *
  obtain ⟨p1, right⟩ := p
  obtain ⟨q1, ones⟩ := q
  simp only at *
  intro k hk
  by_cases hr : right ≤ k
  swap
  · simp [-BitVec.getLsbD_eq_getElem, hr, a2 k (by omega) hk]
  have e1 : u.getLsbD k = p1.getLsbD (k - right) := by
    rw [a1, BitVec.getLsbD_ushiftRight]; congr 1; omega
  rw [e1]
  simp only [hr, decide_true, Bool.true_and]
  by_cases ho : k < right + ones
  · have := b2 (k - right) (by omega) (by omega)
    simpa [-BitVec.getLsbD_eq_getElem, show k - right < 64 by omega, ho] using this
  · simp only [ho, decide_false]
    have := congrArg (fun x => x.getLsbD (k - right - ones)) h
    rw [b1] at this
    simp only [BitVec.getLsbD_not, BitVec.getLsbD_sshiftRight, BitVec.getLsbD_zero] at this
    simpa [-BitVec.getLsbD_eq_getElem, show ¬ 64 ≤ k - right - ones by omega, show k - right - ones < 64 by omega,
      show ones + (k - right - ones) = k - right by omega, show k - right < 64 by omega] using this

theorem run_le {u : BitVec 64} (h0 : 1 ≤ (countTrailingZero (· >>> ·) u).2) (h1 : (countTrailingZero (· >>> ·) u).2 ≤ 64) :
    (countTrailingZero (· >>> ·) u).2 + (countTrailingZero (·.sshiftRight ·) (~~~ (countTrailingZero (· >>> ·) u).1)).2 ≤ 64 := by
  obtain ⟨a1, a2⟩ := ctz_shr u
  generalize countTrailingZero (· >>> ·) u = p at *
  obtain ⟨b1, b2⟩ := ctz_sar (~~~ p.1)
  generalize countTrailingZero (·.sshiftRight ·) (~~~ p.1) = q at *
  obtain ⟨p1, right⟩ := p
  obtain ⟨q1, ones⟩ := q
  simp only at *
  by_contra hc
  have := b2 (64 - right) (by omega) (by omega)
  rw [a1, BitVec.getLsbD_not, BitVec.getLsbD_ushiftRight, BitVec.getLsbD_of_ge _ _ (by omega)] at this
  simp at this
  omega

theorem agree_iff (u : BitVec 64) {len : Nat} (hl : len ≤ 32) :
    (u &&& BitVec.ofNat 64 (2 ^ len - 1) = (u >>> len) &&& BitVec.ofNat 64 (2 ^ len - 1)) ↔
      ∀ j, j < len → u.getLsbD j = u.getLsbD (j + len) := by
  constructor
  · intro h j hj
    have := congrArg (fun x => x.getLsbD j) h
    simpa [-BitVec.getLsbD_eq_getElem, mask_bit, hj, show j < 64 by omega, Nat.add_comm] using this
  · intro h
    apply BitVec.eq_of_getLsbD_eq
    intro j hj
    simp only [BitVec.getLsbD_and, mask_bit, BitVec.getLsbD_ushiftRight]
    by_cases hjl : j < len
    · simp [-BitVec.getLsbD_eq_getElem, h j hjl, Nat.add_comm]
    · simp [hjl]

/-- The result of the loop: the low N bits are periodic with period 2 L, but not with period L. -/
theorem halve_spec (N : Nat) (u : BitVec 64) : ∀ m, m ≤ 5 → (∀ k, k < N → u.getLsbD k = u.getLsbD (k % (2 * 2 ^ m))) →
    (halve u (2 ^ m) = none → ∀ k, k < N → u.getLsbD k = u.getLsbD 0) ∧
    (∀ L, halve u (2 ^ m) = some L → (∃ a, a ≤ m ∧ L = 2 ^ a) ∧ (∀ k, k < N → u.getLsbD k = u.getLsbD (k % (2 * L))) ∧
      ∃ j, j < L ∧ u.getLsbD j ≠ u.getLsbD (j + L)) := by
  intro m
  induction m with
  | zero =>
    intro _ hp
    rw [halve.eq_def]
    simp only [Nat.pow_zero, Nat.one_ne_zero, if_false]
    split
    next h =>
      have h' := (agree_iff u (len := 1) (by omega)).not.mp h
      refine ⟨by simp, fun L hL => ?_⟩
      obtain rfl : 1 = L := by simpa using hL
      exact ⟨⟨0, by omega, rfl⟩, hp, by simpa using h'⟩
    next h =>
      have h' := (agree_iff u (len := 1) (by omega)).mp (by simpa using h)
      rw [halve.eq_def]
      refine ⟨fun _ k hk => ?_, by simp⟩
      rw [hp k hk]
      have h2 : k % (2 * 2 ^ 0) = 0 ∨ k % (2 * 2 ^ 0) = 1 := by omega
      rcases h2 with h2 | h2 <;> rw [h2]
      exact (h' 0 (by omega)).symm
  | succ m ih =>
    intro hm hp
    have hlen : 2 ^ (m + 1) ≤ 32 := by
      have : (2:Nat) ^ (m + 1) ≤ 2 ^ 5 := Nat.pow_le_pow_right (by omega) (by omega)
      omega
    have h0 : 0 < 2 ^ (m + 1) := Nat.two_pow_pos _
    rw [halve.eq_def]
    simp only [show ¬ 2 ^ (m + 1) = 0 by omega, if_false]
    split
    next h =>
      have h' := (agree_iff u hlen).not.mp h
      refine ⟨by simp, fun L hL => ?_⟩
      obtain rfl : 2 ^ (m + 1) = L := by simpa using hL
      exact ⟨⟨m + 1, by omega, rfl⟩, hp, by simpa using h'⟩
    next h =>
      have h' := (agree_iff u hlen).mp (by simpa using h)
      have h2 : 2 ^ (m + 1) / 2 = 2 ^ m := by rw [Nat.pow_succ]; omega
      rw [h2]
      have := ih (by omega) (by
        intro k hk
        have e : 2 * 2 ^ m = 2 ^ (m + 1) := by rw [Nat.pow_succ]; omega
        rw [e, hp k hk]
        have e2 : k % 2 ^ (m + 1) = (k % (2 * 2 ^ (m + 1))) % 2 ^ (m + 1) := (Nat.mod_mod_of_dvd _ ⟨2, by omega⟩).symm
        have e3 : k % (2 * 2 ^ (m + 1)) < 2 * 2 ^ (m + 1) := Nat.mod_lt _ (by omega)
        rw [e2]
        generalize k % (2 * 2 ^ (m + 1)) = r at *
        by_cases hr : r < 2 ^ (m + 1)
        · rw [Nat.mod_eq_of_lt hr]
        · have e4 : r % 2 ^ (m + 1) = r - 2 ^ (m + 1) := by
            rw [Nat.mod_eq_sub_mod (by omega), Nat.mod_eq_of_lt (by omega)]
          rw [e4, h' (r - 2 ^ (m + 1)) (by omega), Nat.sub_add_cancel (by omega)])
      refine ⟨this.1, fun L hL => ?_⟩
      obtain ⟨⟨a, ha, hLa⟩, h3⟩ := this.2 L hL
      exact ⟨⟨a, by omega, hLa⟩, h3⟩

/-- The field built from the four numbers (the last lines of logical_imm). -/
def insOf (len : Nat) (negated : Bool) (right ones : Nat) : BitVec 32 :=
  let l : BitVec 32 := BitVec.ofNat 32 len
  let o : BitVec 32 := BitVec.ofNat 32 ones
  let r : BitVec 32 := BitVec.ofNat 32 right
  let ins : BitVec 32 := if len = 64 then 1#32 <<< 22 else (0x3f#32 - ((l <<< 1) - 1#32)) <<< 10
  if negated then ins ||| ((l - o - 1#32) <<< 10) ||| ((l - o - r) <<< 16)
  else ins ||| ((o - 1#32) <<< 10) ||| ((l - r) <<< 16)

theorem tail_eq (u : BitVec 64) (L : Nat) (hL : 1 ≤ L) (hL' : L ≤ 32)
    (hd : ∃ j, j < L ∧ u.getLsbD j ≠ u.getLsbD (j + L)) (hne : logicalImmTail u L ≠ 0#32) :
    ∃ right ones, 1 ≤ right ∧ 1 ≤ ones ∧ right + ones ≤ 2 * L ∧
      (∀ k, k < 2 * L → u.getLsbD k = (u.getLsbD 0 ^^ (decide (right ≤ k) && decide (k < right + ones)))) ∧
      logicalImmTail u L = insOf (2 * L) (u.getLsbD 0) right ones := by
  unfold logicalImmTail at hne ⊢
  simp only at hne ⊢
  generalize hv : (if 2 * L < 64 then (if u.getLsbD 0 = true then ~~~ u else u) &&& BitVec.ofNat 64 (2 ^ (2 * L) - 1)
    else (if u.getLsbD 0 = true then ~~~ u else u)) = v at hne ⊢
  have hvb : ∀ k, k < 64 → v.getLsbD k = (decide (k < 2 * L) && (u.getLsbD 0 ^^ u.getLsbD k)) := by
    intro k hk
    subst hv
    split
    next h => cases hb : u.getLsbD 0 <;> by_cases hkL : k < 2 * L <;> simp [-BitVec.getLsbD_eq_getElem, hk, hkL, mask_bit]
    next h =>
      have hkL : k < 2 * L := by omega
      cases hb : u.getLsbD 0 <;> simp [-BitVec.getLsbD_eq_getElem, hk, hkL]
  split at hne
  next => exact absurd rfl hne
  next h =>
    rw [if_neg h]
    have hr := run_of_counts (Classical.not_not.mp h)
    obtain ⟨j, hj, hjne⟩ := hd
    have v0 : v.getLsbD 0 = false := by rw [hvb 0 (by omega)]; simp
    have hex : ∃ k, k < 2 * L ∧ v.getLsbD k = true := by
      by_cases hj0 : u.getLsbD 0 = u.getLsbD j
      · refine ⟨j + L, by omega, ?_⟩
        rw [hvb _ (by omega), hj0, decide_eq_true (by omega : j + L < 2 * L), Bool.true_and]
        clear * - hjne
        revert hjne; cases u.getLsbD j <;> cases u.getLsbD (j + L) <;> simp
      · refine ⟨j, by omega, ?_⟩
        rw [hvb _ (by omega), decide_eq_true (by omega : j < 2 * L), Bool.true_and]
        clear * - hj0
        revert hj0; cases u.getLsbD j <;> cases u.getLsbD 0 <;> simp
    obtain ⟨k, hk, hvk⟩ := hex
    have h0 := hr 0 (by omega)
    have hk' := hr k (by omega)
    rw [v0] at h0
    rw [hvk] at hk'
    have hle := run_le (u := v)
    generalize (countTrailingZero (·.sshiftRight ·) (~~~ (countTrailingZero (· >>> ·) v).1)).2 = ones at *
    generalize (countTrailingZero (· >>> ·) v).2 = right at *
    have k1 : right ≤ k ∧ k < right + ones := by simpa using hk'.symm
    have k2 : 1 ≤ right := by
      by_contra hc
      have : right = 0 := by omega
      subst this
      simp at h0; omega
    have k3 : right + ones ≤ 2 * L := by
      by_contra hc
      by_cases h64 : 2 * L < 64
      · have := hr (2 * L) h64
        rw [hvb _ h64] at this
        simp only [Nat.lt_irrefl, decide_false, Bool.false_and] at this
        rw [eq_comm, Bool.and_eq_false_iff, decide_eq_false_iff_not, decide_eq_false_iff_not] at this
        omega
      · have := hle k2 (by omega)
        omega
    refine ⟨right, ones, k2, by omega, k3, fun i hi => ?_, rfl⟩
    rw [← hr i (by omega), hvb i (by omega)]
    simp only [hi, decide_true, Bool.true_and]
    cases u.getLsbD 0 <;> cases u.getLsbD i <;> rfl

theorem ins_table : ∀ a : Fin 6, ∀ n : Bool, ∀ right ones : Fin 64, 1 ≤ right.val → 1 ≤ ones.val → right.val + ones.val ≤ 2 * 2 ^ a.val →
    (insOf (2 * 2 ^ a.val) n right ones &&& ~~~ 0x7ffc00#32 = 0#32) ∧
    (a.val < 5 → (insOf (2 * 2 ^ a.val) n right ones).extractLsb' 22 1 = 0#1) ∧
    A64.maskFields ((insOf (2 * 2 ^ a.val) n right ones).extractLsb' 22 1) ((insOf (2 * 2 ^ a.val) n right ones).extractLsb' 10 6)
      ((insOf (2 * 2 ^ a.val) n right ones).extractLsb' 16 6) =
    some (2 * 2 ^ a.val, (if n then 2 * 2 ^ a.val - ones.val - 1 else ones.val - 1),
      if n then 2 * 2 ^ a.val - ones.val - right.val else 2 * 2 ^ a.val - right.val) := by decide +kernel

/-- The expansion of the fields is the pattern. -/
theorem wmask_bits (L : Nat) (n : Bool) (right ones : Nat) (h1 : 1 ≤ right) (h2 : 1 ≤ ones) (h3 : right + ones ≤ L) :
    ∀ k, k < 64 → (A64.wmask L (if n then L - ones - 1 else ones - 1) (if n then L - ones - right else L - right)).getLsbD k =
      (n ^^ (decide (right ≤ k % L) && decide (k % L < right + ones))) := by
  intro k hk
  rw [A64.wmask, BitVec.getLsbD_ofFnLE, dif_pos hk]
  have hm : k % L < L := Nat.mod_lt _ (by omega)
  have e : ∀ r, r ≤ L → (k + r) % L = if k % L + r < L then k % L + r else k % L + r - L := by
    intro r hr
    rw [← Nat.mod_add_mod]
    split
    · exact Nat.mod_eq_of_lt (by omega)
    · rw [Nat.mod_eq_sub_mod (by omega), Nat.mod_eq_of_lt (by omega)]
  cases n
  · simp only [Bool.false_eq_true, if_false, Bool.false_bne, e (L - right) (by omega)]
    rw [Bool.eq_iff_iff]
    simp only [decide_eq_true_eq, Bool.and_eq_true]
    split <;> omega
  · simp only [if_true, Bool.true_bne, e (L - ones - right) (by omega)]
    rw [Bool.eq_iff_iff]
    simp only [decide_eq_true_eq, Bool.not_eq_true', Bool.and_eq_false_iff, decide_eq_false_iff_not]
    split <;> omega

/-- A found bitmask immediate expands to the constant. -/
theorem logicalImm_sound {imm : BitVec 64} {w : Nat} {check : Bool} {ins : BitVec 32} (hw : w = 16 ∨ w = 32)
    (h : logicalImm imm w check = some ins) (hne : ins ≠ 0#32) :
    ∃ f : BitVec 13, ins = f.setWidth 32 <<< 10 ∧ ∃ m, A64.bitMask (if w = 32 then 1#1 else 0#1) f = some m ∧
      ∀ k, k < 2 * w → m.getLsbD k = imm.getLsbD k := by
  have key : ∀ m, m = 4 ∨ m = 5 → halve imm (2 ^ m) ≠ none → ∀ L, halve imm (2 ^ m) = some L → logicalImmTail imm L = ins →
      ∃ f : BitVec 13, ins = f.setWidth 32 <<< 10 ∧ ∃ v, A64.bitMask (if m = 5 then 1#1 else 0#1) f = some v ∧
        ∀ k, k < 2 * 2 ^ m → v.getLsbD k = imm.getLsbD k := by
    intro m hm _ L hL hi
    obtain ⟨⟨a, ha, hLa⟩, hp, hd⟩ := (halve_spec (2 * 2 ^ m) imm m (by omega) (fun k hk => by rw [Nat.mod_eq_of_lt hk])).2 L hL
    have hpow : ∀ b, b ≤ 5 → 1 ≤ 2 ^ b ∧ 2 ^ b ≤ 32 := fun b hb =>
      ⟨Nat.one_le_two_pow, Nat.le_trans (Nat.pow_le_pow_right (by omega) hb) (by omega)⟩
    obtain ⟨b1, b2⟩ := hpow a (by omega)
    obtain ⟨right, ones, h1, h2, h3, h4, h5⟩ := tail_eq imm L (by omega) (by omega) hd (by rw [hi]; exact hne)
    rw [hi] at h5
    have tab := ins_table ⟨a, by omega⟩ (imm.getLsbD 0) ⟨right, by omega⟩ ⟨ones, by omega⟩ h1 h2 (by rw [hLa] at h3; exact h3)
    simp only [← hLa] at tab
    rw [← h5] at tab
    obtain ⟨t1, t2, t3⟩ := tab
    refine ⟨ins.extractLsb' 10 13, ?_, ?_⟩
    · apply BitVec.eq_of_getLsbD_eq
      intro k hk
      have := congrArg (fun x => x.getLsbD k) t1
      simp only [BitVec.getLsbD_and, BitVec.getLsbD_not, hk, decide_true, Bool.true_and, BitVec.getLsbD_zero] at this
      interval_cases k <;> simp [-BitVec.getLsbD_eq_getElem, -BitVec.setWidth_eq] at this ⊢ <;> assumption
    · have e1 : (ins.extractLsb' 10 13).extractLsb' 12 1 = ins.extractLsb' 22 1 := by
        apply BitVec.eq_of_getLsbD_eq; intro k hk; interval_cases k; simp [-BitVec.getLsbD_eq_getElem]
      have e2 : (ins.extractLsb' 10 13).extractLsb' 0 6 = ins.extractLsb' 10 6 := by
        apply BitVec.eq_of_getLsbD_eq; intro k hk; interval_cases k <;> simp [-BitVec.getLsbD_eq_getElem]
      have e3 : (ins.extractLsb' 10 13).extractLsb' 6 6 = ins.extractLsb' 16 6 := by
        apply BitVec.eq_of_getLsbD_eq; intro k hk; interval_cases k <;> simp [-BitVec.getLsbD_eq_getElem]
      refine ⟨_, by
        rw [A64.bitMask, e1, e2, e3, t3, if_neg, Option.map_some]
        rintro ⟨c1, c2⟩
        rw [t2 (by rcases hm with rfl | rfl <;> simp at c1 ⊢; omega)] at c2
        exact absurd c2 (by decide), fun k hk => ?_⟩
      have hk64 : k < 64 := by have := (hpow m (by omega)).2; omega
      rw [wmask_bits (2 * L) _ right ones h1 h2 h3 k hk64, hp k hk]
      exact (h4 _ (Nat.mod_lt _ (by omega))).symm
  unfold logicalImm at h
  simp only at h
  split at h
  · split at h
    · exact absurd (by simpa using h.symm) hne
    · exact absurd h (by simp)
  · rw [if_neg (by omega)] at h
    obtain ⟨L, hL, hi⟩ := Option.map_eq_some_iff.mp h
    rcases hw with rfl | rfl
    · simpa using key 4 (Or.inl rfl) (by simp [hL]) L (by simpa using hL) hi
    · simpa using key 5 (Or.inr rfl) (by simp [hL]) L (by simpa using hL) hi

/-- The assertions of logical_imm hold for every constant other than 0 and -1. -/
theorem logicalImm_some {imm : BitVec 64} {w : Nat} {check : Bool}
    (hw : (w = 16 ∧ imm.setWidth 32 ≠ 0#32 ∧ imm.setWidth 32 ≠ -1#32) ∨ (w = 32 ∧ imm ≠ 0#64 ∧ imm ≠ -1#64)) :
    ∃ ins, logicalImm imm w check = some ins := by
  have key : ∀ m, m ≤ 5 → halve imm (2 ^ m) = none → ∀ k, k < 2 * 2 ^ m → imm.getLsbD k = imm.getLsbD 0 := fun m hm =>
    (halve_spec (2 * 2 ^ m) imm m hm (fun k hk => by rw [Nat.mod_eq_of_lt hk])).1
  unfold logicalImm
  simp only
  rw [if_neg (by rcases hw with ⟨rfl, h⟩ | ⟨rfl, h⟩ <;> simp_all), if_neg (by omega)]
  rcases hw with ⟨rfl, h0, h1⟩ | ⟨rfl, h0, h1⟩
  · cases hh : halve imm 16 with
    | some L => exact ⟨_, rfl⟩
    | none =>
      have := key 4 (by omega) hh
      exfalso
      cases hb : imm.getLsbD 0
      · apply h0; apply BitVec.eq_of_getLsbD_eq; intro k hk
        simp [-BitVec.getLsbD_eq_getElem, hk, this k (by omega), hb]
      · apply h1; apply BitVec.eq_of_getLsbD_eq; intro k hk
        rw [show (-1#32) = BitVec.allOnes 32 from rfl, BitVec.getLsbD_setWidth, this k (by omega), hb, BitVec.getLsbD_allOnes]
        simp [hk]
  · cases hh : halve imm 32 with
    | some L => exact ⟨_, rfl⟩
    | none =>
      have := key 5 (by omega) hh
      exfalso
      cases hb : imm.getLsbD 0
      · apply h0; apply BitVec.eq_of_getLsbD_eq; intro k hk
        simp [-BitVec.getLsbD_eq_getElem, this k (by omega), hb]
      · apply h1; apply BitVec.eq_of_getLsbD_eq; intro k hk
        rw [show (-1#64) = BitVec.allOnes 64 from rfl, this k (by omega), hb, BitVec.getLsbD_allOnes]
        simp [hk]

end Verif.Imm.Arm64
