import Verif.X86.Op1Eff

/-! # Byte swaps (helper lemmas) -/

namespace Verif.X86
open Verif.RV (IsRev byte)

variable {win m32 : Bool} {s : St}

theorem c8_flds : ∀ k : BitVec 3, fld (0xc8#8 ||| k.setWidth 8) 3 5 = 0b11001#5 ∧ fld (0xc8#8 ||| k.setWidth 8) 0 3 = k := by decide

/-- BSWAP. -/
theorem e_bswapIns {d : Nat} : Eff win m32 (some (bswapIns win m32 d)) s (some (.reg d)) (rev (NB m32) (s.r (num win d))) false false s.f := by
  obtain ⟨e1, e2⟩ := c8_flds (low win d)
  generalize hrex : ((if ¬ m32 then REX_W else 0#8) ||| if high win d then REX_B else 0#8 : Byte) = rex
  have hr4 : rex = 0#8 ∨ fld rex 4 4 = 4#4 ∧ ¬ (rex = 0x66#8 ∨ rex = 0xf2#8 ∨ rex = 0xf3#8) := by
    subst hrex; cases m32 <;> cases high win d <;> decide
  have hp : ∀ rest, parse (bswapIns win m32 d ++ rest) = some (.short 0#8 rex 1 (0xc8#8 ||| regLmap win d) 0#64, rest) := by
    intro rest
    simp only [bswapIns]
    rw [high_if, hrex, lmap_eq]
    rcases hr4 with rfl | ⟨h1, h2⟩
    · simp only [ne_eq, not_true_eq_false, if_false, List.nil_append, List.cons_append, parse, parseRex, parseMap, parseOp, shortSize, e1, if_true, sle_zero, Option.map_some,
        show ¬ ((0x0f#8 : Byte) = 0x66#8 ∨ (0x0f#8 : Byte) = 0xf2#8 ∨ (0x0f#8 : Byte) = 0xf3#8) by decide, show ¬ fld 0x0f#8 4 4 = 4#4 by decide]
    · have h0 : rex ≠ 0#8 := by rintro rfl; exact absurd h1 (by decide)
      simp only [ne_eq, h0, not_false_eq_true, if_true, List.nil_append, List.cons_append, parse, h2, if_false, parseRex, h1, parseMap, parseOp, shortSize, e1, sle_zero, Option.map_some]
  refine ⟨_, ⟨_, rfl, Steps.one _ hp ?_⟩, put_dreg win m32 s (.reg 1) d (rev (NB m32) (s.r (num win d))) s.f, rfl⟩
  have hsz : opSize 0#8 rex = NB m32 := by subst hrex; cases m32 <;> cases high win d <;> decide
  have hr : ext (rex.getLsbD 0) (low win d) = num win d := by
    rw [num_eq]; subst hrex; cases m32 <;> cases high win d <;> rfl
  have h2 : ¬ NB m32 = 2 := by cases m32 <;> decide
  rw [lmap_eq]
  simp only [exec, hsz, if_true, h2, if_false, e2, hr, clob]
  rfl

/-! ## Bits -/

theorem rev_bit : ∀ (n : Nat), n ≤ 8 → ∀ (v : BitVec 64) (k : Nat), k < 64 → (rev n v).getLsbD k = (decide (k < 8 * n) && v.getLsbD (8 * (n - 1 - k / 8) + k % 8))
  | 0, _, v, k, _ => by simp [rev]
  | n + 1, hn, v, k, hk => by
    rw [rev, BitVec.getLsbD_or, BitVec.getLsbD_shiftLeft, rev_bit n (by omega) _ k hk, BitVec.getLsbD_and, BitVec.getLsbD_ushiftRight]
    have hff : ∀ j, (0xff#64 : BitVec 64).getLsbD j = decide (j < 8) := by
      intro j
      by_cases h : j < 64
      · have key : ∀ j : Fin 64, (0xff#64 : BitVec 64).getLsbD j.val = decide (j.val < 8) := by decide
        exact key ⟨j, h⟩
      · rw [BitVec.getLsbD_of_ge _ _ (by omega)]; simp; omega
    rw [hff]
    by_cases h1 : k < 8 * n
    · simp only [hk, h1, decide_true, Bool.not_true, Bool.and_false, Bool.false_and, Bool.false_or, Bool.true_and, show k < 8 * (n + 1) by omega]
      congr 1; omega
    · by_cases h2 : k < 8 * (n + 1)
      · simp only [hk, h1, h2, decide_true, decide_false, Bool.not_false, Bool.false_and, Bool.or_false, Bool.true_and, show k - 8 * n < 8 by omega, Bool.and_true]
        congr 1; omega
      · simp only [hk, h1, h2, decide_false, Bool.false_and, Bool.or_false, show ¬ k - 8 * n < 8 by omega, Bool.and_false]

theorem byte_bit (v : BitVec 64) (i k : Nat) : (byte v i).getLsbD k = (decide (k < 8) && v.getLsbD (8 * i + k)) := by
  rw [byte, BitVec.getLsbD_extractLsb']

/-- A value has the bytes in reverse order, by bits. -/
theorem isRev_of {n : Nat} (hn : n ≤ 8) {a r : BitVec 64} (h : ∀ k, k < 8 * n → r.getLsbD k = a.getLsbD (8 * (n - 1 - k / 8) + k % 8)) : IsRev n a r := by
  intro i hi
  apply BitVec.eq_of_getLsbD_eq
  intro k hk
  rw [byte_bit, byte_bit, h _ (by omega)]
  simp only [hk, decide_true, Bool.true_and]
  congr 1; omega

theorem dstR_dst {dst : Opd} (hd : Dst dst) : Dst (.reg (dstR dst)) := by
  cases dst with
  | imm _ => exact hd.elim
  | reg d => exact hd
  | mem base offs w => simp [Dst, dstR, TMP_REG1]

/-- A register is computed with any width, then the rest computes the same one with another width. -/
theorem Eff1.reg {c : Code} {d k k' : Nat} {v : BitVec 64} {f : Flags} (h : Eff1 win c s (.reg d) k v f) : Eff1 win c s (.reg d) k' v f := by
  obtain ⟨s', e, o, hf⟩ := h
  exact ⟨s', e, ⟨o.regs, o.val, o.mem⟩, hf⟩

theorem Eff1.eff {c : Code} {d k : Nat} {v : BitVec 64} {f : Flags} (h : Eff1 win c s (.reg d) k v f) : Eff win false c s (some (.reg d)) v true true f := by
  obtain ⟨s', e, o, hf⟩ := h
  refine ⟨s', e, ⟨fun q x y z => o.regs q (fun d e => x d (by rw [e])) (fun e => by cases y e) (fun e => by cases z e), fun d e => o.val d (by cases e; rfl), o.mem⟩, hf⟩

/-- The bytes of the source are moved to dst_r (if it is elsewhere) and swapped. -/
theorem e_swap {dst src : Opd} (hd : Dst dst) (hs : User src) :
    Eff win m32 ((if src ≠ .reg (dstR dst) then emitMov win m32 (.reg (dstR dst)) src else some []) +> some (bswapIns win m32 (dstR dst))) s (some (.reg (dstR dst)))
      (rev (NB m32) (opv win m32 s src)) true true s.f := by
  have hcut : ∀ v, rev (NB m32) (trunc m32 v) = rev (NB m32) v := by
    intro v
    cases m32
    · rfl
    · apply BitVec.eq_of_getLsbD_eq
      intro k hk
      rw [rev_bit _ (by decide) _ _ hk, rev_bit _ (by decide) _ _ hk]
      by_cases h : k < 8 * NB true
      · have h' : k < 32 := h
        simp only [h, decide_true, Bool.true_and, trunc, if_true, BitVec.getLsbD_setWidth]
        rw [show NB true = 4 from rfl]
        simp [show 8 * (4 - 1 - k / 8) + k % 8 < 32 by omega, show 8 * (4 - 1 - k / 8) + k % 8 < 64 by omega, -BitVec.getLsbD_eq_getElem]
      · simp [h]
  have dr := dstR_dst hd
  by_cases e : src = .reg (dstR dst)
  · simp only [e, ne_eq, not_true_eq_false, if_false, cat_none]
    rw [show opv win m32 s (.reg (dstR dst)) = trunc m32 (s.r (num win (dstR dst))) from rfl, hcut]
    exact Eff.weaken e_bswapIns (fun h => by cases h) (fun h => by cases h)
  · simp only [e, ne_eq, not_false_eq_true, if_true]
    refine Eff.weaken (Eff.comp (e_mov dr.good rfl hs.good (fun h => by cases h)) (fun s1 r1 hf => ?_) (fun d e => by cases e; exact dr.good) (Or.inr (Or.inr rfl)) (b1 := false) (b2 := false))
      (fun h => by cases h) (fun h => by cases h)
    have := e_bswapIns (win := win) (m32 := m32) (s := s1) (d := dstR dst)
    rw [r1.val _ rfl, hcut, hf] at this
    exact this

theorem rd_wide (m : BitVec 64 → Byte) (a : BitVec 64) {k n i : Nat} (hk : k ≤ n) (hn : n ≤ 8) (hi : i < 8 * k) : (rd m a n).getLsbD i = (rd m a k).getLsbD i := by
  induction k generalizing a i n with
  | zero => omega
  | succ k ih =>
    cases n with
    | zero => omega
    | succ n =>
      simp only [rd, BitVec.getLsbD_or, BitVec.getLsbD_shiftLeft]
      by_cases h : i < 8
      · simp [h]
      · simp only [h, decide_false, Bool.not_false, Bool.and_true]
        rw [ih (n := n) (a + 1#64) (i := i - 8) (by omega) (by omega) (by omega)]

theorem bsv_bit {b : Opd} {k : Nat} (hk : k ≤ NB m32) {i : Nat} (hi : i < 8 * k) : (opv win m32 s b).getLsbD i = (bsv win k s b).getLsbD i := by
  have hb := B_le m32
  have ht : ∀ v : BitVec 64, (trunc m32 v).getLsbD i = v.getLsbD i := by
    intro v
    cases m32
    · rfl
    · have : k ≤ 4 := hk
      simp only [trunc, if_true, BitVec.getLsbD_setWidth]; simp [show i < 32 by omega, show i < 64 by omega, -BitVec.getLsbD_eq_getElem]
  cases b with
  | reg r => exact ht _
  | imm v => exact ht _
  | mem base offs w => exact rd_wide _ _ hk (by cases m32 <;> decide) hi

/-- SLJIT_REV, SLJIT_REV_U32 and SLJIT_REV_S32 before the extension. -/
theorem e_swapTo {dst src : Opd} (hd : Dst dst) (hs : User src) : IsRev (NB m32) (bsv win (NB m32) s src) (rev (NB m32) (opv win m32 s src)) ∧
    Eff win m32 ((if src ≠ .reg (dstR dst) then emitMov win m32 (.reg (dstR dst)) src else some []) +> (some (bswapIns win m32 (dstR dst)) +>
      if dst.isMem then emitMov win m32 dst (.reg TMP_REG1) else some [])) s (some dst) (rev (NB m32) (opv win m32 s src)) true true s.f := by
  refine ⟨isRev_of (by cases m32 <;> decide) (fun k hk => ?_), ?_⟩
  · have hk64 : k < 64 := Nat.lt_of_lt_of_le hk (B_le m32)
    rw [rev_bit _ (by cases m32 <;> decide) _ _ hk64]
    simp only [hk, decide_true, Bool.true_and]
    exact bsv_bit (Nat.le_refl _) (by omega)
  · rw [← cat_assoc]
    have h := e_swap (win := win) (m32 := m32) (s := s) hd hs
    cases dst with
    | imm _ => exact hd.elim
    | reg d => simp only [Opd.isMem, Bool.false_eq_true, if_false, cat_nil]; exact h
    | mem base offs w => simp only [Opd.isMem, if_true]; exact e_moveTmp hd h

/-! ## 16 bits -/

/-- Shift of a register by a constant. -/
theorem e_shr {ar : Bool} {d : Nat} (hd : Good (.reg d)) {n : Nat} (hn : 0 < n) (hw : n < W m32) : ∃ f, Eff win m32
    (insOr win m32 { shiftIns := true } (.imm (BitVec.ofNat 64 n)) (.reg d) (if ar then 7#8 <<< 3 else 5#8 <<< 3)) s (some (.reg d))
    (up m32 (if ar then (lo m32 (s.r (num win d))).sshiftRight n else lo m32 (s.r (num win d)) >>> n)) false false f := by
  have hw64 : W m32 ≤ 64 := by cases m32 <;> decide
  have hnat : (BitVec.ofNat 64 n).toNat = n := by rw [BitVec.toNat_ofNat]; omega
  have hc : cnt m32 (opv win m32 s (.imm (BitVec.ofNat 64 n))) = n := by
    rw [opv, cnt_trunc, cnt, hnat]; exact Nat.mod_eq_of_lt hw
  have key : ∀ k : BitVec 3, k = 5#3 ∨ k = 7#3 → ∃ f, shN m32 k (opv win m32 s (.reg d)) (cnt m32 (opv win m32 s (.imm (BitVec.ofNat 64 n)))) s.f =
      some (up m32 (if k = 7#3 then (lo m32 (s.r (num win d))).sshiftRight n else lo m32 (s.r (num win d)) >>> n), f) := by
    intro k hk
    rw [hc, opv, shN_trunc]
    have h0 : n ≠ 0 := by omega
    rcases hk with rfl | rfl
    · exact ⟨_, by simp only [shN, bin, shiftF, h0, if_false]; rfl⟩
    · exact ⟨_, by simp only [shN, bin, shiftF, h0, if_false]; rfl⟩
  cases ar
  · obtain ⟨f, h⟩ := key 5#3 (Or.inl rfl)
    exact ⟨f, e_sh (k := 5#3) (src2 := .imm (BitVec.ofNat 64 n)) hd rfl (Or.inr ⟨_, rfl, by rw [hnat]; exact hw⟩) h⟩
  · obtain ⟨f, h⟩ := key 7#3 (Or.inr rfl)
    exact ⟨f, e_sh (k := 7#3) (src2 := .imm (BitVec.ofNat 64 n)) hd rfl (Or.inr ⟨_, rfl, by rw [hnat]; exact hw⟩) h⟩

/-- The bits of the shifted value. -/
theorem half_bit {ar : Bool} (x : BitVec 64) : ∀ i, i < B m32 →
    (up m32 (if ar then (lo m32 (rev (NB m32) x)).sshiftRight (B m32 - 16) else lo m32 (rev (NB m32) x) >>> (B m32 - 16))).getLsbD i =
    if i < 16 then x.getLsbD (8 * (1 - i / 8) + i % 8) else if ar then x.getLsbD 7 else false := by
  intro i hi
  have hb := B_le m32
  have hb' : 32 ≤ B m32 := by cases m32 <;> decide
  have hr : ∀ k, k < B m32 → (lo m32 (rev (NB m32) x)).getLsbD k = x.getLsbD (8 * (NB m32 - 1 - k / 8) + k % 8) := by
    intro k hk
    rw [lo, BitVec.getLsbD_setWidth, rev_bit _ (by cases m32 <;> decide) _ _ (by omega)]
    simp [hk, -BitVec.getLsbD_eq_getElem]
  rw [up, BitVec.getLsbD_setWidth]
  simp only [show i < 64 by omega, decide_true, Bool.true_and]
  cases ar
  · simp only [Bool.false_eq_true, if_false, BitVec.getLsbD_ushiftRight]
    by_cases h : i < 16
    · rw [if_pos h, hr _ (by omega)]
      congr 1
      have : B m32 = 8 * NB m32 := rfl
      omega
    · rw [if_neg h]; exact BitVec.getLsbD_of_ge _ _ (by omega)
  · simp only [if_true, BitVec.getLsbD_sshiftRight]
    have hB : B m32 = 8 * NB m32 := rfl
    by_cases h : i < 16
    · rw [if_pos h]
      simp only [show ¬ B m32 ≤ i by omega, decide_false, Bool.not_false, Bool.true_and, show B m32 - 16 + i < B m32 by omega, if_true]
      rw [hr _ (by omega)]
      congr 1
      omega
    · rw [if_neg h]
      simp only [show ¬ B m32 ≤ i by omega, decide_false, Bool.not_false, Bool.true_and, show ¬ B m32 - 16 + i < B m32 by omega, if_false]
      rw [BitVec.msb_eq_getLsbD_last, hr _ (by omega)]
      congr 1
      omega

theorem trunc_false (v : BitVec 64) : trunc false v = v := rfl

theorem low16 {x : BitVec 64} {j : Nat} (hj : j < 16) : (trunc false (ext1 false 2 x)).getLsbD j = x.getLsbD j := by
  rw [trunc_false]; exact ext1_bit (by decide) (by decide) _ hj

set_option maxHeartbeats 800000 in
/-- SLJIT_REV_U16 and SLJIT_REV_S16: the bytes are reversed in the lowest half, and the result is extended at least to the width of the operation. -/
theorem e_swap16 {ar : Bool} {dst src : Opd} (hd : Dst dst) (hs : User src) (hi : src.isImm = false) : ∃ v f,
    (∀ i, i < B m32 → v.getLsbD i = if i < 16 then (bsv win 2 s src).getLsbD (8 * (1 - i / 8) + i % 8) else if ar then (bsv win 2 s src).getLsbD 7 else false) ∧
    Eff1 win (emitBswap win m32 (if ar then .revS16 else .revU16) dst src) s dst 2 v f := by
  have dr := dstR_dst hd
  have ho : ((if ar then RV.Op1C.revS16 else .revU16) = .revU16 ∨ (if ar then RV.Op1C.revS16 else .revU16) = .revS16) := by cases ar <;> simp
  have hn : ¬ ((if ar then RV.Op1C.revS16 else .revU16) = .revU32 ∨ (if ar then RV.Op1C.revS16 else .revU16) = .revS32) := by cases ar <;> simp
  have hsh : (if (if ar then RV.Op1C.revS16 else .revU16) = .revU16 then (5#8 : Byte) <<< 3 else 7#8 <<< 3) = if ar then 7#8 <<< 3 else 5#8 <<< 3 := by cases ar <;> rfl
  have hne : (if ar then RV.Op1C.revS16 else .revU16) ≠ .revS32 ∧ (if ar then RV.Op1C.revS16 else .revU16) ≠ .revU32 := by cases ar <;> simp
  -- the last step
  have fin : ∀ {m : Bool} {c : Code} {v : BitVec 64} {f : Flags}, Eff win m c s (some (.reg (dstR dst))) v true true f →
      Eff1 win (c +> if dst.isMem then emitMovHalf win false dst (.reg TMP_REG1) else some []) s dst 2 (trunc m v) f := by
    intro m c v f h
    cases dst with
    | imm _ => exact hd.elim
    | reg d => simp only [Opd.isMem, Bool.false_eq_true, if_false, cat_nil]; exact Eff1.reg (Eff.out h)
    | mem base offs w =>
      simp only [Opd.isMem, if_true]
      refine Eff.then1 h hd (Or.inl rfl) (fun s1 r1 hf => ?_)
      have := e_movHalf (win := win) (s := s1) (sign := false) (dst := .mem base offs w) (src := .reg TMP_REG1) hd rfl (Or.inr rfl) (fun v e => by cases e)
      rw [hf] at this
      refine this.low (fun i hi => ?_)
      rw [ext1_bit (by decide) (by decide) _ hi, bsv, show s1.r (num win TMP_REG1) = trunc m v from r1.val _ rfl]
  simp only [emitBswap, ho, if_false, if_true, hsh, hne.1, hne.2, or_self, and_true]
  by_cases e : src = .reg (dstR dst)
  · simp only [e, ne_eq, not_true_eq_false, if_false, cat_none]
    -- bswap, shift
    obtain ⟨s1, e1, r1, f1⟩ := e_bswapIns (win := win) (m32 := m32) (s := s) (d := dstR dst)
    obtain ⟨f, s2, e2, r2, f2⟩ := e_shr (win := win) (m32 := m32) (s := s1) (ar := ar) dr.good (n := B m32 - 16) (by cases m32 <;> decide) (by cases m32 <;> decide)
    have hk : (if m32 then 16#64 else 48#64 : BitVec 64) = BitVec.ofNat 64 (B m32 - 16) := by cases m32 <;> rfl
    rw [hk, ← cat_assoc]
    rw [r1.val _ rfl, lo_trunc] at r2
    refine ⟨_, f, ?_, fin (m := m32) ⟨s2, e1.cat e2, (r1.comp r2 (fun d e => by cases e; exact dr.good) (Or.inr (Or.inr rfl))).weaken (fun h => by cases h) (fun h => by cases h), f2⟩⟩
    intro i hi
    rw [trunc_upv, half_bit _ i hi]
    rfl
  · simp only [e, ne_eq, not_false_eq_true, if_true]
    have h1 := Eff1.eff (e_movHalf (win := win) (s := s) (sign := false) (dst := .reg (dstR dst)) (src := src) dr.good rfl (Or.inl hs) (fun v e => by subst e; cases hi))
    obtain ⟨s0, e0, r0, f0⟩ := h1
    obtain ⟨s1, e1, r1, f1⟩ := e_bswapIns (win := win) (m32 := false) (s := s0) (d := dstR dst)
    obtain ⟨f, s2, e2, r2, f2⟩ := e_shr (win := win) (m32 := false) (s := s1) (ar := ar) dr.good (n := 48) (by decide) (by decide)
    simp only [Bool.false_eq_true, if_false]
    rw [r1.val _ rfl, lo_trunc, r0.val _ rfl] at r2
    rw [← cat_assoc, ← cat_assoc]
    refine ⟨_, f, ?_, fin (m := false) ⟨s2, (e0.cat e1).cat e2, ((r0.comp r1 (fun d e => by cases e; exact dr.good) (Or.inr (Or.inr rfl))).comp r2 (fun d e => by cases e; exact dr.good)
      (Or.inr (Or.inr rfl))).weaken (fun h => by cases h) (fun h => by cases h), f2⟩⟩
    intro i hi
    have hb := B_le m32
    refine (congrArg (·.getLsbD i) (trunc_upv _ _)).trans ?_
    refine (half_bit (m32 := false) _ i (by show i < 64; omega)).trans ?_
    by_cases h : i < 16
    · rw [if_pos h, if_pos h, low16 (by omega)]
    · rw [if_neg h, if_neg h, low16 (by omega)]

end Verif.X86
