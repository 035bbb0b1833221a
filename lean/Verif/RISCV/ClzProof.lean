import Verif.RISCV.Op1Proof

/-!
# The bit counting loop of emit_clz_ctz (helper lemmas)
-/

namespace Verif.RV

/-- The shift used by the loop. -/
def shf {w : Nat} (clz : Bool) (v : BitVec w) (s : Nat) : BitVec w := if clz then v >>> s else v <<< s
/-- What the loop counts. -/
def IsM {w : Nat} (clz : Bool) (v : BitVec w) (n : Nat) : Prop := if clz then IsClz v n else IsCtz v n

theorem IsM.ne0 {w n : Nat} {clz : Bool} {v : BitVec w} (h : IsM clz v n) : v = 0#w ↔ n = w := by
  cases clz <;> simp only [IsM, Bool.false_eq_true, if_false, if_true] at h <;> obtain ⟨h1, h2, h3⟩ := h <;> constructor
  · rintro rfl
    rcases Nat.lt_or_ge n w with h | h
    · simpa using h3 h
    · omega
  · rintro rfl
    exact BitVec.eq_of_getLsbD_eq fun i hi => by simp [h2 i hi]
  · rintro rfl
    rcases Nat.lt_or_ge n w with h | h
    · simpa using h3 h
    · omega
  · rintro rfl
    exact BitVec.eq_of_getMsbD_eq fun i hi => by simp [h2 i hi]

theorem IsM.shf {w n : Nat} {clz : Bool} {v : BitVec w} (h : IsM clz v n) (s : Nat) : IsM clz (shf clz v s) (min w (n + s)) := by
  cases clz <;> simp only [IsM, Bool.false_eq_true, if_false, if_true, Verif.RV.shf] at h ⊢ <;> obtain ⟨h1, h2, h3⟩ := h
  · refine ⟨by omega, ?_, ?_⟩
    · intro i hi
      rw [BitVec.getLsbD_shiftLeft]
      by_cases hs : i < s
      · simp [hs]
      · rw [h2 (i - s) (by omega)]; simp
    · intro hi
      have e : min w (n + s) = n + s := by omega
      rw [e, BitVec.getLsbD_shiftLeft]
      have : n + s - s = n := by omega
      rw [this, h3 (by omega)]
      simp; omega
  · refine ⟨by omega, ?_, ?_⟩
    · intro i hi
      rw [BitVec.getMsbD_ushiftRight]
      by_cases hs : i < s
      · simp [hs]
      · rw [h2 (i - s) (by omega)]; simp
    · intro hi
      have e : min w (n + s) = n + s := by omega
      rw [e, BitVec.getMsbD_ushiftRight]
      have : n + s - s = n := by omega
      rw [this, h3 (by omega)]
      simp; omega

theorem IsM.shf_ne {w n : Nat} {clz : Bool} {v : BitVec w} (h : IsM clz v n) (s : Nat) : Verif.RV.shf clz v s ≠ 0#w ↔ n + s < w := by
  rw [ne_eq, (h.shf s).ne0]; omega

/-- The instructions of the loop. -/
def clzL1 (w : Bool) : Emit := w32 (ADDI ||| WORD w ||| RD EQUAL_FLAG ||| RS1 TMP_REG2 ||| IMM_I 0#64)
def clzL2 (w clz : Bool) : Emit := w32 (SRLI ||| WORD w ||| RD TMP_REG1 ||| RS1 TMP_REG1 ||| IMM_I 1#64) ++
  w32 ((if clz then SRL else SLL) ||| WORD w ||| RD TMP_REG2 ||| RS1 EQUAL_FLAG ||| RS2 TMP_REG1)
def clzB1 : BitVec 32 := BNE ||| RS1 TMP_REG2 ||| RS2 TMP_ZERO ||| (0xfe000e80#32 - (8#32 <<< 7))
def clzL3 (w clz : Bool) : Emit := w32 (ADDI ||| WORD w ||| RD TMP_REG2 ||| RS1 TMP_REG1 ||| IMM_I (-1#64)) ++
  (w32 ((if clz then SRL else SLL) ||| WORD w ||| RD TMP_REG2 ||| RS1 EQUAL_FLAG ||| RS2 TMP_REG2) ++
  w32 (OR ||| RD OTHER_FLAG ||| RS1 OTHER_FLAG ||| RS2 TMP_REG1))
def clzB2 : BitVec 32 := BEQ ||| RS1 TMP_REG2 ||| RS2 TMP_ZERO ||| (0xfe000e80#32 - (20#32 <<< 7))
def clzLoop (w clz : Bool) : Emit := clzL1 w ++ (clzL2 w clz ++ (w32 clzB1 ++ (clzL3 w clz ++ w32 clzB2)))

theorem dec_clzB1 : decode32 clzB1 = some (.branch .ne 1#5 0#5 (-12#13)) := by decide +kernel
theorem dec_clzB2 : decode32 clzB2 = some (.branch .eq 1#5 0#5 (-24#13)) := by decide +kernel

/-- Operation width. -/
abbrev wd : Bool → Nat
  | true => 32
  | false => 64
/-- Register image of a value of the operation width. -/
def img (is32 : Bool) (v : BitVec (wd is32)) : BitVec 64 :=
  match is32, v with
  | true, v => sx32 v
  | false, v => v

theorem img_zero (is32 : Bool) (v) : img is32 v = 0#64 ↔ v = 0#_ := by
  cases is32
  · rfl
  · exact sx32_inj (b := 0#32)

theorem addw_zero_img (is32 : Bool) (v) : addw is32 (img is32 v) 0#64 = img is32 v := by
  cases is32
  · simp [addw, img]
  · change sx32 (lo32 (sx32 v) + 0#32) = sx32 v
    rw [lo32_sx32]; congr 1; exact BitVec.add_zero (x := (v : BitVec 32))

section
variable {is32 clz : Bool} {k cnt : Nat} {c : Core} {v : BitVec (wd is32)}

theorem clzL1_ok (h1 : c.x 1#5 = img is32 v) : wp (clzL1 is32) c fun c1 => c1.x 5#5 = img is32 v ∧ Only [5#5] c c1 := by
  have f0 : Fits12 0#64 := by unfold Fits12; decide
  wps [clzL1, f0]
  exact ⟨by rw [h1, addw_zero_img], (Only.refl _ _).wr (by simp) _⟩

theorem setw_sx32 (v : BitVec 32) : BitVec.setWidth 32 (sx32 v) = v := lo32_sx32 v
theorem sx_lits : sx32 1#32 = 1#64 ∧ sx32 2#32 = 2#64 ∧ sx32 4#32 = 4#64 ∧ sx32 8#32 = 8#64 ∧ sx32 16#32 = 16#64 ∧
    sx32 0#32 = 0#64 ∧ sx32 3#32 = 3#64 ∧ sx32 7#32 = 7#64 ∧ sx32 15#32 = 15#64 := by decide

theorem k_lt (hk : 2 ^ (k + 1) ≤ wd is32) : k < 6 := by
  rcases Nat.lt_or_ge k 6 with h | h
  · exact h
  · have h1 : 2 ^ 7 ≤ 2 ^ (k + 1) := Nat.pow_le_pow_right (by decide) (by omega)
    have h2 : wd is32 ≤ 64 := by cases is32 <;> decide
    omega

theorem clzL2_ok (hk : 2 ^ (k + 1) ≤ wd is32) (h5 : c.x 5#5 = img is32 v) (h6 : c.x 6#5 = BitVec.ofNat 64 (2 ^ (k + 1))) :
    wp (clzL2 is32 clz) c fun c1 => c1.x 1#5 = img is32 (shf clz v (2 ^ k)) ∧ c1.x 6#5 = BitVec.ofNat 64 (2 ^ k) ∧ Only [1#5, 6#5] c c1 := by
  have hk6 := k_lt hk
  obtain ⟨l1, l2, l4, l8, l16, -⟩ := sx_lits
  have ho : ∀ a b, Only [1#5, 6#5] c ((c.wr 6#5 a).wr 1#5 b) := fun a b => ((Only.refl _ _).wr (by simp) _).wr (by simp) _
  cases is32 <;> interval_cases k <;> cases clz <;> first | exact absurd hk (by decide) | skip
  all_goals
    wps [clzL2, ShOp.eval, ShOp.eval32, ROp.eval, WOp.eval32, h5, h6, lo32, shf, img, ho, setw_sx32, l1, l2, l4, l8, l16]

theorem or_pow (hc : 2 ^ (k + 1) ∣ cnt) : cnt ||| 2 ^ k = cnt + 2 ^ k := by
  obtain ⟨m, rfl⟩ := hc
  exact (Nat.two_pow_add_eq_or_of_lt (Nat.pow_lt_pow_right (by decide) (by omega)) m).symm

theorem clzL3_ok (hk : 2 ^ (k + 1) ≤ wd is32) (h5 : c.x 5#5 = img is32 v) (h6 : c.x 6#5 = BitVec.ofNat 64 (2 ^ k))
    (h28 : c.x 28#5 = BitVec.ofNat 64 cnt) (hc : 2 ^ (k + 1) ∣ cnt) :
    wp (clzL3 is32 clz) c fun c1 => c1.x 1#5 = img is32 (shf clz v (2 ^ k - 1)) ∧
      c1.x 28#5 = BitVec.ofNat 64 (cnt + 2 ^ k) ∧ Only [1#5, 28#5] c c1 := by
  have hk6 := k_lt hk
  obtain ⟨l1, l2, l4, l8, l16, l0, l3, l7, l15⟩ := sx_lits
  have f1 : Fits12 (-1#64) := by unfold Fits12; decide
  have f2 : Fits12 18446744073709551615#64 := f1
  have ho : ∀ a b d, Only [1#5, 28#5] c (((c.wr 1#5 a).wr 1#5 b).wr 28#5 d) := fun a b d =>
    (((Only.refl _ _).wr (by simp) _).wr (by simp) _).wr (by simp) _
  have hor := or_pow hc
  have hor' : BitVec.ofNat 64 cnt ||| BitVec.ofNat 64 (2 ^ k) = BitVec.ofNat 64 (cnt + 2 ^ k) := by
    rw [← BitVec.ofNat_or, hor]
  cases is32 <;> interval_cases k <;> cases clz <;> first | exact absurd hk (by decide) | skip
  all_goals
    simp only [Nat.reducePow] at hor'
    wps [clzL3, ShOp.eval, ShOp.eval32, ROp.eval, WOp.eval32, h5, h6, h28, lo32, shf, img, ho, setw_sx32, addw, f1, f2, hor',
      l1, l2, l4, l8, l16, l0, l3, l7, l15]

theorem len_w32 (w : BitVec 32) : (w32 w).length = 2 := rfl
theorem len_L1 : (clzL1 is32).length = 2 := rfl
theorem len_L2 : (clzL2 is32 clz).length = 4 := rfl
theorem len_L3 : (clzL3 is32 clz).length = 6 := rfl
theorem len_loop : (clzLoop is32 clz).length = 16 := rfl

theorem Only.chain {W V : List Reg} {c c1 c2 : Core} (h : Only W c c1) (g : Only V c1 c2) (U : List Reg) (hw : ∀ r ∈ W, r ∈ U) (hv : ∀ r ∈ V, r ∈ U) :
    Only U c c2 := (h.mono hw).trans (g.mono hv)

/-- The loop, entered at its second instruction: `r` is what remains to be counted, `2 ^ (k + 1)` the current window. -/
theorem clzLoop_ok {code : Code} {p : BitVec 64} (hc : CodeAt code p (clzLoop is32 clz)) (k : Nat) :
    ∀ (c : Core) (v : BitVec (wd is32)) (cnt r : Nat), 2 ^ (k + 1) ≤ wd is32 → 0 < r → r < 2 ^ (k + 1) →
      IsM clz v (wd is32 - 2 ^ (k + 1) + r) → 2 ^ (k + 1) ∣ cnt →
      c.x 5#5 = img is32 v → c.x 6#5 = BitVec.ofNat 64 (2 ^ (k + 1)) → c.x 28#5 = BitVec.ofNat 64 cnt →
      Reach code p 4 c 32 fun c' => c'.x 28#5 = BitVec.ofNat 64 (cnt + r) ∧ Only [1#5, 5#5, 6#5, 28#5] c c' := by
  have hc0 : CodeAt code (p + BitVec.ofNat 64 0) (clzLoop is32 clz) := by simpa using hc
  obtain ⟨cL1, q⟩ := CodeAt.off hc0
  obtain ⟨cL2, q⟩ := CodeAt.off q
  obtain ⟨cB1, q⟩ := CodeAt.off q
  obtain ⟨cL3, cB2⟩ := CodeAt.off q
  simp only [len_L1, len_L2, len_L3, len_w32] at cL1 cL2 cB1 cL3 cB2
  induction k with
  | zero =>
    intro c v cnt r hk r0 r1 hm hcn h5 h6 h28
    have hr : r = 1 := by omega
    subst hr
    refine (Reach.wp (m := 12) cL2 (clzL2_ok (clz := clz) hk h5 h6) rfl).trans ?_
    rintro c1 ⟨g1, g2, g3⟩
    have g28 : c1.x 28#5 = BitVec.ofNat 64 cnt := by rw [← h28]; exact g3.1 _ (by decide)
    have g5 : c1.x 5#5 = img is32 v := by rw [← h5]; exact g3.1 _ (by decide)
    have hz : c1.x 1#5 = 0#64 := by
      rw [g1, img_zero]
      by_contra hne
      have := (hm.shf_ne (2 ^ 0)).mp hne
      simp only [Nat.reducePow, Nat.zero_add] at this hk; omega
    refine (Reach.br (m := 16) cB1 dec_clzB1 (t := false) (by simp [BrOp.eval, hz]) (by decide)
      (Q := fun c2 => c2 = c1) rfl).trans ?_
    rintro c2 rfl
    refine (Reach.wp (m := 28) cL3 (clzL3_ok (clz := clz) hk g5 g2 g28 hcn) rfl).trans ?_
    rintro c3 ⟨e1, e2, e3⟩
    have hnz : c3.x 1#5 ≠ 0#64 := by
      rw [e1, ne_eq, img_zero]
      apply (hm.shf_ne _).mpr
      simp only [Nat.reducePow, Nat.zero_add] at hk ⊢; omega
    refine (Reach.br (m := 32) cB2 dec_clzB2 (t := false) (by simpa [BrOp.eval] using hnz) (by decide)
      (Q := fun c4 => c4 = c3) rfl).mono ?_
    rintro c4 rfl
    exact ⟨by simpa using e2, Only.chain g3 e3 _ (by decide) (by decide)⟩
  | succ k ih =>
    intro c v cnt r hk r0 r1 hm hcn h5 h6 h28
    have hp : 2 ^ (k + 1 + 1) = 2 * 2 ^ (k + 1) := by rw [Nat.pow_succ]; omega
    have hs : 0 < 2 ^ (k + 1) := Nat.pow_pos (by decide)
    refine (Reach.wp (m := 12) cL2 (clzL2_ok (clz := clz) hk h5 h6) rfl).trans ?_
    rintro c1 ⟨g1, g2, g3⟩
    have g28 : c1.x 28#5 = BitVec.ofNat 64 cnt := by rw [← h28]; exact g3.1 _ (by decide)
    have g5 : c1.x 5#5 = img is32 v := by rw [← h5]; exact g3.1 _ (by decide)
    have hne := hm.shf_ne (2 ^ (k + 1))
    by_cases hlt : r < 2 ^ (k + 1)
    · -- the shifted value becomes the new value
      have hnz : c1.x 1#5 ≠ 0#64 := by
        rw [g1, ne_eq, img_zero]
        apply hne.mpr; omega
      refine (Reach.br (m := 0) cB1 dec_clzB1 (t := true) (by simpa [BrOp.eval] using hnz) (by decide)
        (Q := fun c2 => c2 = c1) rfl).trans ?_
      rintro c2 rfl
      refine (Reach.wp (m := 4) cL1 (clzL1_ok g1) rfl).trans ?_
      rintro c3 ⟨e1, e2⟩
      have hm' := hm.shf (2 ^ (k + 1))
      have em : min (wd is32) (wd is32 - 2 ^ (k + 1 + 1) + r + 2 ^ (k + 1)) = wd is32 - 2 ^ (k + 1) + r := by omega
      rw [em] at hm'
      refine (ih c3 _ cnt r (by omega) r0 hlt hm' (Nat.dvd_trans (Nat.pow_dvd_pow 2 (by omega)) hcn) e1
        (by rw [← g2]; exact e2.1 _ (by decide)) (by rw [← g28]; exact e2.1 _ (by decide))).mono ?_
      rintro c4 ⟨f1, f2⟩
      exact ⟨f1, Only.chain (Only.chain g3 e2 [1#5, 5#5, 6#5, 28#5] (by decide) (by decide)) f2 _ (by decide) (by decide)⟩
    · have hz : c1.x 1#5 = 0#64 := by
        rw [g1, img_zero]
        by_contra h
        have := hne.mp h
        omega
      refine (Reach.br (m := 16) cB1 dec_clzB1 (t := false) (by simp [BrOp.eval, hz]) (by decide)
        (Q := fun c2 => c2 = c1) rfl).trans ?_
      rintro c2 rfl
      refine (Reach.wp (m := 28) cL3 (clzL3_ok (clz := clz) hk g5 g2 g28 hcn) rfl).trans ?_
      rintro c3 ⟨e1, e2, e3⟩
      have hne' := hm.shf_ne (2 ^ (k + 1) - 1)
      by_cases heq : r = 2 ^ (k + 1)
      · have hnz : c3.x 1#5 ≠ 0#64 := by
          rw [e1, ne_eq, img_zero]
          apply hne'.mpr; omega
        refine (Reach.br (m := 32) cB2 dec_clzB2 (t := false) (by simpa [BrOp.eval] using hnz) (by decide)
          (Q := fun c4 => c4 = c3) rfl).mono ?_
        rintro c4 rfl
        exact ⟨by rw [e2, heq], Only.chain g3 e3 _ (by decide) (by decide)⟩
      · have hz3 : c3.x 1#5 = 0#64 := by
          rw [e1, img_zero]
          by_contra h
          have := hne'.mp h
          omega
        refine (Reach.br (m := 4) cB2 dec_clzB2 (t := true) (by simpa [BrOp.eval] using hz3) (by decide)
          (Q := fun c4 => c4 = c3) rfl).trans ?_
        rintro c4 rfl
        have em : wd is32 - 2 ^ (k + 1 + 1) + r = wd is32 - 2 ^ (k + 1) + (r - 2 ^ (k + 1)) := by omega
        rw [em] at hm
        have hd : 2 ^ (k + 1) ∣ cnt + 2 ^ (k + 1) :=
          Nat.dvd_add (Nat.dvd_trans (Nat.pow_dvd_pow 2 (by omega)) hcn) (Nat.dvd_refl _)
        refine (ih c4 v (cnt + 2 ^ (k + 1)) (r - 2 ^ (k + 1)) (by omega) (by omega) (by omega) hm hd
          (by rw [← g5]; exact e3.1 _ (by decide)) (by rw [← g2]; exact e3.1 _ (by decide)) e2).mono ?_
        rintro c5 ⟨f1, f2⟩
        refine ⟨by rw [f1]; congr 1; omega, ?_⟩
        exact Only.chain (Only.chain g3 e3 [1#5, 5#5, 6#5, 28#5] (by decide) (by decide)) f2 _ (by decide) (by decide)

/-- The code from the first branch on. -/
def clzBody (w clz : Bool) (dst : Nat) : Emit :=
  w32 (BEQ ||| RS1 TMP_REG2 ||| RS2 TMP_ZERO ||| ((if clz then 16#32 else 20#32) <<< 7) ||| (32#32 <<< 20)) ++
  (w32 (ADDI ||| WORD w ||| RD OTHER_FLAG ||| RS1 TMP_ZERO ||| IMM_I 0#64) ++
  ((if clz then w32 (BLT ||| RS1 TMP_REG2 ||| RS2 TMP_ZERO ||| (8#32 <<< 7) ||| (32#32 <<< 20))
    else w32 (ANDI ||| RD TMP_REG1 ||| RS1 TMP_REG2 ||| IMM_I 1#64) ++
      w32 (BNE ||| RS1 TMP_REG1 ||| RS2 TMP_ZERO ||| (8#32 <<< 7) ||| (32#32 <<< 20))) ++
  (w32 (ADDI ||| WORD w ||| RD TMP_REG1 ||| RS1 TMP_ZERO ||| IMM_I (if w then 32#64 else 64#64)) ++
  (clzLoop w clz ++ w32 (ADDI ||| WORD w ||| RD dst ||| RS1 OTHER_FLAG ||| IMM_I 0#64)))))

theorem emitClzCtz_eq (op : Op) (dst src : Nat) : emitClzCtz op dst src =
    w32 (ADDI ||| WORD op.is32 ||| RD OTHER_FLAG ||| RS1 TMP_ZERO ||| IMM_I (if op.is32 then 32#64 else 64#64)) ++
    ((if src ≠ TMP_REG2 then w32 (ADDI ||| WORD op.is32 ||| RD TMP_REG2 ||| RS1 src ||| IMM_I 0#64) else []) ++
    clzBody op.is32 (op.code == .clz) dst) := by
  simp only [emitClzCtz, clzBody, clzLoop, clzL1, clzL2, clzL3, clzB1, clzB2, List.append_assoc]

theorem dec_b0 (clz : Bool) : decode32 (BEQ ||| RS1 TMP_REG2 ||| RS2 TMP_ZERO ||| ((if clz then 16#32 else 20#32) <<< 7) ||| (32#32 <<< 20)) =
    some (.branch .eq 1#5 0#5 (if clz then 48#13 else 52#13)) := by cases clz <;> decide +kernel
theorem dec_b1 : decode32 (BLT ||| RS1 TMP_REG2 ||| RS2 TMP_ZERO ||| (8#32 <<< 7) ||| (32#32 <<< 20)) =
    some (.branch .lt 1#5 0#5 40#13) := by decide +kernel
theorem dec_b2 : decode32 (BNE ||| RS1 TMP_REG1 ||| RS2 TMP_ZERO ||| (8#32 <<< 7) ||| (32#32 <<< 20)) =
    some (.branch .ne 6#5 0#5 40#13) := by decide +kernel

/-- The first bit in counting order. -/
def firstBit {w : Nat} (clz : Bool) (v : BitVec w) : Bool := if clz then v.msb else v.getLsbD 0

theorem IsM.first {w n : Nat} {clz : Bool} {v : BitVec w} (hw : 0 < w) (h : IsM clz v n) : firstBit clz v = true ↔ n = 0 := by
  cases clz <;> simp only [IsM, firstBit, Bool.false_eq_true, if_false, if_true] at h ⊢ <;> obtain ⟨h1, h2, h3⟩ := h <;> constructor
  · intro hb
    by_contra h0
    rw [h2 0 (by omega)] at hb; cases hb
  · rintro rfl; exact h3 hw
  · intro hb
    by_contra h0
    have := h2 0 (by omega)
    rw [BitVec.msb] at hb
    rw [this] at hb; cases hb
  · rintro rfl; exact h3 hw

theorem isM_ex {w : Nat} (hw : 0 < w) (clz : Bool) (v : BitVec w) : ∃ n, IsM clz v n := by
  cases clz
  · exact ⟨_, ctzN_ok v⟩
  · exact ⟨_, clzN_ok hw v⟩

theorem IsM.le {w n : Nat} {clz : Bool} {v : BitVec w} (h : IsM clz v n) : n ≤ w := by
  cases clz <;> exact h.1

theorem img_slt (is32 : Bool) (v) : (img is32 v).slt 0#64 = firstBit true v := by
  cases is32
  · simp [img, firstBit, BitVec.slt_zero_eq_msb]
  · change (sx32 v).slt 0#64 = BitVec.msb (n := 32) v
    rw [BitVec.slt_zero_eq_msb]
    simp [sx32, BitVec.msb_signExtend]

theorem img_and1 (is32 : Bool) (v) : (img is32 v &&& 1#64 ≠ 0#64) ↔ firstBit false v = true := by
  have key : ∀ x : BitVec 64, (x &&& 1#64 ≠ 0#64) ↔ x.getLsbD 0 = true := by
    intro x
    constructor
    · intro h
      by_contra hb
      apply h
      apply BitVec.eq_of_getLsbD_eq
      intro i hi
      rcases i with _ | i
      · simpa using hb
      · simp
    · intro h h'
      have := congrArg (fun y => y.getLsbD 0) h'
      simp at this
      simp [this] at h
  rw [key]
  cases is32
  · rfl
  · change (sx32 v).getLsbD 0 = true ↔ BitVec.getLsbD (w := 32) v 0 = true
    rw [sx32, BitVec.getLsbD_signExtend]; simp

theorem addw_small (w : Bool) {n : Nat} (h : n ≤ 64) : addw w (BitVec.ofNat 64 n) 0#64 = BitVec.ofNat 64 n := by
  have : ∀ n : Fin 65, ∀ w : Bool, addw w (BitVec.ofNat 64 n.1) 0#64 = BitVec.ofNat 64 n.1 := by decide +kernel
  exact this ⟨n, by omega⟩ w

theorem Kept.of_only {W : List Reg} {d : Reg} {c c' : Core} (h : Only W c c') (hw : ∀ r ∈ W, r = d ∨ r = 5#5 ∨ r = 28#5 ∨ r = 6#5 ∨ r = 1#5) :
    Kept d c c' := by
  refine ⟨fun q h1 h2 h3 h4 h5 => h.1 q fun hq => ?_, h.2⟩
  rcases hw q hq with h | h | h | h | h <;> contradiction

theorem Kept.trans {d : Reg} {c c1 c2 : Core} (h : Kept d c c1) (g : Kept d c1 c2) : Kept d c c2 :=
  ⟨fun q h1 h2 h3 h4 h5 => (g.1 q h1 h2 h3 h4 h5).trans (h.1 q h1 h2 h3 h4 h5), g.2.1.trans h.2.1, g.2.2.trans h.2.2⟩

theorem clzBody_ok {dst : Nat} (hd : regMap dst ≠ 0#5) (h1 : c.x 1#5 = img is32 v) (h28 : c.x 28#5 = BitVec.ofNat 64 (wd is32)) :
    wpB (clzBody is32 clz dst) c fun c' => (∃ n, IsM clz v n ∧ c'.x (regMap dst) = BitVec.ofNat 64 n) ∧ Kept (regMap dst) c c' := by
  apply wpB_of_reach
  intro code p hc
  have hw0 : 0 < wd is32 := by cases is32 <;> decide
  have hw64 : wd is32 ≤ 64 := by cases is32 <;> decide
  obtain ⟨n, hm⟩ := isM_ex hw0 clz v
  have f0 : Fits12 0#64 := by unfold Fits12; decide
  have fs : Fits12 (if is32 then 32#64 else 64#64) := by unfold Fits12; cases is32 <;> decide
  have hk : ∃ k, 2 ^ (k + 1) = wd is32 := by cases is32 <;> [exact ⟨5, rfl⟩; exact ⟨4, rfl⟩]
  obtain ⟨k, hk⟩ := hk
  have hsz : addw is32 0#64 (if is32 then 32#64 else 64#64) = BitVec.ofNat 64 (2 ^ (k + 1)) := by rw [hk]; cases is32 <;> decide
  -- the last instruction
  have fin : ∀ (e : Nat) (c' : Core), CodeAt code (p + BitVec.ofNat 64 e) (w32 (ADDI ||| WORD is32 ||| RD dst ||| RS1 OTHER_FLAG ||| IMM_I 0#64)) →
      c'.x 28#5 = BitVec.ofNat 64 n → Kept (regMap dst) c c' →
      Reach code p e c' (e + 4) fun c' => (∃ n, IsM clz v n ∧ c'.x (regMap dst) = BitVec.ofNat 64 n) ∧ Kept (regMap dst) c c' := by
    intro e c' hce g1 g2
    refine Reach.wp hce ?_ rfl
    rw [wp_ADDIW' _ _ f0]
    refine ⟨⟨n, hm, ?_⟩, g2.wr (by simp) _⟩
    have : c'.x (regMap OTHER_FLAG) = BitVec.ofNat 64 n := g1
    rw [this, addw_small _ (Nat.le_trans hm.le hw64)]
    simp [hd]
  -- the loop, from the load of the first shift amount
  have main : ∀ (e : Nat) (c' : Core), CodeAt code (p + BitVec.ofNat 64 e) (w32 (ADDI ||| WORD is32 ||| RD TMP_REG1 ||| RS1 TMP_ZERO |||
        IMM_I (if is32 then 32#64 else 64#64)) ++ (clzLoop is32 clz ++ w32 (ADDI ||| WORD is32 ||| RD dst ||| RS1 OTHER_FLAG ||| IMM_I 0#64))) →
      c'.x 28#5 = 0#64 → c'.x 1#5 = img is32 v → Kept (regMap dst) c c' → n ≠ 0 → n ≠ wd is32 →
      Reach code p e c' (e + 40) fun c' => (∃ n, IsM clz v n ∧ c'.x (regMap dst) = BitVec.ofNat 64 n) ∧ Kept (regMap dst) c c' := by
    intro e c' hce g28 g1 g2 n0 nw
    obtain ⟨m1, q⟩ := CodeAt.off hce
    obtain ⟨m2, m3⟩ := CodeAt.off q
    simp only [len_w32, len_loop] at m1 m2 m3
    refine (Reach.wp (m := e + 4) (Q := fun c1 => c1 = c'.wr 6#5 (BitVec.ofNat 64 (2 ^ (k + 1)))) m1
      (by rw [wp_ADDIW' _ _ fs]; simp [hsz]) rfl).trans ?_
    rintro c1 rfl
    obtain ⟨l1, l2⟩ := CodeAt.off (a := clzL1 is32) m2
    refine (Reach.wp (m := e + 8) l1 (clzL1_ok (is32 := is32) (v := v) (by simpa using g1)) (by rw [len_L1])).trans ?_
    rintro c2 ⟨e1, e2⟩
    have hle := hm.le
    have key := clzLoop_ok (p := p + BitVec.ofNat 64 (e + 4)) m2 k c2 v 0 n (by omega) (by omega) (by omega)
      (by rw [hk, Nat.sub_self, Nat.zero_add]; exact hm) (Nat.dvd_zero _) e1 (by rw [e2.1 _ (by decide)]; simp)
      (by rw [e2.1 _ (by decide)]; simpa using g28)
    have addp : ∀ a b : Nat, p + BitVec.ofNat 64 a + BitVec.ofNat 64 b = p + BitVec.ofNat 64 (a + b) := by
      intro a b
      apply BitVec.eq_of_toNat_eq
      simp; omega
    have key' : Reach code p (e + 8) c2 (e + 36) fun c' => c'.x 28#5 = BitVec.ofNat 64 (0 + n) ∧ Only [1#5, 5#5, 6#5, 28#5] c2 c' := by
      intro s hs1 hs2
      obtain ⟨s', k1, k2, k3⟩ := key s (by rw [hs1, addp]) hs2
      exact ⟨s', k1, by rw [k2, addp], k3⟩
    refine key'.trans ?_
    rintro c3 ⟨f1, f2⟩
    refine fin (e + 36) c3 m3 (by simpa using f1) ?_
    have a1 : Kept (regMap dst) c (c'.wr 6#5 (BitVec.ofNat 64 (2 ^ (k + 1)))) := g2.wr (by simp) _
    have a2 : Kept (regMap dst) (c'.wr 6#5 (BitVec.ofNat 64 (2 ^ (k + 1)))) c2 := Kept.of_only e2 (by simp)
    exact (a1.trans a2).trans (Kept.of_only f2 (by simp))
  have hc0 : CodeAt code (p + BitVec.ofNat 64 0) (clzBody is32 clz dst) := by simpa using hc
  obtain ⟨c1, q⟩ := CodeAt.off hc0
  obtain ⟨c2, q⟩ := CodeAt.off q
  simp only [len_w32] at c1 c2 q
  have z0 : addw is32 0#64 0#64 = 0#64 := by cases is32 <;> decide
  by_cases hz : v = 0#_
  · have hn : n = wd is32 := hm.ne0.mp hz
    have h1z : c.x 1#5 = 0#64 := by rw [h1]; exact (img_zero _ _).mpr hz
    cases clz
    · obtain ⟨c3, q⟩ := CodeAt.off (a := w32 _ ++ w32 _) q
      obtain ⟨c4, q⟩ := CodeAt.off q
      obtain ⟨c5, q⟩ := CodeAt.off q
      refine (Reach.br (m := 52) c1 (dec_b0 false) (t := true) (by simp [BrOp.eval, h1z]) (by decide) (Q := fun c' => c' = c) rfl).trans ?_
      rintro c' rfl
      exact fin 52 _ q (by rw [h28, hn]) (Kept.refl _ _)
    · obtain ⟨c3, q⟩ := CodeAt.off (a := w32 _) q
      obtain ⟨c4, q⟩ := CodeAt.off q
      obtain ⟨c5, q⟩ := CodeAt.off q
      refine (Reach.br (m := 48) c1 (dec_b0 true) (t := true) (by simp [BrOp.eval, h1z]) (by decide) (Q := fun c' => c' = c) rfl).trans ?_
      rintro c' rfl
      exact fin 48 _ q (by rw [h28, hn]) (Kept.refl _ _)
  · have hn : n ≠ wd is32 := fun h => hz (hm.ne0.mpr h)
    have h1z : c.x 1#5 ≠ 0#64 := by rw [h1]; exact fun h => hz ((img_zero _ _).mp h)
    refine (Reach.br (m := 4) c1 (dec_b0 clz) (t := false) (by simpa [BrOp.eval] using h1z) (by cases clz <;> decide) (Q := fun c' => c' = c) rfl).trans ?_
    rintro c' rfl
    refine (Reach.wp (m := 8) (Q := fun c1 => c1 = c'.wr 28#5 0#64) c2 (by rw [wp_ADDIW' _ _ f0]; simp [z0]) rfl).trans ?_
    rintro c2' rfl
    have hfirst := hm.first hw0
    have kd : Kept (regMap dst) c' (c'.wr 28#5 0#64) := (Kept.refl _ _).wr (by simp) _
    cases clz
    · obtain ⟨c3, q'⟩ := CodeAt.off (a := w32 _ ++ w32 _) q
      obtain ⟨c31, c32⟩ := CodeAt.off c3
      obtain ⟨c4, q⟩ := CodeAt.off q'
      obtain ⟨c5, q⟩ := CodeAt.off q
      refine (Reach.wp (m := 12) (Q := fun c1 => c1 = (c'.wr 28#5 0#64).wr 6#5 (img is32 v &&& 1#64)) c31 (by wps [IOp.eval, h1]) rfl).trans ?_
      rintro c3' rfl
      have kd' : Kept (regMap dst) c' ((c'.wr 28#5 0#64).wr 6#5 (img is32 v &&& 1#64)) := kd.wr (by simp) _
      by_cases hn0 : n = 0
      · have hb := (img_and1 is32 v).mpr (hfirst.mpr hn0)
        refine (Reach.br (m := 52) c32 dec_b2 (t := true) (by simpa [BrOp.eval] using hb) (by decide) (Q := fun c'' => c'' = _) rfl).trans ?_
        rintro c4' rfl
        exact fin 52 _ q (by rw [hn0]; simp) kd'
      · have hb : img is32 v &&& 1#64 = 0#64 := by
          by_contra h
          exact hn0 (hfirst.mp ((img_and1 is32 v).mp h))
        refine (Reach.br (m := 16) c32 dec_b2 (t := false) (by simpa [BrOp.eval] using hb) (by decide) (Q := fun c'' => c'' = _) rfl).trans ?_
        rintro c4' rfl
        exact main 16 _ q' (by simp) (by simpa using h1) kd' hn0 hn
    · obtain ⟨c3, q'⟩ := CodeAt.off (a := w32 _) q
      obtain ⟨c4, q⟩ := CodeAt.off q'
      obtain ⟨c5, q⟩ := CodeAt.off q
      have hs := img_slt is32 v
      by_cases hn0 : n = 0
      · have hb := hfirst.mpr hn0
        refine (Reach.br (m := 48) c3 dec_b1 (t := true) (by simp [BrOp.eval, h1, hs, hb]) (by decide) (Q := fun c'' => c'' = _) rfl).trans ?_
        rintro c4' rfl
        exact fin 48 _ q (by rw [hn0]; simp) kd
      · have hb : firstBit true v = false := by
          cases h : firstBit true v
          · rfl
          · exact absurd (hfirst.mp h) hn0
        refine (Reach.br (m := 12) c3 dec_b1 (t := false) (by simp [BrOp.eval, h1, hs, hb]) (by decide) (Q := fun c'' => c'' = _) rfl).trans ?_
        rintro c4' rfl
        exact main 12 _ q' (by simp) (by simpa using h1) kd hn0 hn

/-- SLJIT_CLZ / SLJIT_CTZ without the Zbb extension: a 32 bit operand that already is in TMP_REG2 has to be sign extended. -/
theorem emitClzCtz_ok {op : Op} {dst src : Nat} {A : BitVec 64} (ho : op.code = .clz ∨ op.code = .ctz) (hd : DstOk dst)
    (hs : SrcOk src) (hx : src = TMP_REG2 → op.is32 = true → A = sx32 (lo32 A)) (hA : c.x (regMap src) = A) :
    wpB (emitClzCtz op dst src) c (Post1 (UnSpec op.code op.is32 A) (regMap dst) c) := by
  rw [emitClzCtz_eq]
  have f0 : Fits12 0#64 := by unfold Fits12; decide
  have fs : ∀ w : Bool, Fits12 (if w then 32#64 else 64#64) := by intro w; unfold Fits12; cases w <;> decide
  have hsz : ∀ w : Bool, addw w 0#64 (if w then 32#64 else 64#64) = BitVec.ofNat 64 (wd w) := by decide
  have himg : ∃ v : BitVec (wd op.is32), (if op.is32 then sx32 (lo32 A) else A) = img op.is32 v ∧
      ∀ clz n, IsM clz v n → if op.is32 then IsM clz (A.setWidth 32) n else IsM clz A n := by
    cases op.is32
    · exact ⟨A, rfl, fun _ _ h => h⟩
    · exact ⟨lo32 A, rfl, fun _ _ h => h⟩
  obtain ⟨v, hv1, hv2⟩ := himg
  apply wpB_append
  refine wpB_mono (wp.B (Q := fun c1 => c1 = c.wr 28#5 (BitVec.ofNat 64 (wd op.is32))) (by rw [wp_ADDIW' _ _ (fs _)]; simp [hsz])) ?_
  rintro c1 rfl
  apply wpB_append
  have h28 : regMap src ≠ 28#5 := hs.n28
  have hpre : wp (if src ≠ TMP_REG2 then w32 (ADDI ||| WORD op.is32 ||| RD TMP_REG2 ||| RS1 src ||| IMM_I 0#64) else [])
      (c.wr 28#5 (BitVec.ofNat 64 (wd op.is32)))
      (fun c2 => c2.x 1#5 = img op.is32 v ∧ Only [1#5, 28#5] c c2 ∧ c2.x 28#5 = BitVec.ofNat 64 (wd op.is32)) := by
    by_cases h : src = TMP_REG2
    · rw [if_neg (by simpa using h)]
      rw [wp_nil]
      refine ⟨?_, (Only.refl _ _).wr (by simp) _, by simp⟩
      have h1 : c.x 1#5 = A := by rw [← hA, h]; rfl
      simp only [x_wr]
      rw [← hv1]
      cases h3 : op.is32
      · simpa using h1
      · simpa [h1] using hx h h3
    · rw [if_pos h, wp_ADDIW' _ _ f0]
      refine ⟨?_, ((Only.refl _ _).wr (by simp) _).wr (by simp) _, by simp⟩
      have h1 : (c.wr 28#5 (BitVec.ofNat 64 (wd op.is32))).x (regMap src) = A := by rw [← hA]; simp [h28]
      rw [h1, ← hv1]
      cases h3 : op.is32 <;> simp [addw, show lo32 0#64 = 0#32 from rfl]
  refine wpB_mono hpre.B ?_
  rintro c2 ⟨g1, g2, g3⟩
  refine wpB_mono (clzBody_ok hd.n0 g1 g3) ?_
  rintro c3 ⟨⟨n, k1, k2⟩, k3⟩
  refine ⟨?_, (Kept.of_only g2 (by simp)).trans k3⟩
  have := hv2 _ n k1
  rcases ho with ho | ho <;> rw [ho] at this ⊢
  · exact ⟨n, k2, by simpa [IsM] using this⟩
  · exact ⟨n, k2, by simpa [IsM, show (OpC.ctz == OpC.clz) = false from rfl] using this⟩
end

end Verif.RV
