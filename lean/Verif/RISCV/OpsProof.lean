import Verif.RISCV.OpsRules
import Mathlib.Tactic.SplitIfs

/-! # emit_single_op computes the specified result and flags (helper lemmas) -/

set_option linter.all false

namespace Verif.RV

/-- Registers that emit_single_op may change besides the destination: EQUAL_FLAG, OTHER_FLAG, TMP_REG1, TMP_REG2. -/
def Kept (d : Reg) (c c' : Core) : Prop :=
  (∀ q, q ≠ d → q ≠ 5#5 → q ≠ 28#5 → q ≠ 6#5 → q ≠ 1#5 → c'.x q = c.x q) ∧ c'.mem = c.mem ∧ c'.f = c.f

/-- Result and flags of a binary operation on the register values `a`, `b`. -/
structure Post2 (op : Op) (fl : SF) (d : Reg) (a b : BitVec 64) (cin : Bool) (c c' : Core) : Prop where
  res : fl.unused = false → c'.x d = resX op a b cin
  zero : op.setZ = true → (c'.x 5#5 = 0#64 ↔ resX op a b cin = 0#64)
  flag : op.flag ≠ .none → (c'.x 28#5 ≠ 0#64 ↔ flagX op a b cin = true)
  bool : op.flag ≠ .none → op.flag ≠ .overflow ∨ op.code ≠ .mul → c'.x 28#5 = bool64 (flagX op a b cin)
  kept : Kept d c c'

/-- Destination of emit_single_op: a user register or TMP_REG2. -/
structure DstOk (dst : Nat) : Prop where
  le : dst ≤ 29
  n0 : regMap dst ≠ 0#5
  n5 : regMap dst ≠ 5#5
  n28 : regMap dst ≠ 28#5
  n6 : regMap dst ≠ 6#5

/-- First or second source register of emit_single_op: a user register, TMP_ZERO, TMP_REG1 or TMP_REG2. -/
structure SrcOk (src : Nat) : Prop where
  le : src ≤ 29
  n5 : regMap src ≠ 5#5
  n28 : regMap src ≠ 28#5

/-! ## Arithmetic facts -/

theorem bool64_ne0 (b : Bool) : (bool64 b ≠ 0#64) ↔ b = true := by cases b <;> simp [bool64]

theorem sx32_inj {a b : BitVec 32} : sx32 a = sx32 b ↔ a = b := by
  constructor
  · intro h
    have := congrArg BitVec.toInt h
    simp only [sx32, BitVec.toInt_signExtend_of_le (show 32 ≤ 64 by decide)] at this
    exact BitVec.eq_of_toInt_eq this
  · rintro rfl; rfl

@[simp] theorem lo32_sx32 (a : BitVec 32) : lo32 (sx32 a) = a := by
  simp only [lo32, sx32]; bits [BitVec.getLsbD_signExtend]

theorem sx32_zero {a : BitVec 32} : sx32 a = 0#64 ↔ a = 0#32 := by
  have : (0#64) = sx32 0#32 := by decide
  rw [this, sx32_inj]

theorem Sx_sx32 (a : BitVec 32) : Sx (sx32 a) := by simp [Sx]

theorem Sx_iff_toInt {v : BitVec 64} : Sx v ↔ v.toInt = (lo32 v).toInt := by
  constructor
  · intro h
    have := congrArg BitVec.toInt h
    simpa only [sx32, BitVec.toInt_signExtend_of_le (show 32 ≤ 64 by decide)] using this
  · intro h
    apply BitVec.eq_of_toInt_eq
    simpa only [sx32, BitVec.toInt_signExtend_of_le (show 32 ≤ 64 by decide)] using h

theorem Sx_fits12 {i : BitVec 64} (h : Fits12 i) : Sx i := by
  rw [Sx_iff_toInt]
  obtain ⟨h1, h2⟩ := h
  simp only [lo32, BitVec.toInt_eq_toNat_bmod, BitVec.toNat_setWidth, Int.bmod_def] at *
  have := i.isLt
  omega

theorem toInt_sx32 (a : BitVec 32) : (sx32 a).toInt = a.toInt := by
  simp only [sx32, BitVec.toInt_signExtend_of_le (show 32 ≤ 64 by decide)]

theorem toNat_sx32 (a : BitVec 32) : (sx32 a).toNat = if a.toNat < 2 ^ 31 then a.toNat else a.toNat + (2 ^ 64 - 2 ^ 32) := by
  have h := toInt_sx32 a
  simp only [BitVec.toInt_eq_toNat_cond] at h
  have := (sx32 a).isLt
  have := a.isLt
  split <;> split at h <;> split at h <;> omega

/-- Sign extension does not change the unsigned order. -/
theorem ult_sx32 (a b : BitVec 32) : (sx32 a).ult (sx32 b) = a.ult b := by
  simp only [BitVec.ult, toNat_sx32, decide_eq_decide]
  have := a.isLt
  have := b.isLt
  split <;> split <;> omega

theorem slt_sx32 (a b : BitVec 32) : (sx32 a).slt (sx32 b) = a.slt b := by
  simp only [BitVec.slt, toInt_sx32]

theorem val_add {w : Nat} (a b : BitVec w) (cin) : val .add a b cin = a + b := by
  apply BitVec.eq_of_toNat_eq; simp [val]
theorem val_sub {w : Nat} (a b : BitVec w) (cin) : val .sub a b cin = a - b := by
  apply BitVec.eq_of_toInt_eq
  rw [val, BitVec.toInt_ofInt, BitVec.toInt_sub, BitVec.toInt_eq_toNat_bmod, BitVec.toInt_eq_toNat_bmod]
  simp
theorem val_mul {w : Nat} (a b : BitVec w) (cin) : val .mul a b cin = a * b := by
  apply BitVec.eq_of_toNat_eq; simp [val]

theorem resX_add {op : Op} (h : op.code = .add) (a b cin) : resX op a b cin = addw op.is32 a b := by
  simp only [resX, addw, h, val_add]
theorem resX_sub {op : Op} (h : op.code = .sub) (a b cin) : resX op a b cin = subw op.is32 a b := by
  simp only [resX, subw, h, val_sub]

/-- Carry of an addition: the sum is smaller than an operand. -/
theorem carry_add {w : Nat} (a b : BitVec w) : (a + b).ult a = decide (2 ^ w ≤ a.toNat + b.toNat) := by
  have := a.isLt
  have := b.isLt
  simp only [BitVec.ult, BitVec.toNat_add, decide_eq_decide]
  by_cases h : a.toNat + b.toNat < 2 ^ w
  · rw [Nat.mod_eq_of_lt h]; omega
  · have : (a.toNat + b.toNat) % 2 ^ w = a.toNat + b.toNat - 2 ^ w := by
      rw [Nat.mod_eq_sub_mod (by omega), Nat.mod_eq_of_lt (by omega)]
    rw [this]; omega

theorem carry_addw {op : Op} (hc : op.code = .add) (hf : op.flag = .carry) (a b : BitVec 64) (cin)
    (ha : op.is32 = true → Sx a) : (addw op.is32 a b).ult a = flagX op a b cin := by
  simp only [flagX, hc, hf, flagVal]
  cases h : op.is32
  · simp only [addw, Bool.false_eq_true, if_false, carry_add]
  · have ha := ha h
    rw [ha, addw, if_pos rfl, if_pos rfl, lo32_sx32, ult_sx32, carry_add]


/-! Overflow: the carry (borrow) into the sign bit differs from the carry (borrow) out of it. -/
theorem ov_add64 (a b : BitVec 64) (cin) : ((a + b ^^^ (a ^^^ b)).msb ^^ (a + b).ult a) = flagVal .add .overflow a b cin := by
  have := a.isLt
  have := b.isLt
  have h1 := BitVec.toInt_eq_toNat_cond a
  have h2 := BitVec.toInt_eq_toNat_cond b
  rw [BitVec.msb_xor, BitVec.msb_xor]
  simp only [carry_add, flagVal, BitVec.msb_eq_decide, BitVec.toNat_add, Nat.reduceSub]
  generalize a.toInt = x at *
  generalize b.toInt = y at *
  rw [Bool.eq_iff_iff]
  rcases Decidable.em (2 ^ 63 ≤ a.toNat) with g1 | g1 <;> rcases Decidable.em (2 ^ 63 ≤ b.toNat) with g2 | g2 <;>
    rcases Decidable.em (2 ^ 63 ≤ (a.toNat + b.toNat) % 2 ^ 64) with g3 | g3 <;>
    rcases Decidable.em (2 ^ 64 ≤ a.toNat + b.toNat) with g4 | g4 <;>
    simp only [g1, g2, g3, g4, decide_true, decide_false, Bool.xor_false, Bool.xor_true, Bool.not_true, Bool.not_false,
      Bool.false_eq_true, decide_eq_true_eq, true_iff, false_iff] <;> split at h1 <;> split at h2 <;> omega
theorem ov_add32 (a b : BitVec 32) (cin) : ((a + b ^^^ (a ^^^ b)).msb ^^ (a + b).ult a) = flagVal .add .overflow a b cin := by
  have := a.isLt
  have := b.isLt
  have h1 := BitVec.toInt_eq_toNat_cond a
  have h2 := BitVec.toInt_eq_toNat_cond b
  rw [BitVec.msb_xor, BitVec.msb_xor]
  simp only [carry_add, flagVal, BitVec.msb_eq_decide, BitVec.toNat_add, Nat.reduceSub]
  generalize a.toInt = x at *
  generalize b.toInt = y at *
  rw [Bool.eq_iff_iff]
  rcases Decidable.em (2 ^ 31 ≤ a.toNat) with g1 | g1 <;> rcases Decidable.em (2 ^ 31 ≤ b.toNat) with g2 | g2 <;>
    rcases Decidable.em (2 ^ 31 ≤ (a.toNat + b.toNat) % 2 ^ 32) with g3 | g3 <;>
    rcases Decidable.em (2 ^ 32 ≤ a.toNat + b.toNat) with g4 | g4 <;>
    simp only [g1, g2, g3, g4, decide_true, decide_false, Bool.xor_false, Bool.xor_true, Bool.not_true, Bool.not_false,
      Bool.false_eq_true, decide_eq_true_eq, true_iff, false_iff] <;> split at h1 <;> split at h2 <;> omega
theorem ov_sub64 (a b : BitVec 64) (cin) : ((a - b ^^^ (a ^^^ b)).msb ^^ a.ult b) = flagVal .sub .overflow a b cin := by
  have := a.isLt
  have := b.isLt
  have h1 := BitVec.toInt_eq_toNat_cond a
  have h2 := BitVec.toInt_eq_toNat_cond b
  rw [BitVec.msb_xor, BitVec.msb_xor]
  simp only [BitVec.ult, flagVal, BitVec.msb_eq_decide, BitVec.toNat_sub, Nat.reduceSub]
  generalize a.toInt = x at *
  generalize b.toInt = y at *
  rw [Bool.eq_iff_iff]
  rcases Decidable.em (2 ^ 63 ≤ a.toNat) with g1 | g1 <;> rcases Decidable.em (2 ^ 63 ≤ b.toNat) with g2 | g2 <;>
    rcases Decidable.em (2 ^ 63 ≤ (2 ^ 64 - b.toNat + a.toNat) % 2 ^ 64) with g3 | g3 <;>
    rcases Decidable.em (a.toNat < b.toNat) with g4 | g4 <;>
    simp only [g1, g2, g3, g4, decide_true, decide_false, Bool.xor_false, Bool.xor_true, Bool.not_true, Bool.not_false,
      Bool.false_eq_true, decide_eq_true_eq, true_iff, false_iff] <;> split at h1 <;> split at h2 <;> omega
theorem ov_sub32 (a b : BitVec 32) (cin) : ((a - b ^^^ (a ^^^ b)).msb ^^ a.ult b) = flagVal .sub .overflow a b cin := by
  have := a.isLt
  have := b.isLt
  have h1 := BitVec.toInt_eq_toNat_cond a
  have h2 := BitVec.toInt_eq_toNat_cond b
  rw [BitVec.msb_xor, BitVec.msb_xor]
  simp only [BitVec.ult, flagVal, BitVec.msb_eq_decide, BitVec.toNat_sub, Nat.reduceSub]
  generalize a.toInt = x at *
  generalize b.toInt = y at *
  rw [Bool.eq_iff_iff]
  rcases Decidable.em (2 ^ 31 ≤ a.toNat) with g1 | g1 <;> rcases Decidable.em (2 ^ 31 ≤ b.toNat) with g2 | g2 <;>
    rcases Decidable.em (2 ^ 31 ≤ (2 ^ 32 - b.toNat + a.toNat) % 2 ^ 32) with g3 | g3 <;>
    rcases Decidable.em (a.toNat < b.toNat) with g4 | g4 <;>
    simp only [g1, g2, g3, g4, decide_true, decide_false, Bool.xor_false, Bool.xor_true, Bool.not_true, Bool.not_false,
      Bool.false_eq_true, decide_eq_true_eq, true_iff, false_iff] <;> split at h1 <;> split at h2 <;> omega


theorem msb64 (t : BitVec 64) : t >>> 63 = bool64 t.msb := by
  apply BitVec.eq_of_toNat_eq
  have := t.isLt
  simp only [BitVec.toNat_ushiftRight, Nat.shiftRight_eq_div_pow, BitVec.msb_eq_decide, bool64]
  split
  · rename_i h; simp only [decide_eq_true_eq] at h; simp only [BitVec.toNat_ofNat]; omega
  · rename_i h; simp only [decide_eq_true_eq] at h; simp only [BitVec.toNat_ofNat]; omega

theorem msb32 (t : BitVec 32) : sx32 (t >>> 31) = bool64 t.msb := by
  apply BitVec.eq_of_toNat_eq
  have := t.isLt
  simp only [toNat_sx32, BitVec.toNat_ushiftRight, Nat.shiftRight_eq_div_pow, BitVec.msb_eq_decide, bool64]
  split <;> split
  all_goals rename_i h; simp only [decide_eq_true_eq] at h; simp only [BitVec.toNat_ofNat]; omega

/-- The sign of a 32 or 64 bit value. -/
def msbw (w : Bool) (t : BitVec 64) : Bool := if w then (lo32 t).msb else t.msb

theorem bool64_xor (a b : Bool) : bool64 a ^^^ bool64 b = bool64 (a ^^ b) := by cases a <;> cases b <;> rfl

section
variable {c : Core} {Q : Core → Prop} {cfg : Cfg} {w : Bool} {d a b : Nat} {i : BitVec 64} {op : Op}

theorem wp_SRLI_msb (r : Emit) :
    wp (w32 (SRLI ||| WORD w ||| RD d ||| RS1 a ||| IMM_I (immExt w 31#64)) ++ r) c Q ↔
    wp r (c.wr (regMap d) (bool64 (msbw w (c.x (regMap a))))) Q := by
  cases w
  · have : (w32 (SRLI ||| WORD false ||| RD d ||| RS1 a ||| IMM_I (immExt false 31#64))) = w32 (SRLI ||| RD d ||| RS1 a ||| IMM_I 63#64) := by
      simp [WORD, immExt]
    rw [this, wp_SRLI_s]
    · simp [msbw, msb64, ShOp.eval]
    · decide
  · simp only [immExt, if_true]
    rw [wp_SRLI_W_s]
    · simp [msbw, msb32, ShOp.eval32]
    · decide


/-- Contents after the end of the overflow computation. -/
def ovTail (op : Op) (d : Reg) (c : Core) : Core :=
  ((if op.setZ then (c.wr 6#5 (c.x d ^^^ c.x 5#5)).wr 5#5 (c.x d) else c.wr 6#5 (c.x d ^^^ c.x 5#5)).wr 6#5
    (bool64 (msbw op.is32 (c.x d ^^^ c.x 5#5)))).wr 28#5 (bool64 (msbw op.is32 (c.x d ^^^ c.x 5#5)) ^^^ c.x 28#5)

@[simp] theorem wp_emitOvTail (hd : DstOk d) : wp (emitOvTail cfg op d) c Q ↔ Q (ovTail op (regMap d) c) := by
  have h0 := hd.n0
  have h6 := hd.n6
  unfold emitOvTail ovTail
  rw [wp_XOR_s]
  by_cases hz : op.setZ = true
  · rw [if_pos hz, if_pos hz, wp_emitCopy h0, wp_SRLI_msb, wp_XOR]
    simp only [x_wr, ROp.eval, rm25, rm28, rm29]
    simp [h6]
  · rw [if_neg hz, if_neg hz, List.nil_append, wp_SRLI_msb, wp_XOR]
    simp only [x_wr, ROp.eval, rm25, rm28, rm29]
    simp

end

theorem msbw_xor (w : Bool) (a b : BitVec 64) : msbw w (a ^^^ b) = (msbw w a ^^ msbw w b) := by
  cases w
  · simp [msbw]
  · have : lo32 (a ^^^ b) = lo32 a ^^^ lo32 b := by simp [lo32]
    simp only [msbw, if_true, this, BitVec.msb_xor]

theorem Post2.plain {op : Op} {fl : SF} {d : Reg} {a b : BitVec 64} {cin : Bool} {c c' : Core} (hf : op.flag ≠ .overflow)
    (h1 : fl.unused = false → c'.x d = resX op a b cin)
    (h2 : op.setZ = true → c'.x 5#5 = resX op a b cin)
    (h3 : op.flag ≠ .none → c'.x 28#5 = bool64 (flagX op a b cin)) (h4 : Kept d c c') : Post2 op fl d a b cin c c' where
  res := h1
  zero h := by rw [h2 h]
  flag h := by rw [h3 h]; exact bool64_ne0 _
  bool h _ := h3 h
  kept := h4

/-- The end of the overflow computation, applied to the contents `c1` reached before it. -/
theorem Post2.ov {op : Op} {fl : SF} {d : Reg} {a b : BitVec 64} {cin : Bool} {c c1 : Core} (E : BitVec 64) (cy : Bool)
    (hf : op.flag = .overflow) (h0 : d ≠ 0#5) (h5 : d ≠ 5#5) (h6 : d ≠ 6#5) (h28 : d ≠ 28#5) (h1 : c1.x d = resX op a b cin)
    (h2 : c1.x 5#5 = E) (h3 : c1.x 28#5 = bool64 cy)
    (h4 : (msbw op.is32 (resX op a b cin ^^^ E) ^^ cy) = flagX op a b cin) (h7 : Kept d c c1) :
    Post2 op fl d a b cin c (ovTail op d c1) := by
  obtain ⟨h7, h8, h9⟩ := h7
  constructor
  · intro _
    simp only [ovTail]
    split <;> simp [h0, h5, h6, h28, h1]
  · intro hz
    simp [ovTail, hz, h1]
  · intro _
    have : (ovTail op d c1).x 28#5 = bool64 (flagX op a b cin) := by
      rw [← h4, ← bool64_xor, ← h1, ← h2, ← h3]
      simp [ovTail]
    rw [this]; exact bool64_ne0 _
  · intro _ _
    rw [← h4, ← bool64_xor, ← h1, ← h2, ← h3]
    simp [ovTail]
  · refine ⟨fun q g1 g2 g3 g4 g5 => ?_, ?_, ?_⟩
    · rw [← h7 q g1 g2 g3 g4 g5]
      simp only [ovTail]
      split <;> simp [g2, g3, g4]
    · simp only [ovTail]; split <;> simp [h8]
    · simp only [ovTail]; split <;> simp [h9]

theorem ovX_add {op : Op} (hc : op.code = .add) (hf : op.flag = .overflow) (a b : BitVec 64) (cin)
    (ha : op.is32 = true → Sx a) :
    (msbw op.is32 (resX op a b cin ^^^ (a ^^^ b)) ^^ (addw op.is32 a b).ult a) = flagX op a b cin := by
  simp only [flagX, hc, hf, resX_add hc]
  cases h : op.is32
  · simp only [addw, msbw, Bool.false_eq_true, if_false]
    exact ov_add64 a b cin
  · have ha := ha h
    simp only [addw, msbw, if_true]
    have h1 : lo32 (sx32 (lo32 a + lo32 b) ^^^ (a ^^^ b)) = (lo32 a + lo32 b) ^^^ (lo32 a ^^^ lo32 b) := by
      have : ∀ x y : BitVec 64, lo32 (x ^^^ y) = lo32 x ^^^ lo32 y := fun x y => by simp [lo32]
      rw [this, this, lo32_sx32]
    rw [h1]
    conv => lhs; rhs; rhs; rw [ha]
    rw [ult_sx32]
    exact ov_add32 _ _ cin


theorem addw_ult_comm (w : Bool) (a b : BitVec 64) (h : w = true → Sx a ∧ Sx b) :
    (addw w a b).ult b = (addw w a b).ult a := by
  cases w
  · simp only [addw, Bool.false_eq_true, if_false]
    rw [carry_add, BitVec.add_comm, carry_add, Nat.add_comm]
  · obtain ⟨ha, hb⟩ := h rfl
    rw [ha, hb]
    simp only [addw, if_true, lo32_sx32, ult_sx32]
    rw [carry_add, BitVec.add_comm, carry_add, Nat.add_comm]

theorem add_reg {cfg : Cfg} {op : Op} {fl : SF} {dst a b : Nat} {c : Core} {cin : Bool} {A B : BitVec 64} (hc : op.code = .add)
    (hf : op.flagOk) (hd : DstOk dst) (ha : SrcOk a) (hb : SrcOk b) (hA : c.x (regMap a) = A) (hB : c.x (regMap b) = B)
    (h32 : op.is32 = true → Sx A ∧ Sx B) (hcy : op.flag = .carry → carrySrc dst a b OTHER_FLAG ≠ 0) :
    wp (emitAddOp cfg op fl dst a (.reg b)) c (Post2 op fl (regMap dst) A B cin c) := by
  simp only [Op.flagOk, hc] at hf
  obtain ⟨hal, ha5, ha28⟩ := ha
  obtain ⟨hbl, hb5, hb28⟩ := hb
  have hd' := hd
  obtain ⟨hdl, hd0, hd5, hd28, hd6⟩ := hd
  have hs0 := hd0.symm
  have hs5 := hd5.symm
  have hs28 := hd28.symm
  have hs6 := hd6.symm
  have hr := resX_add hc A B cin
  have hcm := addw_ult_comm op.is32 A B h32
  rcases hf with hf | hf | hf
  · rcases hz : op.setZ with _ | _ <;> rcases hu : fl.unused with _ | _ <;>
      wps [emitAddOp, hf, hz, hu, hal, hbl] <;> apply Post2.plain <;> simp +contextual [hf, hz, hu, hr, Kept, *]
  · have key : ∀ c1 : Core, c1.x (regMap dst) = addw op.is32 A B → c1.x 5#5 = A ^^^ B →
        c1.x 28#5 = bool64 ((addw op.is32 A B).ult A) → Kept (regMap dst) c c1 →
        Post2 op fl (regMap dst) A B cin c (ovTail op (regMap dst) c1) :=
      fun c1 g1 g2 g3 g4 => Post2.ov _ _ hf hd0 hd5 hd6 hd28 (g1.trans hr.symm) g2 g3
        (ovX_add hc hf _ _ _ fun h => (h32 h).1) g4
    wps [emitAddOp, hf, hal, hbl, hd', carrySrc]
    by_cases h1 : a = dst
    · subst h1
      by_cases h2 : b = a
      · subst h2
        obtain rfl : A = B := hA.symm.trans hB
        wps []
        apply key <;> simp +contextual [Kept, *]
      · have h3 := rm_ne hbl hdl h2
        wps [h2]
        apply key <;> simp +contextual [Kept, *]
    · have h3 := rm_ne hal hdl h1
      wps [h1]
      apply key <;> simp +contextual [Kept, *]
  · have hcf := carry_addw hc hf A B cin fun h => (h32 h).1
    have hcy := hcy hf
    wps [emitAddOp, hf, hal, hbl, hd', hcy]
    simp only [carrySrc]
    by_cases h1 : a = dst
    · subst h1
      by_cases h2 : b = a
      · subst h2
        obtain rfl : A = B := hA.symm.trans hB
        rcases hz : op.setZ with _ | _ <;> wps [] <;> apply Post2.plain <;> simp +contextual [Kept, *]
      · have h3 := rm_ne hbl hdl h2
        rcases hz : op.setZ with _ | _ <;> wps [h2] <;> apply Post2.plain <;> simp +contextual [Kept, *]
    · have h3 := rm_ne hal hdl h1
      rcases hz : op.setZ with _ | _ <;> wps [h1] <;> apply Post2.plain <;> simp +contextual [Kept, *]
theorem ovImm_msb (w : Bool) (a i : BitVec 64) (hi : Fits12 i) : msbw w (ovImm a i) = msbw w (a ^^^ i) := by
  have hs := Sx_fits12 hi
  obtain ⟨h1, h2⟩ := hi
  have key : msbw w i = decide (i.toInt < 0) := by
    cases w
    · simp only [msbw, Bool.false_eq_true, if_false, BitVec.msb_eq_toInt]
    · rw [Sx_iff_toInt] at hs
      simp only [msbw, if_true, BitVec.msb_eq_toInt, hs]
  rw [msbw_xor, key]
  unfold ovImm
  by_cases h : 0 ≤ i.toInt
  · simp [h, show ¬ i.toInt < 0 by omega]
  · have : msbw w 18446744073709551615#64 = true := by cases w <;> decide
    simp [h, show i.toInt < 0 by omega, msbw_xor, this]

theorem add_imm {cfg : Cfg} {op : Op} {fl : SF} {dst a : Nat} {i : BitVec 64} {c : Core} {cin : Bool} {A : BitVec 64} (hc : op.code = .add)
    (hf : op.flagOk) (hd : DstOk dst) (ha : SrcOk a) (hi : Fits12 i) (hA : c.x (regMap a) = A)
    (h32 : op.is32 = true → Sx A) (hov : op.flag = .overflow → a ≠ 0) :
    wp (emitAddOp cfg op fl dst a (.imm i)) c (Post2 op fl (regMap dst) A i cin c) := by
  simp only [Op.flagOk, hc] at hf
  obtain ⟨hal, ha5, ha28⟩ := ha
  have hd' := hd
  obtain ⟨hdl, hd0, hd5, hd28, hd6⟩ := hd
  have hs0 := hd0.symm
  have hs5 := hd5.symm
  have hs28 := hd28.symm
  have hs6 := hd6.symm
  have hr := resX_add hc A i cin
  have hcm := addw_ult_comm op.is32 A i fun h => ⟨h32 h, Sx_fits12 hi⟩
  rcases hf with hf | hf | hf
  · rcases hz : op.setZ with _ | _ <;> rcases hu : fl.unused with _ | _ <;>
      wps [emitAddOp, hf, hz, hu, hal, hi, hd0] <;> apply Post2.plain <;> simp +contextual [hf, hz, hu, hr, Kept, *]
  · have key : ∀ c1 : Core, c1.x (regMap dst) = addw op.is32 A i → c1.x 5#5 = ovImm A i →
        c1.x 28#5 = bool64 ((addw op.is32 A i).ult A) → Kept (regMap dst) c c1 →
        Post2 op fl (regMap dst) A i cin c (ovTail op (regMap dst) c1) :=
      fun c1 g1 g2 g3 g4 => Post2.ov _ _ hf hd0 hd5 hd6 hd28 (g1.trans hr.symm) g2 g3
        (by rw [msbw_xor, ovImm_msb _ _ _ hi, ← msbw_xor]; exact ovX_add hc hf _ _ _ fun h => h32 h) g4
    have ha0 := rm_ne0 hal (hov hf)
    wps [emitAddOp, hf, hal, hd', hi, ha0, hd0]
    apply key <;> simp +contextual [Kept, *]
  · have hcf := carry_addw hc hf A i cin fun h => h32 h
    rcases hz : op.setZ with _ | _ <;> wps [emitAddOp, hf, hal, hd', hi, hz, hd0] <;> apply Post2.plain <;> simp +contextual [Kept, *]
theorem ovX_sub {op : Op} (hc : op.code = .sub) (hf : op.flag = .overflow) (a b : BitVec 64) (cin)
    (h32 : op.is32 = true → Sx a ∧ Sx b) :
    (msbw op.is32 (resX op a b cin ^^^ (a ^^^ b)) ^^ a.ult b) = flagX op a b cin := by
  simp only [flagX, hc, hf, resX_sub hc]
  cases h : op.is32
  · simp only [subw, msbw, Bool.false_eq_true, if_false]
    exact ov_sub64 a b cin
  · obtain ⟨ha, hb⟩ := h32 h
    simp only [subw, msbw, if_true]
    have h1 : lo32 (sx32 (lo32 a - lo32 b) ^^^ (a ^^^ b)) = (lo32 a - lo32 b) ^^^ (lo32 a ^^^ lo32 b) := by
      have : ∀ x y : BitVec 64, lo32 (x ^^^ y) = lo32 x ^^^ lo32 y := fun x y => by simp [lo32]
      rw [this, this, lo32_sx32]
    rw [h1]
    conv => lhs; rhs; rw [ha, hb]
    rw [ult_sx32]
    exact ov_sub32 _ _ cin

/-- The comparison and carry flags of a subtraction. -/
theorem cmpX {op : Op} (hc : op.code = .sub) (a b : BitVec 64) (cin) (h32 : op.is32 = true → Sx a ∧ Sx b) :
    (op.flag = .less ∨ op.flag = .carry → flagX op a b cin = a.ult b) ∧ (op.flag = .greater → flagX op a b cin = b.ult a) ∧
    (op.flag = .sigLess → flagX op a b cin = a.slt b) ∧ (op.flag = .sigGreater → flagX op a b cin = b.slt a) := by
  cases h : op.is32
  · refine ⟨?_, ?_, ?_, ?_⟩
    · rintro (hf | hf) <;> simp [flagX, h, hc, hf, flagVal, BitVec.ult]
    all_goals intro hf; simp [flagX, h, hc, hf, flagVal, BitVec.ult, BitVec.slt]
  · obtain ⟨ha, hb⟩ := h32 h
    have h1 : a.ult b = (lo32 a).ult (lo32 b) := by conv => lhs; rw [ha, hb]
                                                    rw [ult_sx32]
    have h2 : b.ult a = (lo32 b).ult (lo32 a) := by conv => lhs; rw [ha, hb]
                                                    rw [ult_sx32]
    have h3 : a.slt b = (lo32 a).slt (lo32 b) := by conv => lhs; rw [ha, hb]
                                                    rw [slt_sx32]
    have h4 : b.slt a = (lo32 b).slt (lo32 a) := by conv => lhs; rw [ha, hb]
                                                    rw [slt_sx32]
    refine ⟨?_, ?_, ?_, ?_⟩
    · rw [h1]; rintro (hf | hf) <;> simp [flagX, h, hc, hf, flagVal, BitVec.ult]
    · rw [h2]; intro hf; simp [flagX, h, hc, hf, flagVal, BitVec.ult]
    · rw [h3]; intro hf; simp [flagX, h, hc, hf, flagVal, BitVec.slt]
    · rw [h4]; intro hf; simp [flagX, h, hc, hf, flagVal, BitVec.slt]

theorem sub_rest_reg {cfg : Cfg} {op : Op} {fl : SF} {dst a b : Nat} {c : Core} {cin : Bool} {A B : BitVec 64} (hc : op.code = .sub)
    (hf : op.flag.isCmp = false) (hd : DstOk dst) (ha : SrcOk a) (hb : SrcOk b) (hA : c.x (regMap a) = A) (hB : c.x (regMap b) = B)
    (h32 : op.is32 = true → Sx A ∧ Sx B) :
    wp (subRest cfg op fl dst a (.reg b)) c (Post2 op fl (regMap dst) A B cin c) := by
  obtain ⟨hal, ha5, ha28⟩ := ha
  obtain ⟨hbl, hb5, hb28⟩ := hb
  have hd' := hd
  obtain ⟨hdl, hd0, hd5, hd28, hd6⟩ := hd
  have hs0 := hd0.symm
  have hs5 := hd5.symm
  have hs28 := hd28.symm
  have hs6 := hd6.symm
  have hr := resX_sub hc A B cin
  obtain ⟨hcm, -⟩ := cmpX hc A B cin h32
  rcases hff : op.flag with _ | _ | _ | _ | _ | _ | _ <;> simp only [hff, Flag.isCmp, reduceCtorEq] at hf
  · rcases hz : op.setZ with _ | _ <;> rcases hu : fl.unused with _ | _ <;>
      wps [subRest, hff, hz, hu, hal, hbl] <;> apply Post2.plain <;> simp +contextual [hff, hz, hu, hr, Kept, *]
  · have key : ∀ c1 : Core, c1.x (regMap dst) = subw op.is32 A B → c1.x 5#5 = A ^^^ B →
        c1.x 28#5 = bool64 (A.ult B) → Kept (regMap dst) c c1 →
        Post2 op fl (regMap dst) A B cin c (ovTail op (regMap dst) c1) :=
      fun c1 g1 g2 g3 g4 => Post2.ov _ _ hff hd0 hd5 hd6 hd28 (g1.trans hr.symm) g2 g3
        (ovX_sub hc hff _ _ _ h32) g4
    wps [subRest, hff, hal, hbl, hd']
    apply key <;> simp +contextual [Kept, *]
  · have hcm := hcm (.inr hff)
    rcases hz : op.setZ with _ | _ <;> 
      wps [subRest, hff, hz, hal, hbl] <;> apply Post2.plain <;> simp +contextual [hff, hz, hr, Kept, *]

theorem sub_rest_imm {cfg : Cfg} {op : Op} {fl : SF} {dst a : Nat} {c : Core} {cin : Bool} {A i : BitVec 64} (hc : op.code = .sub)
    (hf : op.flag.isCmp = false) (hd : DstOk dst) (ha : SrcOk a) (hA : c.x (regMap a) = A) (hi : Fits12 i) (hn : Fits12 (-i))
    (h32 : op.is32 = true → Sx A) (hov : op.flag = .overflow → a ≠ 0) :
    wp (subRest cfg op fl dst a (.imm i)) c (Post2 op fl (regMap dst) A i cin c) := by
  obtain ⟨hal, ha5, ha28⟩ := ha
  have hd' := hd
  obtain ⟨hdl, hd0, hd5, hd28, hd6⟩ := hd
  have hs0 := hd0.symm
  have hs5 := hd5.symm
  have hs28 := hd28.symm
  have hs6 := hd6.symm
  have hr := resX_sub hc A i cin
  have h32' : op.is32 = true → Sx A ∧ Sx i := fun h => ⟨h32 h, Sx_fits12 hi⟩
  obtain ⟨hcm, -⟩ := cmpX hc A i cin h32'
  rcases hff : op.flag with _ | _ | _ | _ | _ | _ | _ <;> simp only [hff, Flag.isCmp, reduceCtorEq] at hf
  · rcases hz : op.setZ with _ | _ <;> rcases hu : fl.unused with _ | _ <;>
      wps [subRest, hff, hz, hu, hal, hi, hn, hd0, addw_neg] <;> apply Post2.plain <;> simp +contextual [hff, hz, hu, hr, Kept, *]
  · have key : ∀ c1 : Core, c1.x (regMap dst) = subw op.is32 A i → c1.x 5#5 = ovImm A i →
        c1.x 28#5 = bool64 (A.ult i) → Kept (regMap dst) c c1 →
        Post2 op fl (regMap dst) A i cin c (ovTail op (regMap dst) c1) :=
      fun c1 g1 g2 g3 g4 => Post2.ov _ _ hff hd0 hd5 hd6 hd28 (g1.trans hr.symm) g2 g3
        (by rw [msbw_xor, ovImm_msb _ _ _ hi, ← msbw_xor]; exact ovX_sub hc hff _ _ _ h32') g4
    have ha0 := rm_ne0 hal (hov hff)
    wps [subRest, hff, hal, hd', hi, hn, ha0, hd0, addw_neg]
    apply key <;> simp +contextual [Kept, *]
  · have hcm := hcm (.inr hff)
    rcases hz : op.setZ with _ | _ <;> 
      wps [subRest, hff, hz, hal, hi, hn, hd0, addw_neg] <;> apply Post2.plain <;> simp +contextual [hff, hz, hr, Kept, *]

theorem sub_cmp_reg {cfg : Cfg} {op : Op} {fl : SF} {dst a b : Nat} {c : Core} {cin : Bool} {A B : BitVec 64} (hc : op.code = .sub)
    (hf : op.flag.isCmp = true) (hd : DstOk dst) (ha : SrcOk a) (hb : SrcOk b) (hA : c.x (regMap a) = A) (hB : c.x (regMap b) = B)
    (h32 : op.is32 = true → Sx A ∧ Sx B) :
    wp (subCmp op a (.reg b) ++ subHandled cfg op fl dst a (.reg b)) c (Post2 op fl (regMap dst) A B cin c) := by
  obtain ⟨hal, ha5, ha28⟩ := ha
  obtain ⟨hbl, hb5, hb28⟩ := hb
  have hd' := hd
  obtain ⟨hdl, hd0, hd5, hd28, hd6⟩ := hd
  have hs0 := hd0.symm
  have hs5 := hd5.symm
  have hs28 := hd28.symm
  have hs6 := hd6.symm
  have hr := resX_sub hc A B cin
  obtain ⟨h1, h2, h3, h4⟩ := cmpX hc A B cin h32
  rcases hff : op.flag with _ | _ | _ | _ | _ | _ | _ <;> simp only [hff, Flag.isCmp, Bool.false_eq_true] at hf <;>
    simp only [hff, true_or, or_true, true_implies, reduceCtorEq, false_or, or_false, false_implies] at h1 h2 h3 h4 <;>
    rcases hz : op.setZ with _ | _ <;> rcases hu : fl.unused with _ | _ <;>
    wps [subCmp, subHandled, hff, hz, hu] <;> apply Post2.plain <;> simp +contextual [hff, hz, hu, hr, Kept, *]

theorem sub_cmp_imm {cfg : Cfg} {op : Op} {fl : SF} {dst a : Nat} {c : Core} {cin : Bool} {A i : BitVec 64} (hc : op.code = .sub)
    (hf : op.flag = .less ∨ op.flag = .sigLess) (hd : DstOk dst) (ha : SrcOk a) (hA : c.x (regMap a) = A) (hi : Fits12 i)
    (hn : Fits12 (-i)) (h32 : op.is32 = true → Sx A) :
    wp (subCmp op a (.imm i) ++ subHandled cfg op fl dst a (.imm i)) c (Post2 op fl (regMap dst) A i cin c) := by
  obtain ⟨hal, ha5, ha28⟩ := ha
  have hd' := hd
  obtain ⟨hdl, hd0, hd5, hd28, hd6⟩ := hd
  have hs0 := hd0.symm
  have hs5 := hd5.symm
  have hs28 := hd28.symm
  have hs6 := hd6.symm
  have hr := resX_sub hc A i cin
  obtain ⟨h1, h2, h3, h4⟩ := cmpX hc A i cin fun h => ⟨h32 h, Sx_fits12 hi⟩
  rcases hf with hff | hff <;>
    simp only [hff, true_or, or_true, true_implies, reduceCtorEq, false_or, or_false, false_implies] at h1 h2 h3 h4 <;>
    rcases hz : op.setZ with _ | _ <;> rcases hu : fl.unused with _ | _ <;>
    wps [subCmp, subHandled, hff, hz, hu, hi, hn, hd0, addw_neg] <;> apply Post2.plain <;> simp +contextual [hff, hz, hu, hr, Kept, *]

theorem Post2.from {op : Op} {fl : SF} {d : Reg} {a b : BitVec 64} {cin : Bool} {c c1 c' : Core} (h : Post2 op fl d a b cin c1 c')
    (hk : Kept d c c1) : Post2 op fl d a b cin c c' :=
  { h with kept := ⟨fun q h1 h2 h3 h4 h5 => (h.kept.1 q h1 h2 h3 h4 h5).trans (hk.1 q h1 h2 h3 h4 h5),
      h.kept.2.1.trans hk.2.1, h.kept.2.2.trans hk.2.2⟩ }

theorem wp_LI (d : Nat) {i : BitVec 64} (h : Fits12 i) (r : Emit) {c : Core} {Q : Core → Prop} :
    wp (w32 (ADDI ||| RD d ||| RS1 TMP_ZERO ||| IMM_I i) ++ r) c Q ↔ wp r (c.wr (regMap d) i) Q := by
  rw [wp_ADDI_s]; simp [h]

theorem srcOk25 : SrcOk 25 := ⟨by decide, by decide, by decide⟩
theorem srcOk26 : SrcOk 26 := ⟨by decide, by decide, by decide⟩

theorem sub_reg {cfg : Cfg} {op : Op} {fl : SF} {dst a b : Nat} {c : Core} {cin : Bool} {A B : BitVec 64} (hc : op.code = .sub)
    (hd : DstOk dst) (ha : SrcOk a) (hb : SrcOk b) (hA : c.x (regMap a) = A) (hB : c.x (regMap b) = B)
    (h32 : op.is32 = true → Sx A ∧ Sx B) :
    wp (emitSubOp cfg op fl dst a (.reg b)) c (Post2 op fl (regMap dst) A B cin c) := by
  simp only [emitSubOp, subMin, wp_nil_append]
  by_cases hf : op.flag.isCmp = true
  · rw [if_pos hf]
    simp only [subCmpLoad, wp_nil_append]
    exact sub_cmp_reg hc hf hd ha hb hA hB h32
  · rw [if_neg hf]
    exact sub_rest_reg hc (by simpa using hf) hd ha hb hA hB h32

theorem Kept.wr1 (d : Reg) (c : Core) (v : BitVec 64) : Kept d c (c.wr 1#5 v) := by
  simp +contextual [Kept]
theorem Kept.wr6 (d : Reg) (c : Core) (v : BitVec 64) : Kept d c (c.wr 6#5 v) := by
  simp +contextual [Kept]

theorem sub_imm {cfg : Cfg} {op : Op} {fl : SF} {dst a : Nat} {c : Core} {cin : Bool} {A i : BitVec 64} (hc : op.code = .sub)
    (hd : DstOk dst) (ha : SrcOk a) (ha1 : regMap a ≠ 1#5) (hA : c.x (regMap a) = A) (hi : Fits12 i)
    (h32 : op.is32 = true → Sx A) (hov : op.flag = .overflow → a ≠ 0) :
    wp (emitSubOp cfg op fl dst a (.imm i)) c (Post2 op fl (regMap dst) A i cin c) := by
  have h32' : op.is32 = true → Sx A ∧ Sx i := fun h => ⟨h32 h, Sx_fits12 hi⟩
  by_cases hm : i.toInt = SIMM_MIN
  · have key := sub_reg (cfg := cfg) (fl := fl) (cin := cin) (c := c.wr 1#5 i) (A := A) (B := i) hc hd ha srcOk26 (by simp [ha1, hA]) (by simp) h32'
    have key := wp_mono key fun c' h => h.from (Kept.wr1 _ _ _)
    simp only [emitSubOp, subMin, if_pos hm]
    simp only [emitSubOp, subMin, wp_nil_append] at key
    rw [wp_LI _ hi]
    exact key
  · have hn := fits12_neg hi hm
    simp only [emitSubOp, subMin, if_neg hm, wp_nil_append]
    by_cases hf : op.flag.isCmp = true
    · rw [if_pos hf]
      by_cases hl : op.flag = .less ∨ op.flag = .sigLess
      · simp only [subCmpLoad, if_pos hl, wp_nil_append]
        exact sub_cmp_imm hc hl hd ha hA hi hn h32
      · simp only [subCmpLoad, if_neg hl]
        have load : ∀ (r : Nat) (e : Emit) (Q : Core → Prop), wp ((if cfg.c = true ∧ fits6 i = true then w16 (C_LI ||| C_RD r ||| C_IMM_I i)
            else w32 (ADDI ||| RD r ||| RS1 TMP_ZERO ||| IMM_I i)) ++ e) c Q ↔ wp e (c.wr (regMap r) i) Q := by
          intro r e Q
          split
          · next h => rw [wp_C_LI_s, sext6 h.2]; simp [hi]
          · exact wp_LI _ hi _
        rw [load]
        by_cases h25 : a = 25
        · subst h25
          simp only [if_true]
          exact wp_mono (sub_cmp_reg hc hf hd ha srcOk26 (by simpa using hA) (by simp) h32') fun c' h => h.from (Kept.wr1 _ _ _)
        · simp only [if_neg h25]
          have := rm_ne ha.le (show 25 ≤ 29 by decide) h25
          exact wp_mono (sub_cmp_reg hc hf hd ha srcOk25 (by simp [hA, show regMap a ≠ 6#5 from this]) (by simp) h32') fun c' h => h.from (Kept.wr6 _ _ _)
    · rw [if_neg hf]
      exact sub_rest_imm hc (by simpa using hf) hd ha hA hi hn h32 hov
/-! ## Operations with carry -/

def cinB (w : Nat) (cin : Bool) : BitVec w := BitVec.ofNat w cin.toNat

theorem bool64_cin (cin : Bool) : bool64 cin = cinB 64 cin := by cases cin <;> rfl
theorem lo32_cin (cin : Bool) : lo32 (bool64 cin) = cinB 32 cin := by cases cin <;> rfl
theorem Sx_cin (cin : Bool) : Sx (bool64 cin) := by unfold Sx; cases cin <;> decide
theorem bool64_or (a b : Bool) : bool64 a ||| bool64 b = bool64 (a || b) := by cases a <;> cases b <;> rfl

theorem toNat_cinB {w : Nat} (h : 0 < w) (cin : Bool) : (cinB w cin).toNat = cin.toNat := by
  have : 1 < 2 ^ w := Nat.one_lt_two_pow (by omega)
  cases cin <;> simp [cinB, Nat.mod_eq_of_lt this]

theorem val_addc {w : Nat} (h : 0 < w) (a b : BitVec w) (cin) : val .addc a b cin = a + b + cinB w cin := by
  apply BitVec.eq_of_toNat_eq; simp [val, toNat_cinB h]
theorem val_subc {w : Nat} (h : 0 < w) (a b : BitVec w) (cin) : val .subc a b cin = a - b - cinB w cin := by
  apply BitVec.eq_of_toInt_eq
  rw [val, BitVec.toInt_ofInt, BitVec.toInt_sub, BitVec.toInt_sub, BitVec.toInt_eq_toNat_bmod, BitVec.toInt_eq_toNat_bmod,
    BitVec.toInt_eq_toNat_bmod (x := cinB w cin), toNat_cinB h]
  simp

theorem carry_addc {w : Nat} (h : 0 < w) (a b : BitVec w) (cin : Bool) :
    ((a + b).ult a || (a + b + cinB w cin).ult (cinB w cin)) = flagVal .addc .carry a b cin := by
  have hw : 2 ≤ 2 ^ w := by have := Nat.pow_le_pow_right (show 1 ≤ 2 by decide) (show 1 ≤ w from h); simpa using this
  have h1 := a.isLt
  have h2 := b.isLt
  rw [carry_add, BitVec.add_comm, carry_add, Bool.eq_iff_iff]
  simp only [flagVal, Bool.or_eq_true, decide_eq_true_eq, toNat_cinB h, BitVec.toNat_add]
  have : cin.toNat ≤ 1 := by cases cin <;> simp
  generalize 2 ^ w = N at *
  by_cases g : a.toNat + b.toNat < N
  · rw [Nat.mod_eq_of_lt g]; omega
  · have : (a.toNat + b.toNat) % N = a.toNat + b.toNat - N := by
      rw [Nat.mod_eq_sub_mod (by omega), Nat.mod_eq_of_lt (by omega)]
    rw [this]; omega

theorem carry_subc {w : Nat} (h : 0 < w) (a b : BitVec w) (cin : Bool) :
    (a.ult b || (a - b).ult (cinB w cin)) = flagVal .subc .carry a b cin := by
  have h1 := a.isLt
  have h2 := b.isLt
  rw [Bool.eq_iff_iff]
  simp only [flagVal, Bool.or_eq_true, decide_eq_true_eq, toNat_cinB h, BitVec.ult, BitVec.toNat_sub]
  have : cin.toNat ≤ 1 := by cases cin <;> simp
  generalize 2 ^ w = N at *
  by_cases g : a.toNat < b.toNat
  · simp only [g, true_or, true_iff]; omega
  · have : (N - b.toNat + a.toNat) % N = a.toNat - b.toNat := by
      rw [Nat.mod_eq_sub_mod (by omega), Nat.mod_eq_of_lt (by omega)]; omega
    rw [this]; omega

theorem resX_addc {op : Op} (h : op.code = .addc) (a b cin) : resX op a b cin = addw op.is32 (addw op.is32 a b) (bool64 cin) := by
  simp only [resX, addw, h]
  split
  · rw [val_addc (by decide), lo32_sx32, lo32_cin]
  · rw [val_addc (by decide), bool64_cin]
theorem resX_subc {op : Op} (h : op.code = .subc) (a b cin) : resX op a b cin = subw op.is32 (subw op.is32 a b) (bool64 cin) := by
  simp only [resX, subw, h]
  split
  · rw [val_subc (by decide), lo32_sx32, lo32_cin]
  · rw [val_subc (by decide), bool64_cin]

theorem sx_cin (cin : Bool) : bool64 cin = sx32 (cinB 32 cin) := by cases cin <;> rfl

theorem carryX_addc {op : Op} (hc : op.code = .addc) (hf : op.flag = .carry) (a b cin) (ha : op.is32 = true → Sx a) :
    ((addw op.is32 a b).ult a || (addw op.is32 (addw op.is32 a b) (bool64 cin)).ult (bool64 cin)) = flagX op a b cin := by
  simp only [flagX, hc, hf]
  cases h : op.is32
  · simp only [addw, Bool.false_eq_true, if_false, bool64_cin]
    exact carry_addc (by decide) a b cin
  · have ha := ha h
    simp only [addw, if_true, lo32_sx32, lo32_cin]
    conv => lhs; lhs; rhs; rw [ha]
    rw [sx_cin, ult_sx32, ult_sx32]
    exact carry_addc (by decide) _ _ cin

theorem carryX_subc {op : Op} (hc : op.code = .subc) (hf : op.flag = .carry) (a b cin) (h32 : op.is32 = true → Sx a ∧ Sx b) :
    (a.ult b || (subw op.is32 a b).ult (bool64 cin)) = flagX op a b cin := by
  simp only [flagX, hc, hf]
  cases h : op.is32
  · simp only [subw, Bool.false_eq_true, if_false, bool64_cin]
    exact carry_subc (by decide) a b cin
  · obtain ⟨ha, hb⟩ := h32 h
    simp only [subw, if_true]
    conv => lhs; lhs; rw [ha, hb]
    rw [sx_cin, ult_sx32, ult_sx32]
    exact carry_subc (by decide) _ _ cin

theorem addc_reg {cfg : Cfg} {op : Op} {fl : SF} {dst a b : Nat} {c : Core} {cin : Bool} {A B : BitVec 64} (hc : op.code = .addc)
    (hf : op.flagOk) (hd : DstOk dst) (ha : SrcOk a) (hb : SrcOk b) (hA : c.x (regMap a) = A) (hB : c.x (regMap b) = B)
    (hcin : c.x 28#5 = bool64 cin)
    (h32 : op.is32 = true → Sx A ∧ Sx B) (hcy : op.flag = .carry → carrySrc dst a b EQUAL_FLAG ≠ 0) :
    wp (emitAddcOp cfg op dst a (.reg b)) c (Post2 op fl (regMap dst) A B cin c) := by
  simp only [Op.flagOk, hc] at hf
  obtain ⟨hf, hz⟩ := hf
  obtain ⟨hal, ha5, ha28⟩ := ha
  obtain ⟨hbl, hb5, hb28⟩ := hb
  have hd' := hd
  obtain ⟨hdl, hd0, hd5, hd28, hd6⟩ := hd
  have hs0 := hd0.symm
  have hs5 := hd5.symm
  have hs28 := hd28.symm
  have hs6 := hd6.symm
  have hr := resX_addc hc A B cin
  have hcm := addw_ult_comm op.is32 A B h32
  have htail : ∀ cy (c : Core) Q, wp (emitAddcTail cfg op.is32 cy dst) c Q ↔
      wp (w32 (ADD ||| WORD op.is32 ||| RD dst ||| RS1 dst ||| RS2 OTHER_FLAG) ++ (if cy = true then
    w32 (SLTU ||| RD OTHER_FLAG ||| RS1 dst ||| RS2 OTHER_FLAG) ++
    w32 (OR ||| RD OTHER_FLAG ||| RS1 OTHER_FLAG ||| RS2 EQUAL_FLAG) else [])) c Q := by
    intro cy c Q
    unfold emitAddcTail
    by_cases h : cfg.c = true ∧ op.is32 = false
    · rw [if_pos h, wp_C_ADD_s _ _ (by decide), wp_ADDW, h.2]; rfl
    · rw [if_neg h]
  rcases hf with hf | hf
  · wps [emitAddcOp, hf, hz, hal, hbl, htail] <;> apply Post2.plain <;> simp +contextual [hf, hz, hr, Kept, *]
  · have hcf := carryX_addc hc hf A B cin fun h => (h32 h).1
    have hcy := hcy hf
    wps [emitAddcOp, hf, hal, hbl, hd', htail, hcy]
    simp only [carrySrc]
    by_cases h1 : a = dst
    · subst h1
      by_cases h2 : b = a
      · subst h2
        obtain rfl : A = B := hA.symm.trans hB
        wps [hd0, hal, htail, bool64_or]
        apply Post2.plain <;> simp +contextual [Kept, bool64_or, Bool.or_comm, *]
      · have h3 := rm_ne hbl hdl h2
        wps [h2]
        apply Post2.plain <;> simp +contextual [Kept, bool64_or, Bool.or_comm, *]
    · have h3 := rm_ne hal hdl h1
      wps [h1]
      apply Post2.plain <;> simp +contextual [Kept, bool64_or, Bool.or_comm, *]

theorem addc_imm {cfg : Cfg} {op : Op} {fl : SF} {dst a : Nat} {c : Core} {cin : Bool} {A i : BitVec 64} (hc : op.code = .addc)
    (hf : op.flagOk) (hd : DstOk dst) (ha : SrcOk a) (hA : c.x (regMap a) = A) (hi : Fits12 i)
    (hcin : c.x 28#5 = bool64 cin) (h32 : op.is32 = true → Sx A) :
    wp (emitAddcOp cfg op dst a (.imm i)) c (Post2 op fl (regMap dst) A i cin c) := by
  simp only [Op.flagOk, hc] at hf
  obtain ⟨hf, hz⟩ := hf
  obtain ⟨hal, ha5, ha28⟩ := ha
  have hd' := hd
  obtain ⟨hdl, hd0, hd5, hd28, hd6⟩ := hd
  have hs0 := hd0.symm
  have hs5 := hd5.symm
  have hs28 := hd28.symm
  have hs6 := hd6.symm
  have hr := resX_addc hc A i cin
  have hcm := addw_ult_comm op.is32 A i fun h => ⟨h32 h, Sx_fits12 hi⟩
  have htail : ∀ cy (c : Core) Q, wp (emitAddcTail cfg op.is32 cy dst) c Q ↔
      wp (w32 (ADD ||| WORD op.is32 ||| RD dst ||| RS1 dst ||| RS2 OTHER_FLAG) ++ (if cy = true then
    w32 (SLTU ||| RD OTHER_FLAG ||| RS1 dst ||| RS2 OTHER_FLAG) ++
    w32 (OR ||| RD OTHER_FLAG ||| RS1 OTHER_FLAG ||| RS2 EQUAL_FLAG) else [])) c Q := by
    intro cy c Q
    unfold emitAddcTail
    by_cases h : cfg.c = true ∧ op.is32 = false
    · rw [if_pos h, wp_C_ADD_s _ _ (by decide), wp_ADDW, h.2]; rfl
    · rw [if_neg h]
  rcases hf with hf | hf
  · wps [emitAddcOp, hf, hz, hal, hi, hd0, htail] <;> apply Post2.plain <;> simp +contextual [hf, hz, hr, Kept, *]
  · have hcf := carryX_addc hc hf A i cin h32
    wps [emitAddcOp, hf, hal, hi, hd0, hd', htail]
    apply Post2.plain <;> simp +contextual [Kept, bool64_or, Bool.or_comm, *]

theorem subc_rest_reg {cfg : Cfg} {op : Op} {fl : SF} {dst a b : Nat} {c : Core} {cin : Bool} {A B : BitVec 64} (hc : op.code = .subc)
    (hf : op.flagOk) (hd : DstOk dst) (ha : SrcOk a) (hb : SrcOk b) (hA : c.x (regMap a) = A) (hB : c.x (regMap b) = B)
    (hcin : c.x 28#5 = bool64 cin) (h32 : op.is32 = true → Sx A ∧ Sx B) :
    wp (subcRest cfg op dst a (.reg b)) c (Post2 op fl (regMap dst) A B cin c) := by
  simp only [Op.flagOk, hc] at hf
  obtain ⟨hf, hz⟩ := hf
  obtain ⟨hal, ha5, ha28⟩ := ha
  obtain ⟨hbl, hb5, hb28⟩ := hb
  obtain ⟨hdl, hd0, hd5, hd28, hd6⟩ := hd
  have hs0 := hd0.symm
  have hs5 := hd5.symm
  have hs28 := hd28.symm
  have hs6 := hd6.symm
  have hr := resX_subc hc A B cin
  rcases hf with hf | hf
  · wps [subcRest, hf, hz] <;> apply Post2.plain <;> simp +contextual [hf, hz, hr, Kept, *]
  · have hcf := carryX_subc hc hf A B cin h32
    wps [subcRest, hf]
    apply Post2.plain <;> simp +contextual [Kept, bool64_or, *]

theorem subc_rest_imm {cfg : Cfg} {op : Op} {fl : SF} {dst a : Nat} {c : Core} {cin : Bool} {A i : BitVec 64} (hc : op.code = .subc)
    (hf : op.flagOk) (hd : DstOk dst) (ha : SrcOk a) (hA : c.x (regMap a) = A) (hi : Fits12 i) (hn : Fits12 (-i))
    (hcin : c.x 28#5 = bool64 cin) (h32 : op.is32 = true → Sx A) :
    wp (subcRest cfg op dst a (.imm i)) c (Post2 op fl (regMap dst) A i cin c) := by
  simp only [Op.flagOk, hc] at hf
  obtain ⟨hf, hz⟩ := hf
  obtain ⟨hal, ha5, ha28⟩ := ha
  obtain ⟨hdl, hd0, hd5, hd28, hd6⟩ := hd
  have hs0 := hd0.symm
  have hs5 := hd5.symm
  have hs28 := hd28.symm
  have hs6 := hd6.symm
  have hr := resX_subc hc A i cin
  rcases hf with hf | hf
  · wps [subcRest, hf, hz, hi, hn, hd0, addw_neg] <;> apply Post2.plain <;> simp +contextual [hf, hz, hr, Kept, *]
  · have hcf := carryX_subc hc hf A i cin fun h => ⟨h32 h, Sx_fits12 hi⟩
    wps [subcRest, hf, hi, hn, hd0, addw_neg]
    apply Post2.plain <;> simp +contextual [Kept, bool64_or, *]

theorem subc_reg {cfg : Cfg} {op : Op} {fl : SF} {dst a b : Nat} {c : Core} {cin : Bool} {A B : BitVec 64} (hc : op.code = .subc)
    (hf : op.flagOk) (hd : DstOk dst) (ha : SrcOk a) (hb : SrcOk b) (hA : c.x (regMap a) = A) (hB : c.x (regMap b) = B)
    (hcin : c.x 28#5 = bool64 cin) (h32 : op.is32 = true → Sx A ∧ Sx B) :
    wp (emitSubcOp cfg op dst a (.reg b)) c (Post2 op fl (regMap dst) A B cin c) := by
  simp only [emitSubcOp, subMin, wp_nil_append]
  exact subc_rest_reg hc hf hd ha hb hA hB hcin h32

theorem subc_imm {cfg : Cfg} {op : Op} {fl : SF} {dst a : Nat} {c : Core} {cin : Bool} {A i : BitVec 64} (hc : op.code = .subc)
    (hf : op.flagOk) (hd : DstOk dst) (ha : SrcOk a) (ha1 : regMap a ≠ 1#5) (hA : c.x (regMap a) = A) (hi : Fits12 i)
    (hcin : c.x 28#5 = bool64 cin) (h32 : op.is32 = true → Sx A) :
    wp (emitSubcOp cfg op dst a (.imm i)) c (Post2 op fl (regMap dst) A i cin c) := by
  by_cases hm : i.toInt = SIMM_MIN
  · simp only [emitSubcOp, subMin, if_pos hm]
    rw [wp_LI _ hi]
    exact wp_mono (subc_rest_reg hc hf hd ha srcOk26 (by simp [ha1, hA]) (by simp) (by simp [hcin])
      fun h => ⟨h32 h, Sx_fits12 hi⟩) fun c' h => h.from (Kept.wr1 _ _ _)
  · simp only [emitSubcOp, subMin, if_neg hm, wp_nil_append]
    exact subc_rest_imm hc hf hd ha hA hi (fits12_neg hi hm) hcin h32
end Verif.RV
