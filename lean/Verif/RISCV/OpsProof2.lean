import Verif.RISCV.OpsProof
import Mathlib.Tactic.Linarith

/-! # emit_single_op: multiplication, logical operations, shifts, rotations (helper lemmas) -/

set_option linter.all false

namespace Verif.RV

/-! ## Multiplication -/

theorem resX_mul {op : Op} (h : op.code = .mul) (a b cin) : resX op a b cin = if op.is32 then sx32 (lo32 a * lo32 b) else a * b := by
  simp only [resX, h, val_mul]

theorem toInt_bound (a : BitVec 64) : -2 ^ 63 ≤ a.toInt ∧ a.toInt < 2 ^ 63 := by
  have h1 := BitVec.le_toInt a
  have h2 := BitVec.toInt_lt (x := a)
  simp only [Nat.reduceSub] at h1 h2
  omega

theorem mul_bound {a b m : Int} (hm : 0 ≤ m) (ha : -m ≤ a ∧ a ≤ m) (hb : -m ≤ b ∧ b ≤ m) : -(m * m) ≤ a * b ∧ a * b ≤ m * m := by
  constructor <;> nlinarith [ha.1, ha.2, hb.1, hb.2]

/-- The high part of the product equals the sign of the low part exactly when there is no overflow. -/
theorem mulh_ov (a b : BitVec 64) (cin) :
    ((a.signExtend 128 * b.signExtend 128).extractLsb' 64 64 - (a * b).sshiftRight 63 ≠ 0#64) ↔
      flagVal .mul .overflow a b cin = true := by
  obtain ⟨h1, h2⟩ := mul_bound (m := 2 ^ 63) (by decide) ⟨(toInt_bound a).1, by have := (toInt_bound a).2; omega⟩
    ⟨(toInt_bound b).1, by have := (toInt_bound b).2; omega⟩
  have e1 : ((a.signExtend 128 * b.signExtend 128).toNat : Int) = (a.toInt * b.toInt) % 2 ^ 128 := by
    have := BitVec.toInt_mul (a.signExtend 128) (b.signExtend 128)
    rw [BitVec.toInt_signExtend_of_le (by decide), BitVec.toInt_signExtend_of_le (by decide)] at this
    rw [BitVec.toInt_eq_toNat_bmod] at this
    have g := (a.signExtend 128 * b.signExtend 128).isLt
    simp only [Int.bmod_def] at this
    omega
  have e2 : ((a * b).toNat : Int) = (a.toInt * b.toInt) % 2 ^ 64 := by
    have := BitVec.toInt_mul a b
    rw [BitVec.toInt_eq_toNat_bmod (x := a * b)] at this
    have g := (a * b).isLt
    simp only [Int.bmod_def] at this
    omega
  have e3 : ((a * b).sshiftRight 63).toNat = if (a * b).toNat < 2 ^ 63 then 0 else 2 ^ 64 - 1 := by
    have g := (a * b).isLt
    have h := BitVec.toInt_sshiftRight (x := a * b) (n := 63)
    simp only [BitVec.toInt_eq_toNat_cond, Int.shiftRight_eq_div_pow] at h
    have g2 := ((a * b).sshiftRight 63).isLt
    generalize ((a * b).sshiftRight 63).toNat = Z at *
    split at h <;> split at h <;> split <;> omega
  have e4 : ((a.signExtend 128 * b.signExtend 128).extractLsb' 64 64).toNat = (a.signExtend 128 * b.signExtend 128).toNat / 2 ^ 64 := by
    have g := (a.signExtend 128 * b.signExtend 128).isLt
    rw [BitVec.extractLsb'_toNat, Nat.shiftRight_eq_div_pow]
    omega
  have e5 : ∀ x y : BitVec 64, x - y ≠ 0#64 ↔ x.toNat ≠ y.toNat := by
    intro x y
    rw [ne_eq, ne_eq, BitVec.sub_eq_iff_eq_add, BitVec.zero_add, BitVec.toNat_inj]
  rw [e5, e3, e4]
  simp only [flagVal, decide_eq_true_eq, Nat.reduceSub]
  generalize a.toInt * b.toInt = P at *
  generalize (a.signExtend 128 * b.signExtend 128).toNat = X at *
  generalize (a * b).toNat = Y at *
  split <;> omega

theorem toInt_bound32 (a : BitVec 32) : -2 ^ 31 ≤ a.toInt ∧ a.toInt < 2 ^ 31 := by
  have h1 := BitVec.le_toInt a
  have h2 := BitVec.toInt_lt (x := a)
  simp only [Nat.reduceSub] at h1 h2
  omega

/-- The 64 bit product of two sign extended numbers equals the sign extended 32 bit product exactly when there is no
overflow. -/
theorem mul_ov32 (a b : BitVec 32) (cin) :
    (sx32 (a * b) - sx32 a * sx32 b ≠ 0#64) ↔ flagVal .mul .overflow a b cin = true := by
  obtain ⟨h1, h2⟩ := mul_bound (m := 2 ^ 31) (by decide) ⟨(toInt_bound32 a).1, by have := (toInt_bound32 a).2; omega⟩
    ⟨(toInt_bound32 b).1, by have := (toInt_bound32 b).2; omega⟩
  have e1 : (sx32 a * sx32 b).toInt = a.toInt * b.toInt := by
    rw [BitVec.toInt_mul, toInt_sx32, toInt_sx32]
    generalize a.toInt * b.toInt = P at *
    simp only [Int.bmod_def]; omega
  have e2 : (sx32 (a * b)).toInt = (a.toInt * b.toInt).bmod (2 ^ 32) := by
    rw [toInt_sx32, BitVec.toInt_mul]
  rw [ne_eq, BitVec.sub_eq_iff_eq_add, BitVec.zero_add, ← BitVec.toInt_inj, e1, e2]
  simp only [flagVal, decide_eq_true_eq, Nat.reduceSub]
  generalize a.toInt * b.toInt = P at *
  simp only [Int.bmod_def]
  split <;> omega

theorem mul_reg {cfg : Cfg} {op : Op} {fl : SF} {dst a b : Nat} {c : Core} {cin : Bool} {A B : BitVec 64} (hc : op.code = .mul)
    (hf : op.flagOk) (hd : DstOk dst) (ha : SrcOk a) (hb : SrcOk b) (hA : c.x (regMap a) = A) (hB : c.x (regMap b) = B)
    (h32 : op.is32 = true → Sx A ∧ Sx B) :
    wp (emitMulOp op dst a b) c (Post2 op fl (regMap dst) A B cin c) := by
  simp only [Op.flagOk, hc] at hf
  obtain ⟨hf, hz⟩ := hf
  obtain ⟨hal, ha5, ha28⟩ := ha
  obtain ⟨hbl, hb5, hb28⟩ := hb
  obtain ⟨hdl, hd0, hd5, hd28, hd6⟩ := hd
  have hs0 := hd0.symm
  have hs5 := hd5.symm
  have hs28 := hd28.symm
  have hs6 := hd6.symm
  have hr := resX_mul hc A B cin
  rcases hf with hf | hf
  · wps [emitMulOp, hf] <;> apply Post2.plain <;> simp +contextual [hf, hz, hr, Kept, *]
  · rcases hw : op.is32 with _ | _
    · simp only [hw, Bool.false_eq_true, if_false] at hr
      have ho := mulh_ov A B cin
      simp only [emitMulOp, hf, hw, ne_eq, not_true_eq_false, if_false, Bool.false_eq_true]
      wps []
      constructor <;> simp +contextual [hf, hz, hc, hr, Kept, hd0, hd5, hd28, hs5, hs28, ha5, hb5, hA, hB]
      rw [← ne_eq, ho]
      simp [flagX, hw, hc, hf]
    · obtain ⟨g1, g2⟩ := h32 hw
      simp only [hw, if_true] at hr
      have ho := mul_ov32 (lo32 A) (lo32 B) cin
      rw [← g1, ← g2] at ho
      simp only [emitMulOp, hf, hw, ne_eq, not_true_eq_false, if_false, if_true]
      wps []
      constructor <;> simp +contextual [hf, hz, hc, hr, Kept, hd0, hd5, hd28, hs5, hs28, ha5, hb5, ha28, hb28, hA, hB]
      rw [← ne_eq, ho]
      simp [flagX, hw, hc, hf]
/-! ## Logical operations -/

theorem sx_and {a b : BitVec 64} (ha : Sx a) (hb : Sx b) : sx32 (lo32 a &&& lo32 b) = a &&& b := by
  conv => rhs; rw [ha, hb]
  simp only [sx32, lo32]
  bits [BitVec.getLsbD_signExtend]

theorem resX_and {op : Op} (h : op.code = .and) (a b : BitVec 64) (cin) (h32 : op.is32 = true → Sx a ∧ Sx b) :
    resX op a b cin = a &&& b := by
  simp only [resX, h, val]
  split
  · next hw => exact sx_and (h32 hw).1 (h32 hw).2
  · rfl

theorem and_reg {cfg : Cfg} {op : Op} {fl : SF} {dst a b : Nat} {c : Core} {cin : Bool} {A B : BitVec 64} (hc : op.code = .and)
    (hf : op.flagOk) (hd : DstOk dst) (ha5 : regMap a ≠ 5#5) (hb5 : regMap b ≠ 5#5) (hA : c.x (regMap a) = A) (hB : c.x (regMap b) = B)
    (h32 : op.is32 = true → Sx A ∧ Sx B) :
    wp (emitLogical cfg op fl ANDI AND C_ANDI C_AND dst a (.reg b)) c (Post2 op fl (regMap dst) A B cin c) := by
  simp only [Op.flagOk, hc] at hf
  obtain ⟨hdl, hd0, hd5, hd28, hd6⟩ := hd
  have hs5 := hd5.symm
  have hr := resX_and hc A B cin h32
  have key : ∀ p q : Nat, regMap p ≠ 5#5 → regMap q ≠ 5#5 → c.x (regMap p) &&& c.x (regMap q) = A &&& B → wp (
      (if op.setZ = true then w32 (AND ||| RD EQUAL_FLAG ||| RS1 p ||| RS2 q) else []) ++
      (if fl.unused = false then
        (if cfg.c = true ∧ dst = p ∧ C_IS_R3 dst = true ∧ C_IS_R3 q = true then
          w16 (C_AND ||| C_RS1_R3 dst ||| C_RS2_R3 q)
         else w32 (AND ||| RD dst ||| RS1 p ||| RS2 q))
       else [])) c (Post2 op fl (regMap dst) A B cin c) := by
    intro p q hp hq hv
    by_cases hcc : cfg.c = true ∧ dst = p ∧ C_IS_R3 dst = true ∧ C_IS_R3 q = true
    · rw [if_pos hcc]
      obtain ⟨-, rfl, h3, h4⟩ := hcc
      rcases hz : op.setZ with _ | _ <;> rcases hu : fl.unused with _ | _ <;>
        wps [hf, h3, h4] <;> apply Post2.plain <;> simp +contextual [hf, hz, hu, hr, Kept, *]
    · rw [if_neg hcc]
      rcases hz : op.setZ with _ | _ <;> rcases hu : fl.unused with _ | _ <;>
        wps [hf] <;> apply Post2.plain <;> simp +contextual [hf, hz, hu, hr, Kept, *]
  unfold emitLogical
  by_cases h : dst = b
  · subst h
    have k := key dst a hb5 ha5 (by rw [hA, hB, BitVec.and_comm])
    simp only [if_pos, eq_self] at k ⊢
    exact k
  · simp only [if_neg h]
    exact key a b ha5 hb5 (by rw [hA, hB])

theorem and_imm {cfg : Cfg} {op : Op} {fl : SF} {dst a : Nat} {c : Core} {cin : Bool} {A i : BitVec 64} (hc : op.code = .and)
    (hf : op.flagOk) (hd : DstOk dst) (ha : SrcOk a) (hA : c.x (regMap a) = A) (hi : Fits12 i)
    (h32 : op.is32 = true → Sx A) :
    wp (emitLogical cfg op fl ANDI AND C_ANDI C_AND dst a (.imm i)) c (Post2 op fl (regMap dst) A i cin c) := by
  simp only [Op.flagOk, hc] at hf
  obtain ⟨hal, ha5, ha28⟩ := ha
  obtain ⟨hdl, hd0, hd5, hd28, hd6⟩ := hd
  have hs5 := hd5.symm
  have hr := resX_and hc A i cin fun h => ⟨h32 h, Sx_fits12 hi⟩
  unfold emitLogical
  simp only []
  by_cases hcc : C_ANDI ≠ 0#16 ∧ cfg.c = true ∧ dst = a ∧ fits6 i = true ∧ C_IS_R3 dst = true
  · rw [if_pos hcc]
    obtain ⟨hne, -, rfl, h3, h4⟩ := hcc
    rcases hz : op.setZ with _ | _ <;> rcases hu : fl.unused with _ | _ <;>
      wps [hf, h4, hi, sext6 h3] <;> apply Post2.plain <;> simp +contextual [hf, hz, hu, hr, Kept, *]
  · rw [if_neg hcc]
    rcases hz : op.setZ with _ | _ <;> rcases hu : fl.unused with _ | _ <;>
      wps [hf, hi] <;> apply Post2.plain <;> simp +contextual [hf, hz, hu, hr, Kept, *]

theorem sx_or {a b : BitVec 64} (ha : Sx a) (hb : Sx b) : sx32 (lo32 a ||| lo32 b) = a ||| b := by
  conv => rhs; rw [ha, hb]
  simp only [sx32, lo32]
  bits [BitVec.getLsbD_signExtend]

theorem resX_or {op : Op} (h : op.code = .or) (a b : BitVec 64) (cin) (h32 : op.is32 = true → Sx a ∧ Sx b) :
    resX op a b cin = a ||| b := by
  simp only [resX, h, val]
  split
  · next hw => exact sx_or (h32 hw).1 (h32 hw).2
  · rfl

theorem or_reg {cfg : Cfg} {op : Op} {fl : SF} {dst a b : Nat} {c : Core} {cin : Bool} {A B : BitVec 64} (hc : op.code = .or)
    (hf : op.flagOk) (hd : DstOk dst) (ha5 : regMap a ≠ 5#5) (hb5 : regMap b ≠ 5#5) (hA : c.x (regMap a) = A) (hB : c.x (regMap b) = B)
    (h32 : op.is32 = true → Sx A ∧ Sx B) :
    wp (emitLogical cfg op fl ORI OR 0#16 C_OR dst a (.reg b)) c (Post2 op fl (regMap dst) A B cin c) := by
  simp only [Op.flagOk, hc] at hf
  obtain ⟨hdl, hd0, hd5, hd28, hd6⟩ := hd
  have hs5 := hd5.symm
  have hr := resX_or hc A B cin h32
  have key : ∀ p q : Nat, regMap p ≠ 5#5 → regMap q ≠ 5#5 → c.x (regMap p) ||| c.x (regMap q) = A ||| B → wp (
      (if op.setZ = true then w32 (OR ||| RD EQUAL_FLAG ||| RS1 p ||| RS2 q) else []) ++
      (if fl.unused = false then
        (if cfg.c = true ∧ dst = p ∧ C_IS_R3 dst = true ∧ C_IS_R3 q = true then
          w16 (C_OR ||| C_RS1_R3 dst ||| C_RS2_R3 q)
         else w32 (OR ||| RD dst ||| RS1 p ||| RS2 q))
       else [])) c (Post2 op fl (regMap dst) A B cin c) := by
    intro p q hp hq hv
    by_cases hcc : cfg.c = true ∧ dst = p ∧ C_IS_R3 dst = true ∧ C_IS_R3 q = true
    · rw [if_pos hcc]
      obtain ⟨-, rfl, h3, h4⟩ := hcc
      rcases hz : op.setZ with _ | _ <;> rcases hu : fl.unused with _ | _ <;>
        wps [hf, h3, h4] <;> apply Post2.plain <;> simp +contextual [hf, hz, hu, hr, Kept, *]
    · rw [if_neg hcc]
      rcases hz : op.setZ with _ | _ <;> rcases hu : fl.unused with _ | _ <;>
        wps [hf] <;> apply Post2.plain <;> simp +contextual [hf, hz, hu, hr, Kept, *]
  unfold emitLogical
  by_cases h : dst = b
  · subst h
    have k := key dst a hb5 ha5 (by rw [hA, hB, BitVec.or_comm])
    simp only [if_pos, eq_self] at k ⊢
    exact k
  · simp only [if_neg h]
    exact key a b ha5 hb5 (by rw [hA, hB])

theorem or_imm {cfg : Cfg} {op : Op} {fl : SF} {dst a : Nat} {c : Core} {cin : Bool} {A i : BitVec 64} (hc : op.code = .or)
    (hf : op.flagOk) (hd : DstOk dst) (ha : SrcOk a) (hA : c.x (regMap a) = A) (hi : Fits12 i)
    (h32 : op.is32 = true → Sx A) :
    wp (emitLogical cfg op fl ORI OR 0#16 C_OR dst a (.imm i)) c (Post2 op fl (regMap dst) A i cin c) := by
  simp only [Op.flagOk, hc] at hf
  obtain ⟨hal, ha5, ha28⟩ := ha
  obtain ⟨hdl, hd0, hd5, hd28, hd6⟩ := hd
  have hs5 := hd5.symm
  have hr := resX_or hc A i cin fun h => ⟨h32 h, Sx_fits12 hi⟩
  unfold emitLogical
  simp only []
  by_cases hcc : 0#16 ≠ 0#16 ∧ cfg.c = true ∧ dst = a ∧ fits6 i = true ∧ C_IS_R3 dst = true
  · rw [if_pos hcc]
    obtain ⟨hne, -, rfl, h3, h4⟩ := hcc
    exact absurd rfl hne
  · rw [if_neg hcc]
    rcases hz : op.setZ with _ | _ <;> rcases hu : fl.unused with _ | _ <;>
      wps [hf, hi] <;> apply Post2.plain <;> simp +contextual [hf, hz, hu, hr, Kept, *]

theorem sx_xor {a b : BitVec 64} (ha : Sx a) (hb : Sx b) : sx32 (lo32 a ^^^ lo32 b) = a ^^^ b := by
  conv => rhs; rw [ha, hb]
  simp only [sx32, lo32]
  bits [BitVec.getLsbD_signExtend]

theorem resX_xor {op : Op} (h : op.code = .xor) (a b : BitVec 64) (cin) (h32 : op.is32 = true → Sx a ∧ Sx b) :
    resX op a b cin = a ^^^ b := by
  simp only [resX, h, val]
  split
  · next hw => exact sx_xor (h32 hw).1 (h32 hw).2
  · rfl

theorem xor_reg {cfg : Cfg} {op : Op} {fl : SF} {dst a b : Nat} {c : Core} {cin : Bool} {A B : BitVec 64} (hc : op.code = .xor)
    (hf : op.flagOk) (hd : DstOk dst) (ha5 : regMap a ≠ 5#5) (hb5 : regMap b ≠ 5#5) (hA : c.x (regMap a) = A) (hB : c.x (regMap b) = B)
    (h32 : op.is32 = true → Sx A ∧ Sx B) :
    wp (emitLogical cfg op fl XORI XOR 0#16 C_XOR dst a (.reg b)) c (Post2 op fl (regMap dst) A B cin c) := by
  simp only [Op.flagOk, hc] at hf
  obtain ⟨hdl, hd0, hd5, hd28, hd6⟩ := hd
  have hs5 := hd5.symm
  have hr := resX_xor hc A B cin h32
  have key : ∀ p q : Nat, regMap p ≠ 5#5 → regMap q ≠ 5#5 → c.x (regMap p) ^^^ c.x (regMap q) = A ^^^ B → wp (
      (if op.setZ = true then w32 (XOR ||| RD EQUAL_FLAG ||| RS1 p ||| RS2 q) else []) ++
      (if fl.unused = false then
        (if cfg.c = true ∧ dst = p ∧ C_IS_R3 dst = true ∧ C_IS_R3 q = true then
          w16 (C_XOR ||| C_RS1_R3 dst ||| C_RS2_R3 q)
         else w32 (XOR ||| RD dst ||| RS1 p ||| RS2 q))
       else [])) c (Post2 op fl (regMap dst) A B cin c) := by
    intro p q hp hq hv
    by_cases hcc : cfg.c = true ∧ dst = p ∧ C_IS_R3 dst = true ∧ C_IS_R3 q = true
    · rw [if_pos hcc]
      obtain ⟨-, rfl, h3, h4⟩ := hcc
      rcases hz : op.setZ with _ | _ <;> rcases hu : fl.unused with _ | _ <;>
        wps [hf, h3, h4] <;> apply Post2.plain <;> simp +contextual [hf, hz, hu, hr, Kept, *]
    · rw [if_neg hcc]
      rcases hz : op.setZ with _ | _ <;> rcases hu : fl.unused with _ | _ <;>
        wps [hf] <;> apply Post2.plain <;> simp +contextual [hf, hz, hu, hr, Kept, *]
  unfold emitLogical
  by_cases h : dst = b
  · subst h
    have k := key dst a hb5 ha5 (by rw [hA, hB, BitVec.xor_comm])
    simp only [if_pos, eq_self] at k ⊢
    exact k
  · simp only [if_neg h]
    exact key a b ha5 hb5 (by rw [hA, hB])

theorem xor_imm {cfg : Cfg} {op : Op} {fl : SF} {dst a : Nat} {c : Core} {cin : Bool} {A i : BitVec 64} (hc : op.code = .xor)
    (hf : op.flagOk) (hd : DstOk dst) (ha : SrcOk a) (hA : c.x (regMap a) = A) (hi : Fits12 i)
    (h32 : op.is32 = true → Sx A) :
    wp (emitLogical cfg op fl XORI XOR 0#16 C_XOR dst a (.imm i)) c (Post2 op fl (regMap dst) A i cin c) := by
  simp only [Op.flagOk, hc] at hf
  obtain ⟨hal, ha5, ha28⟩ := ha
  obtain ⟨hdl, hd0, hd5, hd28, hd6⟩ := hd
  have hs5 := hd5.symm
  have hr := resX_xor hc A i cin fun h => ⟨h32 h, Sx_fits12 hi⟩
  unfold emitLogical
  simp only []
  by_cases hcc : 0#16 ≠ 0#16 ∧ cfg.c = true ∧ dst = a ∧ fits6 i = true ∧ C_IS_R3 dst = true
  · rw [if_pos hcc]
    obtain ⟨hne, -, rfl, h3, h4⟩ := hcc
    exact absurd rfl hne
  · rw [if_neg hcc]
    rcases hz : op.setZ with _ | _ <;> rcases hu : fl.unused with _ | _ <;>
      wps [hf, hi] <;> apply Post2.plain <;> simp +contextual [hf, hz, hu, hr, Kept, *]

/-! ## Shifts -/

theorem sh_lt {w : Bool} {i : BitVec 64} (h : i.toNat < if w then 32 else 64) : i.toNat < 64 := by
  cases w <;> simp at h <;> omega


theorem resX_shl {op : Op} (h : op.code = .shl ∨ op.code = .mshl) (a b : BitVec 64) (cin) :
    resX op a b cin = if op.is32 then sx32 (lo32 a <<< (b.toNat % 32)) else a <<< (b.toNat % 64) := by
  have : (lo32 b).toNat % 32 = b.toNat % 32 := by simp only [lo32, BitVec.toNat_setWidth]; omega
  rcases h with h | h <;> simp only [resX, h, val, this]

theorem shl_reg {cfg : Cfg} {op : Op} {fl : SF} {dst a b : Nat} {c : Core} {cin : Bool} {A B : BitVec 64}
    (hc : op.code = .shl ∨ op.code = .mshl) (hf : op.flagOk) (hd : DstOk dst) (ha : SrcOk a) (hb : SrcOk b)
    (hA : c.x (regMap a) = A) (hB : c.x (regMap b) = B) :
    wp (emitShift cfg op fl SLLI SLL dst a (.reg b)) c (Post2 op fl (regMap dst) A B cin c) := by
  have hf : op.flag = .none := by rcases hc with hc | hc <;> simpa only [Op.flagOk, hc] using hf
  obtain ⟨hal, ha5, ha28⟩ := ha
  obtain ⟨hbl, hb5, hb28⟩ := hb
  obtain ⟨hdl, hd0, hd5, hd28, hd6⟩ := hd
  have hs5 := hd5.symm
  have hr := resX_shl hc A B cin
  have e2 : (lo32 B).toNat % 32 = B.toNat % 32 := by simp only [lo32, BitVec.toNat_setWidth]; omega
  rcases hz : op.setZ with _ | _ <;> rcases hu : fl.unused with _ | _ <;>
    wps [emitShift, hz, hu] <;> apply Post2.plain <;> simp (config := {contextual := true}) [Kept, *]

theorem shl_imm {cfg : Cfg} {op : Op} {fl : SF} {dst a : Nat} {c : Core} {cin : Bool} {A i : BitVec 64}
    (hc : op.code = .shl ∨ op.code = .mshl) (hf : op.flagOk) (hd : DstOk dst) (ha : SrcOk a)
    (hA : c.x (regMap a) = A) (hi : i.toNat < if op.is32 then 32 else 64) :
    wp (emitShift cfg op fl SLLI SLL dst a (.imm i)) c (Post2 op fl (regMap dst) A i cin c) := by
  have hf : op.flag = .none := by rcases hc with hc | hc <;> simpa only [Op.flagOk, hc] using hf
  obtain ⟨hal, ha5, ha28⟩ := ha
  obtain ⟨hdl, hd0, hd5, hd28, hd6⟩ := hd
  have hs5 := hd5.symm
  have hr := resX_shl hc A i cin
  have hcc : ∀ (c : Core) (Q : Core → Prop), wp (emitShImm cfg op.is32 SLLI dst a i) c Q ↔ wp (w32 (SLLI ||| WORD op.is32 ||| RD dst ||| RS1 a ||| IMM_I i)) c Q := by
    intro c Q
    unfold emitShImm
    split
    · next h =>
      obtain ⟨-, h1, rfl, h2⟩ := h
      rw [wp_C_SLLI, wp_SLLI_W _ _ _ _ hi, h1]; rfl
    · split
      · next h =>
        obtain ⟨h0, h1, rfl, h2⟩ := h
        next g => exact absurd ⟨h0, h1, rfl, rfl⟩ g
      · rfl
  unfold emitShift
  rcases hz : op.setZ with _ | _ <;> rcases hu : fl.unused with _ | _ <;>
    simp only [if_true, Bool.false_eq_true, if_false, hcc] <;>
    wps [hi, hcc] <;> apply Post2.plain <;> simp (config := {contextual := true}) [Kept, *]

theorem resX_lshr {op : Op} (h : op.code = .lshr ∨ op.code = .mlshr) (a b : BitVec 64) (cin) :
    resX op a b cin = if op.is32 then sx32 (lo32 a >>> (b.toNat % 32)) else a >>> (b.toNat % 64) := by
  have : (lo32 b).toNat % 32 = b.toNat % 32 := by simp only [lo32, BitVec.toNat_setWidth]; omega
  rcases h with h | h <;> simp only [resX, h, val, this]

theorem lshr_reg {cfg : Cfg} {op : Op} {fl : SF} {dst a b : Nat} {c : Core} {cin : Bool} {A B : BitVec 64}
    (hc : op.code = .lshr ∨ op.code = .mlshr) (hf : op.flagOk) (hd : DstOk dst) (ha : SrcOk a) (hb : SrcOk b)
    (hA : c.x (regMap a) = A) (hB : c.x (regMap b) = B) :
    wp (emitShift cfg op fl SRLI SRL dst a (.reg b)) c (Post2 op fl (regMap dst) A B cin c) := by
  have hf : op.flag = .none := by rcases hc with hc | hc <;> simpa only [Op.flagOk, hc] using hf
  obtain ⟨hal, ha5, ha28⟩ := ha
  obtain ⟨hbl, hb5, hb28⟩ := hb
  obtain ⟨hdl, hd0, hd5, hd28, hd6⟩ := hd
  have hs5 := hd5.symm
  have hr := resX_lshr hc A B cin
  have e2 : (lo32 B).toNat % 32 = B.toNat % 32 := by simp only [lo32, BitVec.toNat_setWidth]; omega
  rcases hz : op.setZ with _ | _ <;> rcases hu : fl.unused with _ | _ <;>
    wps [emitShift, hz, hu] <;> apply Post2.plain <;> simp (config := {contextual := true}) [Kept, *]

theorem lshr_imm {cfg : Cfg} {op : Op} {fl : SF} {dst a : Nat} {c : Core} {cin : Bool} {A i : BitVec 64}
    (hc : op.code = .lshr ∨ op.code = .mlshr) (hf : op.flagOk) (hd : DstOk dst) (ha : SrcOk a)
    (hA : c.x (regMap a) = A) (hi : i.toNat < if op.is32 then 32 else 64) :
    wp (emitShift cfg op fl SRLI SRL dst a (.imm i)) c (Post2 op fl (regMap dst) A i cin c) := by
  have hf : op.flag = .none := by rcases hc with hc | hc <;> simpa only [Op.flagOk, hc] using hf
  obtain ⟨hal, ha5, ha28⟩ := ha
  obtain ⟨hdl, hd0, hd5, hd28, hd6⟩ := hd
  have hs5 := hd5.symm
  have hr := resX_lshr hc A i cin
  have hcc : ∀ (c : Core) (Q : Core → Prop), wp (emitShImm cfg op.is32 SRLI dst a i) c Q ↔ wp (w32 (SRLI ||| WORD op.is32 ||| RD dst ||| RS1 a ||| IMM_I i)) c Q := by
    intro c Q
    unfold emitShImm
    split
    · next h =>
      obtain ⟨-, h1, rfl, h2⟩ := h
      exact absurd h2 (by decide)
    · split
      · next h =>
        obtain ⟨h0, h1, rfl, h2⟩ := h
        rw [show (if SRLI = SRLI then C_SRLI else C_SRAI) = C_SRLI by decide, wp_C_SRLI _ _ h2, wp_SRLI_W _ _ _ _ hi, h1]; rfl
      · rfl
  unfold emitShift
  rcases hz : op.setZ with _ | _ <;> rcases hu : fl.unused with _ | _ <;>
    simp only [if_true, Bool.false_eq_true, if_false, hcc] <;>
    wps [hi, hcc] <;> apply Post2.plain <;> simp (config := {contextual := true}) [Kept, *]

theorem resX_ashr {op : Op} (h : op.code = .ashr ∨ op.code = .mashr) (a b : BitVec 64) (cin) :
    resX op a b cin = if op.is32 then sx32 ((lo32 a).sshiftRight (b.toNat % 32)) else a.sshiftRight (b.toNat % 64) := by
  have : (lo32 b).toNat % 32 = b.toNat % 32 := by simp only [lo32, BitVec.toNat_setWidth]; omega
  rcases h with h | h <;> simp only [resX, h, val, this]

theorem ashr_reg {cfg : Cfg} {op : Op} {fl : SF} {dst a b : Nat} {c : Core} {cin : Bool} {A B : BitVec 64}
    (hc : op.code = .ashr ∨ op.code = .mashr) (hf : op.flagOk) (hd : DstOk dst) (ha : SrcOk a) (hb : SrcOk b)
    (hA : c.x (regMap a) = A) (hB : c.x (regMap b) = B) :
    wp (emitShift cfg op fl SRAI SRA dst a (.reg b)) c (Post2 op fl (regMap dst) A B cin c) := by
  have hf : op.flag = .none := by rcases hc with hc | hc <;> simpa only [Op.flagOk, hc] using hf
  obtain ⟨hal, ha5, ha28⟩ := ha
  obtain ⟨hbl, hb5, hb28⟩ := hb
  obtain ⟨hdl, hd0, hd5, hd28, hd6⟩ := hd
  have hs5 := hd5.symm
  have hr := resX_ashr hc A B cin
  have e2 : (lo32 B).toNat % 32 = B.toNat % 32 := by simp only [lo32, BitVec.toNat_setWidth]; omega
  rcases hz : op.setZ with _ | _ <;> rcases hu : fl.unused with _ | _ <;>
    wps [emitShift, hz, hu] <;> apply Post2.plain <;> simp (config := {contextual := true}) [Kept, *]

theorem ashr_imm {cfg : Cfg} {op : Op} {fl : SF} {dst a : Nat} {c : Core} {cin : Bool} {A i : BitVec 64}
    (hc : op.code = .ashr ∨ op.code = .mashr) (hf : op.flagOk) (hd : DstOk dst) (ha : SrcOk a)
    (hA : c.x (regMap a) = A) (hi : i.toNat < if op.is32 then 32 else 64) :
    wp (emitShift cfg op fl SRAI SRA dst a (.imm i)) c (Post2 op fl (regMap dst) A i cin c) := by
  have hf : op.flag = .none := by rcases hc with hc | hc <;> simpa only [Op.flagOk, hc] using hf
  obtain ⟨hal, ha5, ha28⟩ := ha
  obtain ⟨hdl, hd0, hd5, hd28, hd6⟩ := hd
  have hs5 := hd5.symm
  have hr := resX_ashr hc A i cin
  have hcc : ∀ (c : Core) (Q : Core → Prop), wp (emitShImm cfg op.is32 SRAI dst a i) c Q ↔ wp (w32 (SRAI ||| WORD op.is32 ||| RD dst ||| RS1 a ||| IMM_I i)) c Q := by
    intro c Q
    unfold emitShImm
    split
    · next h =>
      obtain ⟨-, h1, rfl, h2⟩ := h
      exact absurd h2 (by decide)
    · split
      · next h =>
        obtain ⟨h0, h1, rfl, h2⟩ := h
        rw [show (if SRAI = SRLI then C_SRLI else C_SRAI) = C_SRAI by decide, wp_C_SRAI _ _ h2, wp_SRAI_W _ _ _ _ hi, h1]; rfl
      · rfl
  unfold emitShift
  rcases hz : op.setZ with _ | _ <;> rcases hu : fl.unused with _ | _ <;>
    simp only [if_true, Bool.false_eq_true, if_false, hcc] <;>
    wps [hi, hcc] <;> apply Post2.plain <;> simp (config := {contextual := true}) [Kept, *]

/-! ## Rotations -/

theorem rotl_eq64 (a : BitVec 64) (n : Nat) (h : n < 64) : a.rotateLeft n = a <<< n ||| a >>> ((64 - n) % 64) := by
  rw [BitVec.rotateLeft_def, Nat.mod_eq_of_lt h]
  by_cases h0 : n = 0
  · subst h0
    simp [show a >>> 64 = 0#64 from by apply BitVec.eq_of_toNat_eq; simp [Nat.shiftRight_eq_div_pow]; omega]
  · rw [Nat.mod_eq_of_lt (show 64 - n < 64 by omega)]
theorem rotr_eq64 (a : BitVec 64) (n : Nat) (h : n < 64) : a.rotateRight n = a >>> n ||| a <<< ((64 - n) % 64) := by
  rw [BitVec.rotateRight_def, Nat.mod_eq_of_lt h]
  by_cases h0 : n = 0
  · subst h0
    simp
  · rw [Nat.mod_eq_of_lt (show 64 - n < 64 by omega)]
theorem rotl_eq32 (a : BitVec 32) (n : Nat) (h : n < 32) : a.rotateLeft n = a <<< n ||| a >>> ((32 - n) % 32) := by
  rw [BitVec.rotateLeft_def, Nat.mod_eq_of_lt h]
  by_cases h0 : n = 0
  · subst h0
    simp [show a >>> 32 = 0#32 from by apply BitVec.eq_of_toNat_eq; simp [Nat.shiftRight_eq_div_pow]; omega]
  · rw [Nat.mod_eq_of_lt (show 32 - n < 32 by omega)]
theorem rotr_eq32 (a : BitVec 32) (n : Nat) (h : n < 32) : a.rotateRight n = a >>> n ||| a <<< ((32 - n) % 32) := by
  rw [BitVec.rotateRight_def, Nat.mod_eq_of_lt h]
  by_cases h0 : n = 0
  · subst h0
    simp
  · rw [Nat.mod_eq_of_lt (show 32 - n < 32 by omega)]

theorem sx_or' (a b : BitVec 32) : sx32 a ||| sx32 b = sx32 (a ||| b) := by
  rw [← sx_or (Sx_sx32 a) (Sx_sx32 b), lo32_sx32, lo32_sx32]

theorem resX_rotl {op : Op} (h : op.code = .rotl) (a b : BitVec 64) (cin) :
    resX op a b cin = if op.is32 then sx32 (lo32 a <<< (b.toNat % 32)) ||| sx32 (lo32 a >>> ((32 - b.toNat % 32) % 32))
      else a <<< (b.toNat % 64) ||| a >>> ((64 - b.toNat % 64) % 64) := by
  have : (lo32 b).toNat % 32 = b.toNat % 32 := by simp only [lo32, BitVec.toNat_setWidth]; omega
  simp only [resX, h, val, this, sx_or', rotl_eq32 _ _ (Nat.mod_lt _ (show 32 > 0 by decide)), rotl_eq64 _ _ (Nat.mod_lt _ (show 64 > 0 by decide))]

theorem resX_rotr {op : Op} (h : op.code = .rotr) (a b : BitVec 64) (cin) :
    resX op a b cin = if op.is32 then sx32 (lo32 a >>> (b.toNat % 32)) ||| sx32 (lo32 a <<< ((32 - b.toNat % 32) % 32))
      else a >>> (b.toNat % 64) ||| a <<< ((64 - b.toNat % 64) % 64) := by
  have : (lo32 b).toNat % 32 = b.toNat % 32 := by simp only [lo32, BitVec.toNat_setWidth]; omega
  simp only [resX, h, val, this, sx_or', rotr_eq32 _ _ (Nat.mod_lt _ (show 32 > 0 by decide)), rotr_eq64 _ _ (Nat.mod_lt _ (show 64 > 0 by decide))]

theorem rot_reg {cfg : Cfg} {op : Op} {fl : SF} {dst a b : Nat} {c : Core} {cin : Bool} {A B : BitVec 64}
    (hc : op.code = .rotl ∨ op.code = .rotr) (hf : op.flagOk) (hd : DstOk dst) (ha : SrcOk a) (hb : SrcOk b)
    (hA : c.x (regMap a) = A) (hB : c.x (regMap b) = B) (h32 : op.is32 = true → Sx A) :
    wp (emitRot cfg op dst a (.reg b)) c (Post2 op fl (regMap dst) A B cin c) := by
  have hf : op.flag = .none ∧ op.setZ = false := by rcases hc with hc | hc <;> simpa only [Op.flagOk, hc] using hf
  obtain ⟨hf, hz⟩ := hf
  obtain ⟨hal, ha5, ha28⟩ := ha
  obtain ⟨hbl, hb5, hb28⟩ := hb
  obtain ⟨hdl, hd0, hd5, hd28, hd6⟩ := hd
  have hs5 := hd5.symm
  have hs28 := hd28.symm
  have e1 : (lo32 B).toNat % 32 = B.toNat % 32 := by simp only [lo32, BitVec.toNat_setWidth]; omega
  have e3 : (18446744073709551616 - B.toNat) % 64 = (64 - B.toNat % 64) % 64 := by omega
  have e4 : (4294967296 - (lo32 B).toNat + (lo32 0#64).toNat) % 32 = (32 - B.toNat % 32) % 32 := by
    have : (lo32 0#64).toNat = 0 := by decide
    omega
  unfold emitRot
  simp only []
  by_cases hzb : cfg.zbb = true
  · simp only [hzb, if_true]
    rcases hc with hc | hc
    · have hr := resX_rotl hc A B cin
      simp only [hc, beq_self_eq_true, if_true]
      wps []
      rcases hw : op.is32 with _ | _ <;> simp only [hw, Bool.false_eq_true, if_false, if_true] at hr ⊢ <;> apply Post2.plain <;>
        simp +contextual [Kept, hw, rol32, rol64, ← sx_or', *]
    · have hr := resX_rotr hc A B cin
      simp only [hc, if_true, show (OpC.rotr == OpC.rotl) = false by decide, Bool.false_eq_true, if_false]
      wps []
      rcases hw : op.is32 with _ | _ <;> simp only [hw, Bool.false_eq_true, if_false, if_true] at hr ⊢ <;> apply Post2.plain <;>
        simp +contextual [Kept, hw, ror32, ror64, ← sx_or', *]
  · simp only [hzb, if_false, Bool.false_eq_true]
    by_cases hb0 : b = 0
    · subst hb0
      have hB0 : B = 0#64 := by rw [← hB]; simp
      subst hB0
      have hr : resX op A 0#64 cin = A := by
        rcases hc with hc | hc
        · rw [resX_rotl hc]
          rcases hw : op.is32 with _ | _ <;> simp
          rw [← h32 hw]
        · rw [resX_rotr hc]
          rcases hw : op.is32 with _ | _ <;> simp
          rw [← h32 hw]
      simp only [if_true]
      have hx : addw op.is32 A 0#64 = A := by
        rcases hw : op.is32 with _ | _ <;> simp [addw, lo32]
        exact (h32 hw).symm
      have hfit : Fits12 0#64 := by constructor <;> decide
      by_cases hda : dst = a
      · subst hda
        wps []
        apply Post2.plain <;> simp +contextual [Kept, hr, *]
      · wps [hda, hfit]
        apply Post2.plain <;> simp +contextual [Kept, hr, hx, *]
    · simp only [if_neg hb0]
      rcases hc with hc | hc
      · have hr := resX_rotl hc A B cin
        simp only [hc, beq_self_eq_true, if_true]
        rcases hw : op.is32 with _ | _ <;> simp only [hw, Bool.false_eq_true, if_false, if_true] at hr ⊢ <;> wps [] <;> apply Post2.plain <;>
          simp +contextual [Kept, hw, subw, BitVec.or_comm, *]
      · have hr := resX_rotr hc A B cin
        simp only [hc, if_true, show (OpC.rotr == OpC.rotl) = false by decide, Bool.false_eq_true, if_false]
        rcases hw : op.is32 with _ | _ <;> simp only [hw, Bool.false_eq_true, if_false, if_true] at hr ⊢ <;> wps [] <;> apply Post2.plain <;>
          simp +contextual [Kept, hw, subw, BitVec.or_comm, *]

theorem rot_imm {cfg : Cfg} {op : Op} {fl : SF} {dst a : Nat} {i : BitVec 64} {c : Core} {cin : Bool} {A : BitVec 64}
    (hc : op.code = .rotl ∨ op.code = .rotr) (hf : op.flagOk) (hd : DstOk dst) (ha : SrcOk a)
    (hA : c.x (regMap a) = A) (hi : i.toNat < if op.is32 then 32 else 64) (hi0 : i ≠ 0#64) :
    wp (emitRot cfg op dst a (.imm i)) c (Post2 op fl (regMap dst) A i cin c) := by
  have hf : op.flag = .none ∧ op.setZ = false := by rcases hc with hc | hc <;> simpa only [Op.flagOk, hc] using hf
  obtain ⟨hf, hz⟩ := hf
  obtain ⟨hal, ha5, ha28⟩ := ha
  obtain ⟨hdl, hd0, hd5, hd28, hd6⟩ := hd
  have hs5 := hd5.symm
  have hs28 := hd28.symm
  have hn0 : i.toNat ≠ 0 := fun h => hi0 (BitVec.eq_of_toNat_eq (by simpa using h))
  unfold emitRot
  simp only []
  rcases hw : op.is32 with _ | _
  · simp only [hw, Bool.false_eq_true, if_false, if_true] at hi ⊢
    have hm : i.toNat % 64 = i.toNat := Nat.mod_eq_of_lt hi
    have hs : (64#64 - i).toNat = 64 - i.toNat := by rw [BitVec.toNat_sub]; simp; omega
    have hsl : 64 - i.toNat < 64 := by omega
    have hsm : (64 - i.toNat) % 64 = 64 - i.toNat := Nat.mod_eq_of_lt hsl
    have hsl' : (64#64 - i).toNat < 64 := by omega
    have q1 : (i.setWidth 6).toNat = i.toNat := by simp only [BitVec.toNat_setWidth]; omega
    have q2 : ((64#64 - i).setWidth 6).toNat = 64 - i.toNat := by simp only [BitVec.toNat_setWidth]; omega
    have q3 : 64 - (64 - i.toNat) = i.toNat := by omega
    generalize 64#64 - i = j at *
    rcases hc with hc | hc
    · have hr := resX_rotl hc A i cin
      simp only [hw, Bool.false_eq_true, if_false, if_true, hm, hsm] at hr
      simp only [hc, beq_self_eq_true, show (OpC.rotr == OpC.rotl) = false by decide, Bool.false_eq_true, if_false, if_true]
      rcases hzb : cfg.zbb with _ | _ <;> simp only [Bool.false_eq_true, if_false, if_true]
      · wps [hw, hi, hsl', q1, q2]
        apply Post2.plain <;> simp +contextual [Kept, hr, BitVec.or_comm, *]
      · wps [hw, hi, hsl', q1, q2]
        apply Post2.plain <;> simp +contextual [Kept, hr, ror32, ror64, hm, hsm, q3, ← sx_or', BitVec.or_comm, *]
    · have hr := resX_rotr hc A i cin
      simp only [hw, Bool.false_eq_true, if_false, if_true, hm, hsm] at hr
      simp only [hc, beq_self_eq_true, show (OpC.rotr == OpC.rotl) = false by decide, Bool.false_eq_true, if_false, if_true]
      rcases hzb : cfg.zbb with _ | _ <;> simp only [Bool.false_eq_true, if_false, if_true]
      · wps [hw, hi, hsl', q1, q2]
        apply Post2.plain <;> simp +contextual [Kept, hr, BitVec.or_comm, *]
      · wps [hw, hi, hsl', q1, q2]
        apply Post2.plain <;> simp +contextual [Kept, hr, ror32, ror64, hm, hsm, q3, ← sx_or', BitVec.or_comm, *]
  · simp only [hw, Bool.false_eq_true, if_false, if_true] at hi ⊢
    have hm : i.toNat % 32 = i.toNat := Nat.mod_eq_of_lt hi
    have hs : (32#64 - i).toNat = 32 - i.toNat := by rw [BitVec.toNat_sub]; simp; omega
    have hsl : 32 - i.toNat < 32 := by omega
    have hsm : (32 - i.toNat) % 32 = 32 - i.toNat := Nat.mod_eq_of_lt hsl
    have hsl' : (32#64 - i).toNat < 32 := by omega
    have q1 : (i.setWidth 5).toNat = i.toNat := by simp only [BitVec.toNat_setWidth]; omega
    have q2 : ((32#64 - i).setWidth 5).toNat = 32 - i.toNat := by simp only [BitVec.toNat_setWidth]; omega
    have q3 : 32 - (32 - i.toNat) = i.toNat := by omega
    generalize 32#64 - i = j at *
    rcases hc with hc | hc
    · have hr := resX_rotl hc A i cin
      simp only [hw, Bool.false_eq_true, if_false, if_true, hm, hsm] at hr
      simp only [hc, beq_self_eq_true, show (OpC.rotr == OpC.rotl) = false by decide, Bool.false_eq_true, if_false, if_true]
      rcases hzb : cfg.zbb with _ | _ <;> simp only [Bool.false_eq_true, if_false, if_true]
      · wps [hw, hi, hsl', q1, q2]
        apply Post2.plain <;> simp +contextual [Kept, hr, BitVec.or_comm, *]
      · wps [hw, hi, hsl', q1, q2]
        apply Post2.plain <;> simp +contextual [Kept, hr, ror32, ror64, hm, hsm, q3, ← sx_or', BitVec.or_comm, *]
    · have hr := resX_rotr hc A i cin
      simp only [hw, Bool.false_eq_true, if_false, if_true, hm, hsm] at hr
      simp only [hc, beq_self_eq_true, show (OpC.rotr == OpC.rotl) = false by decide, Bool.false_eq_true, if_false, if_true]
      rcases hzb : cfg.zbb with _ | _ <;> simp only [Bool.false_eq_true, if_false, if_true]
      · wps [hw, hi, hsl', q1, q2]
        apply Post2.plain <;> simp +contextual [Kept, hr, BitVec.or_comm, *]
      · wps [hw, hi, hsl', q1, q2]
        apply Post2.plain <;> simp +contextual [Kept, hr, ror32, ror64, hm, hsm, q3, ← sx_or', BitVec.or_comm, *]
end Verif.RV
