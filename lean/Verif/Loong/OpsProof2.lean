import Verif.Loong.OpsProof
import Verif.RISCV.OpsAll
import Mathlib.Tactic.Linarith

/-! # emit_single_op: ADDC, MUL, logical operations, shifts, rotations (helper lemmas) -/

set_option linter.all false

namespace Verif.LA
open Verif.RV

/-- The 64 bit carry of sign extended operands is the 32 bit carry. -/
theorem carry32_64 (a b : BitVec 32) (cin : Bool) :
    flagVal .addc .carry (sx32 a) (sx32 b) cin = flagVal .addc .carry a b cin := by
  have h1 := a.isLt
  have h2 := b.isLt
  have h3 : cin.toNat ≤ 1 := by cases cin <;> simp
  rw [Bool.eq_iff_iff]
  simp only [flagVal, decide_eq_true_eq, toNat_sx32]
  split <;> split <;> omega

theorem carryL_addc {op : Op} (hc : op.code = .addc) (hf : op.flag = .carry) (a b cin) (h32 : op.is32 = true → Sx a ∧ Sx b) :
    ((a + b).ult a || (a + b + bool64 cin).ult (bool64 cin)) = flagX op a b cin := by
  rw [bool64_cin, carry_addc (by decide)]
  simp only [flagX, hc, hf]
  cases h : op.is32
  · rfl
  · obtain ⟨ha, hb⟩ := h32 h
    rw [if_pos rfl]
    conv => lhs; rw [ha, hb]
    exact carry32_64 _ _ _

theorem add_ult_comm (a b : BitVec 64) : (a + b).ult b = (a + b).ult a := by
  have := addw_ult_comm false a b (fun h => by simp at h)
  simpa only [addw, Bool.false_eq_true, if_false] using this

theorem addc_reg {op : Op} {fl : SF} {dst a b : Nat} {c : Core} {cin : Bool} {A B : BitVec 64} (hc : op.code = .addc)
    (hf : op.flagOk) (hd : DstOk dst) (ha : SrcOk a) (hb : SrcOk b) (hA : c.x (regMap a) = A) (hB : c.x (regMap b) = B)
    (hcin : c.x 15#5 = bool64 cin)
    (h32 : op.is32 = true → Sx A ∧ Sx B) (hcy : op.flag = .carry → carrySrc dst a b EQUAL_FLAG ≠ 0) :
    wp (emitAddcOp op dst a (.reg b)) c (Post2 op fl (regMap dst) A B cin c) := by
  simp only [Op.flagOk, hc] at hf
  obtain ⟨hf, hz⟩ := hf
  obtain ⟨hal, ha5, ha28⟩ := ha
  obtain ⟨hbl, hb5, hb28⟩ := hb
  have hd' := hd
  obtain ⟨hdl, hd0, hd5, hd28, hd6⟩ := hd
  have hs0 := hd0.symm
  have hs5 := hd5.symm
  have hs28 := hd28.symm
  have hs6 := hd6.symm
  have hr : resL op A B cin = A + B + bool64 cin := by rw [resL, if_pos hc]
  have hcm := add_ult_comm A B
  rcases hf with hf | hf
  · wps [emitAddcOp, emitAddcTail, hf, hz, hal, hbl] <;> apply Post2.plain <;> simp +contextual [hf, hz, hr, Kept, *]
  · have hcf := carryL_addc hc hf A B cin h32
    have hcy := hcy hf
    wps [emitAddcOp, emitAddcTail, hf, hal, hbl, hd', hcy, fits0]
    simp only [carrySrc]
    by_cases h1 : a = dst
    · subst h1
      by_cases h2 : b = a
      · subst h2
        obtain rfl : A = B := hA.symm.trans hB
        wps [hd0, hal, bool64_or]
        apply Post2.plain <;> simp +contextual [Kept, bool64_or, Bool.or_comm, *]
      · have h3 := rm_ne hbl hdl h2
        wps [h2]
        apply Post2.plain <;> simp +contextual [Kept, bool64_or, Bool.or_comm, *]
    · have h3 := rm_ne hal hdl h1
      wps [h1]
      apply Post2.plain <;> simp +contextual [Kept, bool64_or, Bool.or_comm, *]

theorem addc_imm {op : Op} {fl : SF} {dst a : Nat} {c : Core} {cin : Bool} {A i : BitVec 64} (hc : op.code = .addc)
    (hf : op.flagOk) (hd : DstOk dst) (ha : SrcOk a) (hA : c.x (regMap a) = A) (hi : Fits12 i)
    (hcin : c.x 15#5 = bool64 cin) (h32 : op.is32 = true → Sx A) :
    wp (emitAddcOp op dst a (.imm i)) c (Post2 op fl (regMap dst) A i cin c) := by
  simp only [Op.flagOk, hc] at hf
  obtain ⟨hf, hz⟩ := hf
  obtain ⟨hal, ha5, ha28⟩ := ha
  have hd' := hd
  obtain ⟨hdl, hd0, hd5, hd28, hd6⟩ := hd
  have hs0 := hd0.symm
  have hs5 := hd5.symm
  have hs28 := hd28.symm
  have hs6 := hd6.symm
  have hr : resL op A i cin = A + i + bool64 cin := by rw [resL, if_pos hc]
  have hcm := add_ult_comm A i
  rcases hf with hf | hf
  · wps [emitAddcOp, emitAddcTail, hf, hz, hal, hi, hd0] <;> apply Post2.plain <;> simp +contextual [hf, hz, hr, Kept, *]
  · have hcf := carryL_addc hc hf A i cin fun h => ⟨h32 h, Sx_fits12 hi⟩
    wps [emitAddcOp, emitAddcTail, hf, hal, hi, hd0, hd']
    apply Post2.plain <;> simp +contextual [Kept, bool64_or, Bool.or_comm, *]

theorem mul_reg {op : Op} {fl : SF} {dst a b : Nat} {c : Core} {cin : Bool} {A B : BitVec 64} (hc : op.code = .mul)
    (hf : op.flagOk) (hd : DstOk dst) (ha : SrcOk a) (hb : SrcOk b) (hA : c.x (regMap a) = A) (hB : c.x (regMap b) = B)
    (h32 : op.is32 = true → Sx A ∧ Sx B) :
    wp (emitMulOp op dst a b) c (Post2 op fl (regMap dst) A B cin c) := by
  simp only [Op.flagOk, hc] at hf
  obtain ⟨hf, hz⟩ := hf
  obtain ⟨hal, ha5, ha28⟩ := ha
  obtain ⟨hbl, hb5, hb28⟩ := hb
  obtain ⟨hdl, hd0, hd5, hd28, hd6⟩ := hd
  have hs0 := hd0.symm
  have hs5 := hd5.symm
  have hs28 := hd28.symm
  have hs6 := hd6.symm
  have hn : op.code ≠ .addc := by rw [hc]; decide
  have hl := resL_of hn (op := op)
  have hr := resX_mul hc A B cin
  rcases hf with hf | hf
  · wps [emitMulOp, hf] <;> apply Post2.plain <;> simp +contextual [hf, hz, hr, Kept, *]
  · rcases hw : op.is32 with _ | _
    · simp only [hw, Bool.false_eq_true, if_false] at hr
      have ho := mulh_ov A B cin
      simp only [emitMulOp, hf, hw, ne_eq, not_true_eq_false, if_false, Bool.false_eq_true]
      wps []
      constructor <;> simp +contextual [hf, hz, hc, hl, hr, Kept, hd0, hd5, hd28, hs5, hs28, ha5, hb5, hA, hB]
      rw [← ne_eq, ho]
      simp [flagX, hw, hc, hf]
    · obtain ⟨g1, g2⟩ := h32 hw
      simp only [hw, if_true] at hr
      have ho := mul_ov32 (lo32 A) (lo32 B) cin
      rw [← g1, ← g2] at ho
      simp only [emitMulOp, hf, hw, ne_eq, not_true_eq_false, if_false, if_true]
      wps []
      constructor <;> simp +contextual [hf, hz, hc, hl, hr, Kept, hd0, hd5, hd28, hs5, hs28, ha5, hb5, ha28, hb28, hA, hB]
      rw [← ne_eq, ho]
      simp [flagX, hw, hc, hf]

theorem and_reg {op : Op} {fl : SF} {dst a b : Nat} {c : Core} {cin : Bool} {A B : BitVec 64} (hc : op.code = .and)
    (hf : op.flagOk) (hd : DstOk dst) (ha : SrcOk a) (hb : SrcOk b) (hA : c.x (regMap a) = A) (hB : c.x (regMap b) = B)
    (h32 : op.is32 = true → Sx A ∧ Sx B) :
    wp (emitLogical op fl AND dst a (.reg b)) c (Post2 op fl (regMap dst) A B cin c) := by
  simp only [Op.flagOk, hc] at hf
  obtain ⟨hal, ha5, ha28⟩ := ha
  obtain ⟨hbl, hb5, hb28⟩ := hb
  obtain ⟨hdl, hd0, hd5, hd28, hd6⟩ := hd
  have hs5 := hd5.symm
  have hn : op.code ≠ .addc := by rw [hc]; decide
  have hl := resL_of hn (op := op)
  have hr := resX_and hc A B cin h32
  unfold emitLogical
  rcases hz : op.setZ with _ | _ <;> rcases hu : fl.unused with _ | _ <;>
    wps [hf] <;> apply Post2.plain <;> simp +contextual [hf, hz, hu, hr, Kept, *]

theorem and_imm {op : Op} {fl : SF} {dst a : Nat} {c : Core} {cin : Bool} {A i : BitVec 64} (hc : op.code = .and)
    (hf : op.flagOk) (hd : DstOk dst) (ha : SrcOk a) (hA : c.x (regMap a) = A) (hi : Fits12 i)
    (h32 : op.is32 = true → Sx A) :
    wp (emitLogical op fl AND dst a (.imm i)) c (Post2 op fl (regMap dst) A i cin c) := by
  simp only [Op.flagOk, hc] at hf
  obtain ⟨hal, ha5, ha28⟩ := ha
  obtain ⟨hdl, hd0, hd5, hd28, hd6⟩ := hd
  have hs5 := hd5.symm
  have hs6 := hd6.symm
  have hn : op.code ≠ .addc := by rw [hc]; decide
  have hl := resL_of hn (op := op)
  have hr := resX_and hc A i cin fun h => ⟨h32 h, Sx_fits12 hi⟩
  unfold emitLogical
  by_cases hda : dst = a
  · subst hda
    rcases hz : op.setZ with _ | _ <;> rcases hu : fl.unused with _ | _ <;>
      wps [hf, hi] <;> apply Post2.plain <;> simp +contextual [hf, hz, hu, hr, Kept, *]
  · have h3 := rm_ne hal hdl (Ne.symm hda)
    rcases hz : op.setZ with _ | _ <;> rcases hu : fl.unused with _ | _ <;>
      wps [hf, hi, hda] <;> apply Post2.plain <;> simp +contextual [hf, hz, hu, hr, Kept, *]

theorem or_reg {op : Op} {fl : SF} {dst a b : Nat} {c : Core} {cin : Bool} {A B : BitVec 64} (hc : op.code = .or)
    (hf : op.flagOk) (hd : DstOk dst) (ha : SrcOk a) (hb : SrcOk b) (hA : c.x (regMap a) = A) (hB : c.x (regMap b) = B)
    (h32 : op.is32 = true → Sx A ∧ Sx B) :
    wp (emitLogical op fl OR dst a (.reg b)) c (Post2 op fl (regMap dst) A B cin c) := by
  simp only [Op.flagOk, hc] at hf
  obtain ⟨hal, ha5, ha28⟩ := ha
  obtain ⟨hbl, hb5, hb28⟩ := hb
  obtain ⟨hdl, hd0, hd5, hd28, hd6⟩ := hd
  have hs5 := hd5.symm
  have hn : op.code ≠ .addc := by rw [hc]; decide
  have hl := resL_of hn (op := op)
  have hr := resX_or hc A B cin h32
  unfold emitLogical
  rcases hz : op.setZ with _ | _ <;> rcases hu : fl.unused with _ | _ <;>
    wps [hf] <;> apply Post2.plain <;> simp +contextual [hf, hz, hu, hr, Kept, *]

theorem or_imm {op : Op} {fl : SF} {dst a : Nat} {c : Core} {cin : Bool} {A i : BitVec 64} (hc : op.code = .or)
    (hf : op.flagOk) (hd : DstOk dst) (ha : SrcOk a) (hA : c.x (regMap a) = A) (hi : Fits12 i)
    (h32 : op.is32 = true → Sx A) :
    wp (emitLogical op fl OR dst a (.imm i)) c (Post2 op fl (regMap dst) A i cin c) := by
  simp only [Op.flagOk, hc] at hf
  obtain ⟨hal, ha5, ha28⟩ := ha
  obtain ⟨hdl, hd0, hd5, hd28, hd6⟩ := hd
  have hs5 := hd5.symm
  have hs6 := hd6.symm
  have hn : op.code ≠ .addc := by rw [hc]; decide
  have hl := resL_of hn (op := op)
  have hr := resX_or hc A i cin fun h => ⟨h32 h, Sx_fits12 hi⟩
  unfold emitLogical
  by_cases hda : dst = a
  · subst hda
    rcases hz : op.setZ with _ | _ <;> rcases hu : fl.unused with _ | _ <;>
      wps [hf, hi] <;> apply Post2.plain <;> simp +contextual [hf, hz, hu, hr, Kept, *]
  · have h3 := rm_ne hal hdl (Ne.symm hda)
    rcases hz : op.setZ with _ | _ <;> rcases hu : fl.unused with _ | _ <;>
      wps [hf, hi, hda] <;> apply Post2.plain <;> simp +contextual [hf, hz, hu, hr, Kept, *]

theorem xor_reg {op : Op} {fl : SF} {dst a b : Nat} {c : Core} {cin : Bool} {A B : BitVec 64} (hc : op.code = .xor)
    (hf : op.flagOk) (hd : DstOk dst) (ha : SrcOk a) (hb : SrcOk b) (hA : c.x (regMap a) = A) (hB : c.x (regMap b) = B)
    (h32 : op.is32 = true → Sx A ∧ Sx B) :
    wp (emitLogical op fl XOR dst a (.reg b)) c (Post2 op fl (regMap dst) A B cin c) := by
  simp only [Op.flagOk, hc] at hf
  obtain ⟨hal, ha5, ha28⟩ := ha
  obtain ⟨hbl, hb5, hb28⟩ := hb
  obtain ⟨hdl, hd0, hd5, hd28, hd6⟩ := hd
  have hs5 := hd5.symm
  have hn : op.code ≠ .addc := by rw [hc]; decide
  have hl := resL_of hn (op := op)
  have hr := resX_xor hc A B cin h32
  unfold emitLogical
  rcases hz : op.setZ with _ | _ <;> rcases hu : fl.unused with _ | _ <;>
    wps [hf] <;> apply Post2.plain <;> simp +contextual [hf, hz, hu, hr, Kept, *]

theorem xor_imm {op : Op} {fl : SF} {dst a : Nat} {c : Core} {cin : Bool} {A i : BitVec 64} (hc : op.code = .xor)
    (hf : op.flagOk) (hd : DstOk dst) (ha : SrcOk a) (hA : c.x (regMap a) = A) (hi : Fits12 i)
    (h32 : op.is32 = true → Sx A) :
    wp (emitLogical op fl XOR dst a (.imm i)) c (Post2 op fl (regMap dst) A i cin c) := by
  simp only [Op.flagOk, hc] at hf
  obtain ⟨hal, ha5, ha28⟩ := ha
  obtain ⟨hdl, hd0, hd5, hd28, hd6⟩ := hd
  have hs5 := hd5.symm
  have hs6 := hd6.symm
  have hn : op.code ≠ .addc := by rw [hc]; decide
  have hl := resL_of hn (op := op)
  have hr := resX_xor hc A i cin fun h => ⟨h32 h, Sx_fits12 hi⟩
  unfold emitLogical
  by_cases hda : dst = a
  · subst hda
    rcases hz : op.setZ with _ | _ <;> rcases hu : fl.unused with _ | _ <;>
      wps [hf, hi] <;> apply Post2.plain <;> simp +contextual [hf, hz, hu, hr, Kept, *]
  · have h3 := rm_ne hal hdl (Ne.symm hda)
    rcases hz : op.setZ with _ | _ <;> rcases hu : fl.unused with _ | _ <;>
      wps [hf, hi, hda] <;> apply Post2.plain <;> simp +contextual [hf, hz, hu, hr, Kept, *]

theorem wp_SLLx_s (w : Bool) (d a b : Nat) (r : Emit) (c : Core) (Q : Core → Prop) : wp (ins (INST SLL_W SLL_D w ||| RD d ||| RJ a ||| RK b) ++ r) c Q ↔
    wp r (c.wr (regMap d) (if w then sx32 (lo32 (c.x (regMap a)) <<< ((c.x (regMap b)).toNat % 32)) else c.x (regMap a) <<< ((c.x (regMap b)).toNat % 64))) Q := by
  have e2 : (lo32 (c.x (regMap b))).toNat % 32 = (c.x (regMap b)).toNat % 32 := by simp only [lo32, BitVec.toNat_setWidth]; omega
  cases w
  · unfold INST; rw [if_neg (by decide), wp_SLL_D_s, evR_sll, BitVec.toNat_setWidth]; rfl
  · unfold INST; rw [if_pos rfl, wp_SLL_W_s, evW_sll, BitVec.toNat_setWidth, e2]; rfl
theorem wp_SLLx (w : Bool) (d a b : Nat) (c : Core) (Q : Core → Prop) : wp (ins (INST SLL_W SLL_D w ||| RD d ||| RJ a ||| RK b)) c Q ↔
    Q (c.wr (regMap d) (if w then sx32 (lo32 (c.x (regMap a)) <<< ((c.x (regMap b)).toNat % 32)) else c.x (regMap a) <<< ((c.x (regMap b)).toNat % 64))) := by
  have := wp_SLLx_s w d a b [] c Q; rwa [List.append_nil, wp_nil] at this
theorem wp_SLLIx_s (w : Bool) (d a : Nat) {i : BitVec 64} (h : i.toNat < if w then 32 else 64) (r : Emit) (c : Core) (Q : Core → Prop) :
    wp (ins (INST SLLI_W SLLI_D w ||| RD d ||| RJ a ||| IMM_I12 i) ++ r) c Q ↔
    wp r (c.wr (regMap d) (if w then sx32 (lo32 (c.x (regMap a)) <<< (i.toNat % 32)) else c.x (regMap a) <<< (i.toNat % 64))) Q := by
  cases w
  · unfold INST; rw [if_neg (by decide), wp_SLLI_D_s _ _ h, evS64_sll, Nat.mod_eq_of_lt (show i.toNat < 64 from h)]; rfl
  · unfold INST; rw [if_pos rfl, wp_SLLI_W_s _ _ h, evS32_sll, Nat.mod_eq_of_lt (show i.toNat < 32 from h)]; rfl
theorem wp_SLLIx (w : Bool) (d a : Nat) {i : BitVec 64} (h : i.toNat < if w then 32 else 64) (c : Core) (Q : Core → Prop) :
    wp (ins (INST SLLI_W SLLI_D w ||| RD d ||| RJ a ||| IMM_I12 i)) c Q ↔
    Q (c.wr (regMap d) (if w then sx32 (lo32 (c.x (regMap a)) <<< (i.toNat % 32)) else c.x (regMap a) <<< (i.toNat % 64))) := by
  have := wp_SLLIx_s w d a h [] c Q; rwa [List.append_nil, wp_nil] at this

theorem shl_reg {op : Op} {fl : SF} {dst a b : Nat} {c : Core} {cin : Bool} {A B : BitVec 64}
    (hc : op.code = .shl ∨ op.code = .mshl) (hf : op.flagOk) (hd : DstOk dst) (ha : SrcOk a) (hb : SrcOk b)
    (hA : c.x (regMap a) = A) (hB : c.x (regMap b) = B) :
    wp (emitShift op fl (INST SLLI_W SLLI_D op.is32) (INST SLL_W SLL_D op.is32) dst a (.reg b)) c (Post2 op fl (regMap dst) A B cin c) := by
  have hf : op.flag = .none := by rcases hc with hc | hc <;> simpa only [Op.flagOk, hc] using hf
  obtain ⟨hal, ha5, ha28⟩ := ha
  obtain ⟨hbl, hb5, hb28⟩ := hb
  obtain ⟨hdl, hd0, hd5, hd28, hd6⟩ := hd
  have hs5 := hd5.symm
  have hn : op.code ≠ .addc := by rcases hc with hc | hc <;> rw [hc] <;> decide
  have hl := resL_of hn (op := op)
  have hr := resX_shl hc A B cin
  rcases hz : op.setZ with _ | _ <;> rcases hu : fl.unused with _ | _ <;>
    wps [emitShift, hz, hu, wp_SLLx, wp_SLLx_s] <;> apply Post2.plain <;> simp (config := {contextual := true}) [Kept, *]

theorem shl_imm {op : Op} {fl : SF} {dst a : Nat} {c : Core} {cin : Bool} {A i : BitVec 64}
    (hc : op.code = .shl ∨ op.code = .mshl) (hf : op.flagOk) (hd : DstOk dst) (ha : SrcOk a)
    (hA : c.x (regMap a) = A) (hi : i.toNat < if op.is32 then 32 else 64) :
    wp (emitShift op fl (INST SLLI_W SLLI_D op.is32) (INST SLL_W SLL_D op.is32) dst a (.imm i)) c (Post2 op fl (regMap dst) A i cin c) := by
  have hf : op.flag = .none := by rcases hc with hc | hc <;> simpa only [Op.flagOk, hc] using hf
  obtain ⟨hal, ha5, ha28⟩ := ha
  obtain ⟨hdl, hd0, hd5, hd28, hd6⟩ := hd
  have hs5 := hd5.symm
  have hn : op.code ≠ .addc := by rcases hc with hc | hc <;> rw [hc] <;> decide
  have hl := resL_of hn (op := op)
  have hr := resX_shl hc A i cin
  rcases hz : op.setZ with _ | _ <;> rcases hu : fl.unused with _ | _ <;>
    wps [emitShift, hz, hu, wp_SLLIx _ _ _ hi, wp_SLLIx_s _ _ _ hi] <;> apply Post2.plain <;> simp (config := {contextual := true}) [Kept, *]

theorem wp_SRLx_s (w : Bool) (d a b : Nat) (r : Emit) (c : Core) (Q : Core → Prop) : wp (ins (INST SRL_W SRL_D w ||| RD d ||| RJ a ||| RK b) ++ r) c Q ↔
    wp r (c.wr (regMap d) (if w then sx32 (lo32 (c.x (regMap a)) >>> ((c.x (regMap b)).toNat % 32)) else c.x (regMap a) >>> ((c.x (regMap b)).toNat % 64))) Q := by
  have e2 : (lo32 (c.x (regMap b))).toNat % 32 = (c.x (regMap b)).toNat % 32 := by simp only [lo32, BitVec.toNat_setWidth]; omega
  cases w
  · unfold INST; rw [if_neg (by decide), wp_SRL_D_s, evR_srl, BitVec.toNat_setWidth]; rfl
  · unfold INST; rw [if_pos rfl, wp_SRL_W_s, evW_srl, BitVec.toNat_setWidth, e2]; rfl
theorem wp_SRLx (w : Bool) (d a b : Nat) (c : Core) (Q : Core → Prop) : wp (ins (INST SRL_W SRL_D w ||| RD d ||| RJ a ||| RK b)) c Q ↔
    Q (c.wr (regMap d) (if w then sx32 (lo32 (c.x (regMap a)) >>> ((c.x (regMap b)).toNat % 32)) else c.x (regMap a) >>> ((c.x (regMap b)).toNat % 64))) := by
  have := wp_SRLx_s w d a b [] c Q; rwa [List.append_nil, wp_nil] at this
theorem wp_SRLIx_s (w : Bool) (d a : Nat) {i : BitVec 64} (h : i.toNat < if w then 32 else 64) (r : Emit) (c : Core) (Q : Core → Prop) :
    wp (ins (INST SRLI_W SRLI_D w ||| RD d ||| RJ a ||| IMM_I12 i) ++ r) c Q ↔
    wp r (c.wr (regMap d) (if w then sx32 (lo32 (c.x (regMap a)) >>> (i.toNat % 32)) else c.x (regMap a) >>> (i.toNat % 64))) Q := by
  cases w
  · unfold INST; rw [if_neg (by decide), wp_SRLI_D_s _ _ h, evS64_srl, Nat.mod_eq_of_lt (show i.toNat < 64 from h)]; rfl
  · unfold INST; rw [if_pos rfl, wp_SRLI_W_s _ _ h, evS32_srl, Nat.mod_eq_of_lt (show i.toNat < 32 from h)]; rfl
theorem wp_SRLIx (w : Bool) (d a : Nat) {i : BitVec 64} (h : i.toNat < if w then 32 else 64) (c : Core) (Q : Core → Prop) :
    wp (ins (INST SRLI_W SRLI_D w ||| RD d ||| RJ a ||| IMM_I12 i)) c Q ↔
    Q (c.wr (regMap d) (if w then sx32 (lo32 (c.x (regMap a)) >>> (i.toNat % 32)) else c.x (regMap a) >>> (i.toNat % 64))) := by
  have := wp_SRLIx_s w d a h [] c Q; rwa [List.append_nil, wp_nil] at this

theorem lshr_reg {op : Op} {fl : SF} {dst a b : Nat} {c : Core} {cin : Bool} {A B : BitVec 64}
    (hc : op.code = .lshr ∨ op.code = .mlshr) (hf : op.flagOk) (hd : DstOk dst) (ha : SrcOk a) (hb : SrcOk b)
    (hA : c.x (regMap a) = A) (hB : c.x (regMap b) = B) :
    wp (emitShift op fl (INST SRLI_W SRLI_D op.is32) (INST SRL_W SRL_D op.is32) dst a (.reg b)) c (Post2 op fl (regMap dst) A B cin c) := by
  have hf : op.flag = .none := by rcases hc with hc | hc <;> simpa only [Op.flagOk, hc] using hf
  obtain ⟨hal, ha5, ha28⟩ := ha
  obtain ⟨hbl, hb5, hb28⟩ := hb
  obtain ⟨hdl, hd0, hd5, hd28, hd6⟩ := hd
  have hs5 := hd5.symm
  have hn : op.code ≠ .addc := by rcases hc with hc | hc <;> rw [hc] <;> decide
  have hl := resL_of hn (op := op)
  have hr := resX_lshr hc A B cin
  rcases hz : op.setZ with _ | _ <;> rcases hu : fl.unused with _ | _ <;>
    wps [emitShift, hz, hu, wp_SRLx, wp_SRLx_s] <;> apply Post2.plain <;> simp (config := {contextual := true}) [Kept, *]

theorem lshr_imm {op : Op} {fl : SF} {dst a : Nat} {c : Core} {cin : Bool} {A i : BitVec 64}
    (hc : op.code = .lshr ∨ op.code = .mlshr) (hf : op.flagOk) (hd : DstOk dst) (ha : SrcOk a)
    (hA : c.x (regMap a) = A) (hi : i.toNat < if op.is32 then 32 else 64) :
    wp (emitShift op fl (INST SRLI_W SRLI_D op.is32) (INST SRL_W SRL_D op.is32) dst a (.imm i)) c (Post2 op fl (regMap dst) A i cin c) := by
  have hf : op.flag = .none := by rcases hc with hc | hc <;> simpa only [Op.flagOk, hc] using hf
  obtain ⟨hal, ha5, ha28⟩ := ha
  obtain ⟨hdl, hd0, hd5, hd28, hd6⟩ := hd
  have hs5 := hd5.symm
  have hn : op.code ≠ .addc := by rcases hc with hc | hc <;> rw [hc] <;> decide
  have hl := resL_of hn (op := op)
  have hr := resX_lshr hc A i cin
  rcases hz : op.setZ with _ | _ <;> rcases hu : fl.unused with _ | _ <;>
    wps [emitShift, hz, hu, wp_SRLIx _ _ _ hi, wp_SRLIx_s _ _ _ hi] <;> apply Post2.plain <;> simp (config := {contextual := true}) [Kept, *]

theorem wp_SRAx_s (w : Bool) (d a b : Nat) (r : Emit) (c : Core) (Q : Core → Prop) : wp (ins (INST SRA_W SRA_D w ||| RD d ||| RJ a ||| RK b) ++ r) c Q ↔
    wp r (c.wr (regMap d) (if w then sx32 ((lo32 (c.x (regMap a))).sshiftRight ((c.x (regMap b)).toNat % 32)) else (c.x (regMap a)).sshiftRight ((c.x (regMap b)).toNat % 64))) Q := by
  have e2 : (lo32 (c.x (regMap b))).toNat % 32 = (c.x (regMap b)).toNat % 32 := by simp only [lo32, BitVec.toNat_setWidth]; omega
  cases w
  · unfold INST; rw [if_neg (by decide), wp_SRA_D_s, evR_sra, BitVec.toNat_setWidth]; rfl
  · unfold INST; rw [if_pos rfl, wp_SRA_W_s, evW_sra, BitVec.toNat_setWidth, e2]; rfl
theorem wp_SRAx (w : Bool) (d a b : Nat) (c : Core) (Q : Core → Prop) : wp (ins (INST SRA_W SRA_D w ||| RD d ||| RJ a ||| RK b)) c Q ↔
    Q (c.wr (regMap d) (if w then sx32 ((lo32 (c.x (regMap a))).sshiftRight ((c.x (regMap b)).toNat % 32)) else (c.x (regMap a)).sshiftRight ((c.x (regMap b)).toNat % 64))) := by
  have := wp_SRAx_s w d a b [] c Q; rwa [List.append_nil, wp_nil] at this
theorem wp_SRAIx_s (w : Bool) (d a : Nat) {i : BitVec 64} (h : i.toNat < if w then 32 else 64) (r : Emit) (c : Core) (Q : Core → Prop) :
    wp (ins (INST SRAI_W SRAI_D w ||| RD d ||| RJ a ||| IMM_I12 i) ++ r) c Q ↔
    wp r (c.wr (regMap d) (if w then sx32 ((lo32 (c.x (regMap a))).sshiftRight (i.toNat % 32)) else (c.x (regMap a)).sshiftRight (i.toNat % 64))) Q := by
  cases w
  · unfold INST; rw [if_neg (by decide), wp_SRAI_D_s _ _ h, evS64_sra, Nat.mod_eq_of_lt (show i.toNat < 64 from h)]; rfl
  · unfold INST; rw [if_pos rfl, wp_SRAI_W_s _ _ h, evS32_sra, Nat.mod_eq_of_lt (show i.toNat < 32 from h)]; rfl
theorem wp_SRAIx (w : Bool) (d a : Nat) {i : BitVec 64} (h : i.toNat < if w then 32 else 64) (c : Core) (Q : Core → Prop) :
    wp (ins (INST SRAI_W SRAI_D w ||| RD d ||| RJ a ||| IMM_I12 i)) c Q ↔
    Q (c.wr (regMap d) (if w then sx32 ((lo32 (c.x (regMap a))).sshiftRight (i.toNat % 32)) else (c.x (regMap a)).sshiftRight (i.toNat % 64))) := by
  have := wp_SRAIx_s w d a h [] c Q; rwa [List.append_nil, wp_nil] at this

theorem ashr_reg {op : Op} {fl : SF} {dst a b : Nat} {c : Core} {cin : Bool} {A B : BitVec 64}
    (hc : op.code = .ashr ∨ op.code = .mashr) (hf : op.flagOk) (hd : DstOk dst) (ha : SrcOk a) (hb : SrcOk b)
    (hA : c.x (regMap a) = A) (hB : c.x (regMap b) = B) :
    wp (emitShift op fl (INST SRAI_W SRAI_D op.is32) (INST SRA_W SRA_D op.is32) dst a (.reg b)) c (Post2 op fl (regMap dst) A B cin c) := by
  have hf : op.flag = .none := by rcases hc with hc | hc <;> simpa only [Op.flagOk, hc] using hf
  obtain ⟨hal, ha5, ha28⟩ := ha
  obtain ⟨hbl, hb5, hb28⟩ := hb
  obtain ⟨hdl, hd0, hd5, hd28, hd6⟩ := hd
  have hs5 := hd5.symm
  have hn : op.code ≠ .addc := by rcases hc with hc | hc <;> rw [hc] <;> decide
  have hl := resL_of hn (op := op)
  have hr := resX_ashr hc A B cin
  rcases hz : op.setZ with _ | _ <;> rcases hu : fl.unused with _ | _ <;>
    wps [emitShift, hz, hu, wp_SRAx, wp_SRAx_s] <;> apply Post2.plain <;> simp (config := {contextual := true}) [Kept, *]

theorem ashr_imm {op : Op} {fl : SF} {dst a : Nat} {c : Core} {cin : Bool} {A i : BitVec 64}
    (hc : op.code = .ashr ∨ op.code = .mashr) (hf : op.flagOk) (hd : DstOk dst) (ha : SrcOk a)
    (hA : c.x (regMap a) = A) (hi : i.toNat < if op.is32 then 32 else 64) :
    wp (emitShift op fl (INST SRAI_W SRAI_D op.is32) (INST SRA_W SRA_D op.is32) dst a (.imm i)) c (Post2 op fl (regMap dst) A i cin c) := by
  have hf : op.flag = .none := by rcases hc with hc | hc <;> simpa only [Op.flagOk, hc] using hf
  obtain ⟨hal, ha5, ha28⟩ := ha
  obtain ⟨hdl, hd0, hd5, hd28, hd6⟩ := hd
  have hs5 := hd5.symm
  have hn : op.code ≠ .addc := by rcases hc with hc | hc <;> rw [hc] <;> decide
  have hl := resL_of hn (op := op)
  have hr := resX_ashr hc A i cin
  rcases hz : op.setZ with _ | _ <;> rcases hu : fl.unused with _ | _ <;>
    wps [emitShift, hz, hu, wp_SRAIx _ _ _ hi, wp_SRAIx_s _ _ _ hi] <;> apply Post2.plain <;> simp (config := {contextual := true}) [Kept, *]

theorem rot_reg {op : Op} {fl : SF} {dst a b : Nat} {c : Core} {cin : Bool} {A B : BitVec 64}
    (hc : op.code = .rotl ∨ op.code = .rotr) (hf : op.flagOk) (hd : DstOk dst) (ha : SrcOk a) (hb : SrcOk b)
    (hA : c.x (regMap a) = A) (hB : c.x (regMap b) = B) (h32 : op.is32 = true → Sx A) :
    wp (emitRot op dst a (.reg b)) c (Post2 op fl (regMap dst) A B cin c) := by
  have hf : op.flag = .none ∧ op.setZ = false := by rcases hc with hc | hc <;> simpa only [Op.flagOk, hc] using hf
  obtain ⟨hf, hz⟩ := hf
  obtain ⟨hal, ha5, ha28⟩ := ha
  obtain ⟨hbl, hb5, hb28⟩ := hb
  obtain ⟨hdl, hd0, hd5, hd28, hd6⟩ := hd
  have hs5 := hd5.symm
  have hs28 := hd28.symm
  have hn : op.code ≠ .addc := by rcases hc with hc | hc <;> rw [hc] <;> decide
  have hl := resL_of hn (op := op)
  have e1 : (lo32 B).toNat % 32 = B.toNat % 32 := by simp only [lo32, BitVec.toNat_setWidth]; omega
  unfold emitRot
  simp only []
  by_cases hb0 : b = 0
  · subst hb0
    have hB0 : B = 0#64 := by rw [← hB]; simp
    subst hB0
    have hr : resX op A 0#64 cin = A := by
      rcases hc with hc | hc
      · rw [resX_rotl hc]
        rcases hw : op.is32 with _ | _ <;> simp
        rw [← h32 hw]
      · rw [resX_rotr hc]
        rcases hw : op.is32 with _ | _ <;> simp
        rw [← h32 hw]
    simp only [if_true]
    have hx := addw_zero op.is32 A h32
    by_cases hda : dst = a
    · subst hda
      wps []
      apply Post2.plain <;> simp +contextual [Kept, hr, *]
    · wps [hda]
      apply Post2.plain <;> simp +contextual [Kept, hr, hx, *]
  · simp only [if_neg hb0]
    rcases hc with hc | hc
    · have hr := resX_rotl hc A B cin
      simp only [hc, beq_self_eq_true, if_true]
      wps []
      have e3 : ((-B).setWidth 6).toNat = (64 - B.toNat % 64) % 64 := by
        have := B.isLt
        simp only [BitVec.toNat_setWidth, BitVec.toNat_neg]; omega
      have e5 : (64 - (64 - B.toNat % 64) % 64) % 64 = B.toNat % 64 := by omega
      have e4 : ((lo32 (sx32 (-lo32 B))).setWidth 5).toNat = (32 - B.toNat % 32) % 32 := by
        rw [lo32_sx32]
        have := (lo32 B).isLt
        simp only [BitVec.toNat_setWidth, BitVec.toNat_neg]; omega
      have e6 : (32 - (32 - B.toNat % 32) % 32) % 32 = B.toNat % 32 := by omega
      have e7 : 0#32 - lo32 B = -lo32 B := by simp
      have hv : (if op.is32 = true then sx32 (ror32 (lo32 A) ((lo32 (subw op.is32 0#64 B)).setWidth 5).toNat)
          else ror64 A ((subw op.is32 0#64 B).setWidth 6).toNat) = resX op A B cin := by
        rw [hr]
        rcases hw : op.is32 with _ | _
        · simp only [subw, Bool.false_eq_true, if_false, BitVec.zero_sub, e3, ror64, e5, BitVec.or_comm]
        · simp only [subw, if_true, show lo32 0#64 = 0#32 from rfl, e7, e4, ror32, e6, ← sx_or', BitVec.or_comm]
      clear hr
      apply Post2.plain
      · simp [hf]
      · intro _
        rw [hl, ← hv]
        simp [hd0, hA, hB, ha28]
      · simp [hz]
      · simp [hf]
      · simp +contextual [Kept]
    · have hr := resX_rotr hc A B cin
      simp only [hc, if_true, show (OpC.rotr == OpC.rotl) = false by decide, Bool.false_eq_true, if_false]
      wps []
      rcases hw : op.is32 with _ | _ <;> simp only [hw, Bool.false_eq_true, if_false, if_true] at hr ⊢ <;> apply Post2.plain <;>
        simp +contextual [Kept, hw, ror32, ror64, ← sx_or', *]

theorem rot_imm {op : Op} {fl : SF} {dst a : Nat} {i : BitVec 64} {c : Core} {cin : Bool} {A : BitVec 64}
    (hc : op.code = .rotl ∨ op.code = .rotr) (hf : op.flagOk) (hd : DstOk dst) (ha : SrcOk a)
    (hA : c.x (regMap a) = A) (hi : i.toNat < if op.is32 then 32 else 64) (hi0 : i ≠ 0#64) :
    wp (emitRot op dst a (.imm i)) c (Post2 op fl (regMap dst) A i cin c) := by
  have hf : op.flag = .none ∧ op.setZ = false := by rcases hc with hc | hc <;> simpa only [Op.flagOk, hc] using hf
  obtain ⟨hf, hz⟩ := hf
  obtain ⟨hal, ha5, ha28⟩ := ha
  obtain ⟨hdl, hd0, hd5, hd28, hd6⟩ := hd
  have hs5 := hd5.symm
  have hs28 := hd28.symm
  have hn0 : i.toNat ≠ 0 := fun h => hi0 (BitVec.eq_of_toNat_eq (by simpa using h))
  have hn : op.code ≠ .addc := by rcases hc with hc | hc <;> rw [hc] <;> decide
  have hl := resL_of hn (op := op)
  unfold emitRot
  simp only []
  rcases hw : op.is32 with _ | _
  · simp only [hw, Bool.false_eq_true, if_false, if_true] at hi ⊢
    have hm : i.toNat % 64 = i.toNat := Nat.mod_eq_of_lt hi
    have hs : (64#64 - i).toNat = 64 - i.toNat := by rw [BitVec.toNat_sub]; simp; omega
    have hsm : (64 - i.toNat) % 64 = 64 - i.toNat := Nat.mod_eq_of_lt (by omega)
    have hsl' : (64#64 - i).toNat < 64 := by omega
    have q3 : 64 - (64 - i.toNat) = i.toNat := by omega
    generalize 64#64 - i = j at *
    rcases hc with hc | hc
    · have hr := resX_rotl hc A i cin
      simp only [hw, Bool.false_eq_true, if_false, if_true, hm, hsm] at hr
      simp only [hc, beq_self_eq_true, if_true]
      rw [wp_ROTRIx _ _ hsl']
      apply Post2.plain <;> simp +contextual [Kept, hr, ror64, hm, hsm, q3, BitVec.or_comm, *]
    · have hr := resX_rotr hc A i cin
      simp only [hw, Bool.false_eq_true, if_false, if_true, hm, hsm] at hr
      simp only [hc, show (OpC.rotr == OpC.rotl) = false by decide, Bool.false_eq_true, if_false]
      rw [wp_ROTRIx _ _ hi]
      apply Post2.plain <;> simp +contextual [Kept, hr, ror64, hm, hsm, q3, BitVec.or_comm, *]
  · simp only [hw, Bool.false_eq_true, if_false, if_true] at hi ⊢
    have hm : i.toNat % 32 = i.toNat := Nat.mod_eq_of_lt hi
    have hs : (32#64 - i).toNat = 32 - i.toNat := by rw [BitVec.toNat_sub]; simp; omega
    have hsm : (32 - i.toNat) % 32 = 32 - i.toNat := Nat.mod_eq_of_lt (by omega)
    have hsl' : (32#64 - i).toNat < 32 := by omega
    have q3 : 32 - (32 - i.toNat) = i.toNat := by omega
    generalize 32#64 - i = j at *
    rcases hc with hc | hc
    · have hr := resX_rotl hc A i cin
      simp only [hw, Bool.false_eq_true, if_false, if_true, hm, hsm] at hr
      simp only [hc, beq_self_eq_true, if_true]
      rw [wp_ROTRIx _ _ hsl']
      apply Post2.plain <;> simp +contextual [Kept, hr, ror32, hm, hsm, q3, ← sx_or', BitVec.or_comm, *]
    · have hr := resX_rotr hc A i cin
      simp only [hw, Bool.false_eq_true, if_false, if_true, hm, hsm] at hr
      simp only [hc, show (OpC.rotr == OpC.rotl) = false by decide, Bool.false_eq_true, if_false]
      rw [wp_ROTRIx _ _ hi]
      apply Post2.plain <;> simp +contextual [Kept, hr, ror32, hm, hsm, q3, ← sx_or', BitVec.or_comm, *]

theorem single2_reg {op : Op} {fl : SF} {dst a b : Nat} {c : Core} {cin : Bool} {A B : BitVec 64} (hc : op.code.bin)
    (hf : op.flagOk) (hd : DstOk dst) (ha : SrcOk a) (hb : SrcOk b) (hA : c.x (regMap a) = A) (hB : c.x (regMap b) = B)
    (hcin : op.code = .addc ∨ op.code = .subc → c.x 15#5 = bool64 cin)
    (h32 : op.is32 = true → Sx A ∧ (op.code.isSh ∨ Sx B))
    (hcy : op.flag = .carry → (op.code = .add → carrySrc dst a b OTHER_FLAG ≠ 0) ∧ (op.code = .addc → carrySrc dst a b EQUAL_FLAG ≠ 0)) :
    wp (emitSingle2 op fl dst a (.reg b)) c (Post2 op fl (regMap dst) A B cin c) := by
  have h32' : ¬ op.code.isSh → op.is32 = true → Sx A ∧ Sx B := fun hn h => ⟨(h32 h).1, (h32 h).2.resolve_left hn⟩
  unfold emitSingle2
  rcases hc with hc | hc | hc | hc | hc | hc | hc | hc | hc | hc | hc | hc
  · have h := h32' (by simp [OpC.isSh, hc])
    rw [hc]; exact add_reg hc hf hd ha hb hA hB h (fun q => (hcy q).1 hc)
  · have h := h32' (by simp [OpC.isSh, hc])
    rw [hc]; exact addc_reg hc hf hd ha hb hA hB (hcin (Or.inl hc)) h (fun q => (hcy q).2 hc)
  · have h := h32' (by simp [OpC.isSh, hc])
    rw [hc]; exact sub_reg hc hd ha hb hA hB h
  · have h := h32' (by simp [OpC.isSh, hc])
    rw [hc]; exact subc_reg hc hf hd ha hb hA hB (hcin (Or.inr hc)) h
  · have h := h32' (by simp [OpC.isSh, hc])
    rw [hc]; exact mul_reg hc hf hd ha hb hA hB h
  · have h := h32' (by simp [OpC.isSh, hc])
    rw [hc]; exact and_reg hc hf hd ha hb hA hB h
  · have h := h32' (by simp [OpC.isSh, hc])
    rw [hc]; exact or_reg hc hf hd ha hb hA hB h
  · have h := h32' (by simp [OpC.isSh, hc])
    rw [hc]; exact xor_reg hc hf hd ha hb hA hB h
  · have := shl_reg (fl := fl) (cin := cin) hc hf hd ha hb hA hB
    rcases hc with hc | hc <;> rw [hc] <;> exact this
  · have := lshr_reg (fl := fl) (cin := cin) hc hf hd ha hb hA hB
    rcases hc with hc | hc <;> rw [hc] <;> exact this
  · have := ashr_reg (fl := fl) (cin := cin) hc hf hd ha hb hA hB
    rcases hc with hc | hc <;> rw [hc] <;> exact this
  · have := rot_reg (fl := fl) (cin := cin) hc hf hd ha hb hA hB fun h => (h32 h).1
    rcases hc with hc | hc <;> rw [hc] <;> exact this

theorem single2_imm {op : Op} {fl : SF} {dst a : Nat} {c : Core} {cin : Bool} {A i : BitVec 64} (hc : op.code.bin)
    (hm : op.code ≠ .mul) (hf : op.flagOk) (hd : DstOk dst) (ha : SrcOk a) (ha1 : regMap a ≠ 1#5 ∨ (op.code ≠ .sub ∧ op.code ≠ .subc))
    (hA : c.x (regMap a) = A)
    (hi : Fits12 i) (hi0 : i ≠ 0#64) (his : op.code.isSh → i.toNat < if op.is32 then 32 else 64)
    (hcin : op.code = .addc ∨ op.code = .subc → c.x 15#5 = bool64 cin)
    (h32 : op.is32 = true → Sx A) :
    wp (emitSingle2 op fl dst a (.imm i)) c (Post2 op fl (regMap dst) A i cin c) := by
  unfold emitSingle2
  rcases hc with hc | hc | hc | hc | hc | hc | hc | hc | hc | hc | hc | hc
  · rw [hc]; exact add_imm hc hf hd ha hi hA h32
  · rw [hc]; exact addc_imm hc hf hd ha hA hi (hcin (Or.inl hc)) h32
  · rw [hc]; exact sub_imm hc hd ha (ha1.resolve_right (by simp [hc])) hA hi h32
  · rw [hc]; exact subc_imm hc hf hd ha (ha1.resolve_right (by simp [hc])) hA hi (hcin (Or.inr hc)) h32
  · exact absurd hc hm
  · rw [hc]; exact and_imm hc hf hd ha hA hi h32
  · rw [hc]; exact or_imm hc hf hd ha hA hi h32
  · rw [hc]; exact xor_imm hc hf hd ha hA hi h32
  · have := shl_imm (fl := fl) (cin := cin) hc hf hd ha hA (his (Or.inl hc))
    rcases hc with hc | hc <;> rw [hc] <;> exact this
  · have := lshr_imm (fl := fl) (cin := cin) hc hf hd ha hA (his (Or.inr (Or.inl hc)))
    rcases hc with hc | hc <;> rw [hc] <;> exact this
  · have := ashr_imm (fl := fl) (cin := cin) hc hf hd ha hA (his (Or.inr (Or.inr (Or.inl hc))))
    rcases hc with hc | hc <;> rw [hc] <;> exact this
  · have := rot_imm (fl := fl) (cin := cin) hc hf hd ha hA (his (Or.inr (Or.inr (Or.inr hc)))) hi0
    rcases hc with hc | hc <;> rw [hc] <;> exact this

end Verif.LA
