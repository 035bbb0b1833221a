import Verif.Loong.Wp
import Verif.Loong.Ops
import Verif.RISCV.OpsProof2

/-! # Rules for the building blocks of emit_single_op (helper lemmas) -/

set_option linter.all false

namespace Verif.LA
open Verif.RV

@[simp] theorem rm0 : regMap 0 = 0#5 := by decide
@[simp] theorem rm24 : regMap 24 = 3#5 := by decide
@[simp] theorem rm25 : regMap 25 = 13#5 := by decide
@[simp] theorem rm26 : regMap 26 = 1#5 := by decide
@[simp] theorem rm27 : regMap 27 = 14#5 := by decide
@[simp] theorem rm28 : regMap 28 = 12#5 := by decide
@[simp] theorem rm29 : regMap 29 = 15#5 := by decide

theorem rm_inj : ∀ a ≤ 29, ∀ b ≤ 29, regMap a = regMap b → a = b := by decide +kernel
theorem rm_ne0 {a : Nat} (h : a ≤ 29) (h0 : a ≠ 0) : regMap a ≠ 0#5 := fun he => h0 (rm_inj a h 0 (by decide) he)
theorem rm_ne {a b : Nat} (ha : a ≤ 29) (hb : b ≤ 29) (h : a ≠ b) : regMap a ≠ regMap b := fun he => h (rm_inj a ha b hb he)

@[simp] theorem evIL_slt (a : BitVec 64) {i : BitVec 64} (h : Fits12 i) : IOp.slti.eval a (i.setWidth 12) = bool64 (a.slt i) := by
  simp only [IOp.eval, sext12 h]
@[simp] theorem evIL_sltu (a : BitVec 64) {i : BitVec 64} (h : Fits12 i) : IOp.sltui.eval a (i.setWidth 12) = bool64 (a.ult i) := by
  simp only [IOp.eval, sext12 h]

theorem fits0 : Fits12 0#64 := by constructor <;> decide
theorem fitsM1 : Fits12 (-1#64) := by constructor <;> decide

section
variable {c : Core} {Q : Core → Prop} {w : Bool} {dst a b : Nat} {i : BitVec 64}

@[simp] theorem wp_ADDx_s (d a b : Nat) (r : Emit) : wp (ins (ADDx w ||| RD d ||| RJ a ||| RK b) ++ r) c Q ↔
    wp r (c.wr (regMap d) (addw w (c.x (regMap a)) (c.x (regMap b)))) Q := by
  cases w
  · unfold ADDx INST; rw [if_neg (by decide), wp_ADD_D_s, evR_add]; rfl
  · unfold ADDx INST; rw [if_pos rfl, wp_ADD_W_s, evW_add]; rfl
@[simp] theorem wp_ADDx (d a b : Nat) : wp (ins (ADDx w ||| RD d ||| RJ a ||| RK b)) c Q ↔
    Q (c.wr (regMap d) (addw w (c.x (regMap a)) (c.x (regMap b)))) := by
  have := wp_ADDx_s (c := c) (Q := Q) (w := w) d a b []; rwa [List.append_nil, wp_nil] at this
@[simp] theorem wp_SUBx_s (d a b : Nat) (r : Emit) : wp (ins (SUBx w ||| RD d ||| RJ a ||| RK b) ++ r) c Q ↔
    wp r (c.wr (regMap d) (subw w (c.x (regMap a)) (c.x (regMap b)))) Q := by
  cases w
  · unfold SUBx INST; rw [if_neg (by decide), wp_SUB_D_s, evR_sub]; rfl
  · unfold SUBx INST; rw [if_pos rfl, wp_SUB_W_s, evW_sub]; rfl
@[simp] theorem wp_SUBx (d a b : Nat) : wp (ins (SUBx w ||| RD d ||| RJ a ||| RK b)) c Q ↔
    Q (c.wr (regMap d) (subw w (c.x (regMap a)) (c.x (regMap b)))) := by
  have := wp_SUBx_s (c := c) (Q := Q) (w := w) d a b []; rwa [List.append_nil, wp_nil] at this
@[simp] theorem wp_ADDIx_s (d a : Nat) (r : Emit) (h : Fits12 i) : wp (ins (ADDIx w ||| RD d ||| RJ a ||| IMM_I12 i) ++ r) c Q ↔
    wp r (c.wr (regMap d) (addw w (c.x (regMap a)) i)) Q := by
  cases w
  · unfold ADDIx INST; rw [if_neg (by decide), wp_ADDI_D_s _ _ h]; rfl
  · unfold ADDIx INST; rw [if_pos rfl, wp_ADDI_W_s]; simp only [IOp.eval, sext12_32 h]; rfl
@[simp] theorem wp_ADDIx (d a : Nat) (h : Fits12 i) : wp (ins (ADDIx w ||| RD d ||| RJ a ||| IMM_I12 i)) c Q ↔
    Q (c.wr (regMap d) (addw w (c.x (regMap a)) i)) := by
  have := wp_ADDIx_s (c := c) (Q := Q) (w := w) d a [] h; rwa [List.append_nil, wp_nil] at this
@[simp] theorem wp_MULx (d a b : Nat) : wp (ins (MULx w ||| RD d ||| RJ a ||| RK b)) c Q ↔
    Q (c.wr (regMap d) (if w then sx32 (lo32 (c.x (regMap a)) * lo32 (c.x (regMap b))) else c.x (regMap a) * c.x (regMap b))) := by
  cases w
  · unfold MULx INST; rw [if_neg (by decide), wp_MUL_D, evR_mul]; rfl
  · unfold MULx INST; rw [if_pos rfl, wp_MUL_W, evW_mul]; rfl
@[simp] theorem wp_ROTRx (d a b : Nat) : wp (ins (ROTRx w ||| RD d ||| RJ a ||| RK b)) c Q ↔
    Q (c.wr (regMap d) (if w then sx32 (ror32 (lo32 (c.x (regMap a))) ((lo32 (c.x (regMap b))).setWidth 5).toNat)
      else ror64 (c.x (regMap a)) ((c.x (regMap b)).setWidth 6).toNat)) := by
  cases w
  · unfold ROTRx INST; rw [if_neg (by decide), wp_ROTR_D, evR_ror]; rfl
  · unfold ROTRx INST; rw [if_pos rfl, wp_ROTR_W, evW_ror]; rfl
@[simp] theorem wp_ROTRIx (d a : Nat) (h : i.toNat < if w then 32 else 64) : wp (ins (ROTRIx w ||| RD d ||| RJ a ||| IMM_I12 i)) c Q ↔
    Q (c.wr (regMap d) (if w then sx32 (ror32 (lo32 (c.x (regMap a))) i.toNat) else ror64 (c.x (regMap a)) i.toNat)) := by
  cases w
  · unfold ROTRIx INST; rw [if_neg (by decide), wp_ROTRI_D _ _ h, evS64_ror]; rfl
  · unfold ROTRIx INST; rw [if_pos rfl, wp_ROTRI_W _ _ h, evS32_ror]; rfl

theorem RKz : (IMM_I12 0#64) = RK 0 := by decide
theorem addw_zero (w : Bool) (A : BitVec 64) (h : w = true → Sx A) : addw w A 0#64 = A := by
  cases w
  · simp [addw]
  · simp only [addw, if_true]
    rw [show lo32 A + lo32 0#64 = lo32 A by simp [lo32]]
    exact (h rfl).symm
@[simp] theorem wp_ADDxz_s (d a : Nat) (r : Emit) : wp (ins (ADDx w ||| RD d ||| RJ a ||| IMM_I12 0#64) ++ r) c Q ↔
    wp r (c.wr (regMap d) (addw w (c.x (regMap a)) 0#64)) Q := by
  rw [RKz, wp_ADDx_s, rm0, x_zero]
@[simp] theorem wp_ADDxz (d a : Nat) : wp (ins (ADDx w ||| RD d ||| RJ a ||| IMM_I12 0#64)) c Q ↔
    Q (c.wr (regMap d) (addw w (c.x (regMap a)) 0#64)) := by
  rw [RKz, wp_ADDx, rm0, x_zero]
@[simp] theorem wp_ADDIxz_s (d a : Nat) (r : Emit) : wp (ins (ADDIx w ||| RD d ||| RJ a ||| IMM_I12 0#64) ++ r) c Q ↔
    wp r (c.wr (regMap d) (addw w (c.x (regMap a)) 0#64)) Q := wp_ADDIx_s d a r fits0
@[simp] theorem wp_ADDIxz (d a : Nat) : wp (ins (ADDIx w ||| RD d ||| RJ a ||| IMM_I12 0#64)) c Q ↔
    Q (c.wr (regMap d) (addw w (c.x (regMap a)) 0#64)) := wp_ADDIx d a fits0

theorem wp_LI (d : Nat) {i : BitVec 64} (h : Fits12 i) (r : Emit) {c : Core} {Q : Core → Prop} :
    wp (ins (ADDI_D ||| RD d ||| RJ TMP_ZERO ||| IMM_I12 i) ++ r) c Q ↔ wp r (c.wr (regMap d) i) Q := by
  rw [wp_ADDI_D_s _ _ h, show regMap TMP_ZERO = 0#5 from rm0, x_zero, BitVec.zero_add]

end

end Verif.LA
