import Verif.RISCV.ShiftInto
import Verif.Props.RvSpec

/-!
# C27: sljit_emit_shift_into (RV64)

The specification is the double word shift: the two registers are put side by side, shifted, and one half is taken.
-/

namespace Verif.Props.C27
open Verif.RV Verif.Props.Rv

/-- `a:b` shifted left by `n`, upper half; or `b:a` shifted right by `n`, lower half (as natural numbers). -/
def into (w : Nat) (left : Bool) (a b n : Nat) : Nat :=
  if left then (a * 2 ^ w + b) * 2 ^ n / 2 ^ w % 2 ^ w else (b * 2 ^ w + a) / 2 ^ n % 2 ^ w

/-- Register width of the operation. -/
def width (is32 : Bool) : Nat := if is32 then 32 else 64

/-- The value of dst: the shift amount is taken modulo the width, the result of a 32 bit shift is sign extended. -/
def result (is32 left : Bool) (a b n : BitVec 64) : BitVec 64 :=
  if is32 then (BitVec.ofNat 32 (into 32 left (a.toNat % 2 ^ 32) (b.toNat % 2 ^ 32) (n.toNat % 32))).signExtend 64
  else BitVec.ofNat 64 (into 64 left a.toNat b.toNat (n.toNat % 64))

theorem dsh_into {w : Nat} (left : Bool) (a b : BitVec w) (n : Nat) (h : n < w) :
    dsh w left a b n = BitVec.ofNat w (into w left a.toNat b.toNat n) := by
  apply BitVec.eq_of_toNat_eq
  have ha := a.isLt
  have hb := b.isLt
  cases left
  · simp only [dsh, into, Bool.false_eq_true, if_false, BitVec.extractLsb'_toNat, BitVec.toNat_ushiftRight, BitVec.toNat_append,
      BitVec.toNat_ofNat, Nat.shiftRight_eq_div_pow, Nat.pow_zero, Nat.div_one, Nat.mod_mod]
    rw [← Nat.shiftLeft_add_eq_or_of_lt ha, Nat.shiftLeft_eq]
  · simp only [dsh, into, if_true, BitVec.extractLsb'_toNat, BitVec.toNat_shiftLeft, BitVec.toNat_append,
      BitVec.toNat_ofNat, Nat.shiftRight_eq_div_pow, Nat.mod_mod]
    rw [← Nat.shiftLeft_add_eq_or_of_lt hb, Nat.shiftLeft_eq, Nat.shiftLeft_eq]
    generalize (a.toNat * 2 ^ w + b.toNat) * 2 ^ n = p
    rw [Nat.pow_add, Nat.mod_mul_right_div_self, Nat.mod_mod]

theorem dshX_result (is32 left : Bool) (a b n : BitVec 64) : dshX is32 left a b n = result is32 left a b n := by
  cases is32
  · simp only [dshX, result, Bool.false_eq_true, if_false]
    exact dsh_into _ _ _ _ (Nat.mod_lt _ (by decide))
  · simp only [dshX, result, if_true]
    rw [dsh_into _ _ _ _ (Nat.mod_lt _ (by decide))]
    rfl

theorem result_zero (is32 left : Bool) (a b n : BitVec 64) (h : n.toNat % width is32 = 0)
    (h32 : is32 = true → a = (a.setWidth 32).signExtend 64) : result is32 left a b n = a := by
  have key : ∀ (w x y : Nat), x < 2 ^ w → y < 2 ^ w → into w left x y 0 = x := by
    intro w x y hx hy
    have hp : 0 < 2 ^ w := Nat.two_pow_pos w
    cases left
    · simp only [into, Bool.false_eq_true, if_false, Nat.pow_zero, Nat.div_one]
      rw [Nat.add_comm, Nat.add_mul_mod_self_right, Nat.mod_eq_of_lt hx]
    · simp only [into, if_true, Nat.pow_zero, Nat.mul_one]
      rw [Nat.add_comm, Nat.add_mul_div_right _ _ hp, Nat.div_eq_of_lt hy, Nat.zero_add, Nat.mod_eq_of_lt hx]
  cases is32
  · simp only [width, result, Bool.false_eq_true, if_false] at h ⊢
    rw [h, key 64 _ _ a.isLt b.isLt, BitVec.ofNat_toNat, BitVec.setWidth_eq]
  · simp only [width, result, if_true] at h ⊢
    rw [h, key 32 _ _ (Nat.mod_lt _ (by decide)) (Nat.mod_lt _ (by decide))]
    conv => rhs; rw [h32 rfl]
    congr 1
    apply BitVec.eq_of_toNat_eq
    simp

/-- **C27** without constant shift amounts that are zero and a dst that differs from src1 and src2: sljit_emit_shift_into leaves
the double word shift of src1 and src2 in dst and changes nothing else, for all registers that the argument checker accepts (dst
may be src1, and dst or either source may also occur in src3, as register, base or index) and for every value of the shift
amount. -/
theorem c27_partial (cfg : Cfg) (is32 left nonZero : Bool) (dst src1 src2 : Nat) (src3 : Opd) (s : St)
    (hd : UserReg dst) (h1 : UserReg src1) (h2 : UserReg src2) (h3 : Src src3) (hne : dst ≠ src2)
    (hnz : nonZero = true → (value is32 s src3).toNat % width is32 ≠ 0)
    (hz : ∀ v, src3 = .imm v → src1 = src2 ∨ v.toNat % width is32 ≠ 0 ∨ dst = src1)
    (h32 : is32 = true → Src32 s (.reg src1) ∧ Src32 s (.reg src2)) :
    ∃ s', run (emitShiftInto cfg left is32 nonZero dst src1 src2 src3) s = some s' ∧
      Result is32 (.reg dst) (result is32 left (value is32 s (.reg src1)) (value is32 s (.reg src2)) (value is32 s src3)) s s' := by
  by_cases hz' : ∀ v, src3 = .imm v → src1 = src2 ∨ v.toNat % width is32 ≠ 0
  · have hv : opdVal (if is32 then .int else .word) is32 s.core src3 = value is32 s src3 := value_eq ⟨.add, is32, false, .none⟩ s src3
    have h := emitShiftInto_ok (cfg := cfg) (left := left) (is32 := is32) (nonZero := nonZero) (dst := dst) (s1 := src1) (s2 := src2)
      (o := src3) (c := s.core) (by have := hd.1; omega) hd.2 h1.2 h2.2 h3.ok (fun e => hne (user_inj _ _ hd h2 e))
      (by rw [hv]; exact hnz) hz' (fun h _ => (h32 h).1)
    obtain ⟨s', e1, e2⟩ := h s rfl
    refine ⟨s', e1, ?_⟩
    rw [hv, dshX_result] at e2
    exact Result.of (op := ⟨.add, is32, false, .none⟩) (Or.inl hd) e2
  · simp only [not_forall, not_or, not_not] at hz'
    obtain ⟨v, rfl, n1, n2⟩ := hz'
    have hds : dst = src1 := by
      rcases hz v rfl with h | h | h
      · exact absurd h n1
      · exact absurd n2 h
      · exact h
    subst hds
    have hm : v &&& (if is32 then 31#64 else 63#64) = 0#64 := by
      apply BitVec.eq_of_toNat_eq
      cases is32
      · exact (Nat.and_two_pow_sub_one_eq_mod v.toNat 6).trans n2
      · exact (Nat.and_two_pow_sub_one_eq_mod v.toNat 5).trans n2
    have he : emitShiftInto cfg left is32 nonZero dst dst src2 (.imm v) = [] := by
      unfold emitShiftInto
      rw [if_neg n1]
      simp only [hm, if_true]
    refine ⟨s, by rw [he]; rfl, ?_⟩
    simp only [value]; rw [result_zero _ _ _ _ _ n2 (fun h => (h32 h).1)]
    exact ⟨by rintro r ⟨⟩ -; rfl, rfl, fun _ _ _ => rfl, ⟨rfl, rfl⟩, rfl⟩

/-! ## Where the claim fails -/

/-- SLJIT_R1 (x11) and SLJIT_R2 (x12) hold something. -/
def demo : St := ⟨fun r => if r = 11#5 then 0x123#64 else if r = 12#5 then 0xff00000000000000#64 else 0#64, fun _ => 0#64, fun _ => 0#8, 0#64⟩

/-- A constant shift amount of zero: no code is emitted, so dst does not receive src1 (sljitNativeRISCV_common.c:2801). -/
theorem c27_false : ¬ ∀ (cfg : Cfg) (is32 left : Bool) (dst src1 src2 : Nat) (src3 : Opd) (s : St),
    UserReg dst → UserReg src1 → UserReg src2 → Src src3 → dst ≠ src2 →
    (is32 = true → Src32 s (.reg src1) ∧ Src32 s (.reg src2)) →
    ∃ s', run (emitShiftInto cfg left is32 false dst src1 src2 src3) s = some s' ∧
      Result is32 (.reg dst) (result is32 left (value is32 s (.reg src1)) (value is32 s (.reg src2)) (value is32 s src3)) s s' := by
  intro h
  obtain ⟨s', h1, h2⟩ := h ⟨false, false, false⟩ false true 1 2 3 (.imm 0#64) demo (by decide) (by decide) (by decide) trivial
    (by decide) (by simp)
  have e : s' = demo := by
    have : run (emitShiftInto ⟨false, false, false⟩ true false false 1 2 3 (.imm 0#64)) demo = some demo := rfl
    rw [this] at h1; exact (Option.some.inj h1).symm
  subst e
  have := h2.reg 1 rfl (by decide)
  revert this
  decide +kernel

/-- A shift amount in a register which is also dst meets the hypotheses, and the result is the expected one. -/
example : ∃ s', run (emitShiftInto ⟨true, false, false⟩ true false false 1 2 3 (.imm 8#64)) demo = some s' ∧
    s'.rd (regMap 1) = 0x123ff#64 := by
  obtain ⟨s', h1, h2⟩ := c27_partial ⟨true, false, false⟩ false true false 1 2 3 (.imm 8#64) demo (by decide) (by decide) (by decide)
    trivial (by decide) (by simp) (by intro v hv; cases hv; right; left; decide) (by simp)
  refine ⟨s', h1, ?_⟩
  rw [h2.reg 1 rfl (by decide)]
  decide +kernel

/-- The hypotheses also hold for a 32 bit right shift with the amount in dst itself. -/
example (s : St) (h1 : Src32 s (.reg 2)) (h2 : Src32 s (.reg 3)) :
    ∃ s', run (emitShiftInto ⟨true, false, false⟩ false true false 1 2 3 (.reg 1)) s = some s' := by
  obtain ⟨s', h1, -⟩ := c27_partial ⟨true, false, false⟩ true false false 1 2 3 (.reg 1) s (by decide) (by decide) (by decide)
    (show UserReg 1 by decide) (by decide) (by simp) (by intro v hv; cases hv) (fun _ => ⟨h1, h2⟩)
  exact ⟨s', h1⟩

end Verif.Props.C27
