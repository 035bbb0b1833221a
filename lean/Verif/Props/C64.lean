import Verif.Loong.Into
import Verif.Props.C62
import Verif.Props.C27

/-!
# C64: sljit_emit_shift_into of the LoongArch64 backend

The specification (`result`, `width`) is the double word shift of C27, which does not depend on the architecture.
-/

namespace Verif.Props.C64
open Verif.LA
open Verif.RV (Opd)
open Verif.Props.C27 (result width dshX_result result_zero)
open Verif.Props.C62 (UserReg Src value value_eq Result Src32 user_inj demo)
open Verif.Imm.Loong (regMap)

/-- **C64** without constant shift amounts that are zero and a dst that differs from src1 and src2: sljit_emit_shift_into leaves
the double word shift of src1 and src2 in dst and changes nothing else, for all registers that the argument checker accepts (dst
may be src1, and dst or either source may also occur in src3, as register, base or index) and for every value of the shift
amount.  The excluded case is false, see `c64_false`. -/
theorem c64_partial (is32 left nonZero : Bool) (dst src1 src2 : Nat) (src3 : Opd) (s : Core)
    (hd : UserReg dst) (h1 : UserReg src1) (h2 : UserReg src2) (h3 : Src src3) (hne : dst ≠ src2)
    (hnz : nonZero = true → (value is32 s src3).toNat % width is32 ≠ 0)
    (hz : ∀ v, src3 = .imm v → src1 = src2 ∨ v.toNat % width is32 ≠ 0 ∨ dst = src1)
    (h32 : is32 = true → Src32 s (.reg src1) ∧ Src32 s (.reg src2)) :
    ∃ s', run (emitShiftInto left is32 nonZero dst src1 src2 src3) s = some s' ∧
      Result is32 (.reg dst) (result is32 left (value is32 s (.reg src1)) (value is32 s (.reg src2)) (value is32 s src3)) s s' := by
  by_cases hz' : ∀ v, src3 = .imm v → src1 = src2 ∨ v.toNat % width is32 ≠ 0
  · have hv : opdVal (if is32 then .int else .word) is32 s src3 = value is32 s src3 := value_eq ⟨.add, is32, false, .none⟩ s src3
    obtain ⟨s', e1, e2⟩ := emitShiftInto_ok (left := left) (is32 := is32) (nonZero := nonZero) (dst := dst) (s1 := src1) (s2 := src2)
      (o := src3) (c := s) (by have := hd.1; omega) hd.2 h1.2 h2.2 h3.ok (fun e => hne (user_inj _ _ hd h2 e))
      (by rw [hv]; exact hnz) hz' (fun h _ => (h32 h).1)
    refine ⟨s', e1, ?_⟩
    rw [hv, dshX_result] at e2
    exact Result.of (op := ⟨.add, is32, false, .none⟩) (Or.inl hd) e2
  · simp only [not_forall, not_or, not_not] at hz'
    obtain ⟨v, rfl, n1, n2⟩ := hz'
    have hds : dst = src1 := by
      rcases hz v rfl with h | h | h
      · exact absurd h n1
      · exact absurd n2 h
      · exact h
    subst hds
    have hm : v &&& (if is32 then 31#64 else 63#64) = 0#64 := by
      apply BitVec.eq_of_toNat_eq
      cases is32
      · exact (Nat.and_two_pow_sub_one_eq_mod v.toNat 6).trans n2
      · exact (Nat.and_two_pow_sub_one_eq_mod v.toNat 5).trans n2
    have he : emitShiftInto left is32 nonZero dst dst src2 (.imm v) = [] := by
      unfold emitShiftInto
      rw [if_neg n1]
      simp only [hm, if_true]
    refine ⟨s, by rw [he]; rfl, ?_⟩
    simp only [value]; rw [result_zero _ _ _ _ _ n2 (fun h => (h32 h).1)]
    exact ⟨by rintro r ⟨⟩ -; rfl, rfl, fun _ _ _ => rfl, ⟨rfl, rfl⟩, rfl⟩

/-! ## Where the claim fails -/

/-- A constant shift amount of zero: no code is emitted, so dst does not receive src1 (sljitNativeLOONGARCH_64.c:2128). -/
theorem c64_false : ¬ ∀ (is32 left : Bool) (dst src1 src2 : Nat) (src3 : Opd) (s : Core),
    UserReg dst → UserReg src1 → UserReg src2 → Src src3 → dst ≠ src2 →
    (is32 = true → Src32 s (.reg src1) ∧ Src32 s (.reg src2)) →
    ∃ s', run (emitShiftInto left is32 false dst src1 src2 src3) s = some s' ∧
      Result is32 (.reg dst) (result is32 left (value is32 s (.reg src1)) (value is32 s (.reg src2)) (value is32 s src3)) s s' := by
  intro h
  obtain ⟨s', h1, h2⟩ := h false true 1 2 3 (.imm 0#64) (demo 0#64 0x123#64 0xff00000000000000#64 0#64 0#64 0#64 0#8)
    ⟨by decide, by decide⟩ ⟨by decide, by decide⟩ ⟨by decide, by decide⟩ trivial (by decide) (by simp)
  have e : s' = demo 0#64 0x123#64 0xff00000000000000#64 0#64 0#64 0#64 0#8 := by
    have : run (emitShiftInto true false false 1 2 3 (.imm 0#64)) (demo 0#64 0x123#64 0xff00000000000000#64 0#64 0#64 0#64 0#8) =
      some (demo 0#64 0x123#64 0xff00000000000000#64 0#64 0#64 0#64 0#8) := rfl
    rw [this] at h1; exact (Option.some.inj h1).symm
  subst e
  have := h2.reg 1 rfl ⟨by decide, by decide⟩
  revert this
  decide +kernel

/-! ## The hypotheses can be met -/

/-- A left shift by a constant. -/
example : ∃ s', run (emitShiftInto true false false 1 2 3 (.imm 8#64)) (demo 0#64 0x123#64 0xff00000000000000#64 0#64 0#64 0#64 0#8) = some s' ∧
    s'.x (regMap 1) = 0x123ff#64 := by
  obtain ⟨s', h1, h2⟩ := c64_partial false true false 1 2 3 (.imm 8#64) (demo 0#64 0x123#64 0xff00000000000000#64 0#64 0#64 0#64 0#8)
    ⟨by decide, by decide⟩ ⟨by decide, by decide⟩ ⟨by decide, by decide⟩
    trivial (by decide) (by simp) (by intro v hv; cases hv; right; left; decide) (by simp)
  refine ⟨s', h1, ?_⟩
  rw [h2.reg 1 rfl ⟨by decide, by decide⟩]
  decide +kernel

/-- A 32 bit right shift with SLJIT_SHIFT_INTO_NON_ZERO where dst is the shift amount. -/
example : ∃ s', run (emitShiftInto false true true 1 2 3 (.reg 1)) (demo 4#64 0x123#64 0xf#64 0#64 0#64 0#64 0#8) = some s' ∧
    s'.x (regMap 1) = 0xfffffffff0000012#64 := by
  obtain ⟨s', h1, h2⟩ := c64_partial true false true 1 2 3 (.reg 1) (demo 4#64 0x123#64 0xf#64 0#64 0#64 0#64 0#8)
    ⟨by decide, by decide⟩ ⟨by decide, by decide⟩ ⟨by decide, by decide⟩
    ⟨by decide, by decide⟩ (by decide) (fun _ => by decide +kernel) (by intro v hv; cases hv)
    (fun _ => ⟨by unfold Src32; decide +kernel, by unfold Src32; decide +kernel⟩)
  refine ⟨s', h1, ?_⟩
  rw [h2.reg 1 rfl ⟨by decide, by decide⟩]
  decide +kernel

/-- The shift amount in memory, addressed through dst. -/
example : ∃ s', run (emitShiftInto true false false 1 2 3 (.mem 1 0 0x123456#64)) (demo 0x100#64 0x123#64 0xff00000000000000#64 0#64 0#64 0x123556#64 4#8) = some s' ∧
    s'.x (regMap 1) = 0x123f#64 := by
  obtain ⟨s', h1, h2⟩ := c64_partial false true false 1 2 3 (.mem 1 0 0x123456#64)
    (demo 0x100#64 0x123#64 0xff00000000000000#64 0#64 0#64 0x123556#64 4#8)
    ⟨by decide, by decide⟩ ⟨by decide, by decide⟩ ⟨by decide, by decide⟩
    ⟨by decide, by decide, fun h => absurd rfl h⟩ (by decide) (by simp) (by intro v hv; cases hv) (by simp)
  refine ⟨s', h1, ?_⟩
  rw [h2.reg 1 rfl ⟨by decide, by decide⟩]
  decide +kernel

end Verif.Props.C64
