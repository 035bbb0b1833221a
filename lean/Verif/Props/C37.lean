import Verif.Imm.Arm64Load
import Verif.Imm.ThumbLoad
/-
C37: the tests of the Arm back ends which decide that a constant can be encoded in an instruction.  The expansion of an encoded field
(`A64.bitMask`, `A32.expand`, `A32.expandThumb`) is the architecture's, see Verif/Imm/A64.lean and Verif/Imm/A32.lean.
-/

namespace Verif.Props.C37
open Verif.Imm

/-- C37, ARM64: an encodable constant gives a field of bits 22-10 alone, which DecodeBitMasks expands to the constant (a 32 bit
operation, `w = 16`, is concerned with the low half only). -/
theorem c37_arm64 {imm : BitVec 64} {w : Nat} {check : Bool} {ins : BitVec 32} (hw : w = 16 ∨ w = 32)
    (h : Arm64.logicalImm imm w check = some ins) (hne : ins ≠ 0#32) :
    ∃ f : BitVec 13, ins = f.setWidth 32 <<< 10 ∧ ∃ m, A64.bitMask (if w = 32 then 1#1 else 0#1) f = some m ∧
      ∀ k < 2 * w, m.getLsbD k = imm.getLsbD k :=
  Arm64.logicalImm_sound hw h hne

/-- C37, ARM64: with LOGICAL_IMM_CHECK the assertions of logical_imm hold for every constant. -/
theorem c37_arm64_total (imm : BitVec 64) (w : Nat) (hw : w = 16 ∨ w = 32) : (Arm64.logicalImm imm w true).isSome := by
  by_cases ht : (w = 32 ∧ (imm = 0#64 ∨ imm = -1#64)) ∨ (w = 16 ∧ (imm.setWidth 32 = 0#32 ∨ imm.setWidth 32 = -1#32))
  · simp only [Arm64.logicalImm, ht, if_true]; rfl
  · obtain ⟨i, h⟩ := Arm64.logicalImm_some (imm := imm) (w := w) (check := true) (by
      simp only [not_or, not_and] at ht
      rcases hw with rfl | rfl
      · exact .inl ⟨rfl, ht.2 rfl⟩
      · exact .inr ⟨rfl, ht.1 rfl⟩)
    rw [h]; rfl

/-- Non-trivial constants of ARM64: eight copies of a rotated run; a 32 bit operation with a run across the middle. -/
example : ∃ ins, ins ≠ 0#32 ∧ Arm64.logicalImm 0xc7c7c7c7c7c7c7c7#64 32 true = some ins := ⟨0x2d000#32, by decide, by decide +kernel⟩
example : ∃ ins, ins ≠ 0#32 ∧ Arm64.logicalImm 0x00000000003ffc00#64 16 true = some ins := ⟨0x162c00#32, by decide, by decide +kernel⟩

/-- C37, ARM32: a non-zero result is SRC2_IMM (bit 25) with a field of bits 11-0, and ARMExpandImm gives the constant. -/
theorem c37_arm32 {imm : BitVec 32} (h : Arm32.getImm imm ≠ 0#32) :
    Arm32.getImm imm = 0x2000000#32 ||| ((Arm32.getImm imm).extractLsb' 0 12).setWidth 32 ∧
      A32.expand ((Arm32.getImm imm).extractLsb' 0 12) = imm :=
  ⟨(Arm32.getImm_sound h).1.eq, (Arm32.getImm_sound h).2⟩

/-- C37, ARM32: compute_imm finds two encodable constants whose union is the constant, and which are disjoint, so that two instructions
of OR, ADD, SUB, EOR or BIC have the effect of one with the constant. -/
theorem c37_arm32_pair {imm : BitVec 32} {i : BitVec 32 × BitVec 32} (h : Arm32.computeImm imm = some i) :
    i.1 = 0x2000000#32 ||| (i.1.extractLsb' 0 12).setWidth 32 ∧ i.2 = 0x2000000#32 ||| (i.2.extractLsb' 0 12).setWidth 32 ∧
      A32.expand (i.1.extractLsb' 0 12) ||| A32.expand (i.2.extractLsb' 0 12) = imm ∧
      A32.expand (i.1.extractLsb' 0 12) &&& A32.expand (i.2.extractLsb' 0 12) = 0#32 := by
  obtain ⟨h1, h2, h3, h4⟩ := Arm32.computeImm_sound h
  exact ⟨h1.eq, h2.eq, h3, h4⟩

/-- The table behind `c37_arm32_complete`. -/
theorem complete_table32 : ∀ a : Fin 64, ∀ b : Fin 64, Arm32.getImm (A32.expand (BitVec.ofNat 12 (a.val * 64 + b.val))) ≠ 0#32 := by decide +kernel

/-- C37, ARM32, the other direction: every value of the immediate field is recognised. -/
theorem c37_arm32_complete (f : BitVec 12) : Arm32.getImm (A32.expand f) ≠ 0#32 := by
  have := complete_table32 ⟨f.toNat / 64, by have := f.isLt; omega⟩ ⟨f.toNat % 64, Nat.mod_lt _ (by decide)⟩
  rw [show f.toNat / 64 * 64 + f.toNat % 64 = f.toNat by omega] at this
  simpa using this

example : Arm32.getImm 0xf000000f#32 = 0x20002ff#32 := by decide
example : Arm32.computeImm 0x00ff00ff#32 = some (0x20008ff#32, 0x20000ff#32) := by decide +kernel

/-- C37, Thumb-2: any result but INVALID_IMM has bits 26, 14-12 and 7-0 only, and ThumbExpandImm of this field gives the constant. -/
theorem c37_thumb {imm : BitVec 32} (h : Thumb.getImm imm ≠ Thumb.INVALID_IMM) :
    Thumb.getImm imm &&& ~~~ 0x040070ff#32 = 0#32 ∧ A32.expandThumb (A32.thumbField (Thumb.getImm imm)) = some imm :=
  Thumb.getImm_sound h

/-- The table behind `c37_thumb_complete`. -/
theorem complete_thumb : ∀ a : Fin 64, ∀ b : Fin 64, (match A32.expandThumb (BitVec.ofNat 12 (a.val * 64 + b.val)) with
    | none => true
    | some v => Thumb.getImm v != Thumb.INVALID_IMM) = true := by decide +kernel

/-- C37, Thumb-2, the other direction. -/
theorem c37_thumb_complete {f : BitVec 12} {v : BitVec 32} (h : A32.expandThumb f = some v) : Thumb.getImm v ≠ Thumb.INVALID_IMM := by
  have := complete_thumb ⟨f.toNat / 64, by have := f.isLt; omega⟩ ⟨f.toNat % 64, Nat.mod_lt _ (by decide)⟩
  rw [show f.toNat / 64 * 64 + f.toNat % 64 = f.toNat by omega] at this
  simpa [h] using this

example : Thumb.getImm 0xab00ab00#32 = 0x20ab#32 := by decide
example : Thumb.getImm 0x0003fc00#32 ≠ Thumb.INVALID_IMM := by decide

end Verif.Props.C37
