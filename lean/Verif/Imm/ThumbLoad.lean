import Verif.Imm.Arm32Load

/-! # load_immediate of Thumb-2 (helper lemmas) -/

namespace Verif.Imm.Thumb
open A32
open Arm32 (zero_bits set_set set_r)

theorem high_bits {x : BitVec 32} {n : Nat} (h : x.toNat < 2 ^ n) (k : Nat) (hk : n ≤ k) : x.getLsbD k = false := by
  rw [← BitVec.testBit_toNat]
  exact Nat.testBit_lt_two_pow (Nat.lt_of_lt_of_le h (Nat.pow_le_pow_right (by omega) hk))

theorem eq_of_bits {x y : BitVec 32} (h : x = y) (k : Nat) : x.getLsbD k = y.getLsbD k := by rw [h]

/-- The parts of a field with the replication pattern `p` and the byte `b`. -/
theorem field_rep (p : BitVec 2) (b : BitVec 8) (w : BitVec 32) (hw : w = p.setWidth 32 <<< 12 ||| b.setWidth 32) :
    IsImm w ∧ (thumbField w).extractLsb' 0 8 = b ∧ (thumbField w).extractLsb' 8 2 = p ∧ (thumbField w).extractLsb' 10 2 = 0#2 := by
  subst hw
  refine ⟨?_, ?_, ?_, ?_⟩
  · unfold IsImm; bits []
  · bits [thumbField, fld]
  · bits [thumbField, fld]
  · bits [thumbField, fld]

/-- What a replicated field means. -/
theorem rep_sound {imm w : BitVec 32} (p : BitVec 2) (b : BitVec 8) (hw : w = p.setWidth 32 <<< 12 ||| b.setWidth 32) (h0 : p = 0#2 ∨ b ≠ 0#8)
    (hv : imm = if p = 0#2 then b.setWidth 32 else if p = 1#2 then b.setWidth 32 <<< 16 ||| b.setWidth 32
      else if p = 2#2 then b.setWidth 32 <<< 24 ||| b.setWidth 32 <<< 8
      else b.setWidth 32 <<< 24 ||| b.setWidth 32 <<< 16 ||| b.setWidth 32 <<< 8 ||| b.setWidth 32) :
    IsImm w ∧ expandThumb (thumbField w) = some imm := by
  obtain ⟨h1, h2, h3, h4⟩ := field_rep p b w hw
  refine ⟨h1, ?_⟩
  unfold expandThumb
  simp only [h2, h3, h4, if_true]
  have hb : b ≠ 0#8 → b.setWidth 32 ≠ 0#32 := by
    intro h h'
    apply h
    have := congrArg (BitVec.setWidth 8) h'
    simpa using this
  rw [hv]
  by_cases hp : p = 0#2
  · simp [hp]
  · simp only [hp, if_false, hb (h0.resolve_left hp)]
    split <;> try rfl
    split <;> rfl

theorem getImm_sound {imm : BitVec 32} (h : getImm imm ≠ INVALID_IMM) :
    IsImm (getImm imm) ∧ expandThumb (thumbField (getImm imm)) = some imm := by
  unfold getImm at h ⊢
  by_cases h1 : imm ≤ 0xff#32
  · rw [if_pos h1]
    have hb := high_bits (x := imm) (n := 8) (by have : imm.toNat ≤ 255 := h1; omega)
    have e : imm = (imm.setWidth 8).setWidth 32 := by bits [hb]
    exact rep_sound 0#2 (imm.setWidth 8) (by simpa using e) (.inl rfl) (by simpa using e)
  rw [if_neg h1] at h ⊢
  by_cases h2 : imm &&& 0xffff#32 = imm >>> 16 ∧ imm &&& 0xff00#32 = 0#32
  · rw [if_pos h2]
    obtain ⟨ha, hb⟩ := h2
    have ha' := eq_of_bits ha
    have hb' := zero_bits hb
    have e : imm = (imm.setWidth 8).setWidth 32 <<< 16 ||| (imm.setWidth 8).setWidth 32 := by
      apply BitVec.eq_of_getLsbD_eq
      intro k hk
      have x1 := ha' (k - 16)
      have x2 := hb' k
      have x3 := hb' (k - 16)
      interval_cases k <;> simp [-BitVec.getLsbD_eq_getElem, -BitVec.setWidth_eq] at x1 x2 x3 ⊢ <;> first | assumption | exact x1.symm | (rw [← x1]; assumption) | skip
    refine rep_sound 1#2 (imm.setWidth 8) (by bits []) (.inr ?_) (by simpa using e)
    intro h0
    rw [h0] at e
    exact h1 (by rw [e]; decide)
  rw [if_neg h2] at h ⊢
  by_cases h3 : imm &&& 0xffff#32 = imm >>> 16 ∧ imm &&& 0xff#32 = 0#32
  · rw [if_pos h3]
    obtain ⟨ha, hb⟩ := h3
    have ha' := eq_of_bits ha
    have hb' := zero_bits hb
    have e : imm = ((imm >>> 8).setWidth 8).setWidth 32 <<< 24 ||| ((imm >>> 8).setWidth 8).setWidth 32 <<< 8 := by
      apply BitVec.eq_of_getLsbD_eq
      intro k hk
      have x1 := ha' (k - 16)
      have x2 := hb' k
      have x3 := hb' (k - 16)
      interval_cases k <;> simp [-BitVec.getLsbD_eq_getElem, -BitVec.setWidth_eq] at x1 x2 x3 ⊢ <;> first | assumption | exact x1.symm | (rw [← x1]; assumption) | skip
    refine rep_sound 2#2 ((imm >>> 8).setWidth 8) (by bits []) (.inr ?_) (by simpa using e)
    intro h0
    rw [h0] at e
    exact h1 (by rw [e]; decide)
  rw [if_neg h3] at h ⊢
  by_cases h4 : imm &&& 0xffff#32 = imm >>> 16 ∧ imm &&& 0xff00#32 = (imm &&& 0xff#32) <<< 8
  · rw [if_pos h4]
    obtain ⟨ha, hb⟩ := h4
    have ha' := eq_of_bits ha
    have hb' := eq_of_bits hb
    have e : imm = (imm.setWidth 8).setWidth 32 <<< 24 ||| (imm.setWidth 8).setWidth 32 <<< 16 ||| (imm.setWidth 8).setWidth 32 <<< 8 |||
        (imm.setWidth 8).setWidth 32 := by
      apply BitVec.eq_of_getLsbD_eq
      intro k hk
      have x1 := ha' (k - 16)
      have x2 := hb' k
      have x3 := hb' (k - 16)
      interval_cases k <;> simp [-BitVec.getLsbD_eq_getElem, -BitVec.setWidth_eq] at x1 x2 x3 ⊢ <;> first | assumption | (simp only [*]; done) | (rw [← x1]; assumption) | skip
    refine rep_sound 3#2 (imm.setWidth 8) (by bits []) (.inr ?_) (by simpa using e)
    intro h0
    rw [h0] at e
    exact h1 (by rw [e]; decide)
  rw [if_neg h4] at h ⊢
  exact rotated_sound h1 h

/-- Execution of T32 words. -/
def runWords : List (BitVec 32) → St → Option St
  | [], s => some s
  | w :: ws, s => (decodeThumb w).bind fun i => (exec i s).bind (runWords ws)

theorem dec_mov {b : BitVec 32} {i v : BitVec 32} (hi : IsImm i) (hv : expandThumb (thumbField i) = some v) (d : BitVec 4)
    (hb : b = MOV_WI ∨ b = MVN_WI) :
    decodeThumb (b ||| d.setWidth 32 <<< 8 ||| i) = some (.dp (if b = MOV_WI then 13#4 else 15#4) 0#4 d (.imm v)) := by
  have hz : ∀ k, k < 32 → (0x040070ff#32).getLsbD k = false → i.getLsbD k = false := by
    intro k hk hf
    exact zero_bits hi k (by rw [BitVec.getLsbD_not, hf]; simp [hk])
  have e : b = 0xf04f0000#32 ||| (if b = MOV_WI then 0#32 else 0x00200000#32) := by rcases hb with rfl | rfl <;> rfl
  generalize hw : b ||| d.setWidth 32 <<< 8 ||| i = w
  have f0 : thumbField w = thumbField i := by
    subst hw; rcases hb with rfl | rfl <;> bits [fld, thumbField, MOV_WI, MVN_WI]
  have f1 : fld w 27 5 = 0x1e#5 := by
    subst hw; rcases hb with rfl | rfl <;> bits [fld, MOV_WI, MVN_WI, hz]
  have f2 : fld w 15 1 = 0#1 := by
    subst hw; rcases hb with rfl | rfl <;> bits [fld, MOV_WI, MVN_WI, hz]
  have f3 : fld w 16 10 = if b = MOV_WI then 0x04f#10 else 0x06f#10 := by
    subst hw; rcases hb with rfl | rfl
    · rw [if_pos rfl]; bits [fld, MOV_WI, hz]
    · rw [if_neg (by decide)]; bits [fld, MVN_WI, hz]
  have f4 : fld w 8 4 = d := by
    subst hw; rcases hb with rfl | rfl <;> bits [fld, MOV_WI, MVN_WI, hz]
  simp only [decodeThumb, f0, f1, f2, f3, f4, hv, Option.map_some]
  rcases hb with rfl | rfl
  · rfl
  · rfl

theorem dec_MOVW (d : BitVec 4) (v : BitVec 32) :
    decodeThumb (MOVW ||| d.setWidth 32 <<< 8 ||| copyBits v 12 16 4 ||| copyBits v 11 26 1 ||| copyBits v 8 12 3 ||| (v &&& 0xff#32)) =
      some (.movw d (v.setWidth 16)) := by
  generalize hw : MOVW ||| d.setWidth 32 <<< 8 ||| copyBits v 12 16 4 ||| copyBits v 11 26 1 ||| copyBits v 8 12 3 ||| (v &&& 0xff#32) = w
  have f1 : fld w 27 5 = 0x1e#5 := by subst hw; bits [fld, MOVW, copyBits]
  have f2 : fld w 15 1 = 0#1 := by subst hw; bits [fld, MOVW, copyBits]
  have f3 : fld w 20 6 = 0x24#6 := by subst hw; bits [fld, MOVW, copyBits]
  have f4 : fld w 8 4 = d := by subst hw; bits [fld, MOVW, copyBits]
  have f5 : (fld w 16 4).setWidth 16 <<< 12 ||| (thumbField w).setWidth 16 = v.setWidth 16 := by
    subst hw; bits [fld, thumbField, MOVW, copyBits]
  have f6 : fld w 16 10 = (fld w 20 6).setWidth 10 <<< 4 ||| (fld w 16 4).setWidth 10 := by bits [fld]
  have f7 : fld w 16 10 ≠ 0x04f#10 ∧ fld w 16 10 ≠ 0x06f#10 := by
    rw [f6, f3]; generalize fld w 16 4 = x; revert x; decide
  simp only [decodeThumb, f1, f2, f3, f4, f5, f7.1, f7.2]
  simp

theorem dec_MOVT (d : BitVec 4) (v : BitVec 32) :
    decodeThumb (MOVT ||| d.setWidth 32 <<< 8 ||| copyBits v (12 + 16) 16 4 ||| copyBits v (11 + 16) 26 1 ||| copyBits v (8 + 16) 12 3 |||
      ((v &&& 0xff0000#32) >>> 16)) = some (.movt d ((v >>> 16).setWidth 16)) := by
  generalize hw : MOVT ||| d.setWidth 32 <<< 8 ||| copyBits v (12 + 16) 16 4 ||| copyBits v (11 + 16) 26 1 ||| copyBits v (8 + 16) 12 3 |||
      ((v &&& 0xff0000#32) >>> 16) = w
  have f1 : fld w 27 5 = 0x1e#5 := by subst hw; bits [fld, MOVT, copyBits]
  have f2 : fld w 15 1 = 0#1 := by subst hw; bits [fld, MOVT, copyBits]
  have f3 : fld w 20 6 = 0x2c#6 := by subst hw; bits [fld, MOVT, copyBits]
  have f4 : fld w 8 4 = d := by subst hw; bits [fld, MOVT, copyBits]
  have f5 : (fld w 16 4).setWidth 16 <<< 12 ||| (thumbField w).setWidth 16 = (v >>> 16).setWidth 16 := by
    subst hw; bits [fld, thumbField, MOVT, copyBits]
  have f6 : fld w 16 10 = (fld w 20 6).setWidth 10 <<< 4 ||| (fld w 16 4).setWidth 10 := by bits [fld]
  have f7 : fld w 16 10 ≠ 0x04f#10 ∧ fld w 16 10 ≠ 0x06f#10 := by
    rw [f6, f3]; generalize fld w 16 4 = x; revert x; decide
  simp only [decodeThumb, f1, f2, f3, f4, f5, f7.1, f7.2]
  simp

theorem loadImmediate_run {dst : Nat} (hr : regMap dst ≠ 15#4) (imm : BitVec 32) (s : St) :
    runWords (loadImmediate dst imm) s = some (s.set (regMap dst) imm) := by
  unfold loadImmediate
  split
  next h =>
    obtain ⟨h1, h2⟩ := getImm_sound h.2
    simp only [runWords, RD4, dec_mov h1 h2 _ (.inl rfl), Option.bind_some, if_true, exec, hr, Op2.val, dpVal]
    simp
  next =>
  split
  next h =>
    obtain ⟨h1, h2⟩ := getImm_sound h.2
    simp only [runWords, RD4, dec_mov h1 h2 _ (.inr rfl), Option.bind_some, exec, hr, Op2.val, dpVal]
    simp [show ¬ (MVN_WI = MOV_WI) by decide]
  next =>
    simp only [runWords, RD4, dec_MOVW, Option.bind_some, exec, hr, if_false]
    split
    next h =>
      simp only [runWords, dec_MOVT, Option.bind_some, exec, hr, if_false, set_r, set_set]
      congr 2
      bits []
    next h =>
      simp only [runWords]
      congr 2
      have : imm.toNat < 65536 := by
        by_contra hc; exact h (by show 65536 ≤ imm.toNat; omega)
      apply BitVec.eq_of_toNat_eq
      simp [BitVec.toNat_setWidth]; omega

end Verif.Imm.Thumb
