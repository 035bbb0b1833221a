import Verif.Imm.Bits
import Verif.Imm.Loong

/-! # load_immediate of LoongArch64 (helper lemmas) -/

namespace Verif.Imm.Loong
open La

theorem dec_ADDI (d j : BitVec 5) (c : BitVec 64) :
    decode (ADDI_D ||| d.setWidth 32 ||| j.setWidth 32 <<< 5 ||| IMM_I12 c) = some (.addiD d j (c.setWidth 12)) := by
  generalize hw : ADDI_D ||| d.setWidth 32 ||| j.setWidth 32 <<< 5 ||| IMM_I12 c = w
  have f1 : fld w 22 10 = 0b0000001011#10 := by subst hw; bits64 [fld, ADDI_D, IMM_I12]
  have f2 : fld w 0 5 = d := by subst hw; bits64 [fld, ADDI_D, IMM_I12]
  have f3 : fld w 5 5 = j := by subst hw; bits64 [fld, ADDI_D, IMM_I12]
  have f4 : fld w 10 12 = c.setWidth 12 := by subst hw; bits64 [fld, ADDI_D, IMM_I12]
  simp [decode, f1, f2, f3, f4]

theorem dec_ORI (d j : BitVec 5) (c : BitVec 64) :
    decode (ORI ||| d.setWidth 32 ||| j.setWidth 32 <<< 5 ||| IMM_I12 c) = some (.ori d j (c.setWidth 12)) := by
  generalize hw : ORI ||| d.setWidth 32 ||| j.setWidth 32 <<< 5 ||| IMM_I12 c = w
  have f1 : fld w 22 10 = 0b0000001110#10 := by subst hw; bits64 [fld, ORI, IMM_I12]
  have f2 : fld w 0 5 = d := by subst hw; bits64 [fld, ORI, IMM_I12]
  have f3 : fld w 5 5 = j := by subst hw; bits64 [fld, ORI, IMM_I12]
  have f4 : fld w 10 12 = c.setWidth 12 := by subst hw; bits64 [fld, ORI, IMM_I12]
  simp [decode, f1, f2, f3, f4]

theorem dec_LU52I (d j : BitVec 5) (c : BitVec 64) :
    decode (LU52I_D ||| d.setWidth 32 ||| j.setWidth 32 <<< 5 ||| IMM_I12 c) = some (.lu52iD d j (c.setWidth 12)) := by
  generalize hw : LU52I_D ||| d.setWidth 32 ||| j.setWidth 32 <<< 5 ||| IMM_I12 c = w
  have f1 : fld w 22 10 = 0b0000001100#10 := by subst hw; bits64 [fld, LU52I_D, IMM_I12]
  have f2 : fld w 0 5 = d := by subst hw; bits64 [fld, LU52I_D, IMM_I12]
  have f3 : fld w 5 5 = j := by subst hw; bits64 [fld, LU52I_D, IMM_I12]
  have f4 : fld w 10 12 = c.setWidth 12 := by subst hw; bits64 [fld, LU52I_D, IMM_I12]
  simp [decode, f1, f2, f3, f4]

theorem dec_LU12I (d : BitVec 5) (c : BitVec 64) :
    decode (LU12I_W ||| d.setWidth 32 ||| ((((c &&& 0xffffffff#64).sshiftRight 12) <<< 5).setWidth 32)) =
      some (.lu12iW d (c.extractLsb' 12 20)) := by
  generalize hw : LU12I_W ||| d.setWidth 32 ||| ((((c &&& 0xffffffff#64).sshiftRight 12) <<< 5).setWidth 32) = w
  have f1 : fld w 25 7 = 0b0001010#7 := by subst hw; bits64 [fld, LU12I_W, BitVec.getLsbD_sshiftRight]
  have f2 : fld w 0 5 = d := by subst hw; bits64 [fld, LU12I_W, BitVec.getLsbD_sshiftRight]
  have f4 : fld w 5 20 = c.extractLsb' 12 20 := by subst hw; bits64 [fld, LU12I_W, BitVec.getLsbD_sshiftRight]
  have f5 : (fld w 22 10).extractLsb' 3 7 = 0b0001010#7 := by rw [← f1]; bits64 [fld]
  have n1 : fld w 22 10 ≠ 0b0000001011#10 := by intro h; rw [h] at f5; exact absurd f5 (by decide)
  have n2 : fld w 22 10 ≠ 0b0000001110#10 := by intro h; rw [h] at f5; exact absurd f5 (by decide)
  have n3 : fld w 22 10 ≠ 0b0000001100#10 := by intro h; rw [h] at f5; exact absurd f5 (by decide)
  simp only [decode, n1, n2, n3, f1, f2, f4, if_false, if_true]

theorem dec_LU32I (d : BitVec 5) (c : BitVec 64) :
    decode (LU32I_D ||| d.setWidth 32 ||| ((((c.sshiftRight 32) &&& 0xfffff#64) <<< 5).setWidth 32)) =
      some (.lu32iD d (c.extractLsb' 32 20)) := by
  generalize hw : LU32I_D ||| d.setWidth 32 ||| ((((c.sshiftRight 32) &&& 0xfffff#64) <<< 5).setWidth 32) = w
  have f1 : fld w 25 7 = 0b0001011#7 := by subst hw; bits64 [fld, LU32I_D, BitVec.getLsbD_sshiftRight]
  have f2 : fld w 0 5 = d := by subst hw; bits64 [fld, LU32I_D, BitVec.getLsbD_sshiftRight]
  have f4 : fld w 5 20 = c.extractLsb' 32 20 := by subst hw; bits64 [fld, LU32I_D, BitVec.getLsbD_sshiftRight]
  have f5 : (fld w 22 10).extractLsb' 3 7 = 0b0001011#7 := by rw [← f1]; bits64 [fld]
  have n1 : fld w 22 10 ≠ 0b0000001011#10 := by intro h; rw [h] at f5; exact absurd f5 (by decide)
  have n2 : fld w 22 10 ≠ 0b0000001110#10 := by intro h; rw [h] at f5; exact absurd f5 (by decide)
  have n3 : fld w 22 10 ≠ 0b0000001100#10 := by intro h; rw [h] at f5; exact absurd f5 (by decide)
  have n4 : ¬ (0b0001011#7 = 0b0001010#7) := by decide
  simp only [decode, n1, n2, n3, n4, f1, f2, f4, if_false, if_true]

theorem put_put (x : Regs) (d a b) : put (put x d a) d b = put x d b := by funext q; simp only [put]; split <;> rfl
theorem get_put {d : BitVec 5} (hd : d ≠ 0#5) (x : Regs) (a) : La.get (put x d a) d = a := by simp [La.get, put, hd]

/-- The first two instructions leave the low half, sign extended. -/
theorem run_low {dst : Nat} (hd : regMap dst ≠ 0#5) (c : BitVec 64) (x : Regs) (ws : List (BitVec 32)) :
    run ((LU12I_W ||| RD dst ||| ((((c &&& 0xffffffff#64).sshiftRight 12) <<< 5).setWidth 32)) ::
      ((if IMM_I12 c ≠ 0#32 then [ORI ||| RD dst ||| RJ dst ||| IMM_I12 c] else []) ++ ws)) x =
    run ws (put x (regMap dst) ((c.setWidth 32).signExtend 64)) := by
  by_cases h : IMM_I12 c ≠ 0#32
  · simp only [if_pos h, List.cons_append, List.nil_append, run, RD, RJ, dec_LU12I, dec_ORI, Option.bind_some, exec, get_put hd, put_put]
    congr 2
    bits64 [BitVec.getLsbD_signExtend, BitVec.msb_eq_getLsbD_last]
  · have h0 := Classical.not_not.mp h
    have hz : ∀ k, k < 12 → c.getLsbD k = false := by
      intro k hk
      have := congrArg (fun v => v.getLsbD (k + 10)) h0
      interval_cases k <;> simpa [-BitVec.getLsbD_eq_getElem, IMM_I12] using this
    simp only [if_neg h, List.nil_append, run, RD, dec_LU12I, Option.bind_some, exec]
    congr 2
    bits64 [BitVec.getLsbD_signExtend, BitVec.msb_eq_getLsbD_last, hz]

theorem loadImmediate_run {dst : Nat} (hd : regMap dst ≠ 0#5) (c : BitVec 64) (x : Regs) :
    run (loadImmediate dst c) x = some (put x (regMap dst) c) := by
  unfold loadImmediate
  simp only
  split
  next h =>
    have hr := bits_sle h 11
    simp only [run, RD, RJ, dec_ADDI, Option.bind_some, exec]
    congr 2
    have e0 : La.get x (regMap TMP_ZERO) = 0#64 := by simp [La.get, regMap, TMP_ZERO]
    rw [e0, BitVec.zero_add]
    bits64 [BitVec.getLsbD_signExtend, BitVec.msb_eq_getLsbD_last, hr]
  next =>
  split
  next h =>
    have hr := bits_sle h 31
    have := run_low hd c x []
    rw [List.append_nil] at this
    rw [this]
    simp only [run]
    congr 2
    bits64 [BitVec.getLsbD_signExtend, BitVec.msb_eq_getLsbD_last, hr]
  next =>
  split
  next h =>
    have hr := bits_sle h 51
    rw [run_low hd]
    simp only [run, RD, dec_LU32I, Option.bind_some, exec, get_put hd, put_put]
    congr 2
    bits64 [BitVec.getLsbD_signExtend, BitVec.msb_eq_getLsbD_last, hr]
  next =>
    rw [run_low hd]
    simp only [run, RD, RJ, dec_LU32I, dec_LU52I, Option.bind_some, exec, get_put hd, put_put]
    congr 2
    bits64 [BitVec.getLsbD_signExtend, BitVec.msb_eq_getLsbD_last, BitVec.getLsbD_sshiftRight]

end Verif.Imm.Loong
