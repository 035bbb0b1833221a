import Verif.A64.Ops
import Verif.Imm.Bits

/-! # Decoding of the instruction words (helper lemmas) -/

namespace Verif.A64
open Verif.Imm.A64 (fld bitMask)
open Verif.Imm.Arm64 (regMap RD RN TMP_ZERO W_OP ORRI)

/-- A word with the fields of register instructions. -/
def ins (top : BitVec 11) (rm : BitVec 5) (mid : BitVec 6) (rn rd : BitVec 5) : BitVec 32 := top ++ rm ++ mid ++ rn ++ rd
/-- A word with the fields of instructions with an immediate. -/
def insI (top : BitVec 10) (imm : BitVec 12) (rn rd : BitVec 5) : BitVec 32 := top ++ imm ++ rn ++ rd

variable {top : BitVec 11} {rm rn rd : BitVec 5} {mid : BitVec 6} {topI : BitVec 10} {imm : BitVec 12}

theorem ins_bit (k : Nat) : (ins top rm mid rn rd).getLsbD k =
    if k < 5 then rd.getLsbD k else if k < 10 then rn.getLsbD (k - 5) else if k < 16 then mid.getLsbD (k - 10) else if k < 21 then rm.getLsbD (k - 16) else top.getLsbD (k - 21) := by
  unfold ins
  simp only [BitVec.getLsbD_append]
  by_cases h1 : k < 5
  · simp [h1]
  · by_cases h2 : k < 10
    · have : k - 5 < 5 := by omega
      simp [h1, h2, this]
    · by_cases h3 : k < 16
      · have e1 : ¬ k - 5 < 5 := by omega
        have e2 : k - 5 - 5 < 6 := by omega
        have e3 : k - 5 - 5 = k - 10 := by omega
        rw [if_neg h1, if_neg e1, if_pos e2, if_neg h1, if_neg h2, if_pos h3, e3]
      · by_cases h4 : k < 21
        · have e1 : ¬ k - 5 < 5 := by omega
          have e2 : ¬ k - 5 - 5 < 6 := by omega
          have e3 : k - 5 - 5 - 6 < 5 := by omega
          have e4 : k - 5 - 5 - 6 = k - 16 := by omega
          rw [if_neg h1, if_neg e1, if_neg e2, if_pos e3, if_neg h1, if_neg h2, if_neg h3, if_pos h4, e4]
        · have e1 : ¬ k - 5 < 5 := by omega
          have e2 : ¬ k - 5 - 5 < 6 := by omega
          have e3 : ¬ k - 5 - 5 - 6 < 5 := by omega
          have e4 : k - 5 - 5 - 6 - 5 = k - 21 := by omega
          rw [if_neg h1, if_neg e1, if_neg e2, if_neg e3, if_neg h1, if_neg h2, if_neg h3, if_neg h4, e4]

theorem insI_bit (k : Nat) : (insI topI imm rn rd).getLsbD k =
    if k < 5 then rd.getLsbD k else if k < 10 then rn.getLsbD (k - 5) else if k < 22 then imm.getLsbD (k - 10) else topI.getLsbD (k - 22) := by
  unfold insI
  simp only [BitVec.getLsbD_append]
  by_cases h1 : k < 5
  · rw [if_pos h1, if_pos h1]
  · by_cases h2 : k < 10
    · rw [if_neg h1, if_pos (by omega), if_neg h1, if_pos h2]
    · by_cases h3 : k < 22
      · rw [if_neg h1, if_neg (by omega), if_pos (by omega), if_neg h1, if_neg h2, if_pos h3]; congr 1 <;> omega
      · rw [if_neg h1, if_neg (by omega), if_neg (by omega), if_neg h1, if_neg h2, if_neg h3]; congr 1 <;> omega

theorem fld_bit (w : BitVec 32) (lo n k : Nat) (hk : k < n) : (fld w lo n).getLsbD k = w.getLsbD (lo + k) := by
  simp [fld, BitVec.getLsbD_extractLsb', hk, -BitVec.getLsbD_eq_getElem]

theorem ins_hi (lo n : Nat) (h : 21 ≤ lo) : fld (ins top rm mid rn rd) lo n = top.extractLsb' (lo - 21) n := by
  apply BitVec.eq_of_getLsbD_eq
  intro k hk
  rw [fld_bit _ _ _ _ hk, ins_bit, if_neg (by omega), if_neg (by omega), if_neg (by omega), if_neg (by omega), BitVec.getLsbD_extractLsb']
  simp only [hk, decide_true, Bool.true_and]; congr 1; omega
theorem ins_rd : fld (ins top rm mid rn rd) 0 5 = rd := by
  apply BitVec.eq_of_getLsbD_eq
  intro k hk
  rw [fld_bit _ _ _ _ hk, ins_bit, if_pos (by omega), Nat.zero_add]
theorem ins_rn : fld (ins top rm mid rn rd) 5 5 = rn := by
  apply BitVec.eq_of_getLsbD_eq
  intro k hk
  rw [fld_bit _ _ _ _ hk, ins_bit, if_neg (by omega), if_pos (by omega), Nat.add_sub_cancel_left]
theorem ins_mid (lo n : Nat) (h : 10 ≤ lo) (hn : lo + n ≤ 16) : fld (ins top rm mid rn rd) lo n = mid.extractLsb' (lo - 10) n := by
  apply BitVec.eq_of_getLsbD_eq
  intro k hk
  rw [fld_bit _ _ _ _ hk, ins_bit, if_neg (by omega), if_neg (by omega), if_pos (by omega), BitVec.getLsbD_extractLsb']
  simp only [hk, decide_true, Bool.true_and]; congr 1; omega
theorem ins_rm : fld (ins top rm mid rn rd) 16 5 = rm := by
  apply BitVec.eq_of_getLsbD_eq
  intro k hk
  rw [fld_bit _ _ _ _ hk, ins_bit, if_neg (by omega), if_neg (by omega), if_neg (by omega), if_pos (by omega), Nat.add_sub_cancel_left]
theorem ins_bhi (k : Nat) (h : 21 ≤ k) : bit (ins top rm mid rn rd) k = top.getLsbD (k - 21) := by
  rw [bit, ins_bit, if_neg (by omega), if_neg (by omega), if_neg (by omega), if_neg (by omega)]
theorem ins_bmid (k : Nat) (h : 10 ≤ k) (h' : k < 16) : bit (ins top rm mid rn rd) k = mid.getLsbD (k - 10) := by
  rw [bit, ins_bit, if_neg (by omega), if_neg (by omega), if_pos (by omega)]

theorem insI_hi (lo n : Nat) (h : 22 ≤ lo) : fld (insI topI imm rn rd) lo n = topI.extractLsb' (lo - 22) n := by
  apply BitVec.eq_of_getLsbD_eq
  intro k hk
  rw [fld_bit _ _ _ _ hk, insI_bit, if_neg (by omega), if_neg (by omega), if_neg (by omega), BitVec.getLsbD_extractLsb']
  simp only [hk, decide_true, Bool.true_and]; congr 1; omega
theorem insI_rd : fld (insI topI imm rn rd) 0 5 = rd := by
  apply BitVec.eq_of_getLsbD_eq
  intro k hk
  rw [fld_bit _ _ _ _ hk, insI_bit, if_pos (by omega), Nat.zero_add]
theorem insI_rn : fld (insI topI imm rn rd) 5 5 = rn := by
  apply BitVec.eq_of_getLsbD_eq
  intro k hk
  rw [fld_bit _ _ _ _ hk, insI_bit, if_neg (by omega), if_pos (by omega), Nat.add_sub_cancel_left]
theorem insI_imm (lo n : Nat) (h : 10 ≤ lo) (hn : lo + n ≤ 22) : fld (insI topI imm rn rd) lo n = imm.extractLsb' (lo - 10) n := by
  apply BitVec.eq_of_getLsbD_eq
  intro k hk
  rw [fld_bit _ _ _ _ hk, insI_bit, if_neg (by omega), if_neg (by omega), if_pos (by omega), BitVec.getLsbD_extractLsb']
  simp only [hk, decide_true, Bool.true_and]; congr 1; omega
theorem insI_bhi (k : Nat) (h : 22 ≤ k) : bit (insI topI imm rn rd) k = topI.getLsbD (k - 22) := by
  rw [bit, insI_bit, if_neg (by omega), if_neg (by omega), if_neg (by omega)]
theorem insI_bimm (k : Nat) (h : 10 ≤ k) (h' : k < 22) : bit (insI topI imm rn rd) k = imm.getLsbD (k - 10) := by
  rw [bit, insI_bit, if_neg (by omega), if_neg (by omega), if_pos (by omega)]

/-! ## Register instructions -/

theorem dec_reg (h : top.extractLsb' 4 3 = 5#3) (h' : top.extractLsb' 5 3 ≠ 4#3) : decode (ins top rm mid rn rd) = decodeReg (ins top rm mid rn rd) := by
  rw [decode, ins_hi 26 3 (by decide), ins_hi 25 3 (by decide), if_neg h', if_pos h]

/-- The fields of register instructions. -/
macro "rfields" : tactic =>
  `(tactic| simp only [ins_hi 24 5 (by decide), ins_hi 29 2 (by decide), ins_hi 21 3 (by decide), ins_hi 30 1 (by decide), ins_bhi 31 (by decide), ins_bhi 30 (by decide), ins_bhi 29 (by decide), ins_bhi 21 (by decide),
    ins_hi 22 2 (by decide), ins_rm, ins_rn, ins_rd, ins_mid 10 6 (by decide) (by decide), ins_mid 10 5 (by decide) (by decide), ins_mid 12 4 (by decide) (by decide), ins_bmid 15 (by decide) (by decide),
    ins_bmid 11 (by decide) (by decide), ins_bmid 10 (by decide) (by decide), Nat.reduceSub, BitVec.extractLsb'_eq_self, *])

theorem dec_addReg (hr : top.extractLsb' 4 3 = 5#3 ∧ top.extractLsb' 5 3 ≠ 4#3) (h : top.extractLsb' 3 5 = 0x0b#5) (h0 : top.getLsbD 0 = false) (h1 : top.extractLsb' 1 2 ≠ 3#2)
    (h2 : top.getLsbD 10 = false → mid.getLsbD 5 = false) :
    decode (ins top rm mid rn rd) = some (.addReg (top.getLsbD 10) (top.getLsbD 9) (top.getLsbD 8) (top.extractLsb' 1 2) mid.toNat rm rn rd) := by
  rw [dec_reg hr.1 hr.2, decodeReg]
  rfields
  cases hs : top.getLsbD 10 <;> simp [h1, hs, h2, -BitVec.getLsbD_eq_getElem]

theorem dec_logReg (hr : top.extractLsb' 4 3 = 5#3 ∧ top.extractLsb' 5 3 ≠ 4#3) (h : top.extractLsb' 3 5 = 0x0a#5) (h2 : top.getLsbD 10 = false → mid.getLsbD 5 = false) :
    decode (ins top rm mid rn rd) = some (.logReg (top.getLsbD 10) (top.extractLsb' 8 2) (top.getLsbD 0) (top.extractLsb' 1 2) mid.toNat rm rn rd) := by
  rw [dec_reg hr.1 hr.2, decodeReg]
  rfields
  cases hs : top.getLsbD 10 <;> simp [hs, h2, -BitVec.getLsbD_eq_getElem]

theorem dec_adc (hr : top.extractLsb' 4 3 = 5#3 ∧ top.extractLsb' 5 3 ≠ 4#3) (h : top.extractLsb' 3 5 = 0x1a#5) (h0 : top.extractLsb' 0 3 = 0#3) :
    decode (ins top rm 0#6 rn rd) = some (.adc (top.getLsbD 10) (top.getLsbD 9) (top.getLsbD 8) rm rn rd) := by
  rw [dec_reg hr.1 hr.2, decodeReg]
  rfields
  simp

theorem dec_csel (hr : top.extractLsb' 4 3 = 5#3 ∧ top.extractLsb' 5 3 ≠ 4#3) (h : top.extractLsb' 3 5 = 0x1a#5) (h0 : top.extractLsb' 0 3 = 4#3) (h1 : top.getLsbD 8 = false) (h3 : top.extractLsb' 9 1 = 0#1)
    (hm : mid.getLsbD 1 = false) : decode (ins top rm mid rn rd) = some (.csel (top.getLsbD 10) (mid.getLsbD 0) (mid.extractLsb' 2 4) rm rn rd) := by
  rw [dec_reg hr.1 hr.2, decodeReg]
  rfields
  simp

theorem dec_two (hr : top.extractLsb' 4 3 = 5#3 ∧ top.extractLsb' 5 3 ≠ 4#3) (h : top.extractLsb' 3 5 = 0x1a#5) (h0 : top.extractLsb' 0 3 = 6#3) (h1 : top.getLsbD 8 = false) (h3 : top.getLsbD 9 = false) :
    decode (ins top rm mid rn rd) = some (.two (top.getLsbD 10) mid rm rn rd) := by
  rw [dec_reg hr.1 hr.2, decodeReg]
  rfields
  simp

theorem dec_one (hr : top.extractLsb' 4 3 = 5#3 ∧ top.extractLsb' 5 3 ≠ 4#3) (h : top.extractLsb' 3 5 = 0x1a#5) (h0 : top.extractLsb' 0 3 = 6#3) (h1 : top.getLsbD 8 = false) (h3 : top.getLsbD 9 = true) :
    decode (ins top 0#5 mid rn rd) = some (.one (top.getLsbD 10) mid rn rd) := by
  rw [dec_reg hr.1 hr.2, decodeReg]
  rfields
  simp

theorem dec_madd (hr : top.extractLsb' 4 3 = 5#3 ∧ top.extractLsb' 5 3 ≠ 4#3) (h : top.extractLsb' 3 5 = 0x1b#5) (h0 : top.extractLsb' 0 3 = 0#3) (h1 : top.extractLsb' 8 2 = 0#2) (hm : mid.getLsbD 5 = false) :
    decode (ins top rm mid rn rd) = some (.madd (top.getLsbD 10) (mid.extractLsb' 0 5) rm rn rd) := by
  rw [dec_reg hr.1 hr.2, decodeReg]
  rfields
  simp

theorem dec_smaddl (hr : top.extractLsb' 4 3 = 5#3 ∧ top.extractLsb' 5 3 ≠ 4#3) (h : top.extractLsb' 3 5 = 0x1b#5) (h0 : top.extractLsb' 0 3 = 1#3) (h1 : top.extractLsb' 8 2 = 0#2) (hs : top.getLsbD 10 = true)
    (hm : mid.getLsbD 5 = false) : decode (ins top rm mid rn rd) = some (.smaddl (mid.extractLsb' 0 5) rm rn rd) := by
  rw [dec_reg hr.1 hr.2, decodeReg]
  rfields
  simp

theorem dec_smulh (hr : top.extractLsb' 4 3 = 5#3 ∧ top.extractLsb' 5 3 ≠ 4#3) (h : top.extractLsb' 3 5 = 0x1b#5) (h0 : top.extractLsb' 0 3 = 2#3) (h1 : top.extractLsb' 8 2 = 0#2) (hs : top.getLsbD 10 = true)
    (hm : mid.getLsbD 5 = false) : decode (ins top rm mid rn rd) = some (.mulh true rm rn rd) := by
  rw [dec_reg hr.1 hr.2, decodeReg]
  rfields
  simp

theorem dec_umulh (hr : top.extractLsb' 4 3 = 5#3 ∧ top.extractLsb' 5 3 ≠ 4#3) (h : top.extractLsb' 3 5 = 0x1b#5) (h0 : top.extractLsb' 0 3 = 6#3) (h1 : top.extractLsb' 8 2 = 0#2) (hs : top.getLsbD 10 = true)
    (hm : mid.getLsbD 5 = false) : decode (ins top rm mid rn rd) = some (.mulh false rm rn rd) := by
  rw [dec_reg hr.1 hr.2, decodeReg]
  rfields
  simp

/-! ## Loads and stores -/

theorem dec_mem (h : topI.extractLsb' 4 3 ≠ 4#3) (h1 : topI.extractLsb' 3 3 ≠ 5#3) (h2 : topI.extractLsb' 5 3 = 7#3) (h3 : topI.extractLsb' 3 2 = 0#2) (h4 : topI.getLsbD 2 = true) :
    decode (insI topI imm rn rd) = some (.mem (topI.extractLsb' 8 2) (topI.extractLsb' 0 2) (.imm (imm.setWidth 64 <<< (topI.extractLsb' 8 2).toNat)) rn rd) := by
  rw [decode, insI_hi 26 3 (by decide), insI_hi 25 3 (by decide), insI_hi 27 3 (by decide), insI_hi 25 2 (by decide), if_neg h, if_neg h1, if_pos ⟨h2, h3⟩, decodeMem]
  simp only [insI_bhi 24 (by decide), insI_hi 30 2 (by decide), insI_hi 22 2 (by decide), insI_rn, insI_rd, insI_imm 10 12 (by decide) (by decide), Nat.reduceSub, BitVec.extractLsb'_eq_self, h4, if_true]

theorem dec_memR (h : top.extractLsb' 5 3 ≠ 4#3) (h1 : top.extractLsb' 4 3 ≠ 5#3) (h2 : top.extractLsb' 6 3 = 7#3) (h3 : top.extractLsb' 4 2 = 0#2) (h4 : top.getLsbD 3 = false) (h5 : top.getLsbD 0 = true)
    (hm : mid.extractLsb' 0 2 = 2#2) (hm' : mid.extractLsb' 3 3 = 3#3) :
    decode (ins top rm mid rn rd) = some (.mem (top.extractLsb' 9 2) (top.extractLsb' 1 2) (.reg rm (if mid.getLsbD 2 then (top.extractLsb' 9 2).toNat else 0)) rn rd) := by
  rw [decode, ins_hi 26 3 (by decide), ins_hi 25 3 (by decide), ins_hi 27 3 (by decide), ins_hi 25 2 (by decide), if_neg h, if_neg h1, if_pos ⟨h2, h3⟩, decodeMem]
  simp only [ins_bhi 24 (by decide), ins_bhi 21 (by decide), ins_hi 30 2 (by decide), ins_hi 22 2 (by decide), ins_rn, ins_rd, ins_rm, ins_mid 10 2 (by decide) (by decide), ins_mid 13 3 (by decide) (by decide),
    ins_bmid 12 (by decide) (by decide), Nat.reduceSub, h4, h5, hm, hm', Bool.false_eq_true, if_false, if_true, and_self]

theorem dec_memU (h : top.extractLsb' 5 3 ≠ 4#3) (h1 : top.extractLsb' 4 3 ≠ 5#3) (h2 : top.extractLsb' 6 3 = 7#3) (h3 : top.extractLsb' 4 2 = 0#2) (h4 : top.getLsbD 3 = false) (h5 : top.getLsbD 0 = false)
    (hm : mid.extractLsb' 0 2 = 0#2) :
    decode (ins top rm mid rn rd) = some (.mem (top.extractLsb' 9 2) (top.extractLsb' 1 2) (.imm ((rm ++ mid.extractLsb' 2 4 : BitVec 9).signExtend 64)) rn rd) := by
  rw [decode, ins_hi 26 3 (by decide), ins_hi 25 3 (by decide), ins_hi 27 3 (by decide), ins_hi 25 2 (by decide), if_neg h, if_neg h1, if_pos ⟨h2, h3⟩, decodeMem]
  have e : fld (ins top rm mid rn rd) 12 9 = (rm ++ mid.extractLsb' 2 4 : BitVec 9) := by
    apply BitVec.eq_of_getLsbD_eq
    intro k hk
    rw [fld_bit _ _ _ _ hk, ins_bit, BitVec.getLsbD_append, if_neg (by omega), if_neg (by omega)]
    by_cases hk' : k < 4
    · rw [if_pos (by omega), if_pos hk', BitVec.getLsbD_extractLsb']; simp only [hk', decide_true, Bool.true_and]; congr 1; omega
    · rw [if_neg (by omega), if_pos (by omega), if_neg hk']; congr 1; omega
  simp only [ins_bhi 24 (by decide), ins_bhi 21 (by decide), ins_hi 30 2 (by decide), ins_hi 22 2 (by decide), ins_rn, ins_rd, ins_mid 10 2 (by decide) (by decide), e,
    Nat.reduceSub, h4, h5, hm, Bool.false_eq_true, if_false, if_true]

/-! ## Immediates -/

theorem dec_imm (h : topI.extractLsb' 4 3 = 4#3) : decode (insI topI imm rn rd) = decodeImm (insI topI imm rn rd) := by
  rw [decode, insI_hi 26 3 (by decide), if_pos h]

/-- The fields of instructions with an immediate. -/
macro "ifields" : tactic =>
  `(tactic| simp only [insI_hi 23 3 (by decide), insI_hi 29 2 (by decide), insI_bhi 31 (by decide), insI_bhi 30 (by decide), insI_bhi 29 (by decide), insI_bhi 22 (by decide),
    insI_rn, insI_rd, insI_imm 10 6 (by decide) (by decide), insI_imm 16 6 (by decide) (by decide), insI_imm 16 5 (by decide) (by decide), insI_imm 10 12 (by decide) (by decide), insI_bimm 15 (by decide) (by decide),
    insI_bimm 21 (by decide) (by decide), Nat.reduceSub, BitVec.extractLsb'_eq_self, *])

theorem dec_addImm (hi : topI.extractLsb' 4 3 = 4#3) (h : topI.extractLsb' 1 3 = 2#3) :
    decode (insI topI imm rn rd) = some (.addImm (topI.getLsbD 9) (topI.getLsbD 8) (topI.getLsbD 7) (imm.setWidth 64 <<< (if topI.getLsbD 0 then 12 else 0)) rn rd) := by
  rw [dec_imm hi, decodeImm]
  ifields
  simp

theorem dec_bfm (hi : topI.extractLsb' 4 3 = 4#3) (h : topI.extractLsb' 1 3 = 6#3) (h1 : topI.getLsbD 7 = false) (h2 : topI.getLsbD 0 = topI.getLsbD 9)
    (h3 : topI.getLsbD 9 = false → imm.getLsbD 11 = false ∧ imm.getLsbD 5 = false) :
    decode (insI topI imm rn rd) = some (.bfm (topI.getLsbD 9) (!topI.getLsbD 8) (imm.extractLsb' 6 6).toNat (imm.extractLsb' 0 6).toNat rn rd) := by
  rw [dec_imm hi, decodeImm]
  ifields
  cases hs : topI.getLsbD 9
  · obtain ⟨e1, e2⟩ := h3 hs
    simp [e1, e2, -BitVec.getLsbD_eq_getElem]
  · simp

theorem dec_extr (hi : topI.extractLsb' 4 3 = 4#3) (h : topI.extractLsb' 1 3 = 7#3) (h1 : topI.extractLsb' 7 2 = 0#2) (h2 : topI.getLsbD 0 = topI.getLsbD 9) (h4 : imm.getLsbD 11 = false)
    (h3 : topI.getLsbD 9 = false → imm.getLsbD 5 = false) :
    decode (insI topI imm rn rd) = some (.extr (topI.getLsbD 9) (imm.extractLsb' 0 6).toNat (imm.extractLsb' 6 5) rn rd) := by
  rw [dec_imm hi, decodeImm]
  ifields
  cases hs : topI.getLsbD 9
  · simp [h3 hs, -BitVec.getLsbD_eq_getElem]
  · simp

theorem dec_logImm (hi : topI.extractLsb' 4 3 = 4#3) (h : topI.extractLsb' 1 3 = 4#3) {m : BitVec 64}
    (hm : bitMask (sfb (topI.getLsbD 9)) (topI.extractLsb' 0 1 ++ imm : BitVec 13) = some m) :
    decode (insI topI imm rn rd) = some (.logImm (topI.getLsbD 9) (topI.extractLsb' 7 2) m rn rd) := by
  have e : fld (insI topI imm rn rd) 10 13 = (topI.extractLsb' 0 1 ++ imm : BitVec 13) := by
    apply BitVec.eq_of_getLsbD_eq
    intro k hk
    rw [fld_bit _ _ _ _ hk, insI_bit, BitVec.getLsbD_append, if_neg (by omega), if_neg (by omega)]
    by_cases hk' : k < 12
    · rw [if_pos (by omega), if_pos hk']; congr 1; omega
    · rw [if_neg (by omega), if_neg hk', BitVec.getLsbD_extractLsb']; simp only [show k - 12 < 1 by omega, decide_true, Bool.true_and]; congr 1; omega
  rw [dec_imm hi, decodeImm]
  simp only [e]
  ifields
  simp

end Verif.A64
