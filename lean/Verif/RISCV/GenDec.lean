import Verif.RISCV.GenPatch

/-! # Decoding the patched branches and jumps (helper lemmas) -/

namespace Verif.RV

/-- Joining two half words. -/
def join (lo hi : BitVec 16) : BitVec 32 := hi.setWidth 32 <<< 16 ||| lo.setWidth 32

theorem sx9 (d : BitVec 64) (h1 : -0x100 ≤ d.toInt) (h2 : d.toInt ≤ 0xff) : ((d.setWidth 9).signExtend 13).signExtend 64 = d := by
  apply BitVec.eq_of_toInt_eq
  rw [BitVec.toInt_signExtend_of_le (by decide), BitVec.toInt_signExtend_of_le (by decide), BitVec.toInt_setWidth, Int.bmod_def]
  rw [BitVec.toInt_eq_toNat_cond] at *
  omega
theorem sx12 (d : BitVec 64) (h1 : -0x800 ≤ d.toInt) (h2 : d.toInt ≤ 0x7ff) : ((d.setWidth 12).signExtend 21).signExtend 64 = d := by
  apply BitVec.eq_of_toInt_eq
  rw [BitVec.toInt_signExtend_of_le (by decide), BitVec.toInt_signExtend_of_le (by decide), BitVec.toInt_setWidth, Int.bmod_def]
  rw [BitVec.toInt_eq_toNat_cond] at *
  omega
theorem sx13 (d : BitVec 64) (h1 : -0x1000 ≤ d.toInt) (h2 : d.toInt ≤ 0xfff) : (d.setWidth 13).signExtend 64 = d := by
  apply BitVec.eq_of_toInt_eq
  rw [BitVec.toInt_signExtend_of_le (by decide), BitVec.toInt_setWidth, Int.bmod_def]
  rw [BitVec.toInt_eq_toNat_cond] at *
  omega
theorem sx21 (d : BitVec 64) (h1 : -0x100000 ≤ d.toInt) (h2 : d.toInt ≤ 0xfffff) : (d.setWidth 21).signExtend 64 = d := by
  apply BitVec.eq_of_toInt_eq
  rw [BitVec.toInt_signExtend_of_le (by decide), BitVec.toInt_setWidth, Int.bmod_def]
  rw [BitVec.toInt_eq_toNat_cond] at *
  omega

theorem decBr_neg {f3 : BitVec 3} {o : BrOp} (h : decBr f3 = some o) : ∃ o', decBr (f3 ^^^ 1#3) = some o' ∧ ∀ a b, o'.eval a b = !o.eval a b := by
  revert h
  revert o
  have : f3 = 0#3 ∨ f3 = 1#3 ∨ f3 = 2#3 ∨ f3 = 3#3 ∨ f3 = 4#3 ∨ f3 = 5#3 ∨ f3 = 6#3 ∨ f3 = 7#3 := by revert f3; decide
  rcases this with rfl | rfl | rfl | rfl | rfl | rfl | rfl | rfl <;> intro o h <;>
    simp [decBr] at h ⊢ <;> subst h <;> intro a b <;> simp [BrOp.eval, bne]

macro "brb" "[" ls:Lean.Parser.Tactic.simpLemma,* "]" : tactic =>
  `(tactic| bits [$ls,*, fOpc, fF3, fRs1, fRs2, fRd, fImmB, fImmJ, put, join, BRANCH, BNE, F3, OPC, RS1, RS2, BRANCH_LENGTH, JAL, RD])

/-- The 32 bit branch patched in place. -/
def pb32 (f3 : BitVec 3) (a b : Nat) (d : BitVec 64) : BitVec 32 :=
  let w := BRANCH f3 ||| RS1 a ||| RS2 b ||| BRANCH_LENGTH
  join ((((w.setWidth 16 : BitVec 16) &&& 0xf07f#16) ^^^ 0x1000#16) ||| (((d &&& 0x800#64) >>> 4) ||| ((d &&& 0x1e#64) <<< 7)).setWidth 16)
    ((((w >>> 16).setWidth 16 : BitVec 16) &&& 0x1ff#16) ||| (((d &&& 0x7e0#64) <<< 4) ||| ((d &&& 0x1000#64) <<< 3)).setWidth 16)

theorem dec_pb32 (f3 : BitVec 3) (a b : Nat) (d : BitVec 64) (h : d.getLsbD 0 = false) :
    decode32 (pb32 f3 a b d) = (decBr (f3 ^^^ 1#3)).map fun o => .branch o (regMap a) (regMap b) (d.setWidth 13) := by
  have h1 : fOpc (pb32 f3 a b d) = 0x63#7 := by brb [pb32]
  have h2 : fF3 (pb32 f3 a b d) = f3 ^^^ 1#3 := by brb [pb32]
  have h3 : fRs1 (pb32 f3 a b d) = regMap a := by brb [pb32]
  have h4 : fRs2 (pb32 f3 a b d) = regMap b := by brb [pb32]
  have h5 : fImmB (pb32 f3 a b d) = d.setWidth 13 := by brb [pb32, h]
  simp only [decode32, h1, h2, h3, h4, h5]
  rfl

/-- The 16 bit branch widened to 32 bits. -/
def pb48 (ne : Bool) (r : Nat) (d : BitVec 64) : BitVec 32 :=
  let c0 := (if ne then C_BNEZ else C_BEQZ) ||| C_RS1_R3 r ||| BRANCH16_LENGTH
  join ((((BNE.setWidth 16 : BitVec 16) ^^^ ((c0 &&& 0x2000#16) >>> 1)) ||| ((c0 &&& 0x80#16) <<< 8)) ||| (((d &&& 0x800#64) >>> 4) ||| ((d &&& 0x1e#64) <<< 7)).setWidth 16)
    ((((c0 &&& 0x300#16) >>> 8) ||| 0x4#16) ||| (((d &&& 0x7e0#64) <<< 4) ||| ((d &&& 0x1000#64) <<< 3)).setWidth 16)

set_option maxHeartbeats 1000000 in
theorem dec_pb48 (ne : Bool) (r : Nat) (d : BitVec 64) (hr : C_IS_R3 r = true) (h : d.getLsbD 0 = false) :
    decode32 (pb48 ne r d) = some (.branch (if ne then .eq else .ne) (regMap r) 0#5 (d.setWidth 13)) := by
  have i3 := isR3_3 hr
  cases ne
  · have h1 : fOpc (pb48 false r d) = 0x63#7 := by brb [pb48, C_BEQZ, C_OPC, C_RS1_R3, BRANCH16_LENGTH, C_BRN16, i3]
    have h2 : fF3 (pb48 false r d) = 1#3 := by brb [pb48, C_BEQZ, C_OPC, C_RS1_R3, BRANCH16_LENGTH, C_BRN16, i3]
    have h3 : fRs1 (pb48 false r d) = regMap r := by brb [pb48, C_BEQZ, C_OPC, C_RS1_R3, BRANCH16_LENGTH, C_BRN16, i3]
    have h4 : fRs2 (pb48 false r d) = 0#5 := by brb [pb48, C_BEQZ, C_OPC, C_RS1_R3, BRANCH16_LENGTH, C_BRN16, i3]
    have h5 : fImmB (pb48 false r d) = d.setWidth 13 := by brb [pb48, C_BEQZ, C_OPC, C_RS1_R3, BRANCH16_LENGTH, C_BRN16, i3, h]
    simp only [decode32, h1, h2, h3, h4, h5]
    rfl
  · have h1 : fOpc (pb48 true r d) = 0x63#7 := by brb [pb48, C_BNEZ, C_OPC, C_RS1_R3, BRANCH16_LENGTH, C_BRN16, i3]
    have h2 : fF3 (pb48 true r d) = 0#3 := by brb [pb48, C_BNEZ, C_OPC, C_RS1_R3, BRANCH16_LENGTH, C_BRN16, i3]
    have h3 : fRs1 (pb48 true r d) = regMap r := by brb [pb48, C_BNEZ, C_OPC, C_RS1_R3, BRANCH16_LENGTH, C_BRN16, i3]
    have h4 : fRs2 (pb48 true r d) = 0#5 := by brb [pb48, C_BNEZ, C_OPC, C_RS1_R3, BRANCH16_LENGTH, C_BRN16, i3]
    have h5 : fImmB (pb48 true r d) = d.setWidth 13 := by brb [pb48, C_BNEZ, C_OPC, C_RS1_R3, BRANCH16_LENGTH, C_BRN16, i3, h]
    simp only [decode32, h1, h2, h3, h4, h5]
    rfl

/-- The 16 bit branch patched in place. -/
def pb16 (ne : Bool) (r : Nat) (d : BitVec 64) : BitVec 16 :=
  ((((if ne then C_BNEZ else C_BEQZ) ||| C_RS1_R3 r ||| BRANCH16_LENGTH) &&& 0xe383#16) ^^^ 0x2000#16) ||| C_BRN16 d

macro "cbr" "[" ls:Lean.Parser.Tactic.simpLemma,* "]" : tactic =>
  `(tactic| bits [$ls,*, put, C_OPC, C_RS1_R3, BRANCH16_LENGTH, C_BRN16, C_JMP16, C_BEQZ, C_BNEZ, C_J, cReg, cImmB, cImmJ, Kind.skip16])

theorem dec_pb16 (ne : Bool) (r : Nat) (d : BitVec 64) (hr : C_IS_R3 r = true) (h : d.getLsbD 0 = false) :
    decode16 (pb16 ne r d) = some (.branch (if ne then .eq else .ne) (regMap r) 0#5 ((d.setWidth 9).signExtend 13)) := by
  have i3 := isR3_3 hr
  cases ne
  · have h1 : (pb16 false r d).extractLsb' 0 2 = 1#2 := by cbr [pb16, i3]
    have h2 : (pb16 false r d).extractLsb' 13 3 = 7#3 := by cbr [pb16, i3]
    have h3 : cReg ((pb16 false r d).extractLsb' 7 3) = regMap r := by cbr [pb16, i3]
    have h4 : cImmB (pb16 false r d) = d.setWidth 9 := by cbr [pb16, i3, h]
    simp only [decode16, h1, h2, h3, h4]
    rfl
  · have h1 : (pb16 true r d).extractLsb' 0 2 = 1#2 := by cbr [pb16, i3]
    have h2 : (pb16 true r d).extractLsb' 13 3 = 6#3 := by cbr [pb16, i3]
    have h3 : cReg ((pb16 true r d).extractLsb' 7 3) = regMap r := by cbr [pb16, i3]
    have h4 : cImmB (pb16 true r d) = d.setWidth 9 := by cbr [pb16, i3, h]
    simp only [decode16, h1, h2, h3, h4]
    rfl

/-- The 16 bit branch around a longer jump. -/
def sk16 (ne : Bool) (r : Nat) (x : BitVec 64) : BitVec 16 :=
  ((if ne then C_BNEZ else C_BEQZ) ||| C_RS1_R3 r ||| BRANCH16_LENGTH) ^^^ (BRANCH16_LENGTH ^^^ C_BRN16 x)

theorem dec_sk16 (ne : Bool) (r : Nat) (x : BitVec 64) (hr : C_IS_R3 r = true) (h : x.getLsbD 0 = false) :
    decode16 (sk16 ne r x) = some (.branch (if ne then .ne else .eq) (regMap r) 0#5 ((x.setWidth 9).signExtend 13)) := by
  have i3 := isR3_3 hr
  cases ne
  · have h1 : (sk16 false r x).extractLsb' 0 2 = 1#2 := by cbr [sk16, i3]
    have h2 : (sk16 false r x).extractLsb' 13 3 = 6#3 := by cbr [sk16, i3]
    have h3 : cReg ((sk16 false r x).extractLsb' 7 3) = regMap r := by cbr [sk16, i3]
    have h4 : cImmB (sk16 false r x) = x.setWidth 9 := by cbr [sk16, i3, h]
    simp only [decode16, h1, h2, h3, h4]
    rfl
  · have h1 : (sk16 true r x).extractLsb' 0 2 = 1#2 := by cbr [sk16, i3]
    have h2 : (sk16 true r x).extractLsb' 13 3 = 7#3 := by cbr [sk16, i3]
    have h3 : cReg ((sk16 true r x).extractLsb' 7 3) = regMap r := by cbr [sk16, i3]
    have h4 : cImmB (sk16 true r x) = x.setWidth 9 := by cbr [sk16, i3, h]
    simp only [decode16, h1, h2, h3, h4]
    rfl

/-- The 32 bit branch around a longer jump. -/
def sk32 (f3 : BitVec 3) (a b : Nat) (x : BitVec 32) : BitVec 32 :=
  let w := BRANCH f3 ||| RS1 a ||| RS2 b ||| BRANCH_LENGTH
  join (w.setWidth 16 ^^^ (BRANCH_LENGTH ^^^ (x <<< 7)).setWidth 16) ((w >>> 16).setWidth 16)

theorem dec_sk32 (f3 : BitVec 3) (a b : Nat) (x : BitVec 32) (h : x &&& ~~~0x1e#32 = 0#32) :
    decode32 (sk32 f3 a b x) = (decBr f3).map fun o => .branch o (regMap a) (regMap b) (x.setWidth 13) := by
  have hb : ∀ k, k < 32 → ¬ (1 ≤ k ∧ k ≤ 4) → x.getLsbD k = false := by
    intro k hk hn
    have := congrArg (fun v : BitVec 32 => v.getLsbD k) h
    simp only [BitVec.getLsbD_and, BitVec.getLsbD_not, hk, decide_true, Bool.true_and, BitVec.getLsbD_zero] at this
    have h2 : (0x1e#32).getLsbD k = false := by
      interval_cases k <;> first | rfl | (exfalso; omega)
    simpa [h2] using this
  have b0 := hb 0 (by omega) (by omega)
  have b5 := hb 5 (by omega) (by omega)
  have b6 := hb 6 (by omega) (by omega)
  have b7 := hb 7 (by omega) (by omega)
  have b8 := hb 8 (by omega) (by omega)
  have b9 := hb 9 (by omega) (by omega)
  have b10 := hb 10 (by omega) (by omega)
  have b11 := hb 11 (by omega) (by omega)
  have b12 := hb 12 (by omega) (by omega)
  have h1 : fOpc (sk32 f3 a b x) = 0x63#7 := by brb [sk32]
  have h2 : fF3 (sk32 f3 a b x) = f3 := by brb [sk32, b5, b6, b7, b8]
  have h3 : fRs1 (sk32 f3 a b x) = regMap a := by brb [sk32, b8]
  have h4 : fRs2 (sk32 f3 a b x) = regMap b := by brb [sk32]
  have h5 : fImmB (sk32 f3 a b x) = x.setWidth 13 := by brb [sk32, b0, b5, b6, b7, b8, b9, b10, b11, b12]
  simp only [decode32, h1, h2, h3, h4, h5]
  rfl

theorem dec_C_J (d : BitVec 64) (h : d.getLsbD 0 = false) : decode16 (C_J ||| C_JMP16 d) = some (.jal 0#5 ((d.setWidth 12).signExtend 21)) := by
  have h1 : (C_J ||| C_JMP16 d).extractLsb' 0 2 = 1#2 := by cbr [Nat.reduceAdd]
  have h2 : (C_J ||| C_JMP16 d).extractLsb' 13 3 = 5#3 := by cbr [Nat.reduceAdd]
  have h4 : cImmJ (C_J ||| C_JMP16 d) = d.setWidth 12 := by cbr [h]
  simp only [decode16, h1, h2, h4]
  rfl

/-- The patched JAL. -/
def pJal (r : Nat) (d : BitVec 64) : BitVec 32 := JAL ||| RD r |||
  ((d &&& 0xff000#64) ||| ((d &&& 0x800#64) <<< 9) ||| ((d &&& 0x7fe#64) <<< 20) ||| ((d &&& 0x100000#64) <<< 11)).setWidth 32

theorem dec_pJal (r : Nat) (d : BitVec 64) (h : d.getLsbD 0 = false) : decode32 (pJal r d) = some (.jal (regMap r) (d.setWidth 21)) := by
  have h1 : fOpc (pJal r d) = 0x6f#7 := by brb [pJal]
  have h2 : fRd (pJal r d) = regMap r := by brb [pJal]
  have h3 : fImmJ (pJal r d) = d.setWidth 21 := by brb [pJal, h]
  simp only [decode32, h1, h2, h3]
  rfl

theorem dec_C_NOP : decode16 C_NOP = some (.opi .add 0#5 0#5 0#12) := by decide +kernel
theorem dec_NOP : decode32 NOP = some (.opi .add 0#5 0#5 0#12) := by decide +kernel

end Verif.RV
