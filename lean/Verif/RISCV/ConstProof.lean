import Verif.RISCV.Const
import Verif.RISCV.LoadImmProof

/-! # Rewritable constants and jumps: helper lemmas -/

namespace Verif.RV
theorem adj12_round (v : BitVec 64) : adj12 v = round v := rfl

theorem round_low_eq (v : BitVec 64) : (v &&& 0xfff#64).setWidth 12 = v.setWidth 12 := by bits [Nat.reduceAdd]

theorem round_split (v : BitVec 64) : (round v &&& ~~~0xfff#64) + ((round v).setWidth 12).signExtend 64 = v := by
  have h1 : (round v &&& ~~~0xfff#64) = round v - (round v &&& 0xfff#64) := by
    have : round v = (round v &&& ~~~0xfff#64) + (round v &&& 0xfff#64) := by
      rw [BitVec.add_eq_or_of_and_eq_zero _ _ (by bits [Nat.reduceAdd])]
      bits [Nat.reduceAdd]
    exact (BitVec.sub_eq_iff_eq_add.mpr this).symm
  rw [h1]
  apply BitVec.eq_of_toNat_eq
  have hs := sext12_toInt ((round v).setWidth 12)
  rw [BitVec.toInt_eq_toNat_cond] at hs
  have b2 := (((round v).setWidth 12).signExtend 64).isLt
  have := v.isLt
  rw [BitVec.toNat_add, BitVec.toNat_sub, andfff]
  generalize (((round v).setWidth 12).signExtend 64).toNat = S at *
  simp only [BitVec.toNat_setWidth, round_toNat] at hs ⊢
  by_cases hb : v.toNat / 2048 % 2 = 1
  · simp only [hb, if_true] at hs ⊢
    split at hs <;> split at hs <;> omega
  · simp only [hb, if_false] at hs ⊢
    split at hs <;> split at hs <;> omega

theorem and80000000 (x : BitVec 64) : (x &&& 0x80000000#64 ≠ 0#64) ↔ x.getLsbD 31 = true := by
  constructor
  · intro h
    by_contra hc
    apply h
    apply BitVec.eq_of_getLsbD_eq
    intro k hk
    by_cases hk31 : k = 31
    · subst hk31; simp [-BitVec.getLsbD_eq_getElem, Bool.eq_false_iff.mpr hc]
    · have : (0x80000000#64).getLsbD k = false := by
        rw [show (0x80000000#64) = BitVec.twoPow 64 31 from rfl, BitVec.getLsbD_twoPow]
        simp; omega
      simp [-BitVec.getLsbD_eq_getElem, this]
  · intro h hz
    have := congrArg (fun x => x.getLsbD 31) hz
    simp [-BitVec.getLsbD_eq_getElem, h] at this

theorem not_fff_bit (k : Nat) (hk : k < 64) : (~~~0xfff#64).getLsbD k = decide (12 ≤ k) := by
  interval_cases k <;> decide

theorem xor_high (u : BitVec 64) :
    uimm (u.extractLsb' 12 20) ^^^ ((if u &&& 0x80000000#64 ≠ 0#64 then ~~~(u.sshiftRight 32) else u.sshiftRight 32) <<< 32)
      = u &&& ~~~0xfff#64 := by
  have h := combine_bits (u &&& ~~~0xfff#64)
  have e1 : ((u &&& ~~~0xfff#64).setWidth 32).signExtend 64 = uimm (u.extractLsb' 12 20) := by
    unfold uimm
    congr 1
    bits [Nat.reduceAdd]
  have e2 : ((((u &&& ~~~0xfff#64).setWidth 32).signExtend 64) &&& 0x80000000#64 ≠ 0#64) ↔ u &&& 0x80000000#64 ≠ 0#64 := by
    rw [and80000000, and80000000]
    simp [-BitVec.getLsbD_eq_getElem, BitVec.getLsbD_signExtend]
  have e3 : (u &&& ~~~0xfff#64).sshiftRight 32 = u.sshiftRight 32 := by
    apply BitVec.eq_of_getLsbD_eq
    intro k hk
    have hm : (u &&& ~~~0xfff#64).msb = u.msb := by
      simp [-BitVec.getLsbD_eq_getElem, BitVec.msb_eq_getLsbD_last]
    rw [BitVec.getLsbD_sshiftRight, BitVec.getLsbD_sshiftRight, hm]
    by_cases hk2 : 32 + k < 64
    · rw [BitVec.getLsbD_and, not_fff_bit _ hk2]
      simp [-BitVec.getLsbD_eq_getElem, show 12 ≤ 32 + k by omega]
    · simp [-BitVec.getLsbD_eq_getElem, hk2]
  simp only [e2] at h
  rw [e1, e3] at h
  exact h

/-- The five instructions before the last one leave the adjusted upper part in `d`. -/
theorem emitConst_pre (d : Nat) (v : BitVec 64) (last : BitVec 32) (hd : regMap d ≠ 0#5) (h3 : regMap d ≠ 7#5) (s : St) :
    ∃ pre s', emitConst d v last = pre ++ w32 (last ||| RS1 d ||| IMM_I (round v)) ∧ pre.length = 10 ∧ run pre s = some s' ∧
      s'.rd (regMap d) + ((round v).setWidth 12).signExtend 64 = v ∧ Keep [regMap d, 7#5] s s' := by
  have ht : regMap TMP_REG3 = 7#5 := rfl
  have hc := round_split v
  have hH := fun w => L1_32 w
  obtain ⟨w, ew, hx⟩ : ∃ w, constHigh (adj12 v) = round w ∧
      uimm ((round v).extractLsb' 12 20) ^^^ w <<< 32 = round v &&& ~~~0xfff#64 := ⟨_, rfl, xor_high (round v)⟩
  unfold emitConst
  rw [adj12_round] at ew
  simp only [adj12_round, ew]
  refine ⟨_, _, rfl, rfl, by
    simp only [List.append_assoc]
    rw [run32 (dec_LUI_mask ..), execS, Option.bind_some, run32 (dec_ADDI ..), execS, Option.bind_some,
      run32 (dec_LUI_mask ..), execS, Option.bind_some, run32 (dec_SLLI _ _ _ (by decide)), execS, Option.bind_some,
      run32' (dec_XOR ..)]
    rfl, ?_, ?_⟩
  · have h3' : (7#5 : Reg) ≠ regMap d := fun e => h3 e.symm
    simp only [rd_adv, rd_wr, hd, ht, if_false, if_true, ROp.eval, ShOp.eval, IOp.eval, h3, h3',
      show (7#5 : Reg) ≠ 0#5 by decide]
    rw [show ((32#64).setWidth 6).toNat = 32 from rfl, ← round_low_eq (round w), hH w, hx]
    exact hc
  · exact ((((((((((Keep.wr _ _ _ _ (by simp [ht])).adv _).wr' _ _ (by simp [ht])).adv _).wr' _ _ (by simp)).adv _).wr' _ _
      (by simp [ht])).adv _).wr' _ _ (by simp)).adv _)

theorem emitConst_ok (d : Nat) (v : BitVec 64) (hd : regMap d ≠ 0#5) (h3 : regMap d ≠ 7#5) :
    Loads (emitConst d v (ADDI ||| RD d)) d [regMap d, 7#5] v := by
  intro s
  obtain ⟨pre, s', e, -, r, hv, k⟩ := emitConst_pre d v (ADDI ||| RD d) hd h3 s
  rw [e]
  refine ⟨_, run_seq r (by rw [run32' (dec_ADDI ..)]; rfl), ?_, (k.wr' _ _ (by simp)).adv _⟩
  simp only [rd_adv, rd_wr, hd, if_false, if_true, IOp.eval]
  exact hv

theorem Z_RD : JALR ||| RD 0 = JALR := by decide

/-- Rewritable jump: the sequence ends at the target; `l` is the link register (0 for a plain jump). -/
theorem emitConst_jump (d l : Nat) (v : BitVec 64) (hd : regMap d ≠ 0#5) (h3 : regMap d ≠ 7#5) (code : Code) (s : St)
    (hc : CodeAt code s.pc (emitConst d v (JALR ||| RD l))) :
    ∃ s', Steps code s s' ∧ s'.pc = v &&& ~~~1#64 ∧
      (regMap l ≠ 0#5 → s'.rd (regMap l) = s.pc + 24#64) ∧ Keep [regMap d, 7#5, regMap l] s s' := by
  obtain ⟨pre, s1, e, hl, r, hv, k⟩ := emitConst_pre d v (JALR ||| RD l) hd h3 s
  rw [e, CodeAt_append] at hc
  have hs1 := steps_of_run hc.1 r
  have hpc := run_pc r
  rw [hl] at hpc
  have hc2 := hc.2
  rw [hl, ← hpc] at hc2
  have hst : step code s1 = exec (.jalr (regMap l) (regMap d) ((round v).setWidth 12)) 4#64 s1 := by
    simp only [step]
    simp only [w32, CodeAt] at hc2
    simp only [hc2.1, hc2.2.1]
    rw [join32, not_isC_of_decode32 (by rw [dec_JALR]; rfl), dec_JALR]
    rfl
  have hex : exec (.jalr (regMap l) (regMap d) ((round v).setWidth 12)) 4#64 s1 =
      some { s1.wr (regMap l) (s1.pc + 4#64) with pc := v &&& ~~~1#64 } := by
    simp only [exec, execS, execJ, hv]
  refine ⟨_, hs1.trans (.step (hst.trans hex) (.refl _)), rfl, ?_, ?_⟩
  · intro hlz
    show (s1.wr (regMap l) (s1.pc + 4#64)).rd (regMap l) = _
    rw [rd_wr, if_neg hlz, if_pos rfl, hpc, BitVec.add_assoc]
    rfl
  · have := (k.mono (W' := [regMap d, 7#5, regMap l]) (by simp)).wr' (regMap l) (s1.pc + 4#64) (by simp)
    exact ⟨this.1, this.2, this.3⟩

/-! ## Patching -/

section patch
variable (d l : Nat) (h h' : BitVec 64) (last : BitVec 32)

def ulo (d : Nat) (h : BitVec 64) : BitVec 16 := (LUI ||| RD d ||| (h &&& ~~~0xfff#64).setWidth 32).setWidth 16
def uhi (d : Nat) (h : BitVec 64) : BitVec 16 := ((LUI ||| RD d ||| (h &&& ~~~0xfff#64).setWidth 32) >>> 16).setWidth 16

theorem ulo_patch : (ulo d h &&& 0xfff#16) ||| (h' &&& 0xf000#64).setWidth 16 = ulo d h' := by
  bits [ulo, LUI, OPC, RD]
theorem ulo_assert : ulo d h &&& 0x7f#16 = LUI.setWidth 16 := by bits [ulo, LUI, OPC, RD]
theorem uhi_patch : (h'.sshiftRight 16).setWidth 16 = uhi d h' := by bits [uhi, LUI, OPC, RD, BitVec.getLsbD_sshiftRight]
theorem uhi_patch' : (h' >>> 16).setWidth 16 = uhi d h' := by bits [uhi, LUI, OPC, RD]

/-- An I-type word without its immediate: the upper 12 bits are clear. -/
def noImm (w : BitVec 32) : Prop := ∀ k, 20 ≤ k → w.getLsbD k = false

theorem i_lo (w : BitVec 32) : (w ||| IMM_I h).setWidth 16 = w.setWidth 16 := by bits [IMM_I]
theorem i_patch (w : BitVec 32) (hw : noImm w) :
    ((((w ||| IMM_I h) >>> 16).setWidth 16) &&& 0xf#16) ||| (h' <<< 4).setWidth 16 = ((w ||| IMM_I h') >>> 16).setWidth 16 := by
  have a20 := hw 20; have a21 := hw 21; have a22 := hw 22; have a23 := hw 23; have a24 := hw 24; have a25 := hw 25
  have a26 := hw 26; have a27 := hw 27; have a28 := hw 28; have a29 := hw 29; have a30 := hw 30; have a31 := hw 31
  simp only [Nat.reduceLeDiff, forall_const] at *
  bits [IMM_I, a20, a21, a22, a23, a24, a25, a26, a27, a28, a29, a30, a31]
theorem i_assert (f : BitVec 3) (o : BitVec 7) (d a : Nat) :
    (F3 f ||| OPC o ||| RD d ||| RS1 a).setWidth 16 &&& 0x707f#16 = (F3 f ||| OPC o).setWidth 16 := by
  bits [F3, OPC, RD, RS1]
theorem noImm_mk (f : BitVec 3) (o : BitVec 7) (d a : Nat) : noImm (F3 f ||| OPC o ||| RD d ||| RS1 a) := by
  intro k hk
  by_cases h32 : k < 32
  · interval_cases k <;> simp [-BitVec.getLsbD_eq_getElem, F3, OPC, RD, RS1]
  · exact BitVec.getLsbD_of_ge _ _ (by omega)
end patch


/-- The half words of the constant sequence. -/
theorem emitConst_words (d : Nat) (v : BitVec 64) (last : BitVec 32) :
    emitConst d v last =
      [ulo 27 (constHigh (adj12 v)), uhi 27 (constHigh (adj12 v)),
       (ADDI ||| RD 27 ||| RS1 27 ||| IMM_I (constHigh (adj12 v))).setWidth 16,
       ((ADDI ||| RD 27 ||| RS1 27 ||| IMM_I (constHigh (adj12 v))) >>> 16).setWidth 16,
       ulo d (adj12 v), uhi d (adj12 v),
       (SLLI ||| RD 27 ||| RS1 27 ||| IMM_I 32#64).setWidth 16, ((SLLI ||| RD 27 ||| RS1 27 ||| IMM_I 32#64) >>> 16).setWidth 16,
       (XOR ||| RD d ||| RS1 d ||| RS2 27).setWidth 16, ((XOR ||| RD d ||| RS1 d ||| RS2 27) >>> 16).setWidth 16,
       (last ||| RS1 d ||| IMM_I (adj12 v)).setWidth 16, ((last ||| RS1 d ||| IMM_I (adj12 v)) >>> 16).setWidth 16] := rfl

theorem upd_eq (m : Code) (a : BitVec 64) (h : BitVec 16) : upd m a h a = h := by simp [upd]
theorem upd_ne {m : Code} {a b : BitVec 64} {h : BitVec 16} (hne : b ≠ a) : upd m a h b = m b := by simp [upd, hne]

theorem setJumpAddr_ok (m : Code) (addr v v' : BitVec 64) (d : Nat) (last : BitVec 32)
    (hlast : ∃ l, last = ADDI ||| RD l ∨ last = JALR ||| RD l) (hc : CodeAt m addr (emitConst d v last)) :
    ∃ m', setJumpAddr m addr v' = some m' ∧ CodeAt m' addr (emitConst d v' last) ∧
      ∀ a, (∀ i, i < 12 → a ≠ addr + BitVec.ofNat 64 (2 * i)) → m' a = m a := by
  have hni : noImm (last ||| RS1 d) := by
    obtain ⟨l, h | h⟩ := hlast <;> rw [h]
    · exact noImm_mk 0 0x13 l d
    · exact noImm_mk 0 0x67 l d
  have hasrt : (last ||| RS1 d).setWidth 16 &&& 0x707f#16 = ADDI.setWidth 16 ∨
      (last ||| RS1 d).setWidth 16 &&& 0x707f#16 = JALR.setWidth 16 := by
    obtain ⟨l, h | h⟩ := hlast <;> rw [h]
    · exact Or.inl (i_assert 0 0x13 l d)
    · exact Or.inr (i_assert 0 0x67 l d)
  have ha2 : (ADDI ||| RD 27 ||| RS1 27).setWidth 16 &&& 0x707f#16 = ADDI.setWidth 16 := i_assert 0 0x13 27 27
  rw [emitConst_words] at hc ⊢
  simp only [CodeAt, BitVec.add_assoc, BitVec.reduceAdd, and_true] at hc
  obtain ⟨c0, c1, c2, c3, c4, c5, c6, c7, c8, c9, c10, c11⟩ := hc
  rw [i_lo] at c2 c10
  unfold setJumpAddr
  simp only [c0, c2, c3, c4, c10, c11, ulo_assert, ha2, hasrt, ulo_patch, true_and, if_true]
  refine ⟨_, rfl, ?_, ?_⟩
  · simp only [CodeAt, BitVec.add_assoc, BitVec.reduceAdd, and_true, upd, BitVec.add_right_inj, BitVec.reduceEq, if_true, if_false,
      BitVec.self_eq_add_right, BitVec.add_right_eq_self, c2, c6, c7, c8, c9, c10, i_lo]
    refine ⟨trivial, uhi_patch _ _, ?_⟩
    simp only [true_and]
    refine ⟨i_patch _ _ _ (noImm_mk 0 0x13 27 27), uhi_patch' _ _, i_patch _ _ _ hni⟩
  · intro a ha
    have n0 := ha 0; have n1 := ha 1; have n3 := ha 3; have n4 := ha 4; have n5 := ha 5; have n11 := ha 11
    simp only [Nat.reduceLT, Nat.reduceMul, forall_const, BitVec.add_zero] at n0 n1 n3 n4 n5 n11
    simp only [upd, n0, n1, n3, n4, n5, n11, if_false]


theorem ADDI_noRS1 (d : Nat) (i : BitVec 64) : ADDI ||| RD d ||| IMM_I i = ADDI ||| RD d ||| RS1 0 ||| IMM_I i := by
  have : RS1 0 = 0#32 := by decide
  simp [this]

theorem and100 (v : BitVec 64) : (v &&& 0x100#64 ≠ 0#64) ↔ v.getLsbD 8 = true := by
  constructor
  · intro h
    by_contra hc
    apply h
    have hc := Bool.eq_false_iff.mpr hc
    bits [hc]
  · intro h hz
    have := congrArg (fun x => x.getLsbD 8) hz
    simp [-BitVec.getLsbD_eq_getElem, h] at this

theorem u8Field_val (v : BitVec 64) : ((u8Field v).setWidth 12).signExtend 64 = (v.setWidth 9).signExtend 64 := by
  have e : (u8Field v).setWidth 12 = (v.setWidth 9).signExtend 12 := by
    unfold u8Field
    split
    · next h =>
      rw [and100] at h
      bits [BitVec.getLsbD_signExtend, BitVec.msb_eq_getLsbD_last, h]
    · next h =>
      rw [and100, Bool.not_eq_true] at h
      bits [BitVec.getLsbD_signExtend, BitVec.msb_eq_getLsbD_last, h]
  rw [e]
  apply BitVec.eq_of_toInt_eq
  rw [BitVec.toInt_signExtend_of_le (by decide), BitVec.toInt_signExtend_of_le (by decide),
    BitVec.toInt_signExtend_of_le (by decide)]

theorem adj32_val (v : BitVec 64) :
    uimm ((adj32 v).extractLsb' 12 20) ^^^ ((adj32 v).setWidth 12).signExtend 64 = (v.setWidth 32).signExtend 64 := by
  have hb : (v &&& 0x800#64 ≠ 0#64) ↔ v.getLsbD 11 = true := by
    rw [and800, BitVec.getLsbD, Nat.testBit_eq_decide_div_mod_eq]; simp
  unfold adj32 uimm
  by_cases h : v.getLsbD 11 = true
  · rw [if_pos (hb.mpr h)]
    apply BitVec.eq_of_getLsbD_eq
    intro k hk
    interval_cases k <;>
      simp [-BitVec.getLsbD_eq_getElem, -BitVec.setWidth_eq, BitVec.getLsbD_signExtend, BitVec.msb_eq_getLsbD_last, h]
  · rw [if_neg (fun h' => h (hb.mp h'))]
    rw [Bool.not_eq_true] at h
    apply BitVec.eq_of_getLsbD_eq
    intro k hk
    interval_cases k <;>
      simp [-BitVec.getLsbD_eq_getElem, -BitVec.setWidth_eq, BitVec.getLsbD_signExtend, BitVec.msb_eq_getLsbD_last, h]

theorem u8_ok (d : Nat) (v : BitVec 64) (hd : regMap d ≠ 0#5) :
    Loads (emitConstReg .u8 d v) d [regMap d] ((v.setWidth 9).signExtend 64) := by
  intro s
  simp only [emitConstReg]
  refine ⟨_, by rw [ADDI_noRS1, run32' (dec_ADDI ..)]; rfl, ?_, (Keep.wr _ _ _ _ (by simp)).adv _⟩
  simp only [rd_adv, rd_wr, hd, if_false, if_true, IOp.eval]
  rw [u8Field_val, show regMap 0 = 0#5 from rfl, rd_zero, BitVec.zero_add]

theorem c32_ok (op : ConstOp) (ho : op = .mov32 ∨ op = .s32) (d : Nat) (v : BitVec 64) (hd : regMap d ≠ 0#5) :
    Loads (emitConstReg op d v) d [regMap d] ((v.setWidth 32).signExtend 64) := by
  intro s
  have e : emitConstReg op d v = w32 (LUI ||| RD d ||| (adj32 v &&& ~~~0xfff#64).setWidth 32) ++
      w32 (XORI ||| RD d ||| RS1 d ||| IMM_I (adj32 v)) := by rcases ho with rfl | rfl <;> rfl
  rw [e]
  refine ⟨_, by rw [run32 (dec_LUI_mask ..), execS, Option.bind_some, run32' (dec_XORI ..)]; rfl, ?_,
    (((Keep.wr _ _ _ _ (by simp)).adv _).wr' _ _ (by simp)).adv _⟩
  simp only [rd_adv, rd_wr, hd, if_false, if_true, IOp.eval]
  exact adj32_val v

/-- Number of half words of a constant sequence. -/
def constLen : ConstOp → Nat
  | .u8 => 2
  | .mov32 | .s32 => 4
  | .mov => 12

theorem setConst_ok (m : Code) (op : ConstOp) (addr v k : BitVec 64) (d : Nat)
    (hc : CodeAt m addr (emitConstReg op d v)) :
    ∃ m', setConst m op addr k = some m' ∧ CodeAt m' addr (emitConstReg op d k) ∧
      ∀ a, (∀ i, i < constLen op → a ≠ addr + BitVec.ofNat 64 (2 * i)) → m' a = m a := by
  have h32 : ∀ op, op = .mov32 ∨ op = .s32 → CodeAt m addr (emitConstReg op d v) →
    ∃ m', setConst m op addr k = some m' ∧ CodeAt m' addr (emitConstReg op d k) ∧
      ∀ a, (∀ i, i < constLen op → a ≠ addr + BitVec.ofNat 64 (2 * i)) → m' a = m a := by
    intro op ho hc
    have e : ∀ v, emitConstReg op d v = [ulo d (adj32 v), uhi d (adj32 v),
      (XORI ||| RD d ||| RS1 d ||| IMM_I (adj32 v)).setWidth 16,
      ((XORI ||| RD d ||| RS1 d ||| IMM_I (adj32 v)) >>> 16).setWidth 16] := by intro v; rcases ho with rfl | rfl <;> rfl
    have e2 : setConst m op addr k = setConst m .s32 addr k := by rcases ho with rfl | rfl <;> rfl
    have e3 : constLen op = 4 := by rcases ho with rfl | rfl <;> rfl
    rw [e] at hc
    rw [e, e2, e3]
    simp only [CodeAt, BitVec.add_assoc, BitVec.reduceAdd, and_true] at hc
    obtain ⟨c0, c1, c2, c3⟩ := hc
    rw [i_lo] at c2
    have ha2 : (XORI ||| RD d ||| RS1 d).setWidth 16 &&& 0x707f#16 = XORI.setWidth 16 := i_assert 4 0x13 d d
    simp only [setConst, c0, c2, c3, ulo_assert, ha2, ulo_patch, true_and, if_true]
    refine ⟨_, rfl, ?_, ?_⟩
    · simp only [CodeAt, BitVec.add_assoc, BitVec.reduceAdd, and_true, upd, BitVec.add_right_inj, BitVec.reduceEq, if_true,
        if_false, BitVec.self_eq_add_right, BitVec.add_right_eq_self, c2, i_lo]
      refine ⟨trivial, uhi_patch _ _, trivial, ?_⟩
      rw [BitVec.or_comm]
      exact i_patch _ _ _ (noImm_mk 4 0x13 d d)
    · intro a ha
      have n0 := ha 0; have n1 := ha 1; have n3 := ha 3
      simp only [Nat.reduceLT, Nat.reduceMul, forall_const, BitVec.add_zero] at n0 n1 n3
      simp only [upd, n0, n1, n3, if_false]
  cases op with
  | mov => exact setJumpAddr_ok m addr v k d _ ⟨d, Or.inl rfl⟩ hc
  | mov32 => exact h32 .mov32 (Or.inl rfl) hc
  | s32 => exact h32 .s32 (Or.inr rfl) hc
  | u8 =>
    have e : ∀ v, emitConstReg .u8 d v = [(ADDI ||| RD d ||| RS1 0 ||| IMM_I (u8Field v)).setWidth 16,
      ((ADDI ||| RD d ||| RS1 0 ||| IMM_I (u8Field v)) >>> 16).setWidth 16] := by
      intro v; simp only [emitConstReg, ADDI_noRS1]; rfl
    rw [e] at hc ⊢
    simp only [CodeAt, and_true] at hc
    obtain ⟨c0, c1⟩ := hc
    rw [i_lo] at c0
    have ha2 : (ADDI ||| RD d ||| RS1 0).setWidth 16 &&& 0x707f#16 = ADDI.setWidth 16 := i_assert 0 0x13 d 0
    simp only [setConst, c0, c1, ha2, if_true]
    refine ⟨_, rfl, ?_, ?_⟩
    · simp only [CodeAt, and_true, upd, if_true, if_false, BitVec.self_eq_add_right, BitVec.reduceEq, c0, i_lo, true_and]
      rw [BitVec.or_comm]
      exact i_patch _ _ _ (noImm_mk 0 0x13 d 0)
    · intro a ha
      have n1 := ha 1 (by decide)
      simp only [Nat.reduceMul] at n1
      simp only [upd, n1, if_false]

/-- Code seen through the executable mapping. -/
theorem view_codeAt (m : Code) (off : BitVec 64) (l : List (BitVec 16)) (a : BitVec 64) (h : CodeAt m a l) :
    CodeAt (view m off) (a + off) l := by
  induction l generalizing a with
  | nil => trivial
  | cons x l ih =>
    refine ⟨by rw [view, BitVec.add_sub_cancel]; exact h.1, ?_⟩
    have := ih _ h.2
    rwa [BitVec.add_assoc, BitVec.add_comm 2#64, ← BitVec.add_assoc] at this

end Verif.RV
