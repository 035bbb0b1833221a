import Verif.A64.Dec

/-! # The emitted words on the A64 machine (helper lemmas) -/

namespace Verif.A64
open Verif.Imm (zero_bits64)
open Verif.Imm.A64 (fld bitMask)
open Verif.Imm.Arm64 (regMap RD RN TMP_ZERO W_OP ORRI)

theorem zbits {x m : BitVec 32} (h : x &&& m = 0#32) : ∀ k, m.getLsbD k = true → x.getLsbD k = false := by
  intro k hk
  have := congrArg (fun v => v.getLsbD k) h
  simpa [BitVec.getLsbD_and, hk, -BitVec.getLsbD_eq_getElem] using this

macro "wbits" h:ident : tactic =>
  `(tactic| (apply BitVec.eq_of_getLsbD_eq; intro k hk; rw [ins_bit]; have hz := $h k; interval_cases k <;>
      simp [-BitVec.getLsbD_eq_getElem, -BitVec.setWidth_eq, fld] at hz ⊢ <;> simp_all))
macro "wibits" h:ident : tactic =>
  `(tactic| (apply BitVec.eq_of_getLsbD_eq; intro k hk; rw [insI_bit]; have hz := $h k; interval_cases k <;>
      simp [-BitVec.getLsbD_eq_getElem, -BitVec.setWidth_eq, fld] at hz ⊢ <;> simp_all))

variable {b : BitVec 32} {rd rn rm : BitVec 5}

theorem word_R (hb : b &&& 0x1f03ff#32 = 0#32) :
    b ||| rd.setWidth 32 ||| rn.setWidth 32 <<< 5 ||| rm.setWidth 32 <<< 16 = ins (fld b 21 11) rm (fld b 10 6) rn rd := by
  have h := zbits hb
  wbits h

theorem word_N (hb : b &&& 0x1f03ff#32 = 0#32) : b ||| rd.setWidth 32 ||| rn.setWidth 32 <<< 5 = ins (fld b 21 11) 0#5 (fld b 10 6) rn rd := by
  have h := zbits hb
  wbits h

theorem word_Rm (hb : b &&& 0x1fffff#32 = 0#32) (k : BitVec 6) :
    b ||| rd.setWidth 32 ||| rn.setWidth 32 <<< 5 ||| rm.setWidth 32 <<< 16 ||| k.setWidth 32 <<< 10 = ins (fld b 21 11) rm k rn rd := by
  have h := zbits hb
  wbits h

theorem word_I (hb : b &&& 0x3fffff#32 = 0#32) (i : BitVec 12) :
    b ||| rd.setWidth 32 ||| rn.setWidth 32 <<< 5 ||| i.setWidth 32 <<< 10 = insI (fld b 22 10) i rn rd := by
  have h := zbits hb
  wibits h

theorem word_I0 (hb : b &&& 0x3ff#32 = 0#32) : b ||| rd.setWidth 32 ||| rn.setWidth 32 <<< 5 = insI (fld b 22 10) (fld b 10 12) rn rd := by
  have h := zbits hb
  wibits h

theorem word_C (hb : b &&& 0x1ff3ff#32 = 0#32) (cc : BitVec 4) :
    b ||| cc.setWidth 32 <<< 12 ||| rd.setWidth 32 ||| rn.setWidth 32 <<< 5 ||| rm.setWidth 32 <<< 16 = ins (fld b 21 11) rm (cc ++ fld b 10 2) rn rd := by
  have h := zbits hb
  have hm : ∀ j, (cc ++ fld b 10 2 : BitVec 6).getLsbD j = if j < 2 then (fld b 10 2).getLsbD j else cc.getLsbD (j - 2) := fun j => BitVec.getLsbD_append
  generalize (cc ++ fld b 10 2 : BitVec 6) = mid at hm
  apply BitVec.eq_of_getLsbD_eq; intro k hk; rw [ins_bit, hm]; have hz := h k
  interval_cases k <;> simp [-BitVec.getLsbD_eq_getElem, -BitVec.setWidth_eq, fld, BitVec.getLsbD_append] at hz ⊢ <;> simp_all [BitVec.getElem_append]

theorem dec_adc' {top : BitVec 11} {mid : BitVec 6} (hr : top.extractLsb' 4 3 = 5#3 ∧ top.extractLsb' 5 3 ≠ 4#3) (h : top.extractLsb' 3 5 = 0x1a#5) (h0 : top.extractLsb' 0 3 = 0#3) (hm : mid = 0#6) :
    decode (ins top rm mid rn rd) = some (.adc (top.getLsbD 10) (top.getLsbD 9) (top.getLsbD 8) rm rn rd) := by
  rw [hm, dec_adc hr h h0]

/-! ## The emitted words, one instruction each -/

variable {s : St} {d n m a : Nat}

/-- The bits of W_OP. -/
def iv (int : Bool) : BitVec 32 := if int then W_OP else 0#32

macro "sreg" l:term : tactic =>
  `(tactic| (rw [step, RD, RN, RM, word_R (by decide), $l:term]; rfl))

theorem s_add (f : Fl) : step ((ADD ^^^ f.chk (1#32 <<< 29)) ||| RD d ||| RN n ||| RM m) s = exec (.addReg (!f.int) false f.set 0#2 0 (regMap m) (regMap n) (regMap d)) s := by
  obtain ⟨i, t, u⟩ := f
  cases i <;> cases t <;> cases u <;> sreg (dec_addReg (by decide) (by decide) (by decide) (by decide) (by decide))

theorem s_sub (f : Fl) : step ((SUB ^^^ f.chk (1#32 <<< 29)) ||| RD d ||| RN n ||| RM m) s = exec (.addReg (!f.int) true f.set 0#2 0 (regMap m) (regMap n) (regMap d)) s := by
  obtain ⟨i, t, u⟩ := f
  cases i <;> cases t <;> cases u <;> sreg (dec_addReg (by decide) (by decide) (by decide) (by decide) (by decide))

theorem s_sub' (i : Bool) : step ((SUB ^^^ iv i) ||| RD d ||| RN n ||| RM m) s = exec (.addReg (!i) true false 0#2 0 (regMap m) (regMap n) (regMap d)) s := by
  cases i <;> sreg (dec_addReg (by decide) (by decide) (by decide) (by decide) (by decide))

theorem s_adc (f : Fl) : step ((ADC ^^^ f.chk (1#32 <<< 29)) ||| RD d ||| RN n ||| RM m) s = exec (.adc (!f.int) false f.set (regMap m) (regMap n) (regMap d)) s := by
  obtain ⟨i, t, u⟩ := f
  cases i <;> cases t <;> cases u <;> sreg (dec_adc' (by decide) (by decide) (by decide) (by decide))

theorem s_sbc (f : Fl) : step ((SBC ^^^ f.chk (1#32 <<< 29)) ||| RD d ||| RN n ||| RM m) s = exec (.adc (!f.int) true f.set (regMap m) (regMap n) (regMap d)) s := by
  obtain ⟨i, t, u⟩ := f
  cases i <;> cases t <;> cases u <;> sreg (dec_adc' (by decide) (by decide) (by decide) (by decide))

theorem s_and (f : Fl) : step ((AND ^^^ f.chk (3#32 <<< 29)) ||| RD d ||| RN n ||| RM m) s = exec (.logReg (!f.int) (if f.set then 3#2 else 0#2) false 0#2 0 (regMap m) (regMap n) (regMap d)) s := by
  obtain ⟨i, t, u⟩ := f
  cases i <;> cases t <;> cases u <;> sreg (dec_logReg (by decide) (by decide) (by decide))

theorem s_orr (i : Bool) : step ((ORR ^^^ iv i) ||| RD d ||| RN n ||| RM m) s = exec (.logReg (!i) 1#2 false 0#2 0 (regMap m) (regMap n) (regMap d)) s := by
  cases i <;> sreg (dec_logReg (by decide) (by decide) (by decide))

theorem s_eor (i : Bool) : step ((EOR ^^^ iv i) ||| RD d ||| RN n ||| RM m) s = exec (.logReg (!i) 2#2 false 0#2 0 (regMap m) (regMap n) (regMap d)) s := by
  cases i <;> sreg (dec_logReg (by decide) (by decide) (by decide))

theorem s_orn (i : Bool) : step ((ORN ^^^ iv i) ||| RD d ||| RN n ||| RM m) s = exec (.logReg (!i) 1#2 true 0#2 0 (regMap m) (regMap n) (regMap d)) s := by
  cases i <;> sreg (dec_logReg (by decide) (by decide) (by decide))

theorem s_lslv (i : Bool) : step ((LSLV ^^^ iv i) ||| RD d ||| RN n ||| RM m) s = exec (.two (!i) 8#6 (regMap m) (regMap n) (regMap d)) s := by
  cases i <;> sreg (dec_two (by decide) (by decide) (by decide) (by decide) (by decide))
theorem s_lsrv (i : Bool) : step ((LSRV ^^^ iv i) ||| RD d ||| RN n ||| RM m) s = exec (.two (!i) 9#6 (regMap m) (regMap n) (regMap d)) s := by
  cases i <;> sreg (dec_two (by decide) (by decide) (by decide) (by decide) (by decide))
theorem s_asrv (i : Bool) : step ((ASRV ^^^ iv i) ||| RD d ||| RN n ||| RM m) s = exec (.two (!i) 10#6 (regMap m) (regMap n) (regMap d)) s := by
  cases i <;> sreg (dec_two (by decide) (by decide) (by decide) (by decide) (by decide))
theorem s_rorv (i : Bool) : step ((RORV ^^^ iv i) ||| RD d ||| RN n ||| RM m) s = exec (.two (!i) 11#6 (regMap m) (regMap n) (regMap d)) s := by
  cases i <;> sreg (dec_two (by decide) (by decide) (by decide) (by decide) (by decide))
theorem s_udiv (i : Bool) : step ((UDIV ^^^ iv i) ||| RD d ||| RN n ||| RM m) s = exec (.two (!i) 2#6 (regMap m) (regMap n) (regMap d)) s := by
  cases i <;> sreg (dec_two (by decide) (by decide) (by decide) (by decide) (by decide))
theorem s_sdiv (i : Bool) : step ((SDIV ^^^ iv i) ||| RD d ||| RN n ||| RM m) s = exec (.two (!i) 3#6 (regMap m) (regMap n) (regMap d)) s := by
  cases i <;> sreg (dec_two (by decide) (by decide) (by decide) (by decide) (by decide))

theorem s_smulh : step (SMULH ||| RD d ||| RN n ||| RM m) s = exec (.mulh true (regMap m) (regMap n) (regMap d)) s := by
  sreg (dec_smulh (by decide) (by decide) (by decide) (by decide) (by decide) (by decide))
theorem s_umulh : step (UMULH ||| RD d ||| RN n ||| RM m) s = exec (.mulh false (regMap m) (regMap n) (regMap d)) s := by
  sreg (dec_umulh (by decide) (by decide) (by decide) (by decide) (by decide) (by decide))

/-- MADD with the accumulator a. -/
theorem s_madd (i : Bool) : step ((MADD ^^^ iv i) ||| RD d ||| RN n ||| RM m ||| RT2 a) s = exec (.madd (!i) (regMap a) (regMap m) (regMap n) (regMap d)) s := by
  have e : RT2 a = ((regMap a).setWidth 6).setWidth 32 <<< 10 := by
    rw [RT2]; generalize regMap a = q; revert q; decide
  have h5 : ((regMap a).setWidth 6).getLsbD 5 = false := by rw [BitVec.getLsbD_setWidth]; simp [BitVec.getLsbD_of_ge]
  have h6 : ((regMap a).setWidth 6).extractLsb' 0 5 = regMap a := by
    apply BitVec.eq_of_getLsbD_eq; intro k hk; simp [hk, BitVec.getLsbD_extractLsb', BitVec.getLsbD_setWidth, -BitVec.getLsbD_eq_getElem]; omega
  cases i <;> (rw [step, RD, RN, RM, e, word_Rm (by decide), dec_madd (by decide) (by decide) (by decide) (by decide) h5, h6]; rfl)

theorem s_smaddl : step (SMADDL ||| RD d ||| RN n ||| RM m ||| (31#32 <<< 10)) s = exec (.smaddl 31#5 (regMap m) (regMap n) (regMap d)) s := by
  rw [step, RD, RN, RM, show (31#32 <<< 10) = ((31#6).setWidth 32 <<< 10) from rfl, word_Rm (by decide), dec_smaddl (by decide) (by decide) (by decide) (by decide) (by decide) (by decide)]; rfl

/-- ADD with the second operand shifted by 31 (ASR), :1119. -/
theorem s_addAsr : step (ADD ||| RD d ||| RN n ||| RM m ||| (2#32 <<< 22) ||| (31#32 <<< 10)) s = exec (.addReg true false false 2#2 31 (regMap m) (regMap n) (regMap d)) s := by
  have e : ADD ||| RD d ||| RN n ||| RM m ||| (2#32 <<< 22) = (ADD ||| (2#32 <<< 22)) ||| RD d ||| RN n ||| RM m := by simp only [BitVec.or_assoc, BitVec.or_comm (2#32 <<< 22)]
  rw [e, step, RD, RN, RM, show (31#32 <<< 10) = ((31#6).setWidth 32 <<< 10) from rfl, word_Rm (by decide), dec_addReg (by decide) (by decide) (by decide) (by decide) (by decide)]; rfl

theorem s_subsAsr : step (SUBS ||| RD d ||| RN n ||| RM m ||| (2#32 <<< 22) ||| (63#32 <<< 10)) s = exec (.addReg true true true 2#2 63 (regMap m) (regMap n) (regMap d)) s := by
  have e : SUBS ||| RD d ||| RN n ||| RM m ||| (2#32 <<< 22) = (SUBS ||| (2#32 <<< 22)) ||| RD d ||| RN n ||| RM m := by simp only [BitVec.or_assoc, BitVec.or_comm (2#32 <<< 22)]
  rw [e, step, RD, RN, RM, show (63#32 <<< 10) = ((63#6).setWidth 32 <<< 10) from rfl, word_Rm (by decide), dec_addReg (by decide) (by decide) (by decide) (by decide) (by decide)]; rfl

/-- ADD with the second operand shifted left, :1183. -/
theorem s_addLsl (k : BitVec 6) : step (ADD ||| RD d ||| RN n ||| RM m ||| (k.setWidth 32 <<< 10)) s = exec (.addReg true false false 0#2 k.toNat (regMap m) (regMap n) (regMap d)) s := by
  rw [step, RD, RN, RM, word_Rm (by decide), dec_addReg (by decide) (by decide) (by decide) (by decide) (by intro h; exact absurd h (by decide))]; rfl

/-- SUBS of set_flags, :1150-1153, with its four inv_bits. -/
theorem s_setFlags (i : Bool) : step ((SUBS ^^^ iv i) ||| RD d ||| RN n ||| RM m) s = exec (.addReg (!i) true true 0#2 0 (regMap m) (regMap n) (regMap d)) s := by
  cases i <;> sreg (dec_addReg (by decide) (by decide) (by decide) (by decide) (by decide))
theorem s_setFlags9 (i : Bool) : step ((SUBS ^^^ (iv i ||| (iv i >>> 9))) ||| RD d ||| RN n ||| RM m) s = exec (.addReg (!i) true true (if i then 1#2 else 0#2) 0 (regMap m) (regMap n) (regMap d)) s := by
  cases i <;> sreg (dec_addReg (by decide) (by decide) (by decide) (by decide) (by decide))
theorem s_setFlags9' (i : Bool) : step ((SUBS ^^^ (iv i ||| (iv i >>> 9) ||| (1#32 <<< 30))) ||| RD d ||| RN n ||| RM m) s = exec (.addReg (!i) false true (if i then 1#2 else 0#2) 0 (regMap m) (regMap n) (regMap d)) s := by
  cases i <;> sreg (dec_addReg (by decide) (by decide) (by decide) (by decide) (by decide))

/-! ### One source -/

macro "sone" l:term : tactic =>
  `(tactic| (rw [step, RD, RN, word_N (by decide), $l:term]; rfl))

theorem s_clz (i : Bool) : step ((CLZ ^^^ iv i) ||| RD d ||| RN n) s = exec (.one (!i) 4#6 (regMap n) (regMap d)) s := by
  cases i <;> sone (dec_one (by decide) (by decide) (by decide) (by decide) (by decide))
theorem s_rbit (i : Bool) : step ((RBIT ^^^ iv i) ||| RD d ||| RN n) s = exec (.one (!i) 0#6 (regMap n) (regMap d)) s := by
  cases i <;> sone (dec_one (by decide) (by decide) (by decide) (by decide) (by decide))
theorem s_rev (i : Bool) : step ((REV ^^^ (iv i ||| (iv i >>> 21))) ||| RD d ||| RN n) s = exec (.one (!i) (if i then 2#6 else 3#6) (regMap n) (regMap d)) s := by
  cases i <;> sone (dec_one (by decide) (by decide) (by decide) (by decide) (by decide))
theorem s_rev16 : step ((REV16 ^^^ 0x80000000#32) ||| RD d ||| RN n) s = exec (.one false 1#6 (regMap n) (regMap d)) s := by
  sone (dec_one (by decide) (by decide) (by decide) (by decide) (by decide))
theorem s_rev32 : step ((REV ^^^ 0x80000400#32) ||| RD d ||| RN n) s = exec (.one false 2#6 (regMap n) (regMap d)) s := by
  sone (dec_one (by decide) (by decide) (by decide) (by decide) (by decide))

/-! ### Conditional select -/

theorem cc_mid (cc : BitVec 4) (x : BitVec 2) : (cc ++ x : BitVec 6).getLsbD 0 = x.getLsbD 0 ∧ (cc ++ x : BitVec 6).getLsbD 1 = x.getLsbD 1 ∧ (cc ++ x : BitVec 6).extractLsb' 2 4 = cc := by
  revert cc x; decide

theorem s_csel (i : Bool) (cc : BitVec 4) : step ((CSEL ^^^ iv i) ||| ccBits cc ||| RD d ||| RN n ||| RM m) s = exec (.csel (!i) false cc (regMap m) (regMap n) (regMap d)) s := by
  cases i <;> (rw [step, RD, RN, RM, ccBits, word_C (by decide), dec_csel (by decide) (by decide) (by decide) (by decide) (by decide) (by rw [(cc_mid ..).2.1]; decide), (cc_mid ..).1, (cc_mid ..).2.2]; rfl)

theorem s_csinc (cc : BitVec 4) : step (CSINC ||| ccBits cc ||| RD d ||| RN n ||| RM m) s = exec (.csel true true cc (regMap m) (regMap n) (regMap d)) s := by
  rw [step, RD, RN, RM, ccBits, word_C (by decide), dec_csel (by decide) (by decide) (by decide) (by decide) (by decide) (by rw [(cc_mid ..).2.1]; decide), (cc_mid ..).1, (cc_mid ..).2.2]; rfl

end Verif.A64
