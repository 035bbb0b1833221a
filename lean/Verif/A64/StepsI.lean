import Verif.A64.Steps
import Verif.Imm.Arm64Load

/-! # The emitted words with constants on the A64 machine (helper lemmas) -/

namespace Verif.A64
open Verif.Imm (zero_bits64)
open Verif.Imm.A64 (fld bitMask Regs)
open Verif.Imm.Arm64 (regMap RD RN TMP_ZERO W_OP ORRI logicalImm loadImmediate logicalImm_sound loadImmediate_run)

/-! ## load_immediate -/

theorem fld_split (w : BitVec 32) {k : BitVec 6} (h : fld w 23 6 = k) : fld w 23 3 = k.extractLsb' 0 3 ∧ fld w 26 3 = k.extractLsb' 3 3 := by
  subst h
  constructor <;> (apply BitVec.eq_of_getLsbD_eq; intro j hj; simp only [fld, BitVec.getLsbD_extractLsb', hj, decide_true, Bool.true_and])
  · rw [show decide (0 + j < 6) = true by simp; omega, Bool.true_and]; congr 1; omega
  · rw [show decide (3 + j < 6) = true by simp; omega, Bool.true_and]; congr 1; omega

theorem fld_one (w : BitVec 32) (k : Nat) : fld w k 1 = if bit w k then 1#1 else 0#1 := by
  apply BitVec.eq_of_getLsbD_eq; intro j hj
  obtain rfl : j = 0 := by omega
  simp only [fld, bit, BitVec.getLsbD_extractLsb']
  by_cases h : w.getLsbD k = true
  · simp [h, -BitVec.getLsbD_eq_getElem]
  · simp [h, -BitVec.getLsbD_eq_getElem]

theorem up_lo_true (v : BitVec 64) : up (lo true v) = v := by
  show (v.setWidth 64).setWidth 64 = v; simp
theorem up_lo_false (v : BitVec 64) : up (lo false v) = (v.setWidth 32).setWidth 64 := rfl

theorem put_up (x : Regs) (sf : Bool) (r : BitVec 5) (v : BitVec 64) : Verif.Imm.A64.put x (if sf then 1#1 else 0#1) r v = fun q => if q = r then up (lo sf v) else x q := by
  funext q
  cases sf
  · simp [Verif.Imm.A64.put, up_lo_false]
  · simp [Verif.Imm.A64.put, up_lo_true]

theorem lo_logF (sf : Bool) (opc : BitVec 2) (a b : BitVec 64) : logF opc (lo sf a) (lo sf b) = lo sf (logF opc a b) := by
  unfold logF
  split <;> simp [lo]

theorem lift_step {w : BitVec 32} {s : St} {i : Verif.Imm.A64.Inst} {x' : Regs} (hd : Verif.Imm.A64.decode w = some i) (he : Verif.Imm.A64.exec i s.r = some x') :
    step w s = some { s with r := x' } := by
  unfold Verif.Imm.A64.decode at hd
  split at hd
  next h =>
    obtain ⟨e1, e2⟩ := fld_split w h
    split at hd
    · cases hd
    next hn =>
      cases hd
      have hb : ¬ (fld w 29 2 = 1#2 ∨ (!bit w 31 && bit w 22) = true) := by
        rw [fld_one, fld_one] at hn
        intro hh; apply hn
        rcases hh with hh | hh
        · exact .inl hh
        · simp only [Bool.and_eq_true, Bool.not_eq_true'] at hh; simp [hh.1, hh.2]
      have dd : decode w = some (.wide (bit w 31) (fld w 29 2) (fld w 21 2) (fld w 5 16) (fld w 0 5)) := by
        rw [decode, e2, if_pos (by decide), decodeImm, e1]
        show (if fld w 29 2 = 1#2 ∨ (!bit w 31 && bit w 22) = true then none else _) = _
        rw [if_neg hb]
      rw [step, dd, Option.bind_some, exec]
      simp only [Verif.Imm.A64.exec] at he
      split at he
      · cases he
      next h31 =>
        simp only [Option.some.injEq] at he ⊢
        rw [fld_one, put_up] at he
        rw [← he, St.setX, if_neg h31, St.set, St.x, if_neg h31]
  next h =>
    split at hd
    next h2 =>
      obtain ⟨e1, e2⟩ := fld_split w h2
      rw [Option.map_eq_some_iff] at hd
      obtain ⟨m, hm, rfl⟩ := hd
      have dd : decode w = some (.logImm (bit w 31) (fld w 29 2) m (fld w 5 5) (fld w 0 5)) := by
        rw [fld_one] at hm
        rw [decode, e2, if_pos (by decide), decodeImm, e1]
        show (bitMask (sfb (bit w 31)) (fld w 10 13)).map _ = _
        rw [sfb, hm]; rfl
      rw [step, dd, Option.bind_some, exec]
      simp only [Verif.Imm.A64.exec] at he
      split at he
      · cases he
      next h31 =>
        simp only [not_or] at h31
        simp only [Option.some.injEq] at he
        rw [fld_one, put_up] at he
        simp only [if_neg h31.2]
        rw [← he, lo_logF, St.set]
        have hg : Verif.Imm.A64.get s.r (fld w 5 5) = s.x (fld w 5 5) := rfl
        rw [hg]
        generalize hopc : fld w 29 2 = opc at h31 ⊢
        have : (if opc = 0#2 then s.x (fld w 5 5) &&& m else if opc = 1#2 then s.x (fld w 5 5) ||| m else s.x (fld w 5 5) ^^^ m) = logF opc (s.x (fld w 5 5)) m := by
          have key : ∀ o : BitVec 2, ¬ o = 3#2 → o = 0#2 ∨ o = 1#2 ∨ o = 2#2 := by decide
          rcases key opc h31.2 with rfl | rfl | rfl <;> rfl
        rw [this]
    · cases hd

theorem lift {ws : List (BitVec 32)} : ∀ {s : St} {x' : Regs}, Verif.Imm.A64.run ws s.r = some x' → runs ws s = some { s with r := x' } := by
  induction ws with
  | nil => intro s x' h; cases h; rfl
  | cons w ws ih =>
    intro s x' h
    simp only [Verif.Imm.A64.run, Option.bind_eq_some_iff] at h
    obtain ⟨i, hi, y, hy, h⟩ := h
    rw [runs, lift_step hi hy, Option.bind_some]
    exact ih (s := { s with r := y }) h

/-- load_immediate into a temporary register. -/
theorem li_run (d : Nat) (hd : regMap d ≠ 31#5) (c : BitVec 64) (s : St) : ∃ ws, loadImmediate d c = some ws ∧ runs ws s = some (s.set (regMap d) c) := by
  obtain ⟨ws, e, h⟩ := loadImmediate_run hd s.r d rfl c
  exact ⟨ws, e, lift h⟩

/-! ## Arithmetic -/

variable {s : St} {d n m a : Nat}

theorem s_addi (f : Fl) (sub : Bool) (i : BitVec 12) : step (((if sub then SUBI else ADDI) ^^^ f.chk (1#32 <<< 29)) ||| RD d ||| RN n ||| (i.setWidth 32 <<< 10)) s =
    exec (.addImm (!f.int) sub f.set (i.setWidth 64) (regMap n) (regMap d)) s := by
  rw [← BitVec.shiftLeft_zero (i.setWidth 64)]
  obtain ⟨j, t, u⟩ := f
  cases j <;> cases t <;> cases u <;> cases sub <;> (rw [step, RD, RN, word_I (by decide), dec_addImm (by decide) (by decide)]; rfl)

theorem s_addi0 (f : Fl) (sub : Bool) : step (((if sub then SUBI else ADDI) ^^^ f.chk (1#32 <<< 29)) ||| RD d ||| RN n) s =
    exec (.addImm (!f.int) sub f.set 0#64 (regMap n) (regMap d)) s := by
  have := s_addi (s := s) (d := d) (n := n) f sub 0#12
  rw [show (0#12).setWidth 32 <<< 10 = 0#32 from rfl, BitVec.or_zero] at this
  rw [this]; rfl

theorem s_addiM (sub : Bool) (i : BitVec 12) : step ((if sub then SUBI else ADDI) ||| (1#32 <<< 22) ||| RD d ||| RN n ||| (i.setWidth 32 <<< 10)) s =
    exec (.addImm true sub false (i.setWidth 64 <<< 12) (regMap n) (regMap d)) s := by
  cases sub <;> (rw [step, RD, RN, word_I (by decide), dec_addImm (by decide) (by decide)]; rfl)

theorem or_move (w x y z u : BitVec 32) : w ||| x ||| y ||| z ||| u = (w ||| u) ||| x ||| y ||| z := by
  simp only [BitVec.or_assoc]; congr 1; rw [← BitVec.or_assoc, ← BitVec.or_assoc, BitVec.or_comm]; simp only [BitVec.or_assoc]

theorem s_addi12 (f : Fl) (sub : Bool) (i : BitVec 12) : step (((if sub then SUBI else ADDI) ^^^ f.chk (1#32 <<< 29)) ||| RD d ||| RN n ||| (i.setWidth 32 <<< 10) ||| (1#32 <<< 22)) s =
    exec (.addImm (!f.int) sub f.set (i.setWidth 64 <<< 12) (regMap n) (regMap d)) s := by
  rw [or_move]
  obtain ⟨j, t, u⟩ := f
  cases j <;> cases t <;> cases u <;> cases sub <;> (rw [step, RD, RN, word_I (by decide), dec_addImm (by decide) (by decide)]; rfl)

/-! ## Logical immediates -/

theorem n13 (f : BitVec 13) : f.setWidth 32 <<< 10 = (if f.getLsbD 12 then 1#32 <<< 22 else 0#32) ||| (f.setWidth 12).setWidth 32 <<< 10 ∧
    f = ((if f.getLsbD 12 then 1#1 else 0#1) ++ f.setWidth 12 : BitVec 13) := by
  constructor
  · apply BitVec.eq_of_getLsbD_eq; intro k hk
    cases h : f.getLsbD 12 <;> interval_cases k <;> simp [-BitVec.getLsbD_eq_getElem] <;> simp [-BitVec.getLsbD_eq_getElem, h]
  · apply BitVec.eq_of_getLsbD_eq; intro k hk
    rw [BitVec.getLsbD_append]
    by_cases h : k < 12
    · simp [h, -BitVec.getLsbD_eq_getElem]
    · obtain rfl : k = 12 := by omega
      cases h : f.getLsbD 12 <;> simp

theorem s_logi {b : BitVec 32} {i st : Bool} {opc : BitVec 2} (hb : b = (if st then ANDI ^^^ (3#32 <<< 29) else if opc = 1#2 then ORRI else if opc = 2#2 then EORI else ANDI) ^^^ iv i) (ho : opc = if st then 3#2 else opc)
    (ho' : st = false → opc ≠ 3#2) {f : BitVec 13} {mk : BitVec 64} (hm : bitMask (sfb !i) f = some mk) :
    step (b ||| RD d ||| RN n ||| f.setWidth 32 <<< 10) s = exec (.logImm (!i) opc mk (regMap n) (regMap d)) s := by
  obtain ⟨e1, e2⟩ := n13 f
  have key : ∀ (st i : Bool) (opc : BitVec 2), (opc = if st then 3#2 else opc) → (st = false → opc ≠ 3#2) →
      (∀ x : Bool, let b := (if st then ANDI ^^^ (3#32 <<< 29) else if opc = 1#2 then ORRI else if opc = 2#2 then EORI else ANDI) ^^^ iv i
        let c := b ||| (if x then 1#32 <<< 22 else 0#32)
        c &&& 0x3fffff#32 = 0#32 ∧ (fld c 22 10).extractLsb' 4 3 = 4#3 ∧ (fld c 22 10).extractLsb' 1 3 = 4#3 ∧ (fld c 22 10).getLsbD 9 = !i ∧ (fld c 22 10).extractLsb' 0 1 = (if x then 1#1 else 0#1) ∧
        (fld c 22 10).extractLsb' 7 2 = opc) := by decide
  obtain ⟨h1, h2, h3, h4, h5, h6⟩ := key st i opc ho ho' (f.getLsbD 12)
  rw [← hb] at h1 h2 h3 h4 h5 h6
  have e3 : b ||| RD d ||| RN n ||| f.setWidth 32 <<< 10 = (b ||| (if f.getLsbD 12 then 1#32 <<< 22 else 0#32)) ||| RD d ||| RN n ||| (f.setWidth 12).setWidth 32 <<< 10 := by
    rw [e1, ← or_move]; simp only [BitVec.or_assoc, BitVec.or_comm (if f.getLsbD 12 then 1#32 <<< 22 else 0#32)]
  rw [e3, step, RD, RN, word_I h1, dec_logImm h2 h3 (by rw [h4, h5, ← e2]; exact hm), h4, h6]; rfl

/-! ## Bitfields -/

theorem n12 (x y : BitVec 6) : (x ++ y : BitVec 12).setWidth 32 <<< 10 = (x.setWidth 32 <<< 16) ||| (y.setWidth 32 <<< 10) ∧
    (x ++ y : BitVec 12).extractLsb' 6 6 = x ∧ (x ++ y : BitVec 12).extractLsb' 0 6 = y ∧ (x ++ y : BitVec 12).getLsbD 11 = x.getLsbD 5 ∧ (x ++ y : BitVec 12).getLsbD 5 = y.getLsbD 5 := by
  have hm : ∀ j, (x ++ y : BitVec 12).getLsbD j = if j < 6 then y.getLsbD j else x.getLsbD (j - 6) := fun j => BitVec.getLsbD_append
  refine ⟨?_, ?_, ?_, hm 11, hm 5⟩
  · generalize (x ++ y : BitVec 12) = z at hm
    apply BitVec.eq_of_getLsbD_eq; intro k hk
    interval_cases k <;> simp [-BitVec.getLsbD_eq_getElem, hm]
  · generalize (x ++ y : BitVec 12) = z at hm
    apply BitVec.eq_of_getLsbD_eq; intro k hk
    interval_cases k <;> simp [-BitVec.getLsbD_eq_getElem, hm]
  · generalize (x ++ y : BitVec 12) = z at hm
    apply BitVec.eq_of_getLsbD_eq; intro k hk
    interval_cases k <;> simp [-BitVec.getLsbD_eq_getElem, hm]

/-- UBFM and SBFM. -/
theorem s_bfm0 (i sg : Bool) (immr imms : BitVec 6) (h : i = true → immr.getLsbD 5 = false ∧ imms.getLsbD 5 = false) :
    step (((if sg then SBFM else UBFM) ^^^ (iv i ||| (iv i >>> 9))) ||| RD d ||| RN n ||| ((immr.setWidth 32 <<< 16) ||| (imms.setWidth 32 <<< 10))) s =
      exec (.bfm (!i) sg immr.toNat imms.toNat (regMap n) (regMap d)) s := by
  obtain ⟨e1, e2, e3, e4, e5⟩ := n12 immr imms
  cases i
  · cases sg <;> (rw [step, RD, RN, ← e1, word_I (by decide), dec_bfm (by decide) (by decide) (by decide) (by decide) (fun h => absurd h (by decide)), e2, e3]; rfl)
  · cases sg <;> (rw [step, RD, RN, ← e1, word_I (by decide), dec_bfm (by decide) (by decide) (by decide) (by decide) (fun _ => by rw [e4, e5]; exact h rfl), e2, e3]; rfl)

theorem s_bfm (i sg : Bool) (immr imms : BitVec 6) (h : i = true → immr.getLsbD 5 = false ∧ imms.getLsbD 5 = false) :
    step (((if sg then SBFM else UBFM) ^^^ (iv i ||| (iv i >>> 9))) ||| RD d ||| RN n ||| bfBits i (immr.setWidth 32) (imms.setWidth 32)) s =
      exec (.bfm (!i) sg immr.toNat imms.toNat (regMap n) (regMap d)) s := by
  rw [← s_bfm0 i sg immr imms h, bfBits]
  have key : ∀ (i sg : Bool), ((if sg then SBFM else UBFM) ^^^ (iv i ||| (iv i >>> 9))) ||| (if i then 0#32 else 1#32 <<< 22) = ((if sg then SBFM else UBFM) ^^^ (iv i ||| (iv i >>> 9))) := by decide
  have e : ∀ w x y z u v : BitVec 32, w ||| z = w → w ||| x ||| y ||| (z ||| u ||| v) = w ||| x ||| y ||| (u ||| v) := by
    intro w x y z u v hz
    conv_rhs => rw [← hz]
    simp only [BitVec.or_assoc]; congr 1
    simp only [← BitVec.or_assoc]; congr 2; rw [BitVec.or_comm, BitVec.or_assoc]
  rw [e _ _ _ _ _ _ (key i sg)]

/-- Extensions, :1056-1075. -/
theorem s_ext (i sg : Bool) (imms : BitVec 6) (h : imms.getLsbD 5 = false) :
    step (((if sg then SBFM else UBFM) ^^^ (iv i ||| (iv i >>> 9))) ||| RD d ||| RN n ||| (imms.setWidth 32 <<< 10)) s = exec (.bfm (!i) sg 0 imms.toNat (regMap n) (regMap d)) s := by
  have := s_bfm0 (s := s) (d := d) (n := n) i sg 0#6 imms (fun _ => ⟨by decide, h⟩)
  rw [show (0#6).setWidth 32 <<< 16 = 0#32 from rfl, BitVec.zero_or] at this
  exact this

theorem ins_insI (top : BitVec 11) (rm : BitVec 5) (mid : BitVec 6) (rn rd : BitVec 5) (h : top.getLsbD 0 = false) :
    ins top rm mid rn rd = insI (top.extractLsb' 1 10) ((rm ++ mid : BitVec 11).setWidth 12) rn rd := by
  have hm : ∀ j, (rm ++ mid : BitVec 11).getLsbD j = if j < 6 then mid.getLsbD j else rm.getLsbD (j - 6) := fun j => BitVec.getLsbD_append
  apply BitVec.eq_of_getLsbD_eq; intro k hk
  rw [ins_bit, insI_bit]
  generalize (rm ++ mid : BitVec 11) = z at hm
  interval_cases k <;> simp [-BitVec.getLsbD_eq_getElem, hm]
  exact h

theorem s_extr (i : Bool) (k : BitVec 6) (h : i = true → k.getLsbD 5 = false) :
    step ((EXTR ^^^ (iv i ||| (iv i >>> 9))) ||| RD d ||| RN n ||| RM m ||| (k.setWidth 32 <<< 10)) s = exec (.extr (!i) k.toNat (regMap m) (regMap n) (regMap d)) s := by
  have hm : ∀ j, (regMap m ++ k : BitVec 11).getLsbD j = if j < 6 then k.getLsbD j else (regMap m).getLsbD (j - 6) := fun j => BitVec.getLsbD_append
  have e1 : ((regMap m ++ k : BitVec 11).setWidth 12).extractLsb' 0 6 = k := by
    generalize (regMap m ++ k : BitVec 11) = z at hm
    apply BitVec.eq_of_getLsbD_eq; intro j hj
    interval_cases j <;> simp [-BitVec.getLsbD_eq_getElem, hm]
  have e2 : ((regMap m ++ k : BitVec 11).setWidth 12).extractLsb' 6 5 = regMap m := by
    generalize (regMap m ++ k : BitVec 11) = z at hm
    apply BitVec.eq_of_getLsbD_eq; intro j hj
    interval_cases j <;> simp [-BitVec.getLsbD_eq_getElem, hm]
  have e3 : ((regMap m ++ k : BitVec 11).setWidth 12).getLsbD 11 = false := by
    rw [BitVec.getLsbD_setWidth, hm]; simp [BitVec.getLsbD_of_ge]
  have e4 : ((regMap m ++ k : BitVec 11).setWidth 12).getLsbD 5 = k.getLsbD 5 := by
    rw [BitVec.getLsbD_setWidth, hm]; simp
  cases i
  · rw [step, RD, RN, RM, word_Rm (by decide), ins_insI _ _ _ _ _ (by decide), dec_extr (by decide) (by decide) (by decide) (by decide) e3 (fun h => absurd h (by decide)), e1, e2]; rfl
  · rw [step, RD, RN, RM, word_Rm (by decide), ins_insI _ _ _ _ _ (by decide), dec_extr (by decide) (by decide) (by decide) (by decide) e3 (fun _ => by rw [e4]; exact h rfl), e1, e2]; rfl

end Verif.A64
