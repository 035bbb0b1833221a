import Verif.X86.MulEff

/-! # TEST and shift instructions (helper lemmas) -/

namespace Verif.X86

variable {win m32 : Bool} {s : St}

/-! ## TEST -/

theorem e_test {r : Nat} {b : Opd} (hb : Good b) (hi : b.isImm = false) (hr : long b = true → num win r ≠ T2 win) {v : BitVec 64} {f : Flags}
    (ha : aluN m32 4#3 (opv win m32 s b) (s.r (num win r)) s.f = some (v, f)) : Eff win m32 (ins win m32 {} (.reg r) b [0x85#8]) s none v false (long b) f := by
  obtain ⟨bs, h⟩ := ins_some (win := win) (m32 := m32) (fl := {}) rfl r hi [0x85#8]
  have hg : (clob win s b).r (num win r) = s.r (num win r) := clob_reg fun e => by
    by_contra hl; exact hr (by simpa using hl) e
  refine ⟨{ clob win s b with f := f }, ⟨bs, h, ins_reg h (good_ok hb hi) (by decide) (by decide) ?_⟩, put_none win m32 s b v f, rfl⟩
  simp only [execRM, rexOf_size, show ¬ ((0x85#8 : Byte) = 0x8d#8) by decide, and_false, if_false, Option.bind_some, if_true,
    show ¬ (fld 0x85#8 6 2 = 0#2) by decide, false_and, show ¬ ((0x85#8 : Byte) = 0x81#8) by decide, show ¬ ((0x85#8 : Byte) = 0x83#8) by decide, or_self,
    get_target win m32 s b hi, hg]
  have : bin (NB m32) (fun x a b => some (logF (a &&& b))) (opv win m32 s b) (s.r (num win r)) = aluN m32 4#3 (opv win m32 s b) (s.r (num win r)) s.f := rfl
  rw [this, ha]
  rfl

theorem e_testImm {u : BitVec 64} {b : Opd} (hb : Good b) (hi : b.isImm = false) (hu : m32 = false → isHalf u = true) {v : BitVec 64} {f : Flags}
    (ha : aluN m32 4#3 (opv win m32 s b) u s.f = some (v, f)) : Eff win m32 (ins win m32 {} (.imm u) b [0xf7#8]) s none v false (long b) f := by
  obtain ⟨o, h⟩ := emit_imm_some (win := win) (m32 := m32) (bi := false) hi hu
  have hbt : btarget win {} s b = target win s b := by cases b <;> simp [btarget, target]
  refine ⟨{ clob win s b with f := f }, ⟨(o.op [0xf7#8]).bytes, by rw [ins, h]; rfl, ?_⟩, put_none win m32 s b v f, rfl⟩
  refine imm_step (imm := sext 4 u) (op := 0xf7#8) h (good_ok hb hi) (by decide) (by decide) (by decide) 0#3 rfl (fun rest => ?_) (fun rex hr _ => ?_) rfl rfl rfl ?_ rfl rfl
  · exact sle_toLe (by decide) (by decide) u rest
  · rw [hbt, show ({} : Ins).pref = 0#8 from rfl, execRM_nb hr (fun _ => by decide) (fun h => by cases h)]
    simp only [execRM, rexOf_size, show ¬ ((0xf7#8 : Byte) = 0x8d#8) by decide, and_false, if_false, Option.bind_some, if_true,
      show ¬ (fld 0xf7#8 6 2 = 0#2) by decide, false_and, show ¬ ((0xf7#8 : Byte) = 0x81#8) by decide, show ¬ ((0xf7#8 : Byte) = 0x83#8) by decide,
      show ¬ ((0xf7#8 : Byte) = 0x85#8) by decide, or_self, get_target win m32 s b hi, show ((0#3 : BitVec 3).setWidth 4).setWidth 3 = 0#3 by decide, bin_imm m32 hu]
    have : bin (NB m32) (fun x a b => some (logF (a &&& b))) (opv win m32 s b) u = aluN m32 4#3 (opv win m32 s b) u s.f := rfl
    rw [this, ha]
    rfl
  · rw [show (0#3 : BitVec 3).setWidth 8 <<< 3 = 0#8 by decide, BitVec.or_zero]; rfl

theorem e_testEax {u : BitVec 64} (hu : m32 = false → isHalf u = true) {v : BitVec 64} {f : Flags}
    (ha : aluN m32 4#3 (opv win m32 s (.reg 1)) u s.f = some (v, f)) : Eff win m32 (eaxImm m32 0xa9#8 u) s none v false false f := by
  have hp := doImm32_parse (m32 := m32) (op := 0xa9#8) (by decide) (by decide) (by decide) (by decide) (by decide) (by cases m32 <;> decide) u
  simp only [opv, num_r0, aluN_trunc] at ha
  refine ⟨{ clob win s (.reg 1) with f := f }, ⟨_, rfl, Steps.one _ hp ?_⟩, put_none win m32 s (.reg 1) v f, rfl⟩
  simp only [exec, rexOf_size, Nat.zero_ne_one, if_false, if_true, bin_imm m32 hu]
  have : bin (NB m32) (fun x a b => some (logF (a &&& b))) (s.r 0#4) u = aluN m32 4#3 (s.r 0#4) u s.f := rfl
  rw [this, ha]
  rfl

/-- TEST with any constant. -/
theorem e_testC {u : BitVec 64} {b : Opd} {t : Nat} (hb : Good b) (hi : b.isImm = false) (ht : t = TMP_REG1 ∨ t = TMP_REG2) (hbt : b ≠ .reg t) (hl : long b = true → t ≠ TMP_REG2)
    {v : BitVec 64} {f : Flags} (ha : aluN m32 4#3 (opv win m32 s b) u s.f = some (v, f)) : Eff win m32 (testImm win m32 u b t) s none v true true f := by
  unfold testImm
  by_cases hc : isHalf u = true ∨ m32 = true
  · rw [if_pos hc]
    exact Eff.weaken (e_testImm hb hi (fun hm => hc.resolve_right (by simp [hm])) ha) (fun h => by cases h) (fun h => by cases h)
  · rw [if_neg hc]
    have ht' : 15 ≤ t ∧ t ≤ 16 := by rcases ht with rfl | rfl <;> decide
    refine Eff.weaken (Eff.comp (e_load64 u) (fun s1 r1 hf => ?_) (fun d e => by cases e) (by tauto) (b1 := false) (b2 := long b)) (fun h => by cases h) (fun h => by cases h)
    refine e_test hb hi (fun h => num_ne (by omega) (by omega) (by decide) (by decide) (hl h)) (v := v) (f := f) ?_
    rw [r1.val t rfl, hf, r1.opv hb (fun d e => ?_) (fun h => by cases h) (fun h => by cases h)]
    · exact ha
    · cases e
      refine ⟨t, rfl, by omega, ht'.2, ?_⟩
      cases b with
      | imm _ => rfl
      | reg r => simp only [uses, beq_eq_false_iff_ne]; exact fun e => hbt (by rw [e])
      | mem base offs w => obtain ⟨g1, g2, -⟩ := hb; simp [uses]; omega

/-- emit_test_binary. -/
theorem e_testBinary {src1 src2 : Opd} (h1 : User src1) (h2 : User src2) {v : BitVec 64} {f : Flags}
    (ha : aluN m32 4#3 (opv win m32 s src1) (opv win m32 s src2) s.f = some (v, f)) : Eff win m32 (testBinary win m32 src1 src2) s none v true true f := by
  have cm : ∀ a b, aluN m32 4#3 a b s.f = aluN m32 4#3 b a s.f := fun a b => aluN_comm (by decide) a b s.f
  -- a constant
  have cst : ∀ (src : Opd) (u : BitVec 64) (t : Nat), User src → src.isImm = false → (t = TMP_REG1 ∨ t = TMP_REG2 ∧ long src = false) →
      aluN m32 4#3 (opv win m32 s src) u s.f = some (v, f) →
      Eff win m32 (if useEax m32 src u then eaxImm m32 0xa9#8 u else testImm win m32 u src t) s none v true true f := by
    intro src u t hs hi ht ha
    split
    next h =>
      obtain ⟨e, -, h⟩ := h
      rw [e] at ha
      exact Eff.weaken (e_testEax (fun hm => h.resolve_left (by simp [hm])) ha) (fun h => by cases h) (fun h => by cases h)
    next =>
      refine e_testC hs.good hi (by tauto) ?_ (fun hl => ?_) ha
      · rcases ht with rfl | ⟨rfl, -⟩
        · exact hs.ne (by decide)
        · exact hs.ne (by decide)
      · rcases ht with rfl | ⟨rfl, h⟩
        · decide
        · rw [h] at hl; cases hl
  have reg : ∀ (r : Nat) (b : Opd), User (.reg r) → User b → b.isImm = false → aluN m32 4#3 (opv win m32 s b) (opv win m32 s (.reg r)) s.f = some (v, f) →
      Eff win m32 (ins win m32 {} (.reg r) b [0x85#8]) s none v true true f := by
    intro r b hr hb hi ha
    rw [opv.eq_1, (aluN_trunc m32 _ _ _ _).2] at ha
    exact Eff.weaken (e_test hb.good hi (fun _ => num_ne_t2 hr.1 (by have := hr.2; omega)) ha) (fun h => by cases h) (fun h => by cases h)
  unfold testBinary
  cases src1 with
  | imm w =>
    cases src2 with
    | imm u =>
      simp only
      refine Eff.weaken (Eff.comp (e_mov good_t1 rfl trivial (fun h => by cases h)) (fun s1 r1 hf => e_testC good_t1 rfl (Or.inr rfl) (by decide) (fun h => by cases h) (v := v) (f := f) ?_)
        (fun d e => by cases e) (Or.inl rfl)) (fun h => by cases h) (fun h => by cases h)
      rw [opv, r1.val _ rfl, (aluN_trunc m32 _ _ _ _).1, (aluN_trunc m32 _ _ _ _).1, hf]
      rw [opv.eq_2 win m32 s u, (aluN_trunc m32 _ _ _ _).2] at ha
      exact ha
    | reg q =>
      simp only
      rw [cm, opv.eq_2, (aluN_trunc m32 _ _ _ _).2] at ha
      exact cst _ _ _ h2 rfl (Or.inl rfl) ha
    | mem _ _ _ =>
      simp only
      rw [cm, opv.eq_2, (aluN_trunc m32 _ _ _ _).2] at ha
      exact cst _ _ _ h2 rfl (Or.inl rfl) ha
  | reg r =>
    cases src2 with
    | imm u =>
      simp only
      rw [opv.eq_2, (aluN_trunc m32 _ _ _ _).2] at ha
      exact cst _ _ _ h1 rfl (Or.inr ⟨rfl, rfl⟩) ha
    | reg q => exact reg r _ h1 h2 rfl (by rw [cm]; exact ha)
    | mem _ _ _ => exact reg r _ h1 h2 rfl (by rw [cm]; exact ha)
  | mem _ _ _ =>
    cases src2 with
    | imm u =>
      simp only
      rw [opv.eq_2, (aluN_trunc m32 _ _ _ _).2] at ha
      exact cst _ _ _ h1 rfl (Or.inl rfl) ha
    | reg q => exact reg q _ h2 h1 rfl ha
    | mem _ _ _ =>
      simp only
      refine Eff.weaken (Eff.comp (e_mov good_t1 rfl h1.good (fun h => by cases h)) (fun s1 r1 hf => e_test h2.good rfl (fun _ => num_ne_t2 (by decide) (by decide)) (v := v) (f := f) ?_)
        (fun d e => by cases e) (Or.inl rfl)) (fun h => by cases h) (fun h => by cases h)
      rw [r1.val _ rfl, (aluN_trunc m32 _ _ _ _).2, hf, r1.opv h2.good (fun d e => ?_) (fun _ => h2.ne (by decide)) (fun _ => h2.ne (by decide)), aluN_comm (by decide)]
      · exact ha
      · cases e; exact ⟨_, rfl, by decide, by decide, h2.uses (by decide)⟩

/-! ## Shifts -/

/-- A shift of NB bytes by n. -/
def shN (m32 : Bool) (k : BitVec 3) (a : BitVec 64) (n : Nat) (f : Flags) : Option (BitVec 64 × Flags) := bin (NB m32) (fun _ x _ => shiftF k x n f) a 0#64

theorem shN_trunc (m32 : Bool) (k : BitVec 3) (a : BitVec 64) (n : Nat) (f : Flags) : shN m32 k (trunc m32 a) n f = shN m32 k a n f :=
  (bin_trunc m32 (fun _ x _ => shiftF k x n f) a 0#64).1

/-- The number of bits. -/
def W (m32 : Bool) : Nat := if m32 then 32 else 64

/-- The masked count. -/
def cnt (m32 : Bool) (c : BitVec 64) : Nat := c.toNat % W m32

theorem cnt_trunc (m32 : Bool) (c : BitVec 64) : cnt m32 (trunc m32 c) = cnt m32 c := by
  cases m32
  · rfl
  · simp only [cnt, trunc, W, if_true, BitVec.toNat_setWidth]; omega

theorem num_pref (win : Bool) : num win PREF_SHIFT_REG = 1#4 := by cases win <;> decide

theorem nb8 (m32 : Bool) : (if NB m32 = 8 then 64 else 32) = W m32 := by cases m32 <;> rfl

theorem emit_shift_some {src2 b : Opd} (h : b.isImm = false) (hs : src2 = PREF ∨ ∃ u : BitVec 64, src2 = .imm u ∧ u.toNat < W m32) :
    ∃ o, emitX86 win m32 { shiftIns := true } src2 b = some o := by
  obtain ⟨⟨n, b', rexB⟩, hz⟩ := sizeB_some (win := win) (fl := { shiftIns := true }) (prep_imm (win := win) h)
  unfold emitX86
  rw [show prep win b = ((prep win b).1, (prep win b).2) from rfl]
  rcases hs with rfl | ⟨u, rfl, hu⟩
  · simp [hz, PREF]
  · have h1 : isHalf u = true := by
      have : u.toNat < 64 := by unfold W at hu; split at hu <;> omega
      simp only [isHalf, Bool.and_eq_true, BitVec.sle_eq_decide, decide_eq_true_eq]
      rw [BitVec.toInt_eq_toNat_of_lt (by omega), show (0x7fffffff#64 : BitVec 64).toInt = 2147483647 by decide, show (-0x80000000#64 : BitVec 64).toInt = -2147483648 by decide]
      omega
    have h2 : u.sle (if m32 then 0x1f#64 else 0x3f#64) = true := by
      have h64 : u.toNat < 64 := by unfold W at hu; split at hu <;> omega
      simp only [BitVec.sle_eq_decide, decide_eq_true_eq]
      rw [BitVec.toInt_eq_toNat_of_lt (by omega)]
      cases m32
      · rw [if_neg (by decide), show (0x3f#64 : BitVec 64).toInt = 63 by decide]; omega
      · rw [if_pos rfl, show (0x1f#64 : BitVec 64).toInt = 31 by decide]; simp only [W, if_true] at hu; omega
    simp [hz, h1, h2]

theorem byte_small {u : BitVec 64} (h : u.toNat < 64) : sext 1 u = u := by
  refine sext_byte ?_
  simp only [isByte, Bool.and_eq_true, BitVec.sle_eq_decide, decide_eq_true_eq]
  rw [BitVec.toInt_eq_toNat_of_lt (by omega), show (0x7f#64 : BitVec 64).toInt = 127 by decide, show (-0x80#64 : BitVec 64).toInt = -128 by decide]
  omega

/-- Shift of b by a constant or by SLJIT_PREF_SHIFT_REG. -/
theorem e_sh {k : BitVec 3} {src2 b : Opd} (hb : Good b) (hi : b.isImm = false) (hs : src2 = PREF ∨ ∃ u : BitVec 64, src2 = .imm u ∧ u.toNat < W m32)
    {v : BitVec 64} {f : Flags} (ha : shN m32 k (opv win m32 s b) (cnt m32 (opv win m32 s src2)) s.f = some (v, f)) :
    Eff win m32 (shiftIns win m32 (k.setWidth 8 <<< 3) src2 b) s (some b) v false (long b) f := by
  obtain ⟨o, h⟩ := emit_shift_some (win := win) hi hs
  have hbt : btarget win { shiftIns := true } s b = target win s b := by cases b <;> simp [btarget, target]
  refine ⟨_, ⟨(o.or (k.setWidth 8 <<< 3)).bytes, by rw [shiftIns, insOr, h]; rfl, ?_⟩, put_target win m32 s b hi v f, rfl⟩
  have hk : (k.setWidth 4).setWidth 3 = k := (immOp_ok k).2
  rcases hs with rfl | ⟨u, rfl, hu⟩
  · refine cl_step h rfl rfl (good_ok hb hi) (by decide) k (fun rex hr _ => ?_) rfl rfl rfl rfl rfl rfl
    rw [hbt, show ({ shiftIns := true } : Ins).pref = 0#8 from rfl, execRM_nb hr (fun _ => by decide) (fun h => by cases h)]
    have hg : (clob win s b).r 1#4 = s.r 1#4 := clob_reg fun e => absurd e (by cases win <;> decide)
    simp only [execRM, rexOf_size, show ¬ ((0xd3#8 : Byte) = 0x8d#8) by decide, and_false, if_false, Option.bind_some, if_true,
      show ¬ (fld 0xd3#8 6 2 = 0#2) by decide, false_and, show ¬ ((0xd3#8 : Byte) = 0x81#8) by decide, show ¬ ((0xd3#8 : Byte) = 0x83#8) by decide,
      show ¬ ((0xd3#8 : Byte) = 0x85#8) by decide, show ¬ ((0xd3#8 : Byte) = 0xf7#8) by decide, show ¬ ((0xd3#8 : Byte) = 0x89#8) by decide,
      show ¬ ((0xd3#8 : Byte) = 0x8b#8) by decide, show ¬ ((0xd3#8 : Byte) = 0x88#8) by decide, show ¬ ((0xd3#8 : Byte) = 0xc7#8) by decide,
      show ¬ ((0xd3#8 : Byte) = 0xc6#8) by decide, show ¬ ((0xd3#8 : Byte) = 0x63#8) by decide, show ¬ ((0xd3#8 : Byte) = 0x69#8) by decide,
      show ¬ ((0xd3#8 : Byte) = 0x6b#8) by decide, show ¬ ((0xd3#8 : Byte) = 0xc1#8) by decide, show ¬ ((0xd3#8 : Byte) = 0xd1#8) by decide,
      or_self, or_true, get_target win m32 s b hi, hk, hg, nb8, clob_f]
    have : bin (NB m32) (fun x a b => shiftF k a ((s.r 1#4).toNat % W m32) s.f) (opv win m32 s b) 0#64 = some (v, f) := by
      rw [← ha, PREF, opv.eq_1, cnt_trunc, num_pref]; rfl
    rw [this]
    rfl
  · obtain ⟨_, _, _, -, -, -, -, -, -, g6, -⟩ := imm_inv h
    have hu64 : u.toNat < 64 := by unfold W at hu; split at hu <;> omega
    have ha' : bin (NB m32) (fun x a b => shiftF k a (u.toNat % W m32) s.f) (opv win m32 s b) 0#64 = some (v, f) := by
      rw [← ha, opv.eq_2, cnt_trunc]; rfl
    by_cases e1 : u = 1#64
    · subst e1
      have g6 : o.opc = [0xd1#8] := by rw [g6]; rfl
      refine imm_step (imm := 0#64) (op := 0xd1#8) h (good_ok hb hi) (by decide) (by decide) (by decide) k rfl (fun rest => ?_) (fun rex hr _ => ?_) rfl rfl rfl rfl rfl g6
      · exact sle_zero _
      · rw [hbt, show ({ shiftIns := true } : Ins).pref = 0#8 from rfl, execRM_nb hr (fun _ => by decide) (fun h => by cases h)]
        simp only [execRM, rexOf_size, show ¬ ((0xd1#8 : Byte) = 0x8d#8) by decide, and_false, if_false, Option.bind_some, if_true,
          show ¬ (fld 0xd1#8 6 2 = 0#2) by decide, false_and, show ¬ ((0xd1#8 : Byte) = 0x81#8) by decide, show ¬ ((0xd1#8 : Byte) = 0x83#8) by decide,
          show ¬ ((0xd1#8 : Byte) = 0x85#8) by decide, show ¬ ((0xd1#8 : Byte) = 0xf7#8) by decide, show ¬ ((0xd1#8 : Byte) = 0x89#8) by decide,
          show ¬ ((0xd1#8 : Byte) = 0x8b#8) by decide, show ¬ ((0xd1#8 : Byte) = 0x88#8) by decide, show ¬ ((0xd1#8 : Byte) = 0xc7#8) by decide,
          show ¬ ((0xd1#8 : Byte) = 0xc6#8) by decide, show ¬ ((0xd1#8 : Byte) = 0x63#8) by decide, show ¬ ((0xd1#8 : Byte) = 0x69#8) by decide,
          show ¬ ((0xd1#8 : Byte) = 0x6b#8) by decide, show ¬ ((0xd1#8 : Byte) = 0xc1#8) by decide,
          or_self, or_true, true_or, get_target win m32 s b hi, hk, nb8, clob_f]
        rw [ha']
        rfl
    · have hA : sizeA { shiftIns := true } u = (1, true) := by simp [sizeA, e1]
      have g6 : o.opc = [0xc1#8] := by rw [g6]; simp [e1]
      refine imm_step (imm := sext 1 u) (op := 0xc1#8) h (good_ok hb hi) (by decide) (by decide) (by decide) k rfl (fun rest => ?_) (fun rex hr _ => ?_) rfl rfl rfl rfl rfl g6
      · rw [hA, show immSize ({ shiftIns := true } : Ins).pref 0 0xc1#8 k = 1 by simp [immSize]]; exact sle_toLe (by decide) (by decide) u rest
      · rw [hbt, show ({ shiftIns := true } : Ins).pref = 0#8 from rfl, execRM_nb hr (fun _ => by decide) (fun h => by cases h)]
        simp only [execRM, rexOf_size, show ¬ ((0xc1#8 : Byte) = 0x8d#8) by decide, and_false, if_false, Option.bind_some, if_true,
          show ¬ (fld 0xc1#8 6 2 = 0#2) by decide, false_and, show ¬ ((0xc1#8 : Byte) = 0x81#8) by decide, show ¬ ((0xc1#8 : Byte) = 0x83#8) by decide,
          show ¬ ((0xc1#8 : Byte) = 0x85#8) by decide, show ¬ ((0xc1#8 : Byte) = 0xf7#8) by decide, show ¬ ((0xc1#8 : Byte) = 0x89#8) by decide,
          show ¬ ((0xc1#8 : Byte) = 0x8b#8) by decide, show ¬ ((0xc1#8 : Byte) = 0x88#8) by decide, show ¬ ((0xc1#8 : Byte) = 0xc7#8) by decide,
          show ¬ ((0xc1#8 : Byte) = 0xc6#8) by decide, show ¬ ((0xc1#8 : Byte) = 0x63#8) by decide, show ¬ ((0xc1#8 : Byte) = 0x69#8) by decide,
          show ¬ ((0xc1#8 : Byte) = 0x6b#8) by decide,
          or_self, true_or, get_target win m32 s b hi, hk, nb8, clob_f, byte_small hu64]
        rw [ha']
        rfl

theorem good_pref : Good PREF := by simp [Good, PREF, PREF_SHIFT_REG]

/-- The shift of register t by src2 in SLJIT_PREF_SHIFT_REG, which is saved in sv. -/
theorem e_via {k : BitVec 3} {t sv : Nat} {src2 : Opd} (ht : Dst (.reg t)) (hts : t ≠ sv) (htp : t ≠ PREF_SHIFT_REG) (hsv : sv = TMP_REG1 ∨ sv = TMP_REG2 ∧ long src2 = false)
    (h2 : User src2) {v : BitVec 64} {f : Flags} (ha : shN m32 k (s.r (num win t)) (cnt m32 (opv win m32 s src2)) s.f = some (v, f)) :
    Eff win m32 (emitMov win false (.reg sv) PREF +> (emitMov win m32 PREF src2 +> (shiftIns win m32 (k.setWidth 8 <<< 3) PREF (.reg t) +> emitMov win false PREF (.reg sv)))) s
      (some (.reg t)) v (sv == TMP_REG1) true f := by
  have hsv' : 15 ≤ sv ∧ sv ≤ 16 := by rcases hsv with rfl | ⟨rfl, -⟩ <;> decide
  have hsg : Good (.reg sv) := ⟨by omega, by omega, by omega⟩
  have hl : sv = TMP_REG2 → long src2 = false := by
    rcases hsv with rfl | ⟨rfl, h⟩
    · intro h; cases h
    · exact fun _ => h
  have hsn : num win sv ≠ 1#4 := by rcases hsv with rfl | ⟨rfl, -⟩ <;> cases win <;> decide
  have htd := ht
  have ht := ht.good
  have htn : num win t ≠ 1#4 := by rw [← num_pref win]; exact num_ne ht.1 ht.2.1 (by decide) (by decide) htp
  have hst : num win sv ≠ num win t := num_ne hsg.1 hsg.2.1 ht.1 ht.2.1 (Ne.symm hts)
  -- save
  obtain ⟨s2, m2, r2, f2⟩ := e_mov (win := win) (m32 := false) (s := s) (dst := .reg sv) (src := PREF) hsg rfl good_pref (fun h => by cases h)
  -- load
  obtain ⟨s3, m3, r3, f3⟩ := e_mov (win := win) (m32 := m32) (s := s2) (dst := PREF) (src := src2) good_pref rfl h2.good (fun h => by cases h)
  have o2 : opv win m32 s2 src2 = opv win m32 s src2 := by
    refine r2.opv h2.good (fun d e => ?_) (fun h => by cases h) (fun h => by cases h) m32
    cases e
    exact ⟨sv, rfl, by omega, by omega, h2.uses (by omega)⟩
  have v3 : s3.r 1#4 = trunc m32 (opv win m32 s src2) := by rw [← num_pref win, r3.val _ rfl, o2]
  have k3 : ∀ q, q ≠ 1#4 → (q = T2 win → long src2 = false) → s3.r q = s2.r q := by
    intro q h1 h2'
    refine r3.regs q (fun d e => ?_) (fun _ => by simp [PREF, Opd.isMem]) (fun e => by rw [h2' e]; rfl)
    cases e; rw [num_pref]; exact h1
  have k2 : ∀ q, q ≠ num win sv → s2.r q = s.r q := by
    intro q h1
    refine r2.regs q (fun d e => ?_) (fun _ => rfl) (fun _ => rfl)
    cases e; exact h1
  have hqt : num win t ≠ T2 win := num_ne_t2 htd.1 htd.2.1
  have ksv : s3.r (num win sv) = s.r 1#4 := by
    rw [k3 _ hsn (fun e => hl (num_inj hsg.1 hsg.2.1 (by decide) (by decide) e)), r2.val _ rfl, PREF, opv.eq_1, num_pref]; rfl
  -- shift
  obtain ⟨s4, m4, r4, f4⟩ := e_sh (win := win) (m32 := m32) (s := s3) (k := k) (b := .reg t) ht rfl (Or.inl rfl) (v := v) (f := f) (by
    rw [opv.eq_1, shN_trunc, k3 _ htn (fun e => absurd e hqt), k2 _ (Ne.symm hst), PREF, opv.eq_1, num_pref, v3, cnt_trunc, cnt_trunc, f3, f2]; exact ha)
  have k4 : ∀ q, q ≠ num win t → s4.r q = s3.r q := by
    intro q h1
    refine r4.regs q (fun d e => ?_) (fun _ => rfl) (fun _ => rfl)
    cases e; exact h1
  -- restore
  obtain ⟨s5, m5, r5, f5⟩ := e_mov (win := win) (m32 := false) (s := s4) (dst := PREF) (src := .reg sv) good_pref rfl hsg (fun h => by cases h)
  have k5 : ∀ q, q ≠ 1#4 → s5.r q = s4.r q := by
    intro q h1
    refine r5.regs q (fun d e => ?_) (fun _ => rfl) (fun _ => rfl)
    cases e; rw [num_pref]; exact h1
  refine ⟨s5, m2.cat (m3.cat (m4.cat m5)), ⟨fun q h1 h2 h3 => ?_, fun d e => ?_, ?_⟩, by rw [f5, f4]⟩
  · by_cases e : q = 1#4
    · rw [e, ← num_pref win, r5.val _ rfl, opv.eq_1, k4 _ hst, ksv, num_pref]; rfl
    · have q1 : q ≠ num win sv := by
        rcases hsv with rfl | ⟨rfl, -⟩
        · exact fun e => absurd (h2 e) (by decide)
        · exact fun e => absurd (h3 e) (by decide)
      rw [k5 q e, k4 q (h1 t rfl), k3 q e (fun e => absurd (h3 e) (by decide)), k2 q q1]
  · cases e
    rw [k5 _ htn, r4.val _ rfl]
  · rw [r5.mem, show wrMem win false s4 (some PREF) _ = s4.m from rfl, r4.mem, show wrMem win m32 s3 (some (.reg t)) v = s3.m from rfl, r3.mem,
      show wrMem win m32 s2 (some PREF) _ = s2.m from rfl, r2.mem]
    rfl

/-- emit_shift. -/
theorem e_shift {k : BitVec 3} {dst src1 src2 : Opd} (hd : Dst dst) (h1 : User src1) (h2 : User src2) (hc : ∀ u : BitVec 64, src2 = .imm u → u.toNat < W m32)
    (hal : long src2 = true → ∃ d, dst = .reg d ∧ d ≠ TMP_REG1 ∧ (d = PREF_SHIFT_REG ∨ dependsOn src2 d = false)) {v : BitVec 64} {f : Flags}
    (ha : shN m32 k (opv win m32 s src1) (cnt m32 (opv win m32 s src2)) s.f = some (v, f)) :
    Eff win m32 (emitShift win m32 (k.setWidth 8 <<< 3) dst src1 src2) s (some dst) v true true f := by
  have t1 : Dst (.reg TMP_REG1) := by simp [Dst, TMP_REG1]
  unfold emitShift
  by_cases c1 : src2.isImm = true ∨ src2 = PREF
  · rw [if_pos c1]
    have hs : src2 = PREF ∨ ∃ u : BitVec 64, src2 = .imm u ∧ u.toNat < W m32 := by
      rcases c1 with h | h
      · cases src2 with
        | imm u => exact Or.inr ⟨u, rfl, hc u rfl⟩
        | reg _ => cases h
        | mem _ _ _ => cases h
      · exact Or.inl h
    have mvsh : ∀ t, Dst (.reg t) → (src2 = PREF → t ≠ PREF_SHIFT_REG) →
        Eff win m32 (emitMov win m32 (.reg t) src1 +> shiftIns win m32 (k.setWidth 8 <<< 3) src2 (.reg t)) s (some (.reg t)) v true true f := by
      intro t ht htp
      refine Eff.weaken (Eff.comp (e_mov ht.good rfl h1.good (fun h => by cases h)) (fun s1 r1 hf => e_sh ht.good rfl hs (v := v) (f := f) ?_)
        (fun q e => by cases e; exact ht.good) (Or.inr (Or.inr rfl))) (fun h => by cases h) (fun h => by cases h)
      rw [opv, r1.val t rfl, shN_trunc, shN_trunc, hf, r1.opv h2.good (fun d e => ?_) (fun _ => h2.ne (by decide)) (fun _ => h2.ne (by decide))]
      · exact ha
      · cases e
        refine ⟨t, rfl, ht.good.1, ht.good.2.1, ?_⟩
        rcases hs with h | ⟨u, rfl, -⟩
        · have := htp h
          rw [h]; simp only [PREF, uses, beq_eq_false_iff_ne]; exact fun e => this e.symm
        · rfl
    by_cases c2 : dst = src1
    · rw [if_pos c2]
      exact Eff.weaken (e_sh hd.good hd.imm hs (by rw [c2]; exact ha)) (fun h => by cases h) (fun h => by cases h)
    · rw [if_neg c2]
      by_cases c3 : dst = PREF ∧ src2 = PREF
      · rw [if_pos c3]
        have := e_moveTmp hd (mvsh TMP_REG1 t1 (fun _ => by decide))
        rw [c3.1] at this ⊢
        rw [c3.2] at this
        exact this
      · rw [if_neg c3]
        cases dst with
        | imm _ => exact hd.elim
        | reg d => exact mvsh d hd (fun e e' => c3 ⟨by rw [e']; rfl, e⟩)
        | mem _ _ _ => exact e_moveTmp hd (mvsh TMP_REG1 t1 (fun _ => by decide))
  · rw [if_neg c1]
    by_cases c2 : dst = PREF
    · rw [if_pos c2, c2]
      simp only [cat_assoc]
      refine Eff.weaken (Eff.comp (e_mov good_t1 rfl h1.good (fun h => by cases h)) (fun s1 r1 hf1 => ?_) (fun q e => by cases e; exact good_pref) (Or.inl rfl)
        (b1 := true) (b2 := true) (v2 := v) (f2 := f)) (fun h => by cases h) (fun h => by cases h)
      refine Eff.weaken (Eff.comp (t := PREF_SHIFT_REG) (e_mov good_pref rfl h2.good (fun h => by cases h)) (fun s2 r2 hf2 => ?_) (fun q e => by cases e; exact good_pref) (Or.inr (Or.inr rfl))
        (b1 := true) (b2 := true) (v2 := v) (f2 := f)) (fun h => by cases h) (fun h => by cases h)
      refine e_moveTmp (by simp [Dst, PREF, PREF_SHIFT_REG]) (e_sh good_t1 rfl (Or.inl rfl) (v := v) (f := f) ?_)
      rw [opv.eq_1, shN_trunc, r2.reg (by decide) (by decide) (fun d e => by cases e; decide) (fun _ => by simp [PREF, Opd.isMem]) (fun h => by cases h), r1.val _ rfl, shN_trunc, hf2, hf1]
      rw [PREF, opv.eq_1, r2.val _ rfl, trunc_trunc, cnt_trunc, r1.opv h2.good (fun d e => ?_) (fun _ => h2.ne (by decide)) (fun _ => h2.ne (by decide))]
      · exact ha
      · cases e; exact ⟨_, rfl, by decide, by decide, h2.uses (by decide)⟩
    · rw [if_neg c2]
      by_cases c3 : dst.isReg = true ∧ dst ≠ src2 ∧ dst ≠ .reg TMP_REG1 ∧ ¬ dependsOn src2 dst.regNo = true
      · rw [if_pos c3]
        simp only [cat_assoc]
        cases dst with
        | imm _ => exact hd.elim
        | mem _ _ _ => exact absurd c3.1 (by simp [Opd.isReg])
        | reg d =>
          have hdp : d ≠ PREF_SHIFT_REG := fun e => c2 (by rw [e]; rfl)
          have hd1 : d ≠ TMP_REG1 := fun e => c3.2.2.1 (by rw [e])
          have hdd : dependsOn src2 d = false := by simpa [Opd.regNo] using c3.2.2.2
          by_cases e : src1 = .reg d
          · rw [if_neg (not_not.2 e)]
            obtain ⟨s', m, r, hf⟩ := e_via (win := win) (m32 := m32) (k := k) hd hd1 hdp (Or.inl rfl) h2 (by rw [← shN_trunc, ← opv.eq_1, ← e]; exact ha)
            exact ⟨s', (Emits.nil s).cat m, r.weaken (fun h => by cases h) (fun h => by cases h), hf⟩
          · rw [if_pos e]
            refine Eff.weaken (Eff.comp (e_mov hd.good rfl h1.good (fun h => by cases h)) (fun s1 r1 hf1 => e_via hd hd1 hdp (Or.inl rfl) h2 (v := v) (f := f) ?_)
              (fun q e => by cases e; exact hd.good) (Or.inr (Or.inr rfl))) (fun h => by cases h) (fun h => by cases h)
            rw [r1.val d rfl, shN_trunc, hf1, r1.opv h2.good (fun q e => ?_) (fun _ => h2.ne (by decide)) (fun _ => h2.ne (by decide))]
            · exact ha
            · cases e; exact ⟨d, rfl, hd.good.1, hd.good.2.1, uses_of c3.2.1 hdd⟩
      · rw [if_neg c3]
        have hl : long src2 = false := by
          by_contra hl
          have hl : long src2 = true := by simpa using hl
          obtain ⟨d, rfl, e1, e2⟩ := hal hl
          refine c3 ⟨rfl, ?_, fun e => e1 (by cases e; rfl), ?_⟩
          · rintro rfl; cases hl
          · simp only [Opd.regNo, e2.resolve_left (fun e => c2 (by rw [e]; rfl)), Bool.false_eq_true, not_false_eq_true]
        have main : Eff win m32 (emitMov win m32 (.reg TMP_REG1) src1 +> (emitMov win false (.reg TMP_REG2) PREF +> (emitMov win m32 PREF src2 +>
            (shiftIns win m32 (k.setWidth 8 <<< 3) PREF (.reg TMP_REG1) +> emitMov win false PREF (.reg TMP_REG2))))) s (some (.reg TMP_REG1)) v true true f := by
          refine Eff.weaken (Eff.comp (e_mov good_t1 rfl h1.good (fun h => by cases h)) (fun s1 r1 hf1 => e_via t1 (by decide) (by decide) (Or.inr ⟨rfl, hl⟩) h2 (v := v) (f := f) ?_)
            (fun q e => by cases e; exact good_t1) (Or.inr (Or.inr rfl))) (fun h => by cases h) (fun h => by cases h)
          rw [r1.val _ rfl, shN_trunc, hf1, r1.opv h2.good (fun q e => ?_) (fun _ => h2.ne (by decide)) (fun _ => h2.ne (by decide))]
          · exact ha
          · cases e; exact ⟨_, rfl, by decide, by decide, h2.uses (by decide)⟩
        by_cases e : dst = .reg TMP_REG1
        · rw [if_neg (not_not.2 e), cat_nil, e]
          simp only [cat_assoc]
          exact main
        · rw [if_pos e]
          have := e_moveTmp hd main
          simp only [cat_assoc] at this ⊢
          exact this

end Verif.X86
