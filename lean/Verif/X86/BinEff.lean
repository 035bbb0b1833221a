import Verif.X86.Eff

/-! # Binary operations of the x86-64 backend (helper lemmas) -/

namespace Verif.X86

variable {win m32 : Bool} {s : St}

/-- Operands of the functions of the API: no temporaries. -/
def User : Opd → Prop
  | .reg r => 1 ≤ r ∧ r ≤ 13
  | b => Good b

/-- Destinations: also TMP_REG1, which is used by sljit_emit_op2u. -/
def Dst : Opd → Prop
  | .reg r => 1 ≤ r ∧ r ≤ 15 ∧ r ≠ 14
  | .mem base offs w => Good (.mem base offs w)
  | .imm _ => False

theorem User.good {b : Opd} (h : User b) : Good b := by
  cases b with
  | reg r => exact ⟨h.1, by have := h.2; omega, by have := h.2; omega⟩
  | _ => exact h

theorem Dst.good {b : Opd} (h : Dst b) : Good b := by
  cases b with
  | reg r => exact ⟨h.1, by have := h.2.1; omega, h.2.2⟩
  | mem _ _ _ => exact h
  | imm _ => exact h.elim

theorem Dst.imm {b : Opd} (h : Dst b) : b.isImm = false := by
  cases b with
  | imm _ => exact h.elim
  | _ => rfl

theorem Dst.ne2 {b : Opd} (h : Dst b) : b ≠ .reg TMP_REG2 := by
  rintro rfl; exact absurd h.2.1 (by decide)

theorem User.ne {b : Opd} (h : User b) {r : Nat} (hr : 13 < r) : b ≠ .reg r := by
  rintro rfl; have := h.2; omega

/-- Operands of the API do not use the temporaries. -/
theorem User.uses {b : Opd} (h : User b) {r : Nat} (hr : 14 < r) : uses b r = false := by
  cases b with
  | reg q => have := h.2; simp [X86.uses]; omega
  | imm v => rfl
  | mem base offs w => obtain ⟨h1, h2, -⟩ := h; simp [X86.uses]; omega

theorem good_t1 : Good (.reg TMP_REG1) := by simp [Good, TMP_REG1]

theorem num_ne_t2 {r : Nat} (h1 : 1 ≤ r) (h2 : r ≤ 15) : num win r ≠ T2 win := num_ne h1 (by omega) (by decide) (by decide) (by unfold TMP_REG2; omega)

theorem aluN_trunc (m32 : Bool) (i : BitVec 3) (a b : BitVec 64) (f : Flags) : aluN m32 i (trunc m32 a) b f = aluN m32 i a b f ∧ aluN m32 i a (trunc m32 b) f = aluN m32 i a b f :=
  bin_trunc m32 _ a b

/-! ## One instruction -/

theorem e_mr {i : BitVec 3} {r : Nat} {b : Opd} (hb : Good b) (hi : b.isImm = false) (hr : long b = true → num win r ≠ T2 win) {v : BitVec 64} {f : Flags}
    (ha : aluN m32 i (opv win m32 s b) (s.r (num win r)) s.f = some (v, f)) :
    Eff win m32 (ins win m32 {} (.reg r) b [(binOf i).mr]) s (adst i b) v false (long b) f := by
  obtain ⟨bs, h⟩ := ins_some (win := win) (m32 := m32) (fl := {}) rfl r hi [(binOf i).mr]
  obtain ⟨s', h1, h2, h3⟩ := i_mr h (good_ok hb hi) hr ha
  exact ⟨s', ⟨bs, h, h1⟩, h2, h3⟩

theorem e_rm {i : BitVec 3} {r : Nat} {b : Opd} (hb : Good b) (hi : b.isImm = false) (hr : long b = true → num win r ≠ T2 win) {v : BitVec 64} {f : Flags}
    (ha : aluN m32 i (s.r (num win r)) (opv win m32 s b) s.f = some (v, f)) :
    Eff win m32 (ins win m32 {} (.reg r) b [(binOf i).rm]) s (adst i (.reg r)) v false (long b) f := by
  obtain ⟨bs, h⟩ := ins_some (win := win) (m32 := m32) (fl := {}) rfl r hi [(binOf i).rm]
  obtain ⟨s', h1, h2, h3⟩ := i_rm h (good_ok hb hi) hr ha
  exact ⟨s', ⟨bs, h, h1⟩, h2, h3⟩

theorem e_gimm {i : BitVec 3} {u : BitVec 64} {b : Opd} (hb : Good b) (hi : b.isImm = false) (hu : m32 = false → isHalf u = true) {v : BitVec 64} {f : Flags}
    (ha : aluN m32 i (opv win m32 s b) u s.f = some (v, f)) :
    Eff win m32 (insOr win m32 { binIns := true } (.imm u) b (binOf i).imm) s (adst i b) v false (long b) f := by
  obtain ⟨o, h⟩ := emit_imm_some (win := win) (m32 := m32) (bi := true) hi hu
  have h : insOr win m32 { binIns := true } (.imm u) b (binOf i).imm = some (o.or (binOf i).imm).bytes := by rw [insOr, h]; rfl
  obtain ⟨s', h1, h2, h3⟩ := i_imm h (good_ok hb hi) ha
  exact ⟨s', ⟨_, h, h1⟩, h2, h3⟩

theorem e_eax {i : BitVec 3} {u : BitVec 64} (hu : m32 = false → isHalf u = true) {v : BitVec 64} {f : Flags}
    (ha : aluN m32 i (opv win m32 s (.reg 1)) u s.f = some (v, f)) : Eff win m32 (eaxImm m32 (binOf i).eax u) s (adst i (.reg 1)) v false false f := by
  obtain ⟨s', h1, h2, h3⟩ := i_eax rfl hu ha
  exact ⟨s', ⟨_, rfl, h1⟩, h2, h3⟩

theorem adst_good {i : BitVec 3} {b : Opd} (hb : Good b) : ∀ d, adst i b = some d → Good d := by
  intro d e
  unfold adst at e
  split at e
  · cases e
  · cases e; exact hb

/-- BINARY_IMM. -/
theorem e_binImm {i : BitVec 3} {u : BitVec 64} {b : Opd} (hb : Good b) (hi : b.isImm = false) (h2 : b ≠ .reg TMP_REG2) {v : BitVec 64} {f : Flags}
    (ha : aluN m32 i (opv win m32 s b) u s.f = some (v, f)) : Eff win m32 (binImm win m32 (binOf i) u b) s (adst i b) v (!b.isReg) true f := by
  unfold binImm
  by_cases hc : isHalf u = true ∨ m32 = true
  · rw [if_pos hc]
    exact Eff.weaken (e_gimm hb hi (fun hm => hc.resolve_right (by simp [hm])) ha) (fun _ => rfl) (fun h => by cases h)
  · rw [if_neg hc]
    simp only [not_or] at hc
    have hm : m32 = false := by simpa using hc.2
    subst hm
    have ht : ∀ t, (t = TMP_REG1 ∨ t = TMP_REG2) → b ≠ .reg t → (long b = true → t ≠ TMP_REG2) → (b.isReg = true → t ≠ TMP_REG1) →
        Eff win false (some (loadImm64 win t u) +> ins win false {} (.reg t) b [(binOf i).mr]) s (adst i b) v (!b.isReg) true f := by
      intro t ht hbt hl hr
      have ht' : 15 ≤ t ∧ t ≤ 16 := by rcases ht with rfl | rfl <;> decide
      refine Eff.weaken (Eff.comp (e_load64 u) (fun s1 r1 hf => ?_) (adst_good hb) (by tauto) (b1 := false) (b2 := long b)) (fun h => ?_) (fun h => by cases h)
      · refine e_mr hb hi (fun h => num_ne (by omega) (by omega) (by decide) (by decide) (hl h)) ?_
        rw [r1.val t rfl, hf, r1.opv hb (fun d e => ?_) (fun h => by cases h) (fun h => by cases h)]
        · exact ha
        · cases e
          refine ⟨t, rfl, by omega, ht'.2, ?_⟩
          cases b with
          | imm _ => rfl
          | reg r => simp only [uses, beq_eq_false_iff_ne]; exact fun e => hbt (by rw [e])
          | mem base offs w => obtain ⟨g1, g2, -⟩ := hb; simp [uses]; omega
      · have : b.isReg = true := by simpa using h
        simp [hr this]
    cases b with
    | imm v => cases hi
    | reg r => exact ht TMP_REG2 (Or.inr rfl) h2 (fun h => by cases h) (fun _ => by decide)
    | mem base offs w => exact ht TMP_REG1 (Or.inl rfl) (fun h => by cases h) (fun h => by decide) (fun h => by cases h)

theorem adst_some {i : BitVec 3} (hi : i ≠ 7#3) (b : Opd) : adst i b = some b := if_neg hi

/-- dst = dst op src. -/
theorem e_inPlace {i : BitVec 3} {dst src : Opd} (hd : Dst dst) (hs : User src) {v : BitVec 64} {f : Flags}
    (ha : aluN m32 i (opv win m32 s dst) (opv win m32 s src) s.f = some (v, f)) : Eff win m32 (inPlace win m32 (binOf i) dst src) s (adst i dst) v true true f := by
  have imm : ∀ u, src = .imm u → Eff win m32 (if useEax m32 dst u then eaxImm m32 (binOf i).eax u else binImm win m32 (binOf i) u dst) s (adst i dst) v true true f := by
    rintro u rfl
    simp only [opv, aluN_trunc] at ha
    split
    next h =>
      obtain ⟨rfl, -, h⟩ := h
      exact Eff.weaken (e_eax (fun hm => h.resolve_left (by simp [hm])) ha) (fun h => by cases h) (fun h => by cases h)
    next => exact Eff.weaken (e_binImm hd.good hd.imm hd.ne2 ha) (fun h => by cases h) id
  have rm : ∀ d, dst = .reg d → src.isImm = false → Eff win m32 (ins win m32 {} (.reg d) src [(binOf i).rm]) s (adst i dst) v true true f := by
    rintro d rfl hsi
    simp only [opv, aluN_trunc] at ha
    exact Eff.weaken (e_rm hs.good hsi (fun _ => num_ne_t2 hd.1 hd.2.1) ha) (fun h => by cases h) (fun h => by cases h)
  cases src with
  | imm u => exact imm u rfl
  | reg r =>
    cases dst with
    | imm u => exact hd.elim
    | reg d => exact rm d rfl rfl
    | mem base offs w =>
      simp only [inPlace]
      rw [opv, (aluN_trunc m32 i _ _ _).2] at ha
      exact Eff.weaken (e_mr hd.good rfl (fun _ => num_ne_t2 hs.1 (by have := hs.2; omega)) ha) (fun h => by cases h) (fun h => by cases h)
  | mem base offs w =>
    cases dst with
    | imm u => exact hd.elim
    | reg d => exact rm d rfl rfl
    | mem base' offs' w' =>
      simp only [inPlace]
      refine Eff.weaken (Eff.comp (e_mov good_t1 rfl hs.good (fun h => by cases h)) (fun s1 r1 hf => e_mr hd.good rfl (fun _ => num_ne_t2 (by decide) (by decide)) ?_)
        (adst_good hd.good) (Or.inl rfl) (b1 := false) (b2 := long (.mem base' offs' w'))) (fun h => by cases h) (fun h => by cases h)
      rw [r1.val _ rfl, hf, r1.opv hd.good (fun d e => ?_) (fun _ h => by cases h) (fun _ h => by cases h), (aluN_trunc m32 i _ _ _).2]
      · exact ha
      · cases e
        obtain ⟨g1, g2, -⟩ := hd.good
        exact ⟨_, rfl, by decide, by decide, by simp [uses, TMP_REG1]; omega⟩

/-- d = src1; d = d op src2. -/
theorem e_viaReg {i : BitVec 3} {d : Nat} {src1 src2 : Opd} (hd : Dst (.reg d)) (h1 : User src1) (h2 : User src2) (hu : uses src2 d = false) {v : BitVec 64} {f : Flags}
    (hi : i ≠ 7#3) (ha : aluN m32 i (opv win m32 s src1) (opv win m32 s src2) s.f = some (v, f)) :
    Eff win m32 (viaReg win m32 (binOf i) d src1 src2) s (some (.reg d)) v (d == TMP_REG1) true f := by
  have hc := adst_some hi (.reg d)
  unfold viaReg
  refine Eff.weaken (Eff.comp (e_mov hd.good rfl h1.good (fun h => by cases h)) (fun s1 r1 hf => ?_) (fun q e => by cases e; exact hd.good) (Or.inr (Or.inr rfl)) (b1 := false) (b2 := true))
    (fun h => by simpa [Opd.isMem] using h) (fun h => by cases h)
  have hv : opv win m32 s1 src2 = opv win m32 s src2 := by
    refine r1.opv h2.good (fun q e => ?_) (fun _ => h2.ne (by decide)) (fun _ => h2.ne (by decide)) m32
    cases e
    exact ⟨d, rfl, hd.1, by have := hd.2.1; omega, hu⟩
  have hm : src2.isImm = false → Eff win m32 (ins win m32 {} (.reg d) src2 [(binOf i).rm]) s1 (some (.reg d)) v false true f := by
    intro hi2
    rw [← hc]
    refine Eff.weaken (e_rm h2.good hi2 (fun _ => num_ne_t2 hd.1 hd.2.1) ?_) (fun _ => rfl) (fun h => by cases h)
    rw [r1.val d rfl, (aluN_trunc m32 i _ _ _).1, hv, hf]
    exact ha
  cases src2 with
  | imm u =>
    simp only
    rw [← hc]
    refine Eff.weaken (e_binImm hd.good rfl hd.ne2 ?_) (fun _ => rfl) id
    rw [opv, r1.val d rfl, (aluN_trunc m32 i _ _ _).1, (aluN_trunc m32 i _ _ _).1, hf]
    rw [opv, (aluN_trunc m32 i _ _ _).2] at ha
    exact ha
  | reg r => exact hm rfl
  | mem _ _ _ => exact hm rfl

/-- The result of a computation in TMP_REG1 is moved to dst. -/
theorem e_moveTmp {dst : Opd} (hd : Dst dst) {v : BitVec 64} {f : Flags} {c : Code} {c1 c2 : Bool} (h : Eff win m32 c s (some (.reg TMP_REG1)) v c1 c2 f) :
    Eff win m32 (c +> emitMov win m32 dst (.reg TMP_REG1)) s (some dst) v true true f := by
  refine Eff.weaken (Eff.comp h (fun s1 r1 hf => ?_) (fun d e => by cases e; exact hd.good) (Or.inl rfl) (b1 := true) (b2 := true)) (fun h => by cases h) (fun h => by cases h)
  rw [← hf]
  refine Eff.congr (Eff.weaken (e_mov hd.good hd.imm good_t1 (fun _ => by decide)) (fun h => by cases h) (fun h => by cases h)) ?_
  rw [opv, r1.val _ rfl, trunc_trunc, trunc_trunc]

theorem aluN_comm {i : BitVec 3} (hi : i ≠ 3#3 ∧ i ≠ 5#3 ∧ i ≠ 7#3) (a b : BitVec 64) (f : Flags) : aluN m32 i a b f = aluN m32 i b a f := by
  unfold aluN bin
  have : ∀ w, ∀ x y : BitVec w, alu i x y f = alu i y x f := by
    intro w x y
    have hA : ∀ c, addF x y c = addF y x c := by
      intro c
      simp only [addF, BitVec.add_comm x y, Nat.add_comm x.toNat y.toNat, Int.add_comm x.toInt y.toInt]
    have h8 : ∀ i : BitVec 3, i = 0#3 ∨ i = 1#3 ∨ i = 2#3 ∨ i = 3#3 ∨ i = 4#3 ∨ i = 5#3 ∨ i = 6#3 ∨ i = 7#3 := by decide
    obtain ⟨h3, h5, h7⟩ := hi
    rcases h8 i with rfl | rfl | rfl | rfl | rfl | rfl | rfl | rfl
    · simp [alu, hA]
    · simp [alu, BitVec.or_comm]
    · simp [alu, hA]
    · exact absurd rfl h3
    · simp [alu, BitVec.and_comm]
    · exact absurd rfl h5
    · simp [alu, BitVec.xor_comm]
    · exact absurd rfl h7
  dsimp only
  rw [this]

theorem uses_of {b : Opd} {d : Nat} (h1 : Opd.reg d ≠ b) (h2 : dependsOn b d = false) : uses b d = false := by
  cases b with
  | imm _ => rfl
  | reg r => simp only [uses, beq_eq_false_iff_ne]; exact fun e => h1 (by rw [e])
  | mem _ _ _ => exact h2

/-- emit_cum_binary. -/
theorem e_cum {i : BitVec 3} (hi : i ≠ 3#3 ∧ i ≠ 5#3 ∧ i ≠ 7#3) {dst src1 src2 : Opd} (hd : Dst dst) (h1 : User src1) (h2 : User src2)
    (hal : ∀ d, dst = .reg d → dst ≠ src1 → dependsOn src2 d = false) {v : BitVec 64} {f : Flags}
    (ha : aluN m32 i (opv win m32 s src1) (opv win m32 s src2) s.f = some (v, f)) : Eff win m32 (cumBinary win m32 (binOf i) dst src1 src2) s (some dst) v true true f := by
  have hc := adst_some hi.2.2 dst
  unfold cumBinary
  by_cases e1 : dst = src1
  · rw [if_pos e1, ← hc]
    refine e_inPlace hd h2 ?_
    rw [e1]; exact ha
  · rw [if_neg e1]
    by_cases e2 : dst = src2
    · rw [if_pos e2, ← hc]
      refine e_inPlace hd h1 ?_
      rw [e2, aluN_comm hi]; exact ha
    · rw [if_neg e2]
      cases dst with
      | imm _ => exact hd.elim
      | reg d => exact Eff.weaken (e_viaReg hd h1 h2 (uses_of e2 (hal d rfl e1)) hi.2.2 ha) (fun h => by cases h) id
      | mem base offs w => exact e_moveTmp hd (e_viaReg (by simp [Dst, TMP_REG1]) h1 h2 (h2.uses (by decide)) hi.2.2 ha)

/-- emit_non_cum_binary. -/
theorem e_nonCum {i : BitVec 3} (hi : i ≠ 7#3) {dst src1 src2 : Opd} (hd : Dst dst) (h1 : User src1) (h2 : User src2)
    (hal : ∀ d, dst = .reg d → dst ≠ src1 → dependsOn src2 d = false) {v : BitVec 64} {f : Flags}
    (ha : aluN m32 i (opv win m32 s src1) (opv win m32 s src2) s.f = some (v, f)) : Eff win m32 (nonCumBinary win m32 (binOf i) dst src1 src2) s (some dst) v true true f := by
  have hc := adst_some hi dst
  unfold nonCumBinary
  by_cases e1 : dst = src1
  · rw [if_pos e1, ← hc]
    refine e_inPlace hd h2 ?_
    rw [e1]; exact ha
  · rw [if_neg e1]
    have T := e_moveTmp hd (e_viaReg (d := TMP_REG1) (by simp [Dst, TMP_REG1]) h1 h2 (h2.uses (by decide)) hi ha)
    by_cases e2 : dst.isReg = true ∧ dst ≠ src2
    · rw [if_pos e2]
      cases dst with
      | imm _ => exact hd.elim
      | reg d => exact Eff.weaken (e_viaReg hd h1 h2 (uses_of e2.2 (hal d rfl e1)) hi ha) (fun h => by cases h) id
      | mem base offs w => cases e2.1
    · rw [if_neg e2]; exact T

/-- emit_cmp_binary. -/
theorem e_cmp {src1 src2 : Opd} (h1 : Good src1) (h12 : src1 ≠ .reg TMP_REG2) (h2 : User src2) {v : BitVec 64} {f : Flags}
    (ha : aluN m32 7#3 (opv win m32 s src1) (opv win m32 s src2) s.f = some (v, f)) : Eff win m32 (cmpBinary win m32 src1 src2) s none v true true f := by
  have hC : CMP = binOf 7#3 := binOf_table.2.2.2.2.2.2.2
  unfold cmpBinary
  rw [hC]
  have rm : ∀ r, src1 = .reg r → src2.isImm = false → Eff win m32 (ins win m32 {} (.reg r) src2 [(binOf 7#3).rm]) s none v true true f := by
    rintro r rfl h2i
    rw [opv, (aluN_trunc m32 _ _ _ _).1] at ha
    exact Eff.weaken (e_rm h2.good h2i (fun _ => num_ne h1.1 h1.2.1 (by decide) (by decide) (fun e => h12 (by rw [e]))) ha) (fun h => by cases h) (fun h => by cases h)
  have tmp : src2.isImm = false → Eff win m32 (emitMov win m32 (.reg TMP_REG1) src1 +> ins win m32 {} (.reg TMP_REG1) src2 [(binOf 7#3).rm]) s none v true true f := by
    intro h2i
    refine Eff.weaken (Eff.comp (e_mov good_t1 rfl h1 (fun h => by cases h)) (fun s1 r1 hf => e_rm h2.good h2i (fun _ => num_ne_t2 (by decide) (by decide)) (v := v) (f := f) ?_)
      (fun d e => by cases e) (Or.inl rfl) (b1 := false) (b2 := long src2)) (fun h => by cases h) (fun h => by cases h)
    rw [r1.val _ rfl, (aluN_trunc m32 _ _ _ _).1, hf, r1.opv h2.good (fun d e => ?_) (fun _ => h2.ne (by decide)) (fun _ => h2.ne (by decide))]
    · exact ha
    · cases e; exact ⟨_, rfl, by decide, by decide, h2.uses (by decide)⟩
  cases src1 with
  | reg r =>
    cases src2 with
    | imm u =>
      simp only
      rw [opv.eq_2, (aluN_trunc m32 _ _ _ _).2] at ha
      split
      next h =>
        obtain ⟨e, -, h⟩ := h
        rw [e] at ha
        exact Eff.weaken (e_eax (fun hm => h.resolve_left (by simp [hm])) ha) (fun h => by cases h) (fun h => by cases h)
      next => exact Eff.weaken (e_binImm h1 rfl h12 ha) (fun h => by cases h) id
    | reg q => exact rm r rfl rfl
    | mem _ _ _ => exact rm r rfl rfl
  | imm w =>
    cases src2 with
    | imm u =>
      simp only
      refine Eff.weaken (Eff.comp (e_mov good_t1 rfl trivial (fun h => by cases h)) (fun s1 r1 hf => e_binImm good_t1 rfl (by decide) (v := v) (f := f) ?_)
        (fun d e => by cases e) (Or.inl rfl) (b1 := false) (b2 := true)) (fun h => by cases h) (fun h => by cases h)
      rw [opv, r1.val _ rfl, (aluN_trunc m32 _ _ _ _).1, (aluN_trunc m32 _ _ _ _).1, hf]
      rw [opv.eq_2 win m32 s u, (aluN_trunc m32 _ _ _ _).2] at ha
      exact ha
    | reg q => exact tmp rfl
    | mem _ _ _ => exact tmp rfl
  | mem base offs w =>
    cases src2 with
    | imm u =>
      simp only
      rw [opv.eq_2, (aluN_trunc m32 _ _ _ _).2] at ha
      exact Eff.weaken (e_binImm h1 rfl h12 ha) (fun h => by cases h) id
    | reg q =>
      simp only
      rw [opv.eq_1, (aluN_trunc m32 _ _ _ _).2] at ha
      exact Eff.weaken (e_mr h1 rfl (fun _ => num_ne_t2 h2.1 (by have := h2.2; omega)) ha) (fun h => by cases h) (fun h => by cases h)
    | mem _ _ _ => exact tmp rfl

end Verif.X86
