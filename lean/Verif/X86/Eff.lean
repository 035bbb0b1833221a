import Verif.X86.AluStep

/-! # Sequences of instructions and moves (helper lemmas) -/

namespace Verif.X86

variable {win m32 : Bool} {s : St}

/-- The code can be emitted and takes the machine from s to s'. -/
def Emits (c : Code) (s s' : St) : Prop := ∃ bs, c = some bs ∧ Steps bs s s'

theorem Emits.cat {a b : Code} {s t u : St} (h1 : Emits a s t) (h2 : Emits b t u) : Emits (a +> b) s u := by
  obtain ⟨x, rfl, h1⟩ := h1
  obtain ⟨y, rfl, h2⟩ := h2
  exact ⟨x ++ y, rfl, h1.append h2⟩

theorem Emits.nil (s : St) : Emits (some []) s s := ⟨[], rfl, Steps.nil s⟩

/-- Operands of the functions of this layer: registers with the temporaries, memory without them. -/
def Good : Opd → Prop
  | .reg r => 1 ≤ r ∧ r ≤ 16 ∧ r ≠ 14
  | .mem base offs w => base ≤ 14 ∧ offs ≤ 13 ∧ (offs ≠ 0 → base ≠ 0 ∧ w.toNat < 4)
  | .imm _ => True

/-- The operand reads the register. -/
def uses : Opd → Nat → Bool
  | .reg q, r => q == r
  | .mem base offs _, r => base == r || offs == r
  | .imm _, _ => false

theorem num_tab : ∀ win : Bool, ∀ a b : Fin 17, 1 ≤ a.val → 1 ≤ b.val → num win a.val = num win b.val → a = b := by decide +kernel

theorem num_inj {a b : Nat} (h1 : 1 ≤ a) (h2 : a ≤ 16) (h3 : 1 ≤ b) (h4 : b ≤ 16) (h : num win a = num win b) : a = b :=
  Fin.mk.inj_iff.1 (num_tab win ⟨a, by omega⟩ ⟨b, by omega⟩ h1 h3 h)

theorem num_ne {a b : Nat} (h1 : 1 ≤ a) (h2 : a ≤ 16) (h3 : 1 ≤ b) (h4 : b ≤ 16) (h : a ≠ b) : num win a ≠ num win b := fun e => h (num_inj h1 h2 h3 h4 e)

theorem good_ok {b : Opd} (h : Good b) (hi : b.isImm = false) : OpdOk win b := by
  cases b with
  | reg r => trivial
  | imm v => cases hi
  | mem base offs w =>
    obtain ⟨h1, h2, h3⟩ := h
    refine ⟨fun h => ⟨(h3 h).1, (h3 h).2, ?_⟩, fun _ hb _ => num_ne (by omega) (by omega) (by decide) (by decide) (by unfold TMP_REG2; omega)⟩
    rw [← num_sp win]
    exact num_ne (by omega) (by omega) (by decide) (by decide) (by unfold SP; omega)

/-! ## Instructions can be emitted -/

theorem sizeB_some {fl : Ins} {b : Opd} (h : b.isImm = false) : ∃ x, sizeB win fl b = some x := by
  apply Option.isSome_iff_exists.1
  cases b with
  | imm v => cases h
  | reg r => rfl
  | mem base offs w =>
    simp only [sizeB]
    split
    · rfl
    · split <;> (try split) <;> (try split) <;> (try split) <;> (try split) <;> rfl

theorem prep_imm {b : Opd} (h : b.isImm = false) : (prep win b).2.isImm = false := by
  cases b with
  | imm v => cases h
  | reg r => rfl
  | mem base offs w =>
    simp only [prep]
    split
    · split <;> rfl
    · rfl

/-- No flag which could fail an assertion. -/
def Ins.plain (fl : Ins) : Bool := !fl.binIns && !fl.shiftIns && !fl.byteArg && !fl.halfArg && !fl.vexExt && !fl.sseOp1

theorem emit_reg_some {fl : Ins} (hfl : fl.plain = true) (r : Nat) {b : Opd} (h : b.isImm = false) : ∃ o, emitX86 win m32 fl (.reg r) b = some o := by
  obtain ⟨⟨n, b', rexB⟩, hs⟩ := sizeB_some (win := win) (fl := fl) (prep_imm (win := win) h)
  simp only [Ins.plain, Bool.and_eq_true, Bool.not_eq_true'] at hfl
  unfold emitX86
  rw [show prep win b = ((prep win b).1, (prep win b).2) from rfl]
  simp [hs, hfl, Opd.isImm]

theorem ins_some {fl : Ins} (hfl : fl.plain = true) (r : Nat) {b : Opd} (h : b.isImm = false) (opc : List Byte) : ∃ bs, ins win m32 fl (.reg r) b opc = some bs := by
  obtain ⟨o, ho⟩ := emit_reg_some (win := win) (m32 := m32) hfl r h
  exact ⟨_, by rw [ins, ho]; rfl⟩

/-- With a constant: neither a shift nor an operation of group 1, or one of the latter. -/
theorem emit_imm_some {bi : Bool} {b : Opd} (h : b.isImm = false) {v : BitVec 64} (hv : m32 = false → isHalf v = true) :
    ∃ o, emitX86 win m32 { binIns := bi } (.imm v) b = some o := by
  obtain ⟨⟨n, b', rexB⟩, hs⟩ := sizeB_some (win := win) (fl := { binIns := bi }) (prep_imm (win := win) h)
  unfold emitX86
  rw [show prep win b = ((prep win b).1, (prep win b).2) from rfl]
  have : ¬ (m32 = false ∧ isHalf v = false) := fun hc => by rw [hv hc.1] at hc; cases hc.2
  simp [hs, this]

/-! ## Effects -/

/-- The code can be emitted and has this effect. -/
def Eff (win m32 : Bool) (c : Code) (s : St) (dst : Option Opd) (v : BitVec 64) (c1 c2 : Bool) (f : Flags) : Prop :=
  ∃ s', Emits c s s' ∧ Res win m32 s s' dst v c1 c2 ∧ s'.f = f

theorem Res.weaken {s' : St} {dst : Option Opd} {v : BitVec 64} {a1 a2 b1 b2 : Bool} (h : Res win m32 s s' dst v a1 a2) (h1 : b1 = false → a1 = false)
    (h2 : b2 = false → a2 = false) : Res win m32 s s' dst v b1 b2 :=
  ⟨fun q x y z => h.regs q x (fun e => h1 (y e)) (fun e => h2 (z e)), h.val, h.mem⟩

theorem Eff.weaken {c : Code} {dst : Option Opd} {v : BitVec 64} {a1 a2 b1 b2 : Bool} {f : Flags} (h : Eff win m32 c s dst v a1 a2 f) (h1 : b1 = false → a1 = false)
    (h2 : b2 = false → a2 = false) : Eff win m32 c s dst v b1 b2 f := by
  obtain ⟨s', e, r, hf⟩ := h
  exact ⟨s', e, r.weaken h1 h2, hf⟩

theorem trunc_trunc (m32 : Bool) (v : BitVec 64) : trunc m32 (trunc m32 v) = trunc m32 v := by
  cases m32
  · rfl
  · simp only [trunc, if_true]
    rw [show ((v.setWidth 32).setWidth 64).setWidth 32 = v.setWidth 32 from BitVec.setWidth_setWidth_of_le _ (by decide)]

theorem wr_trunc (m : BitVec 64 → Byte) (a v : BitVec 64) : wr m a (NB m32) (trunc m32 v) = wr m a (NB m32) v := by
  cases m32
  · rfl
  · funext q
    simp only [wr, NB, if_true, trunc]
    split
    next h =>
      apply BitVec.eq_of_getLsbD_eq
      intro k hk
      simp only [BitVec.getLsbD_setWidth, BitVec.getLsbD_ushiftRight, hk, decide_true, Bool.true_and]
      generalize (q - a).toNat = z at h
      simp [show 8 * z + k < 32 by omega, show 8 * z + k < 64 by omega]
    next => rfl

theorem Res.congr {s' : St} {dst : Option Opd} {v v' : BitVec 64} {c1 c2 : Bool} (h : Res win m32 s s' dst v c1 c2) (hv : trunc m32 v = trunc m32 v') :
    Res win m32 s s' dst v' c1 c2 := by
  refine ⟨h.regs, fun d hd => by rw [h.val d hd, hv], ?_⟩
  rw [h.mem]
  unfold wrMem
  split
  · rw [← wr_trunc, hv, wr_trunc]
  · rfl

theorem Eff.congr {c : Code} {dst : Option Opd} {v v' : BitVec 64} {c1 c2 : Bool} {f : Flags} (h : Eff win m32 c s dst v c1 c2 f) (hv : trunc m32 v = trunc m32 v') :
    Eff win m32 c s dst v' c1 c2 f := by
  obtain ⟨s', e, r, hf⟩ := h
  exact ⟨s', e, r.congr hv, hf⟩

/-- A register which is not written. -/
theorem Res.reg {s' : St} {dst : Option Opd} {v : BitVec 64} {c1 c2 : Bool} (h : Res win m32 s s' dst v c1 c2) {r : Nat} (hr1 : 1 ≤ r) (hr2 : r ≤ 16)
    (hd : ∀ d, dst = some (.reg d) → 1 ≤ d ∧ d ≤ 16 ∧ r ≠ d) (h1 : r = TMP_REG1 → c1 = false) (h2 : r = TMP_REG2 → c2 = false) : s'.r (num win r) = s.r (num win r) := by
  refine h.regs _ (fun d e => ?_) (fun e => h1 (num_inj hr1 hr2 (by decide) (by decide) e)) (fun e => h2 (num_inj hr1 hr2 (by decide) (by decide) e))
  obtain ⟨q1, q2, q3⟩ := hd d e
  exact num_ne hr1 hr2 q1 q2 q3

/-- The address of a memory operand which does not depend on what is written. -/
theorem Res.ea {s' : St} {dst : Option Opd} {v : BitVec 64} {c1 c2 : Bool} (h : Res win m32 s s' dst v c1 c2) {base offs : Nat} {w : BitVec 64} (hb : Good (.mem base offs w))
    (hd : ∀ d, dst = some (.reg d) → 1 ≤ d ∧ d ≤ 16 ∧ uses (.mem base offs w) d = false) : ea win s' base offs w = ea win s base offs w := by
  obtain ⟨h1, h2, h3⟩ := hb
  have key : ∀ r, 1 ≤ r → r ≤ 14 → (r = base ∨ r = offs) → s'.r (num win r) = s.r (num win r) := by
    intro r hr hr' hu
    refine h.reg hr (by omega) (fun d e => ?_) (by unfold TMP_REG1; omega) (by unfold TMP_REG2; omega)
    obtain ⟨q1, q2, q3⟩ := hd d e
    simp only [uses, Bool.or_eq_false_iff, beq_eq_false_iff_ne] at q3
    refine ⟨q1, q2, ?_⟩
    rcases hu with rfl | rfl
    · exact q3.1
    · exact q3.2
  unfold X86.ea
  by_cases hb0 : base = 0
  · by_cases ho0 : offs = 0
    · simp only [hb0, ho0, if_true]
    · exact absurd hb0 (h3 ho0).1
  · rw [key base (by omega) h1 (Or.inl rfl)]
    by_cases ho0 : offs = 0
    · simp only [ho0, if_true]
    · rw [key offs (by omega) (by omega) (Or.inr rfl)]

/-- The value of an operand which does not depend on what is written; dst is a register or nothing. -/
theorem Res.opv {s' : St} {dst : Option Opd} {v : BitVec 64} {c1 c2 : Bool} (h : Res win m32 s s' dst v c1 c2) {b : Opd} (hb : Good b)
    (hd : ∀ d, dst = some d → ∃ r, d = .reg r ∧ 1 ≤ r ∧ r ≤ 16 ∧ uses b r = false) (h1 : c1 = true → b ≠ .reg TMP_REG1) (h2 : c2 = true → b ≠ .reg TMP_REG2)
    (m : Bool) : opv win m s' b = opv win m s b := by
  have hm : s'.m = s.m := by
    rw [h.mem]
    cases dst with
    | none => rfl
    | some d =>
      obtain ⟨r, rfl, -⟩ := hd d rfl
      rfl
  have hd' : ∀ d, dst = some (.reg d) → 1 ≤ d ∧ d ≤ 16 ∧ uses b d = false := by
    intro d e
    obtain ⟨r, e', q⟩ := hd _ e
    cases e'; exact q
  cases b with
  | imm v => rfl
  | reg r =>
    simp only [X86.opv]
    rw [h.reg hb.1 hb.2.1 (fun d e => ?_) (fun e => ?_) (fun e => ?_)]
    · obtain ⟨q1, q2, q3⟩ := hd' d e
      simp only [uses, beq_eq_false_iff_ne] at q3
      exact ⟨q1, q2, q3⟩
    · cases hc : c1
      · rfl
      · exact absurd (by rw [e]) (h1 hc)
    · cases hc : c2
      · rfl
      · exact absurd (by rw [e]) (h2 hc)
  | mem base offs w =>
    simp only [X86.opv]
    rw [h.ea hb hd', hm]

/-- Two steps: the first writes a register, which is a temporary or written by the second one, too. -/
theorem Res.comp {m' : Bool} {s1 s2 : St} {t : Nat} {v1 v2 : BitVec 64} {dst : Option Opd} {a1 a2 b1 b2 : Bool} (h1 : Res win m' s s1 (some (.reg t)) v1 a1 a2)
    (h2 : Res win m32 s1 s2 dst v2 b1 b2) (hg : ∀ d, dst = some d → Good d) (ht : t = TMP_REG1 ∨ t = TMP_REG2 ∨ dst = some (.reg t)) :
    Res win m32 s s2 dst v2 (a1 || b1 || t == TMP_REG1) (a2 || b2 || t == TMP_REG2) := by
  refine ⟨fun q x y z => ?_, h2.val, ?_⟩
  · have hy : q = T1 win → (a1 = false ∧ b1 = false) ∧ t ≠ TMP_REG1 := by
      intro e; simpa using y e
    have hz : q = T2 win → (a2 = false ∧ b2 = false) ∧ t ≠ TMP_REG2 := by intro e; simpa using z e
    rw [h2.regs q x (fun e => (hy e).1.2) (fun e => (hz e).1.2)]
    refine h1.regs q (fun d e => ?_) (fun e => (hy e).1.1) (fun e => (hz e).1.1)
    cases e
    rcases ht with rfl | rfl | hd
    · intro e; exact (hy e).2 rfl
    · intro e; exact (hz e).2 rfl
    · exact x t hd
  · rw [h2.mem]
    have hm : s1.m = s.m := h1.mem
    cases dst with
    | none => exact hm
    | some d =>
      cases d with
      | reg r => exact hm
      | imm v => exact hm
      | mem base offs w =>
        have ht : t = 15 ∨ t = 16 := by rcases ht with h | h | h; exact Or.inl h; exact Or.inr h; cases h
        have hg := hg _ rfl
        simp only [wrMem]
        rw [hm, h1.ea hg (fun d e => ?_)]
        cases e
        obtain ⟨g1, g2, -⟩ := hg
        exact ⟨by omega, by omega, by simp [uses]; omega⟩

theorem Eff.comp {m' : Bool} {c d : Code} {t : Nat} {v1 v2 : BitVec 64} {dst : Option Opd} {a1 a2 b1 b2 : Bool} {f1 f2 : Flags} (h1 : Eff win m' c s (some (.reg t)) v1 a1 a2 f1)
    (h2 : ∀ s1, Res win m' s s1 (some (.reg t)) v1 a1 a2 → s1.f = f1 → Eff win m32 d s1 dst v2 b1 b2 f2) (hg : ∀ d, dst = some d → Good d)
    (ht : t = TMP_REG1 ∨ t = TMP_REG2 ∨ dst = some (.reg t)) : Eff win m32 (c +> d) s dst v2 (a1 || b1 || t == TMP_REG1) (a2 || b2 || t == TMP_REG2) f2 := by
  obtain ⟨s1, e1, r1, hf1⟩ := h1
  obtain ⟨s2, e2, r2, hf2⟩ := h2 s1 r1 hf1
  exact ⟨s2, e1.cat e2, r1.comp r2 hg ht, hf2⟩

/-! ## Moves -/

theorem mov_flds : simpleOp 0x89#8 = true ∧ simpleOp 0x8b#8 = true ∧ (0x89#8 : Byte) ≠ 0xf7#8 ∧ (0x8b#8 : Byte) ≠ 0xf7#8 := by decide

/-- mov b, r -/
theorem e_store {r : Nat} {b : Opd} (hb : Good b) (hi : b.isImm = false) (hr : long b = true → num win r ≠ T2 win) :
    Eff win m32 (ins win m32 {} (.reg r) b [0x89#8]) s (some b) (s.r (num win r)) false (long b) s.f := by
  obtain ⟨bs, h⟩ := ins_some (win := win) (m32 := m32) (fl := {}) rfl r hi [0x89#8]
  have hg : (clob win s b).r (num win r) = s.r (num win r) := clob_reg fun e => by
    by_contra hl; exact hr (by simpa using hl) e
  refine ⟨_, ⟨bs, h, ins_reg h (good_ok hb hi) mov_flds.1 mov_flds.2.2.1 ?_⟩, put_target win m32 s b hi _ s.f, rfl⟩
  simp only [execRM, rexOf_size, show ¬ ((0x89#8 : Byte) = 0x8d#8) by decide, and_false, if_false, Option.bind_some, if_true,
    show ¬ (fld 0x89#8 6 2 = 0#2) by decide, false_and, show ¬ ((0x89#8 : Byte) = 0x81#8) by decide, show ¬ ((0x89#8 : Byte) = 0x83#8) by decide,
    show ¬ ((0x89#8 : Byte) = 0x85#8) by decide, show ¬ ((0x89#8 : Byte) = 0xf7#8) by decide, or_self, hg]
  congr 1
  have : (put (clob win s b) (NB m32) (s.r (num win r)) (target win s b)).f = s.f := by
    rw [← clob_f win s b]; cases target win s b <;> rfl
  rw [← this]

/-- mov r, b -/
theorem e_load {r : Nat} {b : Opd} (hb : Good b) (hi : b.isImm = false) :
    Eff win m32 (ins win m32 {} (.reg r) b [0x8b#8]) s (some (.reg r)) (opv win m32 s b) false (long b) s.f := by
  obtain ⟨bs, h⟩ := ins_some (win := win) (m32 := m32) (fl := {}) rfl r hi [0x8b#8]
  refine ⟨_, ⟨bs, h, ins_reg h (good_ok hb hi) mov_flds.2.1 mov_flds.2.2.2 ?_⟩, put_dreg win m32 s b r _ s.f, rfl⟩
  simp only [execRM, rexOf_size, show ¬ ((0x8b#8 : Byte) = 0x8d#8) by decide, and_false, if_false, Option.bind_some, if_true,
    show ¬ (fld 0x8b#8 6 2 = 0#2) by decide, false_and, show ¬ ((0x8b#8 : Byte) = 0x81#8) by decide, show ¬ ((0x8b#8 : Byte) = 0x83#8) by decide,
    show ¬ ((0x8b#8 : Byte) = 0x85#8) by decide, show ¬ ((0x8b#8 : Byte) = 0xf7#8) by decide, show ¬ ((0x8b#8 : Byte) = 0x89#8) by decide, or_self, get_target win m32 s b hi]
  congr 1
  have : (put (clob win s b) (NB m32) (opv win m32 s b) (.reg (num win r))).f = s.f := by
    rw [← clob_f win s b]; rfl
  rw [← this]

/-- The constant of an instruction. -/
theorem trunc_sext {v : BitVec 64} (h : m32 = false → isHalf v = true) : trunc m32 (sext 4 v) = trunc m32 v := by
  cases m32
  · rw [sext_half (h rfl)]
  · have : (sext 4 v).setWidth 32 = v.setWidth 32 := by
      apply BitVec.eq_of_getLsbD_eq
      intro k hk
      rw [BitVec.getLsbD_setWidth, BitVec.getLsbD_setWidth, sext_bit (by decide) (by decide) _ (by omega), if_pos (by omega)]
    simp only [trunc, if_true, this]

/-- mov b, imm -/
theorem e_movImm {b : Opd} (hb : Good b) (hi : b.isImm = false) {v : BitVec 64} (hv : m32 = false → isHalf v = true) :
    Eff win m32 (ins win m32 {} (.imm v) b [0xc7#8]) s (some b) v false (long b) s.f := by
  obtain ⟨o, h⟩ := emit_imm_some (win := win) (m32 := m32) (bi := false) hi hv
  refine Eff.congr (v := sext 4 v) ?_ (trunc_sext hv)
  refine ⟨_, ⟨_, by rw [ins, h]; rfl, ?_⟩, put_target win m32 s b hi _ s.f, rfl⟩
  have hbt : btarget win {} s b = target win s b := by cases b <;> simp [btarget, target]
  refine imm_step (o' := o.op [0xc7#8]) (imm := sext 4 v) (s := s) (op := 0xc7#8) h (good_ok hb hi) (by decide) (by decide) (by decide) 0#3 rfl (fun rest => ?_) (fun rex hr _ => ?_)
    rfl rfl rfl (by simp [Out.op]) rfl rfl
  · have : (if (sizeA { binIns := false } v).2 then toLe 1 v else if ({ binIns := false } : Ins).halfArg then toLe 2 v else
        if ¬ ({ binIns := false } : Ins).shiftIns then toLe 4 v else []) = toLe 4 v := by simp [sizeA]
    rw [this]
    exact sle_toLe (by decide) (by decide) v rest
  · rw [hbt, show ({ binIns := false } : Ins).pref = 0#8 from rfl, execRM_nb hr (fun _ => by decide) (fun h => by cases h)]
    simp only [execRM, rexOf_size, show ¬ ((0xc7#8 : Byte) = 0x8d#8) by decide, and_false, if_false, Option.bind_some, if_true,
      show ¬ (fld 0xc7#8 6 2 = 0#2) by decide, false_and, show ¬ ((0xc7#8 : Byte) = 0x81#8) by decide, show ¬ ((0xc7#8 : Byte) = 0x83#8) by decide,
      show ¬ ((0xc7#8 : Byte) = 0x85#8) by decide, show ¬ ((0xc7#8 : Byte) = 0xf7#8) by decide, show ¬ ((0xc7#8 : Byte) = 0x89#8) by decide,
      show ¬ ((0xc7#8 : Byte) = 0x8b#8) by decide, show ¬ ((0xc7#8 : Byte) = 0x88#8) by decide, or_self, show ((0#3 : BitVec 3).setWidth 4).setWidth 3 = 0#3 by decide, and_self]
    congr 1
    have : (put (clob win s b) (NB m32) (sext 4 v) (target win s b)).f = s.f := by
      rw [← clob_f win s b]; cases target win s b <;> rfl
    rw [← this]

/-- A constant of 64 bits. -/
theorem e_load64 {r : Nat} (v : BitVec 64) : Eff win false (some (loadImm64 win r v)) s (some (.reg r)) v false false s.f := by
  refine ⟨_, ⟨_, rfl, loadImm64_steps win r v s⟩, ⟨fun q h1 _ _ => ?_, fun d hd => ?_, rfl⟩, rfl⟩
  · simp only [St.set, h1 r rfl, if_false]
  · cases hd; simp only [St.set, if_true]; rfl

theorem b8_flds : ∀ k : BitVec 3, (0xb8#8 ||| k.setWidth 8) ≠ 0x66#8 ∧ (0xb8#8 ||| k.setWidth 8) ≠ 0xf2#8 ∧ (0xb8#8 ||| k.setWidth 8) ≠ 0xf3#8 ∧
    fld (0xb8#8 ||| k.setWidth 8) 4 4 ≠ 4#4 ∧ (0xb8#8 ||| k.setWidth 8) ≠ 0x0f#8 ∧ fld (0xb8#8 ||| k.setWidth 8) 6 2 ≠ 0#2 ∧ (0xb8#8 ||| k.setWidth 8) ≠ 0xa9#8 ∧
    fld (0xb8#8 ||| k.setWidth 8) 3 5 = 0b10111#5 ∧ fld (0xb8#8 ||| k.setWidth 8) 0 3 = k := by decide

/-- mov r, imm32 -/
theorem e_b8 {r : Nat} (v : BitVec 64) :
    Eff win true (some (doImm32 (if regMap win r ≥ 8#8 then REX_B else 0#8) (0xb8#8 ||| regLmap win r) v)) s (some (.reg r)) v false false s.f := by
  refine Eff.congr (v := sext 4 v) ?_ (trunc_sext (fun h => by cases h))
  obtain ⟨e1, e2, e3, e4, e5, e6, e7, e8, e9⟩ := b8_flds (low win r)
  have hs := fun rest => sle_toLe (n := 4) (by decide) (by decide) v rest
  have hp : ∀ rest, parse (doImm32 (if regMap win r ≥ 8#8 then REX_B else 0#8) (0xb8#8 ||| regLmap win r) v ++ rest) =
      some (.short 0#8 (if high win r then 0x41#8 else 0#8) 0 (0xb8#8 ||| regLmap win r) (sext 4 v), rest) := by
    intro rest
    rw [high_if, lmap_eq]
    cases high win r
    · simp only [doImm32, Bool.false_eq_true, if_false, ne_eq, not_true_eq_false, List.nil_append, List.cons_append, parse, e1, e2, e3, or_self, parseRex, e4, parseMap, e5,
        parseOp, shortSize, Nat.zero_ne_one, e6, e7, false_and, e8, if_true, show (0#8 : Byte).getLsbD 3 = false by decide, show ¬ ((0#8 : Byte) = 0x66#8) by decide, hs, Option.map_some]
    · simp only [doImm32, if_true, REX_B, ne_eq, show ¬ ((0x41#8 : Byte) = 0#8) by decide, not_false_eq_true, List.nil_append, List.cons_append, parse,
        show ¬ ((0x41#8 : Byte) = 0x66#8 ∨ (0x41#8 : Byte) = 0xf2#8 ∨ (0x41#8 : Byte) = 0xf3#8) by decide, if_false, parseRex, show fld 0x41#8 4 4 = 4#4 by decide, parseMap, e5,
        parseOp, shortSize, Nat.zero_ne_one, e6, e7, or_self, false_and, e8, show (0x41#8 : Byte).getLsbD 3 = false by decide, Bool.false_eq_true,
        show ¬ ((0#8 : Byte) = 0x66#8) by decide, hs, Option.map_some]
  refine ⟨_, ⟨_, rfl, Steps.one _ hp ?_⟩, put_dreg win true s (.reg 1) r (sext 4 v) s.f, rfl⟩
  have hsz : opSize 0#8 (if high win r then 0x41#8 else 0#8) = NB true := by cases high win r <;> decide
  have hr : ext ((if high win r then (0x41#8 : Byte) else 0#8).getLsbD 0) (low win r) = num win r := by
    rw [num_eq]; cases high win r <;> rfl
  rw [lmap_eq]
  simp only [exec, hsz, Nat.zero_ne_one, if_false, e7, e8, if_true, e9, hr, clob]
  rfl

/-- emit_mov. -/
theorem e_mov {dst src : Opd} (hd : Good dst) (hdi : dst.isImm = false) (hs : Good src) (hx : long dst = true → src ≠ .reg TMP_REG2) :
    Eff win m32 (emitMov win m32 dst src) s (some dst) (opv win m32 s src) (!src.isReg && dst.isMem) (long src || long dst) s.f := by
  cases src with
  | reg r =>
    refine Eff.congr (v := s.r (num win r)) (Eff.weaken (e_store hd hdi fun hl => ?_) (fun _ => rfl) (fun h => by simpa [long] using h)) (trunc_trunc m32 _).symm
    exact num_ne hs.1 hs.2.1 (by decide) (by decide) (fun e => hx hl (by rw [e]))
  | imm v =>
    cases dst with
    | imm v => cases hdi
    | reg d =>
      by_cases hm : m32 = true
      · subst hm
        simp only [emitMov, not_true_eq_false, if_false]
        exact Eff.congr (Eff.weaken (e_b8 v) (fun _ => rfl) (fun _ => rfl)) (trunc_trunc _ _).symm
      · have hm : m32 = false := by simpa using hm
        subst hm
        by_cases hv : isHalf v = true
        · simp only [emitMov, Bool.false_eq_true, not_false_eq_true, if_true, hv, not_true_eq_false, if_false]
          exact Eff.congr (Eff.weaken (e_movImm hd hdi fun _ => hv) (fun _ => rfl) (fun _ => rfl)) (trunc_trunc _ _).symm
        · simp only [emitMov, Bool.false_eq_true, not_false_eq_true, if_true, hv]
          exact Eff.congr (Eff.weaken (e_load64 v) (fun _ => rfl) (fun _ => rfl)) (trunc_trunc _ _).symm
    | mem base offs w =>
      by_cases hw : ¬ m32 = true ∧ ¬ isHalf v = true
      · have hm : m32 = false := by simpa using hw.1
        subst hm
        simp only [emitMov, hw, and_self, not_false_eq_true, if_true]
        refine Eff.weaken (Eff.comp (e_load64 v) (fun s1 r1 hf => ?_) (fun d e => by cases e; exact hd) (Or.inl rfl) (b1 := false) (b2 := long (.mem base offs w))) (fun h => by simp [Opd.isMem, Opd.isReg] at h)
          (fun h => by simpa [long, TMP_REG1, TMP_REG2] using h)
        rw [← hf]
        refine Eff.congr (v := s1.r (num win TMP_REG1)) (e_store hd rfl fun hl => num_ne (by decide) (by decide) (by decide) (by decide) (by decide)) ?_
        rw [r1.val _ rfl]
        rfl
      · simp only [emitMov, hw, if_false]
        refine Eff.congr (Eff.weaken (e_movImm hd hdi fun hm => ?_) (fun _ => rfl) (fun h => by simpa [long] using h)) (trunc_trunc _ _).symm
        by_contra hv; exact hw ⟨by simp [hm], hv⟩
  | mem base offs w =>
    cases dst with
    | imm v => cases hdi
    | reg d =>
      exact Eff.weaken (e_load hs rfl) (fun _ => rfl) (fun h => by simpa [long] using h)
    | mem base' offs' w' =>
      simp only [emitMov]
      refine Eff.weaken (Eff.comp (e_load hs rfl) (fun s1 r1 hf => ?_) (fun d e => by cases e; exact hd) (Or.inl rfl) (b1 := false) (b2 := long (.mem base' offs' w')))
        (fun h => by simp [Opd.isMem, Opd.isReg] at h) (fun h => by simpa [TMP_REG1, TMP_REG2] using h)
      rw [← hf]
      refine Eff.congr (v := s1.r (num win TMP_REG1)) (e_store hd rfl fun hl => num_ne (by decide) (by decide) (by decide) (by decide) (by decide)) ?_
      rw [r1.val _ rfl, trunc_trunc]

end Verif.X86
