import Verif.X86.SwapEff

/-! # Flags as values and conditional moves (helper lemmas) -/

namespace Verif.X86

variable {win m32 : Bool} {s : St}

/-- The truth of a condition. -/
def ccJ (t : JT) (neg : Bool) (f : Flags) : Option Bool := ccF (fld (jumpCode t neg) 0 4) f

theorem jc_set (t : JT) (neg : Bool) : fld (jumpCode t neg + 0x10#8) 4 4 = 9#4 ∧ fld (jumpCode t neg + 0x10#8) 0 4 = fld (jumpCode t neg) 0 4 := by
  cases t <;> cases neg <;> decide

theorem jc_mov (t : JT) (neg : Bool) : fld (jumpCode t neg - 0x40#8) 4 4 = 4#4 ∧ fld (jumpCode t neg - 0x40#8) 0 4 = fld (jumpCode t neg) 0 4 := by
  cases t <;> cases neg <;> decide

theorem jc_neg (t : JT) (neg : Bool) (f : Flags) : ccJ t (!neg) f = (ccJ t neg f).map (!·) := by
  obtain ⟨cf, zf, sf, of⟩ := f
  cases t <;> cases neg <;> rcases cf with _ | _ | _ <;> rcases zf with _ | _ | _ <;> rcases sf with _ | _ | _ <;> rcases of with _ | _ | _ <;> rfl

/-! ## SETcc -/

theorem set_flds : ∀ op : Byte, fld op 4 4 = 9#4 → op ≠ 0xb6#8 ∧ op ≠ 0xbe#8 ∧ op ≠ 0xa4#8 ∧ op ≠ 0xac#8 ∧ fld op 4 4 ≠ 4#4 ∧ hasRM 1 op = true ∧ op ≠ 0xaf#8 ∧ op ≠ 0xb7#8 ∧ op ≠ 0xbf#8 ∧
    op ≠ 0xa5#8 ∧ op ≠ 0xad#8 := by decide +kernel

theorem setReg_tab : ∀ win : Bool, ∀ r : Fin 17, ∀ k : Fin 16, some (setReg win (0x80#8 + BitVec.ofNat 8 k.val) r.val) =
    ins win true { size := 2, rex := decide (regMap win r.val ≥ 4#8), noRexW := true } (.reg 0) (.reg r.val) [0x0f#8, 0x80#8 + BitVec.ofNat 8 k.val + 0x10#8] := by decide +kernel

theorem jc_tab (t : JT) (neg : Bool) : ∃ k : Fin 16, jumpCode t neg = 0x80#8 + BitVec.ofNat 8 k.val := by cases t <;> cases neg <;> decide

theorem setReg_ins (win : Bool) (t : JT) (neg : Bool) {r : Nat} (hr : r < 17) :
    some (setReg win (jumpCode t neg) r) = ins win true { size := 2, rex := decide (regMap win r ≥ 4#8), noRexW := true } (.reg 0) (.reg r) [0x0f#8, jumpCode t neg + 0x10#8] := by
  obtain ⟨k, hk⟩ := jc_tab t neg
  rw [hk]
  exact setReg_tab win ⟨r, hr⟩ k

theorem num_low : ∀ win : Bool, ∀ r : Fin 17, ¬ regMap win r.val ≥ 4#8 → ¬ 4 ≤ (num win r.val).toNat := by decide +kernel

/-- SETcc writes the lowest byte. -/
theorem e_setReg {t : JT} {neg c : Bool} (hc : ccJ t neg s.f = some c) {r : Nat} (h1 : 1 ≤ r) (h2 : r ≤ 16) (h3 : r ≠ 14) :
    Emits (some (setReg win (jumpCode t neg) r)) s (put s 1 (if c then 1#64 else 0#64) (.reg (num win r))) := by
  rw [setReg_ins win t neg (by omega)]
  obtain ⟨j1, j2⟩ := jc_set t neg
  obtain ⟨q1, q2, q3, q4, q5, q6, q7, q8, q9, q10, q11⟩ := set_flds _ j1
  refine ins_step2 (fl := { size := 2, rex := decide (regMap win r ≥ 4#8), noRexW := true }) rfl rfl rfl (b := .reg r) ⟨h1, h2, h3⟩ rfl q6 (imm1 (by simp [q3, q4])) (fun rex _ hx => ?_)
  have hb : byteLoc rex (.reg (num win r)) = false := by
    by_cases h : regMap win r ≥ 4#8
    · exact byteLoc_false (hx (by simpa using h)) _
    · have := num_low win ⟨r, by omega⟩ h
      simp only [byteLoc, byteReg, this, decide_false, Bool.and_false]
  simp only [execRM, Nat.one_ne_zero, false_and, if_false, Option.bind_some, if_true, q1, q2, q3, q4, q5, q7, q8, q9, q10, q11, or_self, j1, target, hb, Bool.false_eq_true, clob, j2,
    show ccF (fld (jumpCode t neg) 0 4) s.f = some c from hc, Option.map_some, show ¬ (9#4 : BitVec 4) = 4#4 by decide]

theorem low_byte (x v : BitVec 64) : (x &&& ~~~ (BitVec.allOnes 64 >>> (64 - 8 * 1)) ||| v &&& (BitVec.allOnes 64 >>> (64 - 8 * 1))) &&& (BitVec.allOnes 64 >>> (64 - 8 * 1)) =
    v &&& (BitVec.allOnes 64 >>> (64 - 8 * 1)) := by
  apply BitVec.eq_of_getLsbD_eq
  intro i hi
  simp only [BitVec.getLsbD_and, BitVec.getLsbD_or, BitVec.getLsbD_not, hi, decide_true, Bool.true_and]
  cases x.getLsbD i <;> cases v.getLsbD i <;> cases (BitVec.allOnes 64 >>> (64 - 8 * 1)).getLsbD i <;> rfl

theorem setZx_cat (win : Bool) (cc : Byte) {r : Nat} (hr : r < 17) : some (setZx win cc r) = some (setReg win cc r) +> groupf win false 0xb6#8 r (.reg r) := by
  have key : ∀ win : Bool, ∀ r : Fin 17, groupf win false 0xb6#8 r.val (.reg r.val) =
      some [REX_W ||| (if regMap win r.val ≤ 7#8 then 0#8 else REX_B ||| REX_R), 0x0f#8, 0xb6#8, 0xc0#8 ||| regLmap win r.val <<< 3 ||| regLmap win r.val] := by decide +kernel
  rw [key win ⟨r, hr⟩]
  rfl

/-- SETcc and MOVZX: 0 or 1. -/
theorem e_setZx {t : JT} {neg c : Bool} (hc : ccJ t neg s.f = some c) {r : Nat} (h1 : 1 ≤ r) (h2 : r ≤ 16) (h3 : r ≠ 14) :
    Eff win false (some (setZx win (jumpCode t neg) r)) s (some (.reg r)) (if c then 1#64 else 0#64) false false s.f := by
  rw [setZx_cat win _ (by omega)]
  have e1 := e_setReg (win := win) hc h1 h2 h3
  obtain ⟨s2, e2, r2, f2⟩ := e_movx (win := win) (s := put s 1 (if c then 1#64 else 0#64) (.reg (num win r))) (sign := false) (k := 1) (op := 0xb6#8) (Or.inl rfl) (r := r) (b := .reg r) ⟨h1, h2, h3⟩ rfl
  refine ⟨s2, e1.cat e2, ⟨fun q x y z => ?_, fun d e => ?_, ?_⟩, f2⟩
  · rw [r2.regs q x y z]
    simp only [put, St.set, x r rfl, if_false]
  · cases e
    rw [r2.val _ rfl, trunc_false, bsv, ext1]
    simp only [put, St.set, if_true, Bool.false_eq_true, if_false, show (1 : Nat) < 4 by decide]
    rw [low_byte]
    cases c <;> decide
  · exact r2.mem

/-! ## OR of the lowest bytes -/

theorem orReg_ins : ∀ win : Bool, ∀ d : Fin 17, some (orReg win d.val) =
    ins win true { rex := decide (regMap win TMP_REG1 ≥ 4#8 ∨ regMap win d.val ≥ 4#8), noRexW := true } (.reg TMP_REG1) (.reg d.val) [0x08#8] := by decide +kernel

section
variable {pre rex : Byte} {reg : BitVec 4} {l : Loc} {ad : Option (BitVec 64)} {imm : BitVec 64}
theorem x08 : execRM pre rex 0 0x08#8 reg (some l) ad imm s = if byteReg rex reg ∨ byteLoc rex l then none
    else (bin 1 (fun _ a b => some (logF (a ||| b))) (get s 1 l) (s.r reg)).map fun (v, f) => { put s 1 v l with f := f } := rfl
end

theorem e_orReg {d : Nat} (h1 : 1 ≤ d) (h2 : d ≤ 16) (h3 : d ≠ 14) : ∃ f, Emits (some (orReg win d)) s
    { put s 1 ((((s.r (num win d)) &&& (BitVec.allOnes 64 >>> (64 - 8 * 1))).setWidth 8 ||| (s.r (T1 win)).setWidth 8).setWidth 64) (.reg (num win d)) with f := f } := by
  refine ⟨(logF (((s.r (num win d)) &&& (BitVec.allOnes 64 >>> (64 - 8 * 1))).setWidth 8 ||| (s.r (T1 win)).setWidth 8)).2, ?_⟩
  · rw [orReg_ins win ⟨d, by omega⟩]
    refine ins_step (fl := { rex := decide (regMap win TMP_REG1 ≥ 4#8 ∨ regMap win d ≥ 4#8), noRexW := true }) rfl rfl rfl (b := .reg d) ⟨h1, h2, h3⟩ rfl (by decide) (by decide)
      (fun k => by simp [immSize]) (fun rex _ hx => ?_)
    have hb : byteLoc rex (.reg (num win d)) = false ∧ byteReg rex (num win TMP_REG1) = false := by
      by_cases h : regMap win TMP_REG1 ≥ 4#8 ∨ regMap win d ≥ 4#8
      · exact ⟨byteLoc_false (hx (by simpa using h)) _, byteReg_false (hx (by simpa using h)) _⟩
      · have a := num_low win ⟨d, by omega⟩ (fun e => h (Or.inr e))
        have b := num_low win ⟨TMP_REG1, by decide⟩ (fun e => h (Or.inl e))
        simp only at a b
        simp only [byteLoc, byteReg, a, b, decide_false, Bool.and_false, and_self]
    rw [x08]
    simp only [target, hb.1, hb.2, Bool.false_eq_true, or_self, if_false, clob, get, bin, logF, Option.map_some]
    rfl

/-- The fast version of OR. -/
theorem e_fastOr {t : JT} {neg c : Bool} (hc : ccJ t neg s.f = some c) {d : Nat} (h1 : 1 ≤ d) (h2 : d ≤ 13) :
    ∃ f, Eff win false (some (setReg win (jumpCode t neg) TMP_REG1 ++ orReg win d)) s (some (.reg d)) (s.r (num win d) ||| if c then 1#64 else 0#64) true false f := by
  have e1 := e_setReg (win := win) hc (r := TMP_REG1) (by decide) (by decide) (by decide)
  obtain ⟨f, e2⟩ := e_orReg (win := win) (s := put s 1 (if c then 1#64 else 0#64) (.reg (T1 win))) (d := d) h1 (by omega) (by omega)
  have hne : num win d ≠ T1 win := num_ne h1 (by omega) (by decide) (by decide) (by unfold TMP_REG1; omega)
  refine ⟨f, { put (put s 1 (if c then 1#64 else 0#64) (.reg (T1 win))) 1 (((((put s 1 (if c then 1#64 else 0#64) (.reg (T1 win))).r (num win d)) &&& (BitVec.allOnes 64 >>> (64 - 8 * 1))).setWidth 8 |||
      ((put s 1 (if c then 1#64 else 0#64) (.reg (T1 win))).r (T1 win)).setWidth 8).setWidth 64) (.reg (num win d)) with f := f },
    ⟨_, rfl, ?_⟩, ⟨fun q x y _ => ?_, fun d' e => ?_, ?_⟩, rfl⟩
  · obtain ⟨bs, hb, hst⟩ := Emits.cat e1 e2
    cases hb
    exact hst
  · have hq : q ≠ T1 win := fun e => by cases y e
    simp only [put, St.set, x d rfl, hq, if_false]
  · cases e
    simp only [put, St.set, if_true, if_false, hne, show (1 : Nat) < 4 by decide, trunc_false]
    apply BitVec.eq_of_getLsbD_eq
    intro i hi
    have hb : ∀ y : BitVec 64, (y &&& (BitVec.allOnes 64 >>> (64 - 8 * 1))).getLsbD i = (y.getLsbD i && decide (i < 8 * 1)) := fun y => mask_bit (by decide) (by decide) y
    have hm : (BitVec.allOnes 64 >>> (64 - 8 * 1)).getLsbD i = decide (i < 8 * 1) := by
      have := mask_bit (k := 1) (i := i) (by decide) (by decide) (BitVec.allOnes 64)
      rw [BitVec.allOnes_and] at this
      rw [this, BitVec.getLsbD_allOnes]; simp [hi]
    have h64 : (if c then 1#64 else 0#64 : BitVec 64).getLsbD i = (decide (i = 0) && c) := by
      cases c
      · simp
      · have key : ∀ i : Fin 64, (1#64 : BitVec 64).getLsbD i.val = decide (i.val = 0) := by decide
        simpa using key ⟨i, hi⟩
    rw [BitVec.getLsbD_or, BitVec.getLsbD_or, BitVec.getLsbD_and, BitVec.getLsbD_not, hm, hb, h64]
    simp only [BitVec.getLsbD_setWidth, BitVec.getLsbD_or, hb, hi, decide_true, Bool.true_and, h64, BitVec.getLsbD_and, BitVec.getLsbD_not, hm]
    by_cases h8 : i < 8 * 1
    · have h8' : i < 8 := h8
      simp [h8', -BitVec.getLsbD_eq_getElem]
    · have h8' : ¬ i < 8 := h8
      have h0 : ¬ i = 0 := by omega
      simp [h8', h0, -BitVec.getLsbD_eq_getElem]
  · rfl

/-! ## sljit_emit_op_flags -/

/-- The value of the condition. -/
def bitOf (c : Bool) : BitVec 64 := if c then 1#64 else 0#64

theorem e_flagsMov {t : JT} {neg c : Bool} (hc : ccJ t neg s.f = some c) {mov32 : Bool} {dst : Opd} (hd : Dst dst) :
    Eff1 win (emitFlagsMov win mov32 dst t neg) s dst (NB mov32) (bitOf c) s.f := by
  have dr := dstR_dst hd
  have h := e_setZx (win := win) hc dr.1 (by have := dr.2.1; omega) dr.2.2
  unfold emitFlagsMov
  cases dst with
  | imm _ => exact hd.elim
  | reg d => simp only [Opd.isReg, if_true, cat_nil]; exact Eff1.reg (Eff.out h)
  | mem base offs w =>
    simp only [Opd.isReg, Bool.false_eq_true, if_false]
    refine Eff.then1 h hd (Or.inl rfl) (fun s1 r1 hf => ?_)
    have := Eff.out (e_mov (win := win) (m32 := mov32) (s := s1) (dst := .mem base offs w) (src := .reg TMP_REG1) hd rfl good_t1 (fun _ h => by cases h))
    rw [hf, opv, show s1.r (num win TMP_REG1) = bitOf c from r1.val _ rfl, trunc_trunc] at this
    have hb : trunc mov32 (bitOf c) = bitOf c := by cases mov32 <;> cases c <;> rfl
    rw [hb] at this
    exact this

/-- dst = dst op TMP_REG1. -/
theorem e_inTmp {i : BitVec 3} {dst : Opd} (hd : Dst dst) {v : BitVec 64} {f : Flags} (ha : aluN m32 i (opv win m32 s dst) (s.r (T1 win)) s.f = some (v, f)) :
    Eff win m32 (inPlace win m32 (binOf i) dst (.reg TMP_REG1)) s (adst i dst) v true true f := by
  cases dst with
  | imm _ => exact hd.elim
  | reg d =>
    simp only [inPlace]
    refine Eff.weaken (e_rm (b := .reg TMP_REG1) good_t1 rfl (fun h => by cases h) ?_) (fun h => by cases h) (fun h => by cases h)
    rw [opv, (aluN_trunc m32 i _ _ _).2]
    rw [opv, (aluN_trunc m32 i _ _ _).1] at ha
    exact ha
  | mem base offs w =>
    simp only [inPlace]
    exact Eff.weaken (e_mr hd.good rfl (fun _ => num_ne_t2 (by decide) (by decide)) ha) (fun h => by cases h) (fun h => by cases h)

/-- sljit_emit_op_flags with an operation. -/
theorem e_flagsOp {op : RV.Op} (ho : op.code = .and ∨ op.code = .or ∨ op.code = .xor) (hfo : op.flagOk) {t : JT} {neg c : Bool} (hc : ccJ t neg s.f = some c) {dst : Opd} (hd : Dst dst)
    (hd13 : ∀ d, dst = .reg d → d ≤ 13) :
    ∃ (x : BitVec (B op.is32)) (f : Flags), Eff win op.is32 (emitFlagsOp win op dst t neg) s (some dst) (up op.is32 x) true true f ∧
      Post op (lo op.is32 (opv win op.is32 s dst)) (lo op.is32 (bitOf c)) false x f := by
  unfold emitFlagsOp
  by_cases hfast : op.code = .or ∧ ¬ op.is32 = true ∧ ¬ hasFlags op = true ∧ dst.isReg = true
  · rw [if_pos hfast]
    obtain ⟨h1, h2, h3, h4⟩ := hfast
    cases dst with
    | imm _ => exact hd.elim
    | mem _ _ _ => cases h4
    | reg d =>
      replace h2 : op.is32 = false := by simpa using h2
      obtain ⟨f, h⟩ := e_fastOr (win := win) hc hd.1 (hd13 d rfl)
      obtain ⟨code, is32, setZ, flag⟩ := op
      simp only at h1 h2
      subst h1 h2
      refine ⟨lo false (s.r (num win d) ||| bitOf c), f, ?_, post_plain (by simpa using h3) _ ?_⟩
      · rw [trunc_up]
        exact Eff.weaken h (fun h => by cases h) (fun h => by cases h)
      · rfl
  · rw [if_neg hfast]
    have h := e_setZx (win := win) hc (r := TMP_REG1) (by decide) (by decide) (by decide)
    obtain ⟨s1, e1, r1, f1⟩ := h
    have hv : s1.r (T1 win) = bitOf c := r1.val _ rfl
    have hu : opv win op.is32 s1 dst = opv win op.is32 s dst ∨ dst = .reg TMP_REG1 := by
      cases dst with
      | imm _ => exact hd.elim
      | reg d =>
        by_cases hd1 : d = TMP_REG1
        · exact Or.inr (by rw [hd1])
        · refine Or.inl (r1.opv hd.good (fun q e => ?_) (fun h => by cases h) (fun h => by cases h) _)
          cases e
          exact ⟨_, rfl, by decide, by decide, by simp [uses]; omega⟩
      | mem base offs w =>
        refine Or.inl (r1.opv hd.good (fun q e => ?_) (fun h => by cases h) (fun h => by cases h) _)
        cases e
        obtain ⟨g1, g2, -⟩ := hd.good
        exact ⟨_, rfl, by decide, by decide, by simp [uses, TMP_REG1]; omega⟩
    have hu : opv win op.is32 s1 dst = opv win op.is32 s dst := by
      rcases hu with h | rfl
      · exact h
      · have := hd13 _ rfl; exact absurd this (by decide)
    have cum : ∀ (i : BitVec 3) (x : BitVec (B op.is32)) (f : Flags), i ≠ 7#3 → alu i (lo op.is32 (opv win op.is32 s dst)) (lo op.is32 (bitOf c)) s1.f = some (x, f) →
        Eff win op.is32 (some (setZx win (jumpCode t neg) TMP_REG1) +> cumBinary win op.is32 (binOf i) dst dst (.reg TMP_REG1)) s (some dst) (up op.is32 x) true true f := by
      intro i x f hi h
      have ec : cumBinary win op.is32 (binOf i) dst dst (.reg TMP_REG1) = inPlace win op.is32 (binOf i) dst (.reg TMP_REG1) := if_pos rfl
      rw [ec]
      obtain ⟨s2, e2, r2, f2⟩ := e_inTmp (win := win) (m32 := op.is32) (s := s1) (i := i) hd (v := up op.is32 x) (f := f) (aluN_of (by rw [hu, hv]; exact h))
      rw [adst_some hi] at r2
      refine ⟨s2, e1.cat e2, ?_, f2⟩
      exact (r1.comp r2 (fun d e => by cases e; exact hd.good) (Or.inl rfl)).weaken (fun h => by cases h) (fun h => by cases h)
    obtain ⟨t0, t1, t2, t3, t4, t5, t6, t7⟩ := binOf_table
    obtain ⟨code, is32, setZ, flag⟩ := op
    rcases ho with h | h | h <;> simp only at h <;> subst h <;> simp only [emitOp2]
    · exact ⟨_, _, by rw [t4]; exact cum 4#3 _ _ (by decide) rfl, post_log (Or.inl rfl) hfo _ _ _ _ rfl⟩
    · exact ⟨_, _, by rw [t1]; exact cum 1#3 _ _ (by decide) rfl, post_log (Or.inr (Or.inl rfl)) hfo _ _ _ _ rfl⟩
    · have hne : ¬ (Opd.reg TMP_REG1 = .imm (-1#64)) := fun h => by cases h
      have hne' : ¬ (dst = .imm (-1#64)) := fun h => by subst h; exact hd.elim
      simp only [hne, hne', and_false, if_false]
      exact ⟨_, _, by rw [t6]; exact cum 6#3 _ _ (by decide) rfl, post_log (Or.inr (Or.inr rfl)) hfo _ _ _ _ rfl⟩

/-! ## sljit_emit_select -/

theorem e_emitCmov {t : JT} {neg c : Bool} (hc : ccJ t neg s.f = some c) {d : Nat} (hd : Dst (.reg d)) {src : Opd} (hs : User src) :
    Eff win m32 (emitCmov win m32 t neg d src) s (some (.reg d)) (if c then opv win m32 s src else s.r (num win d)) true true s.f := by
  obtain ⟨j1, j2⟩ := jc_mov t neg
  have hne : d ≠ TMP_REG2 := by have := hd.2.1; unfold TMP_REG2; omega
  have plain : src.isImm = false → Eff win m32 (groupf win m32 (jumpCode t neg - 0x40#8) d src) s (some (.reg d)) (if c then opv win m32 s src else s.r (num win d)) true true s.f := by
    intro hi
    exact Eff.weaken (e_cmov j1 (by rw [j2]; exact hc) hs.good hi (fun _ => num_ne_t2 hd.1 hd.2.1)) (fun h => by cases h) (fun h => by cases h)
  cases src with
  | reg r => exact plain rfl
  | mem _ _ _ => exact plain rfl
  | imm v =>
    simp only [emitCmov]
    obtain ⟨s1, e1, r1, f1⟩ := e_mov (win := win) (m32 := m32) (s := s) (dst := .reg TMP_REG2) (src := .imm v) (by simp [Good, TMP_REG2]) rfl trivial (fun h => by cases h)
    obtain ⟨s2, e2, r2, f2⟩ := e_cmov (win := win) (m32 := m32) (s := s1) j1 (by rw [j2, f1]; exact hc) (d := d) (b := .reg TMP_REG2) (by simp [Good, TMP_REG2]) rfl (fun h => by cases h)
    refine ⟨s2, e1.cat e2, ?_, f2.trans f1⟩
    have hv : opv win m32 s1 (.reg TMP_REG2) = opv win m32 s (.imm v) := by rw [opv, r1.val _ rfl, opv, trunc_trunc, trunc_trunc]
    have hr : s1.r (num win d) = s.r (num win d) := r1.reg hd.1 (by have := hd.2.1; omega) (fun q e => by cases e; exact ⟨by decide, by decide, hne⟩) (fun _ => rfl) (fun e => absurd e hne)
    rw [hv, hr] at r2
    exact (r1.comp r2 (fun d e => by cases e; exact hd.good) (Or.inr (Or.inl rfl))).weaken (fun h => by cases h) (fun h => by cases h)

theorem e_select {t : JT} {neg c : Bool} (hc : ccJ t neg s.f = some c) {d src2 : Nat} (hd : Dst (.reg d)) (hd13 : d ≤ 13) {src1 : Opd} (h1 : User src1) (h2 : User (.reg src2)) :
    Eff win m32 (emitSelect win m32 t neg d src1 src2) s (some (.reg d)) (if c then opv win m32 s src1 else opv win m32 s (.reg src2)) true true s.f := by
  have hn : ccJ t (!neg) s.f = some (!c) := by rw [jc_neg, hc]; rfl
  unfold emitSelect
  by_cases e : d = src2
  · subst e
    simp only [ne_eq, not_true_eq_false, if_false]
    refine Eff.congr (e_emitCmov hc hd h1) ?_
    cases c
    · simp only [Bool.false_eq_true, if_false, opv, trunc_trunc]
    · rfl
  · simp only [ne_eq, e, not_false_eq_true, if_true]
    by_cases e1 : src1 = .reg d
    · subst e1
      rw [if_pos rfl]
      refine Eff.congr (e_emitCmov hn hd h2) ?_
      cases c
      · rfl
      · simp only [Bool.not_true, Bool.false_eq_true, if_false, if_true, opv, trunc_trunc]
    · rw [if_neg e1]
      by_cases hdep : dependsOn src1 d = true
      · rw [if_pos hdep]
        obtain ⟨s1, a1, r1, f1⟩ := e_mov (win := win) (m32 := m32) (s := s) (dst := .reg d) (src := src1) hd.good rfl h1.good (fun h => by cases h)
        obtain ⟨s2, a2, r2, f2⟩ := e_emitCmov (win := win) (m32 := m32) (s := s1) (by rw [f1]; exact hn) hd h2
        have hv : opv win m32 s1 (.reg src2) = opv win m32 s (.reg src2) :=
          r1.opv h2.good (fun q e' => by cases e'; exact ⟨_, rfl, hd.1, by omega, by simp [uses]; omega⟩) (fun _ => h2.ne (by decide)) (fun _ => h2.ne (by decide)) _
        rw [hv, r1.val _ rfl] at r2
        refine ⟨s2, a1.cat a2, ?_, f2.trans f1⟩
        refine Res.congr ((r1.comp r2 (fun d e => by cases e; exact hd.good) (Or.inr (Or.inr rfl))).weaken (fun h => by cases h) (fun h => by cases h)) ?_
        cases c
        · rfl
        · simp only [Bool.not_true, Bool.false_eq_true, if_false, if_true, trunc_trunc]
      · rw [if_neg hdep]
        obtain ⟨s1, a1, r1, f1⟩ := e_mov (win := win) (m32 := m32) (s := s) (dst := .reg d) (src := .reg src2) hd.good rfl h2.good (fun h => by cases h)
        obtain ⟨s2, a2, r2, f2⟩ := e_emitCmov (win := win) (m32 := m32) (s := s1) (by rw [f1]; exact hc) hd h1
        have hv : opv win m32 s1 src1 = opv win m32 s src1 :=
          r1.opv h1.good (fun q e' => by cases e'; exact ⟨_, rfl, hd.1, by omega, uses_of (fun h => e1 h.symm) (by simpa using hdep)⟩) (fun _ => h1.ne (by decide)) (fun _ => h1.ne (by decide)) _
        rw [hv, r1.val _ rfl] at r2
        refine ⟨s2, a1.cat a2, ?_, f2.trans f1⟩
        refine Res.congr ((r1.comp r2 (fun d e => by cases e; exact hd.good) (Or.inr (Or.inr rfl))).weaken (fun h => by cases h) (fun h => by cases h)) ?_
        cases c
        · simp only [Bool.false_eq_true, if_false, trunc_trunc]
        · rfl

end Verif.X86
