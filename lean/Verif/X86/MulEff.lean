import Verif.X86.BinEff

/-! # Unary operations, LEA and multiplication (helper lemmas) -/

namespace Verif.X86

variable {win m32 : Bool} {s : St}

theorem cat_assoc (a b c : Code) : a +> b +> c = a +> (b +> c) := by
  cases a with
  | none => rfl
  | some a => cases b with
    | none => rfl
    | some b => cases c with
      | none => rfl
      | some c => simp [cat, List.append_assoc]

theorem cat_nil (a : Code) : a +> some [] = a := by
  cases a with
  | none => rfl
  | some a => simp [cat]

/-! ## NOT and NEG -/

/-- NOT (2) and NEG (3) of group 3. -/
def unN (m32 : Bool) (k : BitVec 3) (a : BitVec 64) (f : Flags) : Option (BitVec 64 × Flags) := if k = 2#3 then some (~~~ a, f) else aluN m32 5#3 0#64 a f

theorem trunc_not (m32 : Bool) (a : BitVec 64) : trunc m32 (~~~ trunc m32 a) = trunc m32 (~~~ a) := by
  cases m32
  · rfl
  · simp only [trunc, if_true]
    apply BitVec.eq_of_getLsbD_eq
    intro k hk
    simp only [BitVec.getLsbD_setWidth, BitVec.getLsbD_not, hk, decide_true, Bool.true_and]
    by_cases h : k < 32 <;> simp [h, hk]

/-- The instruction of group 3 with the given middle field. -/
def one (win m32 : Bool) (x : Byte) (b : Opd) : Code := (emitX86 win m32 {} (.reg 0) b).map fun o => ((o.op [0xf7#8]).or x).bytes

theorem reg0 : ∀ win : Bool, ahigh win {} 0 = false ∧ alow win {} 0 = 0#3 := by decide

theorem e_one {k : BitVec 3} (hk : k = 2#3 ∨ k = 3#3) {b : Opd} (hb : Good b) (hi : b.isImm = false) {v : BitVec 64} {f : Flags}
    (ha : unN m32 k (opv win m32 s b) s.f = some (v, f)) : Eff win m32 (one win m32 (k.setWidth 8 <<< 3) b) s (some b) v false (long b) f := by
  obtain ⟨o, h⟩ := emit_reg_some (win := win) (m32 := m32) (fl := {}) rfl 0 hi
  obtain ⟨n, b', rexB, hs, g1, g2, g3, g4, g5, -⟩ := reg_inv h
  rw [(reg0 win).1] at g3
  rw [(reg0 win).2] at g4
  have hbt : btarget win {} s b = target win s b := by cases b <;> simp [btarget, target]
  refine ⟨_, ⟨_, by rw [one, h]; rfl, ?_⟩, put_target win m32 s b hi v f, rfl⟩
  have hx := ext_low k
  refine core_step (m32 := m32) (rex := o.rex) (ib := []) (imm := 0#64) (good_ok hb hi) hs (by decide) (map := 0) (op := 0xf7#8) (Or.inl rfl) (fun _ => by decide) (by decide) false k
    (fun rest => ?_) (fun rex hr _ => ?_) g3 ?_
  · have : immSize 0#8 0 0xf7#8 ((ext false k).setWidth 3) = 0 := by rw [← hx]; rcases hk with rfl | rfl <;> decide
    rw [show ({} : Ins).pref = 0#8 from rfl, this, List.nil_append, sle_zero]
  · rw [hbt, show ({} : Ins).pref = 0#8 from rfl, execRM_nb hr (fun _ => by decide) (fun h => by cases h)]
    simp only [execRM, rexOf_size, show ¬ ((0xf7#8 : Byte) = 0x8d#8) by decide, and_false, if_false, Option.bind_some, if_true,
      show ¬ (fld 0xf7#8 6 2 = 0#2) by decide, false_and, show ¬ ((0xf7#8 : Byte) = 0x81#8) by decide, show ¬ ((0xf7#8 : Byte) = 0x83#8) by decide,
      show ¬ ((0xf7#8 : Byte) = 0x85#8) by decide, or_self, get_target win m32 s b hi, ← hx]
    rcases hk with rfl | rfl
    · simp only [unN, if_true, Option.some.injEq, Prod.mk.injEq] at ha
      simp only [show ¬ ((2#3 : BitVec 3) = 0#3) by decide, if_false, if_true, ha.1]
      congr 1
      have : (put (clob win s b) (NB m32) v (target win s b)).f = f := by
        rw [← ha.2, ← clob_f win s b]; cases target win s b <;> rfl
      rw [← this]
    · simp only [unN, show ¬ ((3#3 : BitVec 3) = 2#3) by decide, if_false] at ha
      simp only [show ¬ ((3#3 : BitVec 3) = 0#3) by decide, show ¬ ((3#3 : BitVec 3) = 2#3) by decide, if_false, if_true]
      have : bin (NB m32) (fun x a b => some (subF b a false)) (opv win m32 s b) 0#64 = aluN m32 5#3 0#64 (opv win m32 s b) s.f := rfl
      rw [this, ha]
      rfl
  · simp only [Out.bytes, Out.body, Out.op, Out.or, g1, g2, g4, g5, if_false, Bool.false_eq_true, opBytes, Nat.zero_ne_one, List.append_assoc, List.cons_append, List.nil_append, List.append_nil]
    rw [BitVec.or_comm, show (0#3 : BitVec 3).setWidth 8 <<< 3 = 0#8 by decide, BitVec.zero_or]

theorem unN_trunc {k : BitVec 3} {a v : BitVec 64} {f g : Flags} (h : unN m32 k a f = some (v, g)) :
    ∃ v', unN m32 k (trunc m32 a) f = some (v', g) ∧ trunc m32 v' = trunc m32 v := by
  unfold unN at h ⊢
  split at h
  next hk =>
    simp only [Option.some.injEq, Prod.mk.injEq] at h
    obtain ⟨rfl, rfl⟩ := h
    exact ⟨_, by rw [if_pos hk], trunc_not m32 a⟩
  next hk => exact ⟨v, by rw [if_neg hk, (aluN_trunc m32 _ _ _ _).2]; exact h, rfl⟩

/-- emit_unary. -/
theorem e_unary {k : BitVec 3} (hk : k = 2#3 ∨ k = 3#3) {dst src : Opd} (hd : Dst dst) (hs : User src) {v : BitVec 64} {f : Flags}
    (ha : unN m32 k (opv win m32 s src) s.f = some (v, f)) : Eff win m32 (unary win m32 (k.setWidth 8 <<< 3) dst src) s (some dst) v true true f := by
  have tmp : ∀ d, Dst (.reg d) → Eff win m32 (emitMov win m32 (.reg d) src +> one win m32 (k.setWidth 8 <<< 3) (.reg d)) s (some (.reg d)) v true true f := by
    intro d hd
    obtain ⟨v', h', hv⟩ := unN_trunc ha
    refine Eff.congr (v := v') ?_ hv
    refine Eff.weaken (Eff.comp (e_mov hd.good rfl hs.good (fun h => by cases h)) (fun s1 r1 hf => e_one hk hd.good rfl (v := v') (f := f) ?_)
      (fun q e => by cases e; exact hd.good) (Or.inr (Or.inr rfl)) (b1 := false) (b2 := long (.reg d))) (fun h => by cases h) (fun h => by cases h)
    rw [opv, r1.val d rfl, trunc_trunc, hf]
    exact h'
  unfold unary
  by_cases e : dst = src
  · rw [if_pos e]
    refine Eff.weaken (e_one hk hd.good hd.imm ?_) (fun h => by cases h) (fun h => by cases h)
    rw [e]; exact ha
  · rw [if_neg e]
    cases dst with
    | imm _ => exact hd.elim
    | reg d => exact tmp d hd
    | mem _ _ _ => exact e_moveTmp hd (tmp TMP_REG1 (by simp [Dst, TMP_REG1]))

/-! ## LEA -/

theorem e_lea {d base offs : Nat} {w : BitVec 64} (hb : Good (.mem base offs w)) :
    Eff win m32 (ins win m32 {} (.reg d) (.mem base offs w) [0x8d#8]) s (some (.reg d)) (ea win s base offs w) false (long (.mem base offs w)) s.f := by
  obtain ⟨bs, h⟩ := ins_some (win := win) (m32 := m32) (fl := {}) rfl d (b := .mem base offs w) rfl [0x8d#8]
  refine ⟨_, ⟨bs, h, ins_reg h (good_ok hb rfl) (by decide) (by decide) ?_⟩, put_dreg win m32 s (.mem base offs w) d _ s.f, rfl⟩
  simp only [execRM, rexOf_size, and_self, if_true, target, addrOf, Option.map_some]
  congr 1
  have : (put (clob win s (.mem base offs w)) (NB m32) (ea win s base offs w) (.reg (num win d))).f = s.f := by
    rw [← clob_f win s (.mem base offs w)]; rfl
  rw [← this]

theorem trunc_add (m32 : Bool) (a b c d : BitVec 64) (h1 : trunc m32 a = trunc m32 c) (h2 : trunc m32 b = trunc m32 d) : trunc m32 (a + b) = trunc m32 (c + d) := by
  cases m32
  · simp only [trunc, Bool.false_eq_true, if_false] at *; rw [h1, h2]
  · simp only [trunc, if_true] at *
    have e : ∀ x y : BitVec 64, (x.setWidth 32).setWidth 64 = (y.setWidth 32).setWidth 64 → x.setWidth 32 = y.setWidth 32 := by
      intro x y h
      have := congrArg (BitVec.setWidth 32) h
      simpa using this
    rw [BitVec.setWidth_add (w := 64) (i := 32) a b (by decide), BitVec.setWidth_add (w := 64) (i := 32) c d (by decide), e _ _ h1, e _ _ h2]

theorem lo_disp {v : BitVec 64} (h : m32 = true ∨ isHalf v = true) : trunc m32 ((v.setWidth 32).signExtend 64) = trunc m32 v ∧ isHalf ((v.setWidth 32).signExtend 64) = true := by
  have hh : isHalf ((v.setWidth 32).signExtend 64) = true := by
    generalize v.setWidth 32 = x
    simp only [isHalf, Bool.and_eq_true, BitVec.sle_eq_decide, decide_eq_true_eq]
    rw [BitVec.toInt_signExtend_of_le (by decide)]
    have h1 := BitVec.toInt_lt (x := x)
    have h2 := BitVec.le_toInt (x := x)
    constructor
    · rw [show (0x7fffffff#64 : BitVec 64).toInt = 2147483647 by decide]; omega
    · rw [show (-0x80000000#64 : BitVec 64).toInt = -2147483648 by decide]; omega
  refine ⟨?_, hh⟩
  have hl : ((v.setWidth 32).signExtend 64).setWidth 32 = v.setWidth 32 := by
    apply BitVec.eq_of_getLsbD_eq
    intro k hk
    rw [BitVec.getLsbD_setWidth, BitVec.getLsbD_signExtend]
    simp [-BitVec.getLsbD_eq_getElem, hk, show k < 64 by omega]
  cases m32
  · have h : isHalf v = true := by simpa using h
    rw [trunc, trunc, if_neg (by decide), if_neg (by decide)]
    refine Eq.trans ?_ (sext_half h)
    rw [← sext_half hh]
    apply BitVec.eq_of_getLsbD_eq
    intro k hk
    rw [sext_bit (by decide) (by decide) _ hk, sext_bit (by decide) (by decide) _ hk]
    have hb : ∀ j, j < 32 → ((v.setWidth 32).signExtend 64).getLsbD j = v.getLsbD j := by
      intro j hj
      have := congrArg (fun x => x.getLsbD j) hl
      simpa [hj] using this
    split <;> exact hb _ (by omega)
  · simp only [trunc, if_true, hl]

theorem leaAddr_ok {src1 src2 : Opd} {a : Nat × Nat × BitVec 64} (h : leaAddr m32 src1 src2 = some a) (h1 : User src1) (h2 : User src2) :
    Good (.mem a.1 a.2.1 a.2.2) ∧ trunc m32 (ea win s a.1 a.2.1 a.2.2) = trunc m32 (opv win m32 s src1 + opv win m32 s src2) := by
  cases src1 with
  | mem _ _ _ => cases src2 <;> cases h
  | reg r =>
    obtain ⟨a1, a2⟩ := h1
    cases src2 with
    | mem _ _ _ => cases h
    | reg q =>
      cases h
      obtain ⟨b1, b2⟩ := h2
      refine ⟨⟨show r ≤ _ by omega, show q ≤ _ by omega, fun _ => ⟨show _ by simp only; omega, show (0#64).toNat < 4 by decide⟩⟩, ?_⟩
      simp only [ea, show ¬ r = 0 by omega, show ¬ q = 0 by omega, if_false, opv]
      exact trunc_add _ _ _ _ _ (trunc_trunc _ _).symm (by rw [trunc_trunc]; simp)
    | imm v =>
      simp only [leaAddr] at h
      split at h
      next hc =>
        cases h
        refine ⟨⟨show r ≤ _ by omega, show 0 ≤ _ by omega, fun h => absurd rfl h⟩, ?_⟩
        simp only [ea, show ¬ r = 0 by omega, if_false, opv, if_true]
        exact trunc_add _ _ _ _ _ (trunc_trunc _ _).symm (by rw [trunc_trunc]; simpa using (lo_disp hc).1)
      next => cases h
  | imm v =>
    cases src2 with
    | mem _ _ _ => cases h
    | imm _ => cases h
    | reg r =>
      obtain ⟨a1, a2⟩ := h2
      simp only [leaAddr] at h
      split at h
      next hc =>
        cases h
        refine ⟨⟨show r ≤ _ by omega, show 0 ≤ _ by omega, fun h => absurd rfl h⟩, ?_⟩
        simp only [ea, show ¬ r = 0 by omega, if_false, opv, if_true]
        rw [BitVec.add_comm (trunc m32 v)]
        exact trunc_add _ _ _ _ _ (trunc_trunc _ _).symm (by rw [trunc_trunc]; simpa using (lo_disp hc).1)
      next => cases h

/-- emit_lea_binary. -/
theorem e_leaBinary {dst src1 src2 : Opd} {c : Code} (h : leaBinary win m32 dst src1 src2 = some c) (hd : Dst dst) (h1 : User src1) (h2 : User src2) :
    Eff win m32 c s (some dst) (opv win m32 s src1 + opv win m32 s src2) true true s.f := by
  -- the rest, once the address is known
  have fin : ∀ base offs w d, Dst (.reg d) → (d = TMP_REG1 ∨ dst = .reg d) → Good (.mem base offs w) →
      trunc m32 (ea win s base offs w) = trunc m32 (opv win m32 s src1 + opv win m32 s src2) →
      Eff win m32 (ins win m32 {} (.reg d) (.mem base offs w) [0x8d#8] +> if d = TMP_REG1 then emitMov win m32 dst (.reg TMP_REG1) else some []) s (some dst)
        (opv win m32 s src1 + opv win m32 s src2) true true s.f := by
    intro base offs w d hdd hdr hg he
    have L := Eff.congr (e_lea (win := win) (m32 := m32) (s := s) (d := d) hg) he
    by_cases e : d = TMP_REG1
    · rw [if_pos e]; subst e; exact e_moveTmp hd L
    · rw [if_neg e, cat_nil, hdr.resolve_left e]
      exact Eff.weaken L (fun h => by cases h) (fun h => by cases h)
  unfold leaBinary at h
  split at h
  · cases h
  · simp only [Option.map_eq_some_iff] at h
    obtain ⟨b, hb, rfl⟩ := h
    obtain ⟨g, he⟩ := leaAddr_ok (win := win) (s := s) hb h1 h2
    cases dst with
    | imm _ => exact hd.elim
    | reg d => exact fin _ _ _ d hd (Or.inr rfl) g he
    | mem _ _ _ => exact fin _ _ _ TMP_REG1 (by simp [Dst, TMP_REG1]) (Or.inl rfl) g he

/-! ## IMUL -/

/-- IMUL of NB bytes. -/
def mulN (m32 : Bool) (a b : BitVec 64) : Option (BitVec 64 × Flags) := bin (NB m32) (fun _ x y => some (mulF x y)) a b

theorem mulN_trunc (m32 : Bool) (a b : BitVec 64) : mulN m32 (trunc m32 a) b = mulN m32 a b ∧ mulN m32 a (trunc m32 b) = mulN m32 a b := bin_trunc m32 _ a b

theorem mulN_comm (m32 : Bool) (a b : BitVec 64) : mulN m32 a b = mulN m32 b a := by
  simp only [mulN, bin, mulF, BitVec.mul_comm, Int.mul_comm]

theorem e_imul {d : Nat} {b : Opd} (hb : Good b) (hi : b.isImm = false) (hr : long b = true → num win d ≠ T2 win) {v : BitVec 64} {f : Flags}
    (ha : mulN m32 (s.r (num win d)) (opv win m32 s b) = some (v, f)) : Eff win m32 (groupf win m32 0xaf#8 d b) s (some (.reg d)) v false (long b) f := by
  obtain ⟨bs, h⟩ := ins_some (win := win) (m32 := m32) (fl := { size := 2 }) rfl d hi [0x0f#8, 0xaf#8]
  have hg : (clob win s b).r (num win d) = s.r (num win d) := clob_reg fun e => by
    by_contra hl; exact hr (by simpa using hl) e
  refine ⟨_, ⟨bs, h, groupf_step h (good_ok hb hi) (by decide) (by decide) ?_⟩, put_dreg win m32 s b d v f, rfl⟩
  simp only [execRM, rexOf_size, Nat.one_ne_zero, false_and, if_false, Option.bind_some, if_true, get_target win m32 s b hi, hg]
  rw [mulN] at ha
  rw [ha]
  rfl

theorem e_imulImm {d : Nat} {b : Opd} (hb : Good b) (hi : b.isImm = false) {op : Byte} {n : Nat} (hop : op = 0x6b#8 ∧ n = 1 ∨ op = 0x69#8 ∧ n = 4) {u : BitVec 64}
    (hu : sext n u = u) {v : BitVec 64} {f : Flags}
    (ha : mulN m32 (opv win m32 s b) u = some (v, f)) : Eff win m32 (ins win m32 {} (.reg d) b [op] +> some (toLe n u)) s (some (.reg d)) v false (long b) f := by
  obtain ⟨bs, h⟩ := ins_some (win := win) (m32 := m32) (fl := {}) rfl d hi [op]
  refine ⟨_, ⟨bs ++ toLe n u, by rw [h]; rfl, imulImm_step hop h (good_ok hb hi) ?_⟩, put_dreg win m32 s b d v f, rfl⟩
  have ho : op ≠ 0x8d#8 ∧ fld op 6 2 ≠ 0#2 ∧ op ≠ 0x81#8 ∧ op ≠ 0x83#8 ∧ op ≠ 0x85#8 ∧ op ≠ 0xf7#8 ∧ op ≠ 0x89#8 ∧ op ≠ 0x8b#8 ∧ op ≠ 0x88#8 ∧ op ≠ 0xc7#8 ∧ op ≠ 0xc6#8 ∧
      op ≠ 0x63#8 ∧ (op = 0x69#8 ∨ op = 0x6b#8) := by rcases hop with ⟨rfl, rfl⟩ | ⟨rfl, rfl⟩ <;> decide
  obtain ⟨o1, o2, o3, o4, o5, o6, o7, o8, o9, o10, o11, o12, o13⟩ := ho
  simp only [execRM, rexOf_size, o1, o2, o3, o4, o5, o6, o7, o8, o9, o10, o11, o12, o13, and_false, false_and, or_self, if_false, Option.bind_some, if_true, get_target win m32 s b hi, hu]
  rw [mulN] at ha
  rw [ha]
  rfl

/-- `d = src * u`. -/
theorem e_mulImm {d : Nat} {src : Opd} (hd : Dst (.reg d)) (hs : User src ∨ src = .reg d) (hi : src.isImm = false) {u v : BitVec 64} {f : Flags}
    (ha : mulN m32 (opv win m32 s src) u = some (v, f)) : Eff win m32 (mulImm win m32 d src u) s (some (.reg d)) v (d == TMP_REG1) true f := by
  have hg : Good src := by rcases hs with h | rfl; exact h.good; exact hd.good
  have hdt : d ≤ 15 := hd.2.1
  unfold mulImm
  by_cases hb : isByte u = true
  · rw [if_pos hb]
    exact Eff.weaken (e_imulImm hg hi (Or.inl ⟨rfl, rfl⟩) (sext_byte hb) ha) (fun _ => rfl) (fun h => by cases h)
  · rw [if_neg hb]
    by_cases hh : isHalf u = true
    · rw [if_pos hh]
      exact Eff.weaken (e_imulImm hg hi (Or.inr ⟨rfl, rfl⟩) (sext_half hh) ha) (fun _ => rfl) (fun h => by cases h)
    · rw [if_neg hh]
      -- the value of src in d, a constant in TMP_REG2, and the multiplication
      have last : ∀ s1 : St, mulN m32 (s1.r (num win d)) u = some (v, f) →
          Eff win m32 (some (loadImm64 win TMP_REG2 u) +> groupf win m32 0xaf#8 d (.reg TMP_REG2)) s1 (some (.reg d)) v false true f := by
        intro s1 h1
        refine Eff.weaken (Eff.comp (e_load64 u) (fun s2 r2 hf => e_imul (by simp [Good, TMP_REG2]) rfl (fun h => by cases h) (v := v) (f := f) ?_)
          (fun q e => by cases e; exact hd.good) (Or.inr (Or.inl rfl)) (b1 := false) (b2 := false)) (fun _ => by decide) (fun h => by cases h)
        rw [opv, r2.val _ rfl, (mulN_trunc m32 _ _).2]
        rw [r2.reg hd.1 (by omega) (fun q e => ?_) (fun _ => rfl) (fun _ => rfl)]
        · exact h1
        · cases e; exact ⟨by decide, by decide, by unfold TMP_REG2; omega⟩
      rw [cat_assoc]
      by_cases e : Opd.reg d = src
      · rw [if_neg (not_not.2 e)]
        obtain ⟨s', ⟨bs, hbs, hst⟩, r, hf⟩ := last s (by rw [← e, opv, (mulN_trunc m32 _ _).1] at ha; exact ha)
        exact ⟨s', (Emits.nil s).cat ⟨bs, hbs, hst⟩, r.weaken (fun _ => rfl) id, hf⟩
      · rw [if_pos e]
        refine Eff.weaken (Eff.comp (e_mov hd.good rfl hg (fun h => by cases h)) (fun s1 r1 hf => last s1 ?_)
          (fun q e => by cases e; exact hd.good) (Or.inr (Or.inr rfl))) (fun h => by simpa [Opd.isMem] using h) (fun h => by cases h)
        rw [r1.val d rfl, (mulN_trunc m32 _ _).1]
        exact ha

/-- emit_mul. -/
theorem e_mul {dst src1 src2 : Opd} (hd : Dst dst) (h1 : User src1) (h2 : User src2) (hal : ∀ d, dst = .reg d → dst ≠ src1 → dependsOn src2 d = false ∨ src1.isImm = true)
    {v : BitVec 64} {f : Flags} (ha : mulN m32 (opv win m32 s src1) (opv win m32 s src2) = some (v, f)) :
    Eff win m32 (emitMul win m32 dst src1 src2) s (some dst) v true true f := by
  -- the multiplication into d
  have main : ∀ d, Dst (.reg d) → (Opd.reg d ≠ src1 → dependsOn src2 d = false ∨ src1.isImm = true) →
      Eff win m32 (mulInto win m32 d src1 src2) s (some (.reg d)) v (d == TMP_REG1) true f := by
    intro d hd hal
    unfold mulInto
    have hnt : ∀ b : Opd, long b = true → num win d ≠ T2 win := fun _ _ => num_ne_t2 hd.1 hd.2.1
    by_cases c1 : Opd.reg d = src1 ∧ ¬ src2.isImm = true
    · rw [if_pos c1]
      refine Eff.weaken (e_imul h2.good (by simpa using c1.2) (hnt src2) ?_) (fun _ => rfl) (fun h => by cases h)
      rw [← c1.1, opv, (mulN_trunc m32 _ _).1] at ha
      exact ha
    · rw [if_neg c1]
      by_cases c2 : Opd.reg d = src2 ∧ ¬ src1.isImm = true
      · rw [if_pos c2]
        refine Eff.weaken (e_imul h1.good (by simpa using c2.2) (hnt src1) ?_) (fun _ => rfl) (fun h => by cases h)
        rw [← c2.1, opv.eq_1, (mulN_trunc m32 _ _).2, mulN_comm] at ha
        exact ha
      · rw [if_neg c2]
        have gen : src1.isImm = false → src2.isImm = false → Eff win m32 (
            let t := if dependsOn src2 d then TMP_REG1 else d
            emitMov win m32 (.reg t) src1 +> groupf win m32 0xaf#8 t src2) s (some (.reg d)) v (d == TMP_REG1) true f := by
          intro i1 i2
          have n1 : Opd.reg d ≠ src1 := fun e => c1 ⟨e, by simp [i2]⟩
          have n2 : Opd.reg d ≠ src2 := fun e => c2 ⟨e, by simp [i1]⟩
          have hdp : dependsOn src2 d = false := (hal n1).resolve_right (by simp [i1])
          simp only [hdp, Bool.false_eq_true, if_false]
          refine Eff.weaken (Eff.comp (e_mov hd.good rfl h1.good (fun h => by cases h)) (fun s1 r1 hf => e_imul h2.good i2 (hnt src2) (v := v) (f := f) ?_)
            (fun q e => by cases e; exact hd.good) (Or.inr (Or.inr rfl)) (b1 := false) (b2 := long src2)) (fun h => by simpa [Opd.isMem] using h) (fun h => by cases h)
          rw [r1.val d rfl, (mulN_trunc m32 _ _).1, r1.opv h2.good (fun q e => ?_) (fun _ => h2.ne (by decide)) (fun _ => h2.ne (by decide))]
          · exact ha
          · cases e; exact ⟨d, rfl, hd.1, by have := hd.2.1; omega, uses_of n2 hdp⟩
        cases src1 with
        | imm w =>
          cases src2 with
          | imm u =>
            simp only
            refine Eff.weaken (Eff.comp (e_mov hd.good rfl trivial (fun h => by cases h)) (fun s1 r1 hf => e_mulImm hd (Or.inr rfl) rfl (v := v) (f := f) ?_)
              (fun q e => by cases e; exact hd.good) (Or.inr (Or.inr rfl))) (fun h => by simpa [Opd.isMem] using h) (fun h => by cases h)
            rw [opv, r1.val d rfl, (mulN_trunc m32 _ _).1, (mulN_trunc m32 _ _).1, mulN_comm]
            rw [opv, (mulN_trunc m32 _ _).1] at ha
            exact ha
          | reg r =>
            simp only
            rw [opv.eq_2, (mulN_trunc m32 _ _).1, mulN_comm] at ha
            exact e_mulImm hd (Or.inl h2) rfl ha
          | mem _ _ _ =>
            simp only
            rw [opv.eq_2, (mulN_trunc m32 _ _).1, mulN_comm] at ha
            exact e_mulImm hd (Or.inl h2) rfl ha
        | reg r =>
          cases src2 with
          | imm u =>
            simp only
            rw [opv.eq_2, (mulN_trunc m32 _ _).2] at ha
            exact e_mulImm hd (Or.inl h1) rfl ha
          | reg _ => exact gen rfl rfl
          | mem _ _ _ => exact gen rfl rfl
        | mem _ _ _ =>
          cases src2 with
          | imm u =>
            simp only
            rw [opv.eq_2, (mulN_trunc m32 _ _).2] at ha
            exact e_mulImm hd (Or.inl h1) rfl ha
          | reg _ => exact gen rfl rfl
          | mem _ _ _ => exact gen rfl rfl
  unfold emitMul
  cases dst with
  | imm _ => exact hd.elim
  | reg d =>
    simp only [Opd.isMem, Bool.false_eq_true, if_false]
    rw [cat_nil]
    exact Eff.weaken (main d hd (hal d rfl)) (fun h => by cases h) id
  | mem _ _ _ =>
    simp only [Opd.isMem, if_true]
    refine e_moveTmp hd (main TMP_REG1 (by simp [Dst, TMP_REG1]) (fun _ => Or.inl ?_))
    have := h2.uses (r := TMP_REG1) (by decide)
    cases src2 with
    | reg _ => rfl
    | imm _ => rfl
    | mem _ _ _ => exact this

end Verif.X86
