import Verif.A64.OpImm

/-! # sljit_emit_op2 (helper lemmas) -/

namespace Verif.A64
open Verif.Imm.Arm64 (regMap RD RN TMP_ZERO W_OP ORRI logicalImm loadImmediate)
open Verif (RV.OpC RV.Op RV.Flag RV.val RV.flagVal RV.Op.flagOk)

/-! ## Memory -/

theorem wr_congr {k : Nat} : ∀ (m : BitVec 64 → BitVec 8) (a x y : BitVec 64), (∀ i, i < 8 * k → x.getLsbD i = y.getLsbD i) → wr m a x k = wr m a y k := by
  induction k with
  | zero => intro m a x y _; rfl
  | succ k ih =>
    intro m a x y h
    have e : x.setWidth 8 = y.setWidth 8 := by
      apply BitVec.eq_of_getLsbD_eq; intro i hi
      simp only [BitVec.getLsbD_setWidth, hi, decide_true, Bool.true_and]; exact h i (by omega)
    simp only [wr, e]
    refine ih _ _ _ _ fun i hi => ?_
    rw [BitVec.getLsbD_ushiftRight, BitVec.getLsbD_ushiftRight]; exact h _ (by omega)

/-- The bytes of an operand. -/
theorem sz_bytes (int : Bool) : 8 * 2 ^ szOf int = W (!int) := by cases int <;> rfl

theorem lo_bit (sf : Bool) (x : BitVec 64) (i : Nat) (h : i < W sf) : (lo sf x).getLsbD i = x.getLsbD i := by
  simp [lo, BitVec.getLsbD_setWidth, h]

theorem wr_lo {int : Bool} {x : BitVec 64} {v : BitVec (W !int)} (h : lo (!int) x = v) (m : BitVec 64 → BitVec 8) (a : BitVec 64) : wr m a x (2 ^ szOf int) = wr m a (up v) (2 ^ szOf int) := by
  subst h
  refine wr_congr _ _ _ _ fun i hi => ?_
  rw [sz_bytes] at hi
  rw [← lo_bit (!int) x i hi, ← lo_bit (!int) (up (lo (!int) x)) i hi, lo_up]

/-! ## Operands -/

/-- Registers of the user, without the stack pointer. -/
def Ur (r : Nat) : Prop := 1 ≤ r ∧ r ≤ 26

theorem ur_map {r : Nat} (h : Ur r) : regMap r ≠ 9#5 ∧ regMap r ≠ 10#5 ∧ regMap r ≠ 30#5 ∧ regMap r ≠ 31#5 := by
  have key : ∀ r, r ≤ 26 → 1 ≤ r → regMap r ≠ 9#5 ∧ regMap r ≠ 10#5 ∧ regMap r ≠ 30#5 ∧ regMap r ≠ 31#5 := by decide
  exact key r h.2 h.1

theorem usp_map {r : Nat} (h1 : 1 ≤ r) (h : r ≤ 27) : regMap r ≠ 9#5 ∧ regMap r ≠ 10#5 ∧ regMap r ≠ 30#5 := by
  have key : ∀ r, r ≤ 27 → 1 ≤ r → regMap r ≠ 9#5 ∧ regMap r ≠ 10#5 ∧ regMap r ≠ 30#5 := by decide
  exact key r h h1

theorem map_inj {q r : Nat} (h1 : 1 ≤ q ∧ q ≤ 27) (h2 : 1 ≤ r ∧ r ≤ 27) (h : q ≠ r) : regMap q ≠ regMap r := by
  have key : ∀ q : Fin 28, ∀ r : Fin 28, 1 ≤ q.val → 1 ≤ r.val → q.val ≠ r.val → regMap q.val ≠ regMap r.val := by decide
  exact key ⟨q, by omega⟩ ⟨r, by omega⟩ h1.1 h2.1 h

/-- Operands of the user. -/
def Usr : Opd → Prop
  | .reg r => Ur r
  | .imm _ => True
  | .mem base offs w => base ≤ 27 ∧ offs ≤ 26 ∧ (offs ≠ 0 → base ≠ 0 ∧ base ≠ 27 ∧ w.toNat < 4)

/-- The value of an operand. -/
def ov (sf : Bool) (s : St) : Opd → BitVec (W sf)
  | .reg r => lo sf (s.r (regMap r))
  | .imm v => lo sf v
  | .mem base offs w => lo sf (rd s.m (ea s base offs w) (W sf / 8))

theorem usr_mem {base offs : Nat} {w : BitVec 64} (h : Usr (.mem base offs w)) {tmp : Nat} (ht : tmp = TMP_REG1 ∨ tmp = TMP_REG2) : MemOk base offs w tmp := by
  obtain ⟨h1, h2, h3⟩ := h
  refine ⟨by rcases ht with rfl | rfl <;> decide, fun hb => ?_, fun ho => ?_⟩
  · have := usp_map (r := base) (by omega) h1
    rcases ht with rfl | rfl
    · exact this.1
    · exact this.2.1
  · obtain ⟨a1, a2, a3⟩ := h3 ho
    exact ⟨a1, a3, (ur_map (r := base) ⟨by omega, by omega⟩).2.2.2, (ur_map (r := offs) ⟨by omega, h2⟩).2.2.2⟩

/-- Addresses use registers of the user and the stack pointer only. -/
theorem ea_eq {base offs : Nat} {w : BitVec 64} (h : Usr (.mem base offs w)) {s s1 : St} (hk : ∀ q, q ≠ 9#5 → q ≠ 10#5 → q ≠ 30#5 → s1.r q = s.r q) : ea s1 base offs w = ea s base offs w := by
  obtain ⟨h1, h2, h3⟩ := h
  have e : ∀ r, r ≤ 27 → r ≠ 0 → s1.r (regMap r) = s.r (regMap r) := fun r hr h0 => by
    obtain ⟨n1, n2, n3⟩ := usp_map (r := r) (by omega) hr
    exact hk _ n1 n2 n3
  have hb : (if base = 0 then 0#64 else s1.r (regMap base)) = (if base = 0 then 0#64 else s.r (regMap base)) := by
    split
    · rfl
    · next h => exact e _ h1 h
  have ho : (if offs = 0 then w else s1.r (regMap offs) <<< w.toNat) = (if offs = 0 then w else s.r (regMap offs) <<< w.toNat) := by
    split
    · rfl
    · next h => rw [e _ (by omega) h]
  simp only [ea, hb, ho]

theorem ov_eq {o : Opd} (h : Usr o) {sf : Bool} {s s1 : St} (hk : ∀ q, q ≠ 9#5 → q ≠ 10#5 → q ≠ 30#5 → s1.r q = s.r q) (hm : s1.m = s.m) : ov sf s1 o = ov sf s o := by
  cases o with
  | reg r => simp only [ov]; rw [hk _ (ur_map h).1 (ur_map h).2.1 (ur_map h).2.2.1]
  | imm v => rfl
  | mem base offs w => simp only [ov]; rw [ea_eq h hk, hm]

/-- States which differ in one register at most. -/
structure Near (t : BitVec 5) (s s1 : St) : Prop where
  m : s1.m = s.m
  f : s1.f = s.f
  keep : ∀ q, q ≠ t → s1.r q = s.r q

theorem upto_near {t : BitVec 5} {s s1 : St} (h : Upto t s s1) : Near t s s1 := by
  rcases h with rfl | ⟨v, rfl⟩
  · exact ⟨rfl, rfl, fun _ _ => rfl⟩
  · exact ⟨rfl, rfl, fun q h => set_ne _ _ h⟩

theorem sz_ok (int : Bool) : szOf int < 4 := by cases int <;> decide
theorem sz_div (int : Bool) : W (!int) / 8 = 2 ^ szOf int := by cases int <;> rfl

/-- Loads into the temporary register which also holds the address. -/
theorem load_run {t : Ty} (ht : t.size < 4) (hs : t.size = 3 → t.sg = false) (hst : t.store = false) {base offs : Nat} {w : BitVec 64} (h : Usr (.mem base offs w)) {tmp : Nat} (htm : tmp = TMP_REG1 ∨ tmp = TMP_REG2) (s : St) :
    ∃ is s1, emitOpMem t tmp base offs w tmp = some is ∧ runs is s = some s1 ∧ Near (regMap tmp) s s1 ∧ s1.r (regMap tmp) = t.load s.m (ea s base offs w) := by
  obtain ⟨is, s1, e1, e2, e3⟩ := opMem_run ht hs (r := tmp) (usr_mem h htm) s
  have n := upto_near e2
  have h31 : regMap tmp ≠ 31#5 := by rcases htm with rfl | rfl <;> decide
  refine ⟨is, _, e1, e3, ?_, ?_⟩
  · simp only [Ty.eff, hst, Bool.false_eq_true, if_false, setX_ne _ _ h31]
    exact ⟨n.m, n.f, fun q hq => (set_ne _ _ hq).trans (n.keep q hq)⟩
  · simp only [Ty.eff, hst, Bool.false_eq_true, if_false, setX_ne _ _ h31, set_self, n.m]

/-- The stores at the end. -/
theorem store_run {t : Ty} (ht : t.size < 4) (hs : t.size = 3 → t.sg = false) (hst : t.store = true) {base offs : Nat} {w : BitVec 64} (h : Usr (.mem base offs w)) {r : Nat} (hr : regMap r ≠ 10#5) (s : St) :
    ∃ is s1, emitOpMem t r base offs w TMP_REG2 = some is ∧ runs is s = some s1 ∧ s1.f = s.f ∧ (∀ q, q ≠ 10#5 → s1.r q = s.r q) ∧ s1.m = wr s.m (ea s base offs w) (s.x (regMap r)) (2 ^ t.size) := by
  obtain ⟨is, s1, e1, e2, e3⟩ := opMem_run ht hs (r := r) (usr_mem h (.inr rfl)) s
  have n := upto_near e2
  refine ⟨is, _, e1, e3, ?_, ?_, ?_⟩
  · simp only [Ty.eff, hst, if_true]; exact n.f
  · simp only [Ty.eff, hst, if_true]; exact n.keep
  · simp only [Ty.eff, hst, if_true, n.m]
    have : s1.x (regMap r) = s.x (regMap r) := by
      unfold St.x; split
      · rfl
      · exact n.keep _ hr
    rw [this]

/-- The operands are prepared. -/
theorem loadArg_run (int : Bool) {tmp : Nat} (ht : tmp = TMP_REG1 ∨ tmp = TMP_REG2) {o : Opd} (h : Usr o) (s : St) :
    ∃ is s1, (loadArg (szOf int) tmp o).1 = some is ∧ runs is s = some s1 ∧ Near (regMap tmp) s s1 ∧ lo (!int) (argV s1 (loadArg (szOf int) tmp o).2) = ov (!int) s o ∧
      (∀ t : BitVec 5, t ≠ regMap tmp → t = 9#5 ∨ t = 10#5 → ArgOk t (loadArg (szOf int) tmp o).2) ∧
      (∀ s2 : St, Near (if tmp = TMP_REG1 then 10#5 else 9#5) s1 s2 → argV s2 (loadArg (szOf int) tmp o).2 = argV s1 (loadArg (szOf int) tmp o).2) := by
  cases o with
  | reg r =>
    obtain ⟨n1, n2, n3, n4⟩ := ur_map h
    refine ⟨[], s, rfl, rfl, ⟨rfl, rfl, fun _ _ => rfl⟩, ?_, fun t _ h => ⟨by rcases h with rfl | rfl <;> assumption, n3, n4⟩, fun s2 h2 => ?_⟩
    · simp [loadArg, argV, ov, x_ne n4]
    · simp only [loadArg, argV, x_ne n4]
      refine h2.keep _ ?_
      split <;> assumption
  | imm v => exact ⟨[], s, rfl, rfl, ⟨rfl, rfl, fun _ _ => rfl⟩, rfl, fun _ _ _ => trivial, fun _ _ => rfl⟩
  | mem base offs w =>
    obtain ⟨is, s1, e1, e2, e3, e4⟩ := load_run (t := ⟨szOf int, false, false⟩) (sz_ok int) (fun _ => rfl) rfl h ht s
    have h31 : regMap tmp ≠ 31#5 := by rcases ht with rfl | rfl <;> decide
    refine ⟨is, s1, e1, e2, e3, ?_, fun t h1 h2 => ⟨h1.symm, by rcases ht with rfl | rfl <;> decide, h31⟩, fun s2 h2 => ?_⟩
    · simp only [loadArg, argV, ov, x_ne h31, e4, Ty.load, sz_div]; simp
    · simp only [loadArg, argV, x_ne h31]
      refine h2.keep _ ?_
      rcases ht with rfl | rfl <;> decide

/-! ## The whole -/

/-- Destinations; TMP_REG2 is no destination (sljit_emit_op2u). -/
def DstOk : Opd → Prop
  | .reg r => Ur r ∨ r = TMP_REG2
  | .imm _ => False
  | .mem base offs w => Usr (.mem base offs w)

/-- After an operation. -/
structure Fin {sf : Bool} (s s' : St) (dst : Opd) (x : BitVec (W sf)) : Prop where
  keep : ∀ q, q ≠ 9#5 → q ≠ 10#5 → q ≠ 30#5 → (∀ d, dst = .reg d → q ≠ regMap d) → s'.r q = s.r q
  reg : ∀ d, dst = .reg d → d ≠ TMP_REG2 → lo sf (s'.r (regMap d)) = x
  mem : ∀ base offs w, dst = .mem base offs w → s'.m = wr s.m (ea s base offs w) (up x) (W sf / 8)
  same : (∀ base offs w, dst ≠ .mem base offs w) → s'.m = s.m

/-- The register where emit_op_imm leaves the result. -/
def dreg (dst : Opd) : Nat := match dst with | .reg d => d | _ => TMP_REG1

theorem dreg_map {dst : Opd} (h : DstOk dst) : regMap (dreg dst) ≠ 31#5 ∧ regMap (dreg dst) ≠ 30#5 := by
  cases dst with
  | reg d => rcases h with h | rfl
             · exact ⟨(ur_map h).2.2.2, (ur_map h).2.2.1⟩
             · decide
  | imm _ => exact absurd h id
  | mem _ _ _ => exact ⟨show regMap TMP_REG1 ≠ 31#5 by decide, show regMap TMP_REG1 ≠ 30#5 by decide⟩

theorem op2_run {op : Bin} {int set : Bool} {dst src1 src2 : Opd} (hd : DstOk dst) (h1 : Usr src1) (h2 : Usr src2) {s : St} {Q : BitVec (W !int) → Flags → Prop}
    (H : ∀ (s2 : St) (a1 a2 : Arg), s2.m = s.m → s2.f = s.f → (∀ q, q ≠ 9#5 → q ≠ 10#5 → s2.r q = s.r q) → ArgOk 10#5 a1 → ArgOk 9#5 a2 → lo (!int) (argV s2 a1) = ov (!int) s src1 → lo (!int) (argV s2 a2) = ov (!int) s src2 →
      ∃ is s' x, emitOpImm op ⟨int, set, decide (dst = .reg TMP_REG2)⟩ (dreg dst) a1 a2 = some is ∧ runs is s2 = some s' ∧ Res (!int) s2 s' (dreg dst) (decide (dst = .reg TMP_REG2)) x ∧ Q x s'.f) :
    ∃ is s' x, op2 op int set dst src1 src2 = some is ∧ runs is s = some s' ∧ Fin s s' dst x ∧ Q x s'.f := by
  obtain ⟨i1, s1, l1, r1, n1, v1, k1, p1⟩ := loadArg_run int (.inl rfl) h1 s
  obtain ⟨i2, s2, l2, r2, n2, v2, k2, p2⟩ := loadArg_run int (.inr rfl) h2 s1
  obtain ⟨i3, s3, x, l3, r3, n3, q3⟩ := H s2 (loadArg (szOf int) TMP_REG1 src1).2 (loadArg (szOf int) TMP_REG2 src2).2 (n2.m.trans n1.m) (n2.f.trans n1.f)
    (fun q h9 h10 => (n2.keep q h10).trans (n1.keep q h9)) (k1 10#5 (by decide) (.inr rfl)) (k2 9#5 (by decide) (.inl rfl))
    (by rw [p1 s2 (by rw [if_pos rfl]; exact n2)]; exact v1)
    (by rw [v2]; exact ov_eq h2 (fun q h9 _ _ => n1.keep q h9) n1.m)
  have hk : ∀ q, q ≠ 9#5 → q ≠ 10#5 → q ≠ 30#5 → q ≠ regMap (dreg dst) → s3.r q = s.r q := fun q a b c d => by
    rw [n3.keep q d a b c, n2.keep q b, n1.keep q a]
  have hm : s3.m = s.m := by rw [n3.m, n2.m, n1.m]
  cases dst with
  | reg d =>
    refine ⟨i1 ++ (i2 ++ (i3 ++ [])), s3, x, ?_, ?_, ⟨fun q a b c e => hk q a b c (e d rfl), fun d' e hd' => ?_, fun _ _ _ e => (by cases e), fun _ => hm⟩, q3⟩
    · unfold op2; simp only [l1, l2]
      rw [show emitOpImm op ⟨int, set, decide (Opd.reg d = .reg TMP_REG2)⟩ d (loadArg (szOf int) TMP_REG1 src1).2 (loadArg (szOf int) TMP_REG2 src2).2 = some i3 from l3]; rfl
    · rw [runs_app r1, runs_app r2, List.append_nil]; exact r3
    · cases e
      exact n3.val (by simp [hd'])
  | imm _ => exact absurd hd id
  | mem base offs w =>
    have hkq : ∀ q, q ≠ 9#5 → q ≠ 10#5 → q ≠ 30#5 → s3.r q = s.r q := fun q a b c => hk q a b c a
    obtain ⟨i4, s4, l4, r4, f4, k4, m4⟩ := store_run (t := ⟨szOf int, false, true⟩) (sz_ok int) (fun _ => rfl) rfl (r := TMP_REG1) hd (by decide) s3
    refine ⟨i1 ++ (i2 ++ (i3 ++ i4)), s4, x, ?_, ?_, ⟨fun q a b c _ => by rw [k4 q b]; exact hkq q a b c, fun _ e => (by cases e), fun b' o' w' e => ?_, fun h => absurd rfl (h base offs w)⟩, by rw [f4]; exact q3⟩
    · unfold op2; simp only [l1, l2]
      rw [show emitOpImm op ⟨int, set, decide (Opd.mem base offs w = .reg TMP_REG2)⟩ TMP_REG1 (loadArg (szOf int) TMP_REG1 src1).2 (loadArg (szOf int) TMP_REG2 src2).2 = some i3 from l3, l4]; rfl
    · rw [runs_app r1, runs_app r2, runs_app r3]; exact r4
    · cases e
      have hv : lo (!int) (s3.x (regMap TMP_REG1)) = x := by
        rw [x_ne (by decide)]; exact n3.val (by simp)
      rw [m4, ea_eq hd hkq, hm, sz_div]
      exact wr_lo hv _ _

/-- sljit_emit_op2 and, with the destination TMP_REG2, sljit_emit_op2u. -/
theorem emitOp2_run {op : RV.Op} (hk : known op.code = true) (hf : op.flagOk) {dst src1 src2 : Opd} (hd : DstOk dst) (h1 : Usr src1) (h2 : Usr src2) {s : St} {cin : Bool} (hc : CarryOk op cin s.f) :
    ∃ is s' x, emitOp2 op dst src1 src2 = some is ∧ runs is s = some s' ∧ Fin s s' dst x ∧ Post op (ov (!op.is32) s src1) (ov (!op.is32) s src2) cin x s'.f := by
  unfold emitOp2
  refine op2_run hd h1 h2 fun s2 a1 a2 hm hf' _ k1 k2 v1 v2 => ?_
  obtain ⟨d1, d2⟩ := dreg_map hd
  have := emitOpImm_eff (s := s2) (f := ⟨op.is32, hasFlags op, decide (dst = .reg TMP_REG2)⟩) (dst := dreg dst) hk hf rfl d1 d2 k1 k2 (by rw [hf']; exact hc)
  simp only [v1, v2] at this
  exact this

/-! ## Multiply and add -/

theorem madd_reg {int : Bool} {f : Fl} (hi : f.int = int) {dst a1 a2 : Nat} (hd : regMap dst ≠ 31#5) (s : St) :
    ∃ is s', regOp .muladd f dst a1 a2 = some is ∧ runs is s = some s' ∧ Res (!int) s s' dst false (lo (!int) (s.r (regMap dst)) + lo (!int) (s.x (regMap a1)) * lo (!int) (s.x (regMap a2))) := by
  subst hi
  refine ⟨_, _, rfl, runs_one ?_, res_set' hd _ _⟩
  rw [show f.inv = iv f.int from rfl, s_madd]
  simp only [exec, x_ne hd]

theorem madd_imm {int : Bool} {f : Fl} (hi : f.int = int) {dst : Nat} {a1 a2 : Arg} (hd : Ur dst) (h1 : ArgOk 10#5 a1) (h2 : ArgOk 9#5 a2) (s : St) :
    ∃ is s', emitOpImm .muladd f dst a1 a2 = some is ∧ runs is s = some s' ∧ Res (!int) s s' dst false (lo (!int) (s.r (regMap dst)) + lo (!int) (argV s a1) * lo (!int) (argV s a2)) := by
  obtain ⟨d1, d2, d3, d4⟩ := ur_map hd
  have aft : ∀ {t : Nat} {v : BitVec 64} {c : Code} {y : BitVec (W !int)}, (t = TMP_REG1 ∨ t = TMP_REG2) →
      (∃ is s', c = some is ∧ runs is (s.set (regMap t) v) = some s' ∧ Res (!int) (s.set (regMap t) v) s' dst false y) →
      ∃ is s', (loadImmediate t v +> c) = some is ∧ runs is s = some s' ∧ Res (!int) s s' dst false y := by
    rintro t v c y ht ⟨is, s', rfl, e2, e3⟩
    obtain ⟨ws, l1, l2⟩ := li_run t (by rcases ht with rfl | rfl <;> decide) v s
    refine ⟨ws ++ is, s', by rw [l1]; rfl, by rw [runs_app l2]; exact e2, ⟨e3.m, fun q q1 q2 q3 q4 => ?_, e3.val⟩⟩
    rw [e3.keep q q1 q2 q3 q4]
    exact set_ne _ _ (by rcases ht with rfl | rfl <;> assumption)
  have one : ∀ (s : St) (r : Nat) (v : BitVec 64) (first : Bool), (first = false → regMap r ≠ 10#5) → (first = true → regMap r ≠ 9#5) →
      ∃ is s', oneImm .muladd f dst r v first = some is ∧ runs is s = some s' ∧ Res (!int) s s' dst false (lo (!int) (s.r (regMap dst)) + lo (!int) (s.x (regMap r)) * lo (!int) v) := by
    intro s r v first ha hb
    have aft : ∀ {t : Nat} {v : BitVec 64} {c : Code} {y : BitVec (W !int)}, (t = TMP_REG1 ∨ t = TMP_REG2) →
        (∃ is s', c = some is ∧ runs is (s.set (regMap t) v) = some s' ∧ Res (!int) (s.set (regMap t) v) s' dst false y) →
        ∃ is s', (loadImmediate t v +> c) = some is ∧ runs is s = some s' ∧ Res (!int) s s' dst false y := by
      rintro t v c y ht ⟨is, s', rfl, e2, e3⟩
      obtain ⟨ws, l1, l2⟩ := li_run t (by rcases ht with rfl | rfl <;> decide) v s
      refine ⟨ws ++ is, s', by rw [l1]; rfl, by rw [runs_app l2]; exact e2, ⟨e3.m, fun q q1 q2 q3 q4 => ?_, e3.val⟩⟩
      rw [e3.keep q q1 q2 q3 q4]
      exact set_ne _ _ (by rcases ht with rfl | rfl <;> assumption)
    simp only [oneImm, immForm]
    cases first
    · rw [if_neg (by decide)]
      split
      · next h0 => subst h0; exact madd_reg hi d4 s
      · refine aft (.inr rfl) ?_
        have := madd_reg hi (a1 := r) (a2 := TMP_REG2) d4 (s.set (regMap TMP_REG2) v)
        rw [x_set (d := regMap TMP_REG2) (ha rfl), set_ne _ _ (show regMap dst ≠ regMap TMP_REG2 from d2), x_ne (show regMap TMP_REG2 ≠ 31#5 by decide), set_self] at this
        exact this
    · rw [if_pos rfl, BitVec.mul_comm]
      split
      · next h0 => subst h0; exact madd_reg hi d4 s
      · refine aft (.inl rfl) ?_
        have := madd_reg hi (a1 := TMP_REG1) (a2 := r) d4 (s.set (regMap TMP_REG1) v)
        rw [x_set (d := regMap TMP_REG1) (hb rfl), set_ne _ _ (show regMap dst ≠ regMap TMP_REG1 from d1), x_ne (show regMap TMP_REG1 ≠ 31#5 by decide), set_self] at this
        exact this
  cases a1 with
  | reg r1 =>
    cases a2 with
    | reg r2 => exact madd_reg hi d4 s
    | imm v => exact one s r1 v false (fun _ => h1.1) (fun h => absurd h (by decide))
  | imm u =>
    cases a2 with
    | reg r2 => simp only [argV]; rw [BitVec.mul_comm]; exact one s r2 u true (fun h => absurd h (by decide)) (fun _ => h2.1)
    | imm v =>
      simp only [emitOpImm]
      split
      · next h0 => obtain ⟨rfl, -, -⟩ := h0; exact one s TMP_ZERO v false (fun _ => by decide) (fun h => absurd h (by decide))
      · refine aft (.inl rfl) ?_
        have := one (s.set (regMap TMP_REG1) u) TMP_REG1 v false (fun _ => by decide) (fun h => absurd h (by decide))
        rw [set_ne _ _ (show regMap dst ≠ regMap TMP_REG1 from d1), x_ne (show regMap TMP_REG1 ≠ 31#5 by decide), set_self] at this
        exact this

/-- sljit_emit_op2r with SLJIT_MULADD. -/
theorem muladd_run (int : Bool) {dst : Nat} (hd : Ur dst) {src1 src2 : Opd} (h1 : Usr src1) (h2 : Usr src2) (s : St) :
    ∃ is s', emitMulAdd int dst src1 src2 = some is ∧ runs is s = some s' ∧ Fin s s' (.reg dst) (ov (!int) s (.reg dst) + ov (!int) s src1 * ov (!int) s src2) := by
  have hne : dst ≠ TMP_REG2 := by have := hd.2; unfold TMP_REG2; omega
  obtain ⟨d1, d2, d3, d4⟩ := ur_map hd
  obtain ⟨is, s', x, e1, e2, e3, e4⟩ := op2_run (op := .muladd) (int := int) (set := false) (dst := .reg dst) (s := s) (Q := fun x _ => x = ov (!int) s (.reg dst) + ov (!int) s src1 * ov (!int) s src2) (.inl hd) h1 h2
    (fun s2 a1 a2 hm hf hk k1 k2 v1 v2 => by
      obtain ⟨is, s', e1, e2, e3⟩ := madd_imm (int := int) (f := ⟨int, false, decide (Opd.reg dst = .reg TMP_REG2)⟩) rfl hd k1 k2 s2
      refine ⟨is, s', _, e1, e2, ⟨e3.m, e3.keep, fun _ => e3.val rfl⟩, ?_⟩
      rw [v1, v2, hk _ d1 d2]; rfl)
  subst e4
  exact ⟨is, s', e1, e2, e3⟩

end Verif.A64
