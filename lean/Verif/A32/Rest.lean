import Verif.A32.Post

/-! # Effect of emit_op of ARM32 (helper lemmas) -/

namespace Verif.A32
open Verif.Imm.A32 (fld expand)
open Verif.Imm.Arm32 (regMap RM RD RN TMP_REG1 TMP_REG2 SRC2_IMM getImm computeImm Item loadImmediate IsImm getImm_sound computeImm_sound)
open Verif (RV.OpC RV.Op RV.Flag RV.val RV.flagVal RV.Op.flagOk)

theorem r12 : regMap TMP_REG1 = 12#4 := by decide
theorem r14 : regMap TMP_REG2 = 14#4 := by decide

/-- Registers of the user have no temporary machine register. -/
theorem usr_reg {r : Nat} (h : r ≤ 13) : regMap r ≠ 12#4 ∧ regMap r ≠ 14#4 ∧ regMap r ≠ 15#4 := by
  have : ∀ r : Fin 14, regMap r.val ≠ 12#4 ∧ regMap r.val ≠ 14#4 ∧ regMap r.val ≠ 15#4 := by decide
  exact this ⟨r, by omega⟩

/-- Operands of the user. -/
def Usr : Opd → Prop
  | .reg r => 1 ≤ r ∧ r ≤ 13
  | .imm _ => True
  | .mem base offs w => base ≤ 13 ∧ offs ≤ 13 ∧ (offs ≠ 0 → base ≠ 0 ∧ w.toNat < 4)

/-- The value of an operand. -/
def ov (s : St) : Opd → BitVec 32
  | .reg r => s.r (regMap r)
  | .imm w => w
  | .mem base offs w => rd s.m (ea s base offs w) 4

/-- The same state, except for the temporary registers. -/
structure Pre (s s1 : St) : Prop where
  r : ∀ q, q ≠ 12#4 → q ≠ 14#4 → s1.r q = s.r q
  m : s1.m = s.m
  c : s1.c = s.c

theorem Pre.refl (s : St) : Pre s s := ⟨fun _ _ _ => rfl, rfl, rfl⟩
theorem Pre.trans {a b c : St} (h : Pre a b) (g : Pre b c) : Pre a c :=
  ⟨fun q h1 h2 => (g.r q h1 h2).trans (h.r q h1 h2), g.m.trans h.m, g.c.trans h.c⟩
theorem Pre.set {s s1 : St} (h : Pre s s1) {q : BitVec 4} (hq : q = 12#4 ∨ q = 14#4) (x : BitVec 32) : Pre s (s1.set q x) :=
  ⟨fun p h1 h2 => (set_ne s1 (by rcases hq with rfl | rfl <;> assumption) x).trans (h.r p h1 h2), h.m, h.c⟩

theorem Pre.ea {s s1 : St} (h : Pre s s1) {base offs : Nat} (hb : base ≤ 13) (ho : offs ≤ 13) (w : BitVec 32) : ea s1 base offs w = ea s base offs w := by
  simp only [A32.ea, h.r _ (usr_reg hb).1 (usr_reg hb).2.1, h.r _ (usr_reg ho).1 (usr_reg ho).2.1]

theorem Pre.ov {s s1 : St} (h : Pre s s1) {o : Opd} (ho : Usr o) : ov s1 o = ov s o := by
  cases o with
  | reg r => exact h.r _ (usr_reg ho.2).1 (usr_reg ho.2).2.1
  | imm _ => rfl
  | mem base offs w => simp only [A32.ov, h.m, h.ea ho.1 ho.2.1]

/-- Loading from the memory. -/
theorem load_mem {v6 : Bool} {t : Nat} (ht : t = TMP_REG1 ∨ t = TMP_REG2) {base offs : Nat} {w : BitVec 32} (hu : Usr (.mem base offs w)) {s s1 : St} (hp : Pre s s1) :
    Runs (some (emitOpMem v6 (wordTy true) t base offs w TMP_REG1)) s1 (fun s2 => Pre s s2 ∧ s2.r (regMap t) = ov s (.mem base offs w) ∧ (t = TMP_REG1 → s2.r 14#4 = s1.r 14#4)) := by
  have ht15 : regMap t ≠ 15#4 := by rcases ht with rfl | rfl <;> decide
  have htq : regMap t = 12#4 ∨ regMap t = 14#4 := by rcases ht with rfl | rfl <;> decide
  obtain ⟨s2, ⟨q1, q2, q3, q4, q5, q6⟩, e⟩ := runs_mem (v6 := v6) (t := wordTy true) (reg := t) (tmp := TMP_REG1) (base := base) (offs := offs) (w := w) ht15 (usr_reg hu.1).2.2 (usr_reg hu.2.1).2.2 (by decide)
    (fun _ => (usr_reg hu.1).1) hu.2.2 s1
  refine Runs.of e ?_
  have hx : xfer (wordTy true) (regMap t) (ea s1 base offs w) s2 = s2.set (regMap t) (rd s2.m (ea s1 base offs w) 4) := rfl
  rw [hx, q2, hp.m, hp.ea hu.1 hu.2.1]
  refine ⟨Pre.set ⟨fun q h1 h2 => (q1 q h1).trans (hp.r q h1 h2), q2.trans hp.m, q5.trans hp.c⟩ htq _, set_r _ _ _, fun h => ?_⟩
  subst h
  exact (set_ne _ (by decide) _).trans (q1 _ (by decide))

/-- Loading a constant. -/
theorem load_imm {v6 : Bool} {t : Nat} (ht : t = TMP_REG1 ∨ t = TMP_REG2) (w : BitVec 32) {s s1 : St} (hp : Pre s s1) :
    Runs (some (loadImmediate v6 t w)) s1 (fun s2 => Pre s s2 ∧ s2.r (regMap t) = w ∧ ∀ q, q ≠ regMap t → s2.r q = s1.r q) := by
  have ht15 : regMap t ≠ 15#4 := by rcases ht with rfl | rfl <;> decide
  have htq : regMap t = 12#4 ∨ regMap t = 14#4 := by rcases ht with rfl | rfl <;> decide
  exact Runs.of (runs_imm v6 ht15 w s1) ⟨hp.set htq w, set_r _ _ _, fun q h => set_ne _ h _⟩

/-- The state after the whole operation. -/
structure Fin (s s' : St) (dst : Opd) (x : BitVec 32) (set : Bool) (F : Bool → Bool → Bool → Bool → Prop) : Prop where
  keep : ∀ q, q ≠ 12#4 → q ≠ 14#4 → (∀ d, dst = .reg d → q ≠ regMap d) → s'.r q = s.r q
  reg : ∀ d, dst = .reg d → d ≠ TMP_REG1 → s'.r (regMap d) = x
  mem : ∀ base offs w, dst = .mem base offs w → s'.m = wr s.m (ea s base offs w) x 4
  same : (∀ base offs w, dst ≠ .mem base offs w) → s'.m = s.m
  flags : set = true → F s'.n s'.z s'.c s'.v

/-- Destinations. -/
def DstOk : Opd → Prop
  | .reg d => 1 ≤ d ∧ d ≤ 14
  | .imm _ => False
  | o => Usr o

theorem dstReg_ok {dst : Opd} (h : DstOk dst) : regMap (dstReg dst) ≠ 15#4 := by
  cases dst with
  | reg d =>
    obtain ⟨h1, h2⟩ := h
    have : ∀ r : _root_.Fin 15, regMap r.val ≠ 15#4 := by decide
    exact this ⟨d, by omega⟩
  | imm _ => exact h.elim
  | mem _ _ _ => show regMap TMP_REG2 ≠ 15#4; decide

/-- Flags of the calls. -/
def flOf (set inv swap : Bool) (dst : Opd) : Fl := ⟨set, inv, swap, decide (dst = .reg TMP_REG1)⟩

theorem run_opEnd {v6 : Bool} {op : RV.OpC} {f : Fl} {k : BitVec 32} {dst : Opd} (hd : DstOk dst) (hu : f.unused = decide (dst = .reg TMP_REG1)) {r1 : Nat} {x : S2} {s s1 : St}
    {X : BitVec 32} {F : Bool → Bool → Bool → Bool → Prop} (h : Runs (emitSingle op f k (dstReg dst) r1 x) s1 (fun s' => Done s s' (regMap (dstReg dst)) f.unused f.set X F)) :
    Runs (opEnd v6 op f k dst (dstReg dst) r1 x) s1 (fun s' => Fin s s' dst X f.set F) := by
  unfold opEnd
  refine h.cat (fun s2 d => ?_)
  cases dst with
  | imm _ => exact hd.elim
  | reg dr =>
    refine Runs.nil ⟨fun q h1 h2 h3 => d.keep q (h3 dr rfl) h1 h2, fun d' e hne => ?_, fun _ _ _ e => (by cases e), fun _ => d.mem, d.flags⟩
    cases e
    refine d.val ?_
    rw [hu, decide_eq_false_iff_not]
    intro e; cases e; exact hne rfl
  | mem base offs w =>
    have hd' : Usr (.mem base offs w) := hd
    have d14 : ∀ q, q ≠ 12#4 → q ≠ 14#4 → s2.r q = s.r q := fun q h1 h2 => d.keep q (by rw [show dstReg (.mem base offs w) = TMP_REG2 from rfl, r14]; exact h2) h1 h2
    have hx : s2.r 14#4 = X := d.val (by rw [hu]; rfl)
    have hea : ea s2 base offs w = ea s base offs w := by
      simp only [A32.ea, d14 _ (usr_reg hd'.1).1 (usr_reg hd'.1).2.1, d14 _ (usr_reg hd'.2.1).1 (usr_reg hd'.2.1).2.1]
    obtain ⟨s3, ⟨q1, q2, q3, q4, q5, q6⟩, e⟩ := runs_mem (v6 := v6) (t := wordTy false) (reg := TMP_REG2) (tmp := TMP_REG1) (base := base) (offs := offs) (w := w) (by decide) (usr_reg hd'.1).2.2 (usr_reg hd'.2.1).2.2
      (by decide) (fun _ => (usr_reg hd'.1).1) hd'.2.2 s2
    refine Runs.of e ⟨fun q h1 h2 _ => (q1 q h1).trans (d14 q h1 h2), fun _ e => (by cases e), fun b' o' w' e => ?_, fun h => absurd rfl (h _ _ _), fun hs => ?_⟩
    · cases e
      show wr s3.m (ea s2 base offs w) (s3.r 14#4) 4 = _
      rw [hea, q2, d.mem, q1 _ (by decide), hx]
    · show F s3.n s3.z s3.c s3.v
      rw [q3, q4, q5, q6]; exact d.flags hs

/-- Done, seen from the first state. -/
theorem Done.pre {s s1 s' : St} (hp : Pre s s1) {dr un set x F} (h : Done s1 s' dr un set x F) : Done s s' dr un set x F :=
  ⟨fun q h1 h2 h3 => (h.keep q h1 h2 h3).trans (hp.r q h2 h3), h.val, h.mem.trans hp.m, h.flags⟩

/-- What is known about the first operand, whatever is done to the temporary registers. -/
def Fst (s : St) (src1 : Opd) (A : BitVec 32 → Prop) : Prop :=
  match src1 with
  | .reg r => regMap r ≠ 14#4 ∧ regMap r ≠ 15#4 ∧ (∀ s1, Pre s s1 → A (s1.r (regMap r))) ∧ (regMap r ≠ 12#4 ∨ ∀ x, A x)
  | .imm w => A w
  | .mem base offs w => Usr (.mem base offs w) ∧ A (ov s (.mem base offs w))

theorem fst_usr {s : St} {src1 : Opd} (h : Usr src1) : Fst s src1 (· = ov s src1) := by
  cases src1 with
  | reg r => exact ⟨(usr_reg h.2).2.1, (usr_reg h.2).2.2, fun s1 hp => hp.ov h, Or.inl (usr_reg h.2).1⟩
  | imm w => rfl
  | mem base offs w => exact ⟨h, rfl⟩

/-- The single operation, from every state which the loads lead to. -/
def Sing (s : St) (op : RV.OpC) (f : Fl) (k : BitVec 32) (dst : Opd) (A : BitVec 32 → Prop) (P : S2 → Prop) (b X : BitVec 32) (F : Bool → Bool → Bool → Bool → Prop) : Prop :=
  ∀ s1 r1 x, Pre s s1 → regMap r1 ≠ 14#4 → regMap r1 ≠ 15#4 → A (s1.r (regMap r1)) → x.Ok → P x → x.val s1 = b →
    Runs (emitSingle op f k (dstReg dst) r1 x) s1 (fun s' => Done s1 s' (regMap (dstReg dst)) f.unused f.set X F)

theorem Sing.end {s : St} {op : RV.OpC} {f : Fl} {k : BitVec 32} {dst : Opd} {A P b X F} (h : Sing s op f k dst A P b X F) {v6 : Bool} (hd : DstOk dst) (hu : f.unused = decide (dst = .reg TMP_REG1))
    {s1 : St} {r1 : Nat} {x : S2} (hp : Pre s s1) (h14 : regMap r1 ≠ 14#4) (h15 : regMap r1 ≠ 15#4) (ha : A (s1.r (regMap r1))) (hx : x.Ok) (hP : P x) (hb : x.val s1 = b) :
    Runs (opEnd v6 op f k dst (dstReg dst) r1 x) s1 (fun s' => Fin s s' dst X f.set F) :=
  run_opEnd hd hu ((h s1 r1 x hp h14 h15 ha hx hP hb).mono (fun _ d => d.pre hp))

/-- With an immediate found. -/
theorem rest_imm {v6 : Bool} {neg : Option RV.OpC} {inp : Inp} {set : Bool} {k : BitVec 32} {dst : Opd} {p : Pick} {src2 : Opd} {i : BitVec 32} (hi : p.s2 = some (.imm i)) (hI : IsImm i) (hd : DstOk dst)
    {s : St} {A P b X F} (h1 : Fst s p.src1 A) (hS : Sing s p.op (flOf set p.inv p.swap dst) k dst A P b X F) (hP : P (.imm i)) (hb : expand (i.extractLsb' 0 12) = b) :
    Runs (emitRest v6 neg inp set k dst p src2) s (fun s' => Fin s s' dst X set F) := by
  obtain ⟨op, inv, swap, src1, s2⟩ := p
  simp only at hi h1 hS
  subst hi
  have key : ∀ s1 r1, Pre s s1 → regMap r1 ≠ 14#4 → regMap r1 ≠ 15#4 → A (s1.r (regMap r1)) →
      Runs (opEnd v6 op (flOf set inv swap dst) k dst (dstReg dst) r1 (.imm i)) s1 (fun s' => Fin s s' dst X set F) :=
    fun s1 r1 hp h14 h15 ha => hS.end hd rfl hp h14 h15 ha hI hP hb
  unfold emitRest
  refine Runs.cat (P := fun s1 => s1 = s) ?_ ?_
  · cases src2 <;> exact Runs.nil rfl
  · rintro s1 rfl
    cases src1 with
    | imm w =>
      have hc : inp.dbl = false ∨ (some (S2.imm i) : Option S2) ≠ none ∨ op = .sub ∨ op = .subc := Or.inr (Or.inl (by simp))
      have hL := (load_imm (v6 := v6) (Or.inl rfl : TMP_REG1 = TMP_REG1 ∨ _) w (Pre.refl s1)).cat (b := opEnd v6 op (flOf set inv swap dst) k dst (dstReg dst) TMP_REG1 (.imm i)) (Q := fun s' => Fin s1 s' dst X set F)
        (fun s2 ⟨q1, q2, q3⟩ => key s2 TMP_REG1 q1 (by decide) (by decide) (by rw [q2]; exact h1))
      cases src2 <;> (simp only [if_pos hc]; exact hL)
    | reg r =>
      have hL : Runs (cat (some []) (opEnd v6 op (flOf set inv swap dst) k dst (dstReg dst) r (.imm i))) s1 (fun s' => Fin s1 s' dst X set F) :=
        (Runs.nil (P := fun s => s = s1) rfl).cat (fun s2 e => by subst e; exact key s2 r (Pre.refl _) h1.1 h1.2.1 (h1.2.2.1 _ (Pre.refl _)))
      cases src2 <;> exact hL
    | mem base offs w =>
      have hL : Runs (cat (some (emitOpMem v6 (wordTy true) TMP_REG1 base offs w TMP_REG1)) (opEnd v6 op (flOf set inv swap dst) k dst (dstReg dst) TMP_REG1 (.imm i))) s1 (fun s' => Fin s1 s' dst X set F) :=
        (load_mem (Or.inl rfl) h1.1 (Pre.refl s1)).cat (fun s2 ⟨q1, q2, q3⟩ => key s2 TMP_REG1 q1 (by decide) (by decide) (by rw [q2]; exact h1.2))
      cases src2 <;> exact hL

/-- The second operation of a double immediate. -/
def next2 (o : RV.OpC) : RV.OpC := if o = .addc then .add else if o = .subc then .sub else o
@[inherit_doc next2] def next1 (o : RV.OpC) : RV.OpC := if o = .addc then .add else o

/-- Two immediates which yield X. -/
structure Dbl (s : St) (nx : RV.OpC → RV.OpC) (o : RV.OpC) (i1 i2 : BitVec 32) (A : BitVec 32 → Prop) (X : BitVec 32) : Prop where
  ok1 : IsImm i1
  ok2 : IsImm i2
  alu1 : isAlu o = true
  alu2 : isAlu (nx o) = true
  val : ∀ a cc cc' s1 s2, s1.c = s.c → A a → (tri (nx o) false false (tri o false false a (expand (i1.extractLsb' 0 12)) cc s1).1 (expand (i2.extractLsb' 0 12)) cc' s2).1 = X

theorem run_dbl {v6 : Bool} {nx : RV.OpC → RV.OpC} {o : RV.OpC} {i1 i2 : BitVec 32} {k : BitVec 32} {dst : Opd} (hd : DstOk dst) {s s1 : St} {r1 : Nat} {A X F}
    (h : Dbl s nx o i1 i2 A X) (hp : Pre s s1) (h15 : regMap r1 ≠ 15#4) (ha : A (s1.r (regMap r1))) :
    Runs (cat (emitSingle o (flOf false false false dst) k (dstReg dst) r1 (.imm i1)) (opEnd v6 (nx o) (flOf false false false dst) k dst (dstReg dst) (dstReg dst) (.imm i2))) s1 (fun s' => Fin s s' dst X false F) := by
  have hdr := dstReg_ok hd
  obtain ⟨cc, e1⟩ := single_alu h.alu1 (f := flOf false false false dst) (k := k) (dr := dstReg dst) (src1 := r1) (x := .imm i1) hdr h15 h.ok1 s1
  refine e1.cat (fun s2 d1 => ?_)
  obtain ⟨cc', e2⟩ := single_alu h.alu2 (f := flOf false false false dst) (k := k) (dr := dstReg dst) (src1 := dstReg dst) (x := .imm i2) hdr hdr h.ok2 s2
  refine run_opEnd (f := flOf false false false dst) hd rfl (s := s) (s1 := s2) (X := X) (F := F) (e2.mono (fun s3 d2 => ?_))
  refine ⟨fun q g1 g2 g3 => (d2.keep q g1 g2 g3).trans ((d1.keep q g1 g2 g3).trans (hp.r q g2 g3)), fun hu => ?_, d2.mem.trans (d1.mem.trans hp.m), fun hs => by cases hs⟩
  rw [d2.val hu, d1.val hu]
  exact h.val _ cc cc' s1 s2 hp.c ha

theorem run_op2Imm {v6 : Bool} {neg : Option RV.OpC} {inp : Inp} {op : RV.OpC} {set : Bool} {k : BitVec 32} {dst : Opd} (hd : DstOk dst) {s s1 : St} {r1 t2 : Nat} {w : BitVec 32} {A P X F}
    (hset : inp.dbl = true → set = false) (hD : inp.dbl = true → ∀ o i1 i2, double op neg w = some (o, i1, i2) → Dbl s next2 o i1 i2 A X)
    (hS : Sing s op (flOf set false false dst) k dst A P w X F) (hP : P (.reg t2)) (hp : Pre s s1) (h14 : regMap r1 ≠ 14#4) (h15 : regMap r1 ≠ 15#4) (ha : A (s1.r (regMap r1)))
    (ht : t2 = TMP_REG1 ∨ t2 = TMP_REG2) (hne : regMap r1 ≠ regMap t2 ∨ ∀ x, A x) :
    Runs (op2Imm v6 neg inp op (flOf set false false dst) k dst r1 t2 w) s1 (fun s' => Fin s s' dst X set F) := by
  have hload : Runs (cat (some (loadImmediate v6 t2 w)) (opEnd v6 op (flOf set false false dst) k dst (dstReg dst) r1 (.reg t2))) s1 (fun s' => Fin s s' dst X set F) := by
    refine (load_imm ht w hp).cat (fun s2 ⟨q1, q2, q3⟩ => ?_)
    refine hS.end hd rfl q1 h14 h15 ?_ (show regMap t2 ≠ 15#4 by rcases ht with rfl | rfl <;> decide) hP q2
    rcases hne with h | h
    · rw [q3 _ h]; exact ha
    · exact h _
  unfold op2Imm
  by_cases hb : inp.dbl = true
  · simp only [if_pos hb]
    obtain rfl := hset hb
    cases hdd : double op neg w with
    | none => exact hload
    | some v =>
      obtain ⟨o, i1, i2⟩ := v
      exact run_dbl hd (hD hb o i1 i2 hdd) hp h15 ha
  · simp only [if_neg hb]; exact hload

/-- Without an immediate. -/
theorem rest_none {v6 : Bool} {neg : Option RV.OpC} {inp : Inp} {set : Bool} {k : BitVec 32} {dst : Opd} {op : RV.OpC} {src1 src2 : Opd} (hd : DstOk dst)
    {s : St} {A X F} {P : S2 → Prop} (h1 : Fst s src1 A) (h2 : Usr src2) (hP : ∀ r, P (.reg r)) (hset : inp.dbl = true → set = false)
    (hD : inp.dbl = true → ∀ w, src2 = .imm w → ∀ o i1 i2, double op neg w = some (o, i1, i2) → Dbl s next2 o i1 i2 A X)
    (hD1 : inp.dbl = true → op ≠ .sub → op ≠ .subc → ∀ w, src1 = .imm w → ∀ o i1 i2, double op neg w = some (o, i1, i2) → Dbl s next1 o i1 i2 (· = ov s src2) X)
    (hS : Sing s op (flOf set false false dst) k dst A P (ov s src2) X F) :
    Runs (emitRest v6 neg inp set k dst ⟨op, false, false, src1, none⟩ src2) s (fun s' => Fin s s' dst X set F) := by
  unfold emitRest
  have e1 : ∀ s1, Pre s s1 → ∀ r1 r2, regMap r1 ≠ 14#4 → regMap r1 ≠ 15#4 → A (s1.r (regMap r1)) → regMap r2 ≠ 15#4 → s1.r (regMap r2) = ov s src2 →
      Runs (opEnd v6 op (flOf set false false dst) k dst (dstReg dst) r1 (.reg r2)) s1 (fun s' => Fin s s' dst X set F) :=
    fun s1 hp r1 r2 h14 h15 ha hx hb => hS.end hd rfl hp h14 h15 ha hx (hP _) hb
  cases src2 with
  | reg r =>
    refine Runs.cat (P := fun s1 => s1 = s) (Runs.nil rfl) ?_
    rintro s1 rfl
    have hr := usr_reg h2.2
    cases src1 with
    | imm w =>
      have hL : Runs (cat (some (loadImmediate v6 TMP_REG1 w)) (opEnd v6 op (flOf set false false dst) k dst (dstReg dst) TMP_REG1 (.reg r))) s1 (fun s' => Fin s1 s' dst X set F) :=
        (load_imm (Or.inl rfl) w (Pre.refl s1)).cat (fun s2 ⟨q1, q2, q3⟩ => e1 s2 q1 TMP_REG1 r (by decide) (by decide) (by rw [q2]; exact h1) hr.2.2 (q1.ov h2))
      by_cases hc : inp.dbl = false ∨ (none : Option S2) ≠ none ∨ op = .sub ∨ op = .subc
      · simp only [if_pos hc]; exact hL
      · simp only [if_neg hc]
        have hb : inp.dbl = true := by cases h : inp.dbl <;> simp_all
        obtain rfl := hset hb
        unfold op1Imm
        cases hdd : double op neg w with
        | none => exact hL
        | some v =>
          obtain ⟨o, i1, i2⟩ := v
          exact run_dbl (nx := next1) hd (hD1 hb (fun e => hc (Or.inr (Or.inr (Or.inl e)))) (fun e => hc (Or.inr (Or.inr (Or.inr e)))) w rfl o i1 i2 hdd) (Pre.refl _) hr.2.2 rfl
    | reg r1 => exact (Runs.nil (P := fun s => s = s1) rfl).cat (fun s2 e => by subst e; exact e1 s2 (Pre.refl _) r1 r h1.1 h1.2.1 (h1.2.2.1 _ (Pre.refl _)) hr.2.2 rfl)
    | mem base offs w =>
      exact (load_mem (Or.inl rfl) h1.1 (Pre.refl s1)).cat (fun s2 ⟨q1, q2, q3⟩ => e1 s2 q1 TMP_REG1 r (by decide) (by decide) (by rw [q2]; exact h1.2) hr.2.2 (q1.ov h2))
  | mem base2 offs2 w2 =>
    cases src1 with
    | imm w =>
      refine Runs.cat (load_mem (Or.inr rfl) h2 (Pre.refl s)) (fun s1 ⟨p1, p2, p3⟩ => ?_)
      simp only [ne_eq, reduceCtorEq, not_false_eq_true, true_or, or_true, if_true]
      exact (load_imm (Or.inl rfl) w p1).cat (fun s2 ⟨q1, q2, q3⟩ => e1 s2 q1 TMP_REG1 TMP_REG2 (by decide) (by decide) (by rw [q2]; exact h1) (by decide) ((q3 _ (by decide)).trans p2))
    | reg r1 =>
      refine Runs.cat (load_mem (Or.inl rfl) h2 (Pre.refl s)) (fun s1 ⟨p1, p2, p3⟩ => ?_)
      exact (Runs.nil (P := fun s => s = s1) rfl).cat (fun s2 e => by subst e; exact e1 s2 p1 r1 TMP_REG1 h1.1 h1.2.1 (h1.2.2.1 _ p1) (by decide) p2)
    | mem base offs w =>
      refine Runs.cat (load_mem (Or.inr rfl) h2 (Pre.refl s)) (fun s1 ⟨p1, p2, p3⟩ => ?_)
      exact (load_mem (Or.inl rfl) h1.1 p1).cat (fun s2 ⟨q1, q2, q3⟩ => e1 s2 q1 TMP_REG1 TMP_REG2 (by decide) (by decide) (by rw [q2]; exact h1.2) (by decide) ((q3 rfl).trans p2))
  | imm w2 =>
    refine Runs.cat (P := fun s1 => s1 = s) (Runs.nil rfl) ?_
    rintro s1 rfl
    cases src1 with
    | imm w =>
      have hL : Runs (cat (some (loadImmediate v6 TMP_REG1 w)) (op2Imm v6 neg inp op (flOf set false false dst) k dst TMP_REG1 TMP_REG2 w2)) s1 (fun s' => Fin s1 s' dst X set F) :=
        (load_imm (Or.inl rfl) w (Pre.refl s1)).cat (fun s2 ⟨q1, q2, q3⟩ => run_op2Imm hd hset (fun hb => hD hb w2 rfl) hS (hP _) q1 (by decide) (by decide) (by rw [q2]; exact h1) (Or.inr rfl) (Or.inl (by decide)))
      by_cases hc : inp.dbl = false ∨ (none : Option S2) ≠ none ∨ op = .sub ∨ op = .subc
      · simp only [if_pos hc]; exact hL
      · simp only [if_neg hc]; exact hL
    | reg r1 =>
      exact (Runs.nil (P := fun s => s = s1) rfl).cat (fun s2 e => by
        subst e
        exact run_op2Imm hd hset (fun hb => hD hb w2 rfl) hS (hP _) (Pre.refl _) h1.1 h1.2.1 (h1.2.2.1 _ (Pre.refl _)) (Or.inl rfl) h1.2.2.2)
    | mem base offs w =>
      exact (load_mem (Or.inl rfl) h1.1 (Pre.refl s1)).cat (fun s2 ⟨q1, q2, q3⟩ => run_op2Imm (r1 := TMP_REG1) (t2 := TMP_REG2) hd hset (fun hb => hD hb w2 rfl) hS (hP _) q1 (by decide) (by decide) (by rw [q2]; exact h1.2) (Or.inr rfl) (Or.inl (by decide)))

end Verif.A32
