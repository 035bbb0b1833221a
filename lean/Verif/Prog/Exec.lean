import Verif.Prog.Rel

/-!
# One call of a program that does not transfer control (RV64)
-/

namespace Verif.Lir
open Verif.RV Verif.Props Verif.Props.Rv

/-- The calls covered: what the argument checks of sljitLir.c accept, with declared registers, without the operand
combinations for which the backend emits wrong code (each is the subject of a `_false` theorem) and without those where a 32 bit
comparison or select depends on the sign of a value in memory. -/
def Ins.Ok (cfg : Cfg) (p : Frame) : Ins → Prop
  | .op0 o is32 => plain o = true ∨ (2 ≤ p.scr ∧ (o = .lmulUw ∨ o = .lmulSw → is32 = false))
  | .op1 o is32 dst src => DstOk p dst ∧ Src src ∧ ((C24.IsMove o ∧ ¬ C24.StoreDefect cfg o dst src) ∨
      (¬ C24.IsMove o ∧ (∀ v, src ≠ .imm v) ∧ (o = .rev → is32 = true → cfg.zbb = true)))
  | .op2 op dst a b => DstOk p dst ∧ Src a ∧ Src b ∧ (C20.Arith op.code ∨ C20.Shift op.code) ∧ op.flagOk ∧
      ¬ C20.OverflowDefect op a b ∧ ¬ C20.CarryDefect op dst a b
  | .op2u op a b => Src a ∧ Src b ∧ (C20.Arith op.code ∨ C20.Shift op.code) ∧ op.flagOk ∧
      ¬ C20.OverflowDefect op a b ∧ ¬ C20.CarryDefect op (.reg 0) a b
  | .shiftInto _ is32 _ dst a b n => Decl p dst ∧ UserReg a ∧ UserReg b ∧ Src n ∧ dst ≠ b ∧
      ∀ v, n = .imm v → a = b ∨ v.toNat % wd is32 ≠ 0 ∨ dst = a
  | .opFlags code _ _ dst _ => DstOk p dst ∧ (code = .mov ∨ code = .and ∨ code = .or ∨ code = .xor)
  | .select _ is32 dst a b => Decl p dst ∧ Src a ∧ UserReg b ∧ ¬ C29.BaseDefect dst a b ∧ (is32 = true → ∀ c i w, a ≠ .mem c i w)
  | .label => True
  | .jump (some type) _ _ => type < 14
  | .jump none _ _ => True
  | .cmp type is32 a b _ _ => type < 10 ∧ Src a ∧ Src b ∧ (is32 = true →
      ((∀ c i w, a ≠ .mem c i w) ∧ (∀ v, a = .imm v → v = (v.setWidth 32).signExtend 64) ∧
        (∀ c i w, b ≠ .mem c i w) ∧ (∀ v, b = .imm v → v = (v.setWidth 32).signExtend 64)) ∨
      (type < 6 ∧ (∀ r, a ≠ .reg r) ∧ (∀ v, a = .imm v → v.toNat < 2 ^ 32) ∧ (∀ r, b ≠ .reg r) ∧ (∀ v, b = .imm v → v.toNat < 2 ^ 32)))
  | .ret o _ src => C24.IsMove o ∧ Src src
  | .retVoid => True
  | .call as _ _ (.fn _) => as.length ≤ 4
  | .call as _ _ (.opd src) => as.length ≤ 4 ∧ Src src ∧ src ≠ .reg 24 ∧ ∀ v, src = .imm v → v &&& 1#64 = 0#64 ∧ ¬ badWindow v

variable {cfg : Cfg} {p : Frame} {s1 s : St} {l l' : LSt} {mul : Bool}

theorem runs_of_run {e : Emit} {s : St} {Q : St → Prop} (h : ∃ s', run e s = some s' ∧ Q s') : C24.Runs e s Q := by
  obtain ⟨s', h1, h2⟩ := h
  exact fun code hc => ⟨s', steps_of_run hc h1, run_pc h1, h2⟩

/-- The state after a call agrees with the interpreter. -/
def After (cfg : Cfg) (p : Frame) (s1 : St) (mul : Bool) (ins : Ins) (l' : LSt) (s : St) : Prop :=
  C24.Runs (emit cfg p mul ins) s fun s' => Inv p s1 l' s' ∧ Flags (mulNext mul ins) l' s'

theorem flagNo_eq (f : Flag) : C29.flagNo f = flagNo f := by cases f <;> rfl

/-! ## sljit_emit_op2 -/

theorem cin_ok (hf : Flags mul l s) {op : Op} {cin : Bool}
    (e : (if op.code = .addc ∨ op.code = .subc then (match l.v with | some (.carry, t) => some t | _ => none) else some false) = some cin) :
    op.code = .addc ∨ op.code = .subc → carryFlag s cin := by
  intro h
  rw [if_pos h] at e
  split at e
  · next t hv =>
    have ht := Option.some.inj e; subst ht
    obtain ⟨a, b, c⟩ := hf.v _ _ hv
    have hm : mul = false := by
      cases mul
      · rfl
      · cases c rfl
    unfold carryFlag; unfold varFlag at a
    rcases b hm with h0 | h0
    · rw [h0] at a ⊢; cases t
      · rfl
      · exact absurd rfl (a.mpr rfl)
    · rw [h0] at a ⊢; cases t
      · exact absurd (a.mp (by decide)) (by decide)
      · rfl
  · cases e

theorem result_rep {op : Op} {va vb : BitVec 64} {a b : BitVec (wd op.is32)} {cin : Bool} (ha : va.setWidth (wd op.is32) = a)
    (hb : vb.setWidth (wd op.is32) = b) : C20.result op va vb cin = rep (Val.of op.is32 (val op.code a b cin)) ∧
      C20.flag op va vb cin = flagVal op.code op.flag a b cin := by
  obtain ⟨code, is32, z, f⟩ := op
  subst ha hb
  cases is32
  · have : ∀ v : BitVec 64, v.setWidth (wd false) = v := fun v => BitVec.setWidth_eq (n := 64) v
    simp only [C20.result, C20.flag, this]
    exact ⟨rfl, rfl⟩
  · exact ⟨rfl, rfl⟩

theorem rep_zero {is32 : Bool} (x : BitVec (wd is32)) : rep (Val.of is32 x) = 0#64 ↔ x = 0 := by
  cases is32
  · exact Iff.rfl
  · constructor
    · intro h
      have := congrArg (BitVec.setWidth 32) h
      rw [show rep (Val.of true x) = BitVec.signExtend 64 (show BitVec 32 from x) from rfl, lo_sx] at this
      exact this
    · rintro rfl; decide

theorem op2_ok (hp : p.Ok) (h : Inv p s1 l s) (hf : Flags mul l s) {op : Op} {dst a b : Opd} (hd : DstOk p dst ∨ dst = .reg 0)
    (ha : Src a) (hb : Src b) (hop : C20.Arith op.code ∨ C20.Shift op.code) (hfl : op.flagOk)
    (h1 : ¬ C20.OverflowDefect op a b) (h2 : ¬ C20.CarryDefect op dst a b) {x y : BitVec (wd op.is32)}
    (ex : read (priv p (s1.rd 2#5)) op.is32 l a = some x) (ey : read (priv p (s1.rd 2#5)) op.is32 l b = some y)
    {r : BitVec (wd op.is32) × Bool} (er : binary op l x y = some r) :
    ∃ s', run (emitOp2 cfg op dst a b) s = some s' ∧ Result op.is32 dst (rep (Val.of op.is32 r.1)) s s' ∧
      ∀ l', l'.z = (l.setFlags op r.1 r.2).z → l'.v = (l.setFlags op r.1 r.2).v → ∀ mul',
        (op.flag ≠ .none → mul' = decide (op.code = .mul)) → Flags mul' l' s' := by
  obtain ⟨cin, e1, e2⟩ := Option.bind_eq_some_iff.mp er
  split at e2
  · cases e2
  have er' := Option.some.inj e2
  obtain ⟨a1, a2, -⟩ := read_ok h ha ex
  obtain ⟨b1, b2, -⟩ := read_ok h hb ey
  obtain ⟨s', g1, g2, g3⟩ := C29.c29_set_partial cfg op dst a b s cin hop hfl
    (by rcases hd with hd | hd
        · exact Or.inl (hd.dst hp).1
        · exact Or.inr hd) ha hb (cin_ok hf e1) (fun w => ⟨a2 w, Or.inr (b2 w)⟩) h1 h2
  obtain ⟨q1, q2⟩ := result_rep (cin := cin) a1 b1
  have hr1 : r.1 = val op.code x y cin := by rw [← er']
  have hr2 : r.2 = flagVal op.code op.flag x y cin := by rw [← er']
  refine ⟨s', g1, by rw [hr1, ← q1]; exact g2, fun l' ez ev mul' hm => ⟨fun t et => ?_, fun f t et => ?_⟩⟩
  · rw [ez] at et
    simp only [LSt.setFlags] at et
    split at et
    · next hz =>
      have := (g3 0 (decide (C20.result op (value op.is32 s a) (value op.is32 s b) cin = 0#64)) (Or.inl ⟨hz, Or.inl ⟨rfl, rfl⟩⟩)).2
      simp only [Nat.zero_lt_two, if_true, decide_true, decide_eq_true_eq] at this
      rw [this, q1, rep_zero, ← hr1, ← Option.some.inj et, decide_eq_true_eq]
    · cases et
  · rw [ev] at et
    simp only [LSt.setFlags] at et
    split at et
    · cases et
    · next hn =>
      have ef := Option.some.inj et
      obtain ⟨ef1, ef2⟩ := Prod.mk.inj ef
      obtain ⟨k1, k2⟩ := g3 (C29.flagNo op.flag) (C20.flag op (value op.is32 s a) (value op.is32 s b) cin) (Or.inr ⟨hn, Or.inl ⟨rfl, rfl⟩⟩)
      have hge : 2 ≤ C29.flagNo op.flag ∧ C29.flagNo op.flag % 2 = 0 := by cases hh : op.flag <;> first | exact absurd hh hn | decide
      rw [if_neg (by omega)] at k2
      obtain ⟨k2, k3, k4⟩ := k2
      rw [decide_eq_true hge.2, q2, ← hr2, ef2] at k2
      rw [hm hn]
      refine ⟨k2, k3, fun hmu => ?_⟩
      have := k4 hmu
      rw [← ef1]
      rw [← ef1] at *
      cases hh : op.flag <;> rw [hh] at this <;> first | rfl | (exfalso; revert this; decide)

theorem mulNext_ok {op : Op} (hfl : op.flagOk) (hn : op.flag ≠ .none) (mul : Bool) (dst a b : Opd) :
    mulNext mul (.op2 op dst a b) = decide (op.code = .mul) ∧ mulNext mul (.op2u op a b) = decide (op.code = .mul) := by
  obtain ⟨code, is32, z, f⟩ := op
  unfold Op.flagOk at hfl
  cases code <;> simp only at hfl hn <;> first | exact ⟨rfl, rfl⟩ | exact absurd hfl hn | exact absurd hfl.1 hn

/-- sljit_emit_op2. -/
theorem exec_op2 (hp : p.Ok) (h : Inv p s1 l s) (hf : Flags mul l s) {op : Op} {dst a b : Opd} (hok : Ins.Ok cfg p (.op2 op dst a b))
    (e : exec (priv p (s1.rd 2#5)) (.op2 op dst a b) l = some l') : After cfg p s1 mul (.op2 op dst a b) l' s := by
  obtain ⟨hd, ha, hb, hop, hfl, h1, h2⟩ := hok
  obtain ⟨x, ex, e⟩ := Option.bind_eq_some_iff.mp e
  obtain ⟨y, ey, e⟩ := Option.bind_eq_some_iff.mp e
  obtain ⟨r, er, e⟩ := Option.bind_eq_some_iff.mp e
  obtain ⟨s', g1, g2, g3⟩ := op2_ok (cfg := cfg) hp h hf (Or.inl hd) ha hb hop hfl h1 h2 ex ey er
  obtain ⟨w1, w2, w3⟩ := write_ok h hp (wd_ok _) (result_w (hd.dst hp).1 g2) hd (l0 := l.setFlags op r.1 r.2) rfl rfl e rfl (lo_rep _)
  exact runs_of_run ⟨s', g1, w1, g3 l' w2 w3 _ fun hn => (mulNext_ok hfl hn mul dst a b).1⟩

/-- sljit_emit_op2u. -/
theorem exec_op2u (hp : p.Ok) (h : Inv p s1 l s) (hf : Flags mul l s) {op : Op} {a b : Opd} (hok : Ins.Ok cfg p (.op2u op a b))
    (e : exec (priv p (s1.rd 2#5)) (.op2u op a b) l = some l') : After cfg p s1 mul (.op2u op a b) l' s := by
  obtain ⟨ha, hb, hop, hfl, h1, h2⟩ := hok
  obtain ⟨x, ex, e⟩ := Option.bind_eq_some_iff.mp e
  obtain ⟨y, ey, e⟩ := Option.bind_eq_some_iff.mp e
  obtain ⟨r, er, e⟩ := Option.bind_eq_some_iff.mp e
  obtain ⟨s', g1, g2, g3⟩ := op2_ok (cfg := cfg) hp h hf (Or.inr rfl) ha hb hop hfl h1 h2 ex ey er
  have el := Option.some.inj e
  refine runs_of_run ⟨s', g1, ?_, g3 l' (by rw [← el]) (by rw [← el]) _ fun hn => (mulNext_ok hfl hn mul a a b).2⟩
  rw [← el]
  exact keep_ok h hp (fun r hr => g2.user r hr (by rintro ⟨⟩; exact absurd hr.1 (by decide))) g2.fregs g2.mem rfl rfl

/-! ## Flags in a destination -/

theorem cell_congr {l l' : LSt} (e : l'.reg = l.reg) (pr : BitVec 64 → Bool) (n b i : Nat) (w : BitVec 64) : cell pr n l' b i w = cell pr n l b i w := by
  unfold cell addr word; rw [e]

/-- sljit_emit_op_flags. -/
theorem exec_opFlags (hp : p.Ok) (h : Inv p s1 l s) (hf : Flags mul l s) {code : OpC} {is32 setZ : Bool} {dst : Opd} {type : Nat}
    (hok : Ins.Ok cfg p (.opFlags code is32 setZ dst type)) (e : exec (priv p (s1.rd 2#5)) (.opFlags code is32 setZ dst type) l = some l') :
    After cfg p s1 mul (.opFlags code is32 setZ dst type) l' s := by
  obtain ⟨hd, hc⟩ := hok
  obtain ⟨t, et, e⟩ := Option.bind_eq_some_iff.mp e
  have hs := hf.says et
  by_cases hm : code = .mov
  · subst hm
    simp only [if_true] at e
    obtain ⟨s', g1, g2, g3, g4⟩ := C29.c29_mov cfg is32 setZ mul dst type t s (hd.dst hp).1 hs
    have hv : C29.combine .mov (value is32 s dst) t = rep (Val.of is32 (mix .mov 0 t)) := by
      simp only [C29.combine]
      cases is32 <;> cases t <;> decide
    rw [hv] at g2
    obtain ⟨w1, w2, w3⟩ := write_ok h hp (wd_ok _) (result_w (hd.dst hp).1 g2) hd rfl rfl e rfl (lo_rep _)
    exact runs_of_run ⟨s', g1, w1, hf.same w2 w3 (by unfold zeroFlag; rw [g3]) (by unfold varFlag; rw [g4])
      (by intro b; unfold carryFlag; rw [g4])⟩
  · rw [if_neg hm] at e
    obtain ⟨old, eo, e⟩ := Option.bind_eq_some_iff.mp e
    have hsrc : Src dst := by
      have := (hd.dst hp).1
      cases dst <;> first | exact this | trivial
    obtain ⟨a1, a2, a3⟩ := read_ok h hsrc eo
    obtain ⟨s', g1, g2, g3⟩ := C29.c29_logic cfg code is32 setZ mul dst type t s (hc.resolve_left hm) (hd.dst hp).1 hs a2
    have hv : C29.combine code (value is32 s dst) t = rep (Val.of is32 (mix code old t)) := by
      rw [a3 (by rintro v rfl; exact hd)]
      have sxand : ∀ (o b : BitVec 32), o.signExtend 64 &&& b.signExtend 64 = (o &&& b).signExtend 64 := by intro o b; simp
      have sxor : ∀ (o b : BitVec 32), o.signExtend 64 ||| b.signExtend 64 = (o ||| b).signExtend 64 := by intro o b; simp
      have sxxor : ∀ (o b : BitVec 32), o.signExtend 64 ^^^ b.signExtend 64 = (o ^^^ b).signExtend 64 := by intro o b; simp
      have hb : ∀ t, C29.bit t = (BitVec.ofNat 32 t.toNat).signExtend 64 := by decide
      have hb' : ∀ t, C29.bit t = BitVec.ofNat 64 t.toNat := by decide
      rcases hc.resolve_left hm with rfl | rfl | rfl <;> cases is32 <;> simp only [C29.combine]
      · rw [hb']; rfl
      · rw [hb]; exact sxand _ _
      · rw [hb']; rfl
      · rw [hb]; exact sxor _ _
      · rw [hb']; rfl
      · rw [hb]; exact sxxor _ _
    rw [hv] at g2 g3
    obtain ⟨w1, w2, w3⟩ := write_ok h hp (wd_ok _) (result_w (hd.dst hp).1 g2) hd
      (l0 := { l with z := if setZ then some (decide (mix code old t = 0)) else none, v := none }) rfl rfl e rfl (lo_rep _)
    refine runs_of_run ⟨s', g1, w1, fun u eu => ?_, fun f u eu => ?_⟩
    · rw [w2] at eu
      simp only at eu
      split at eu
      · next hz => rw [g3 hz, rep_zero, ← Option.some.inj eu, decide_eq_true_eq]
      · cases eu
    · rw [w3] at eu; cases eu

/-- sljit_emit_select. -/
theorem exec_select (hp : p.Ok) (h : Inv p s1 l s) (hf : Flags mul l s) {type : Nat} {is32 : Bool} {dst b : Nat} {a : Opd}
    (hok : Ins.Ok cfg p (.select type is32 dst a b)) (e : exec (priv p (s1.rd 2#5)) (.select type is32 dst a b) l = some l') :
    After cfg p s1 mul (.select type is32 dst a b) l' s := by
  obtain ⟨hd, ha, hb, hbase, h32⟩ := hok
  obtain ⟨t, et, e⟩ := Option.bind_eq_some_iff.mp e
  obtain ⟨x, ex, e⟩ := Option.bind_eq_some_iff.mp e
  obtain ⟨y, ey, e⟩ := Option.bind_eq_some_iff.mp e
  obtain ⟨a1, a2, a3⟩ := read_ok h ha ex
  obtain ⟨b1, b2, b3⟩ := read_ok (o := .reg b) h hb ey
  have hu := hd.user hp
  have hv : ∀ (o : Opd) (z : BitVec (wd is32)), (value is32 s o).setWidth (wd is32) = z → (is32 = true → ∀ c i w, o ≠ .mem c i w) →
      C29.selValue is32 s o = rep (Val.of is32 z) := by
    intro o z hz hm
    unfold C29.selValue
    cases is32
    · rw [← hz]
      cases o <;> exact (BitVec.setWidth_eq (n := 64) _).symm
    · subst hz
      cases o with
      | mem c i w => exact absurd rfl (hm rfl c i w)
      | _ => rfl
  have hr := C29.c29_select_partial cfg type is32 mul dst a b t s hu.1 hu.2 ha hb hbase
    (fun hw c i w he => absurd he (h32 hw c i w)) (fun hw => ⟨fun he => he ▸ a2 hw, b2 hw⟩) (hf.says et)
  intro code hc
  obtain ⟨s', g1, g2, g3, g4, g5⟩ := hr code hc
  have hval : (if t then C29.selValue is32 s a else C29.selValue is32 s (.reg b)) = rep (Val.of is32 (if t then x else y)) := by
    cases t
    · exact hv _ _ b1 (fun _ => by rintro c i w ⟨⟩)
    · exact hv _ _ a1 h32
  rw [hval] at g3
  have g3' : C24.ResultW (wd is32) (.reg dst) (rep (Val.of is32 (if t then x else y))) s s' :=
    ⟨by rintro r ⟨⟩; exact g3.reg dst rfl hu.1, g3.mem, g3.user, g3.fixed, g3.fregs⟩
  obtain ⟨w1, w2, w3⟩ := write_ok h hp (wd_ok _) g3' (dst := .reg dst) hd rfl rfl e rfl (lo_rep _)
  exact ⟨s', g1, g2, w1, hf.same w2 w3 (by unfold zeroFlag; rw [g4]) (by unfold varFlag; rw [g5]) (by intro b; unfold carryFlag; rw [g5])⟩

/-! ## sljit_emit_shift_into -/

theorem exec_shiftInto (hp : p.Ok) (h : Inv p s1 l s) {left is32 nz : Bool} {dst a b : Nat} {n : Opd}
    (hok : Ins.Ok cfg p (.shiftInto left is32 nz dst a b n)) (e : exec (priv p (s1.rd 2#5)) (.shiftInto left is32 nz dst a b n) l = some l') :
    After cfg p s1 mul (.shiftInto left is32 nz dst a b n) l' s := by
  obtain ⟨hd, ha, hb, hn, hne, hz⟩ := hok
  obtain ⟨x, ex, e⟩ := Option.bind_eq_some_iff.mp e
  obtain ⟨y, ey, e⟩ := Option.bind_eq_some_iff.mp e
  obtain ⟨z, ez, e⟩ := Option.bind_eq_some_iff.mp e
  split at e
  · cases e
  next hnz =>
  obtain ⟨a1, a2, a3⟩ := read_ok (o := .reg a) h ha ex
  obtain ⟨b1, b2, b3⟩ := read_ok (o := .reg b) h hb ey
  obtain ⟨n1, -, -⟩ := read_ok h hn ez
  have hu := hd.user hp
  have hw : C27.width is32 = wd is32 := by cases is32 <;> rfl
  have hmod : (value is32 s n).toNat % wd is32 = z.toNat % wd is32 := by
    rw [← n1, BitVec.toNat_setWidth]
    cases is32
    · rw [show wd false = 64 from rfl, Nat.mod_eq_of_lt (a := (value false s n).toNat) (BitVec.isLt _)]
    · rw [show wd true = 32 from rfl]; omega
  obtain ⟨s', g1, g2⟩ := C27.c27_partial cfg is32 left nz dst a b n s hu.1 ha hb hn hne
    (fun q => by rw [hw, hmod]; exact fun q' => hnz ⟨q, q'⟩) (by rw [hw]; exact hz) (fun q => ⟨a2 q, b2 q⟩)
  have hv : C27.result is32 left (value is32 s (.reg a)) (value is32 s (.reg b)) (value is32 s n) =
      rep (Val.of is32 (BitVec.ofNat _ (into (wd is32) left x.toNat y.toNat (z.toNat % wd is32)))) := by
    rw [← hmod]
    cases is32
    · have ea : (value false s (.reg a)).toNat = x.toNat := by rw [← a1]; exact (congrArg BitVec.toNat (BitVec.setWidth_eq (n := 64) _)).symm
      have eb : (value false s (.reg b)).toNat = y.toNat := by rw [← b1]; exact (congrArg BitVec.toNat (BitVec.setWidth_eq (n := 64) _)).symm
      simp only [C27.result, Bool.false_eq_true, if_false, ea, eb]
      rfl
    · have ea : (value true s (.reg a)).toNat % 2 ^ 32 = x.toNat := by rw [← a1]; exact (BitVec.toNat_setWidth (i := 32) ..).symm
      have eb : (value true s (.reg b)).toNat % 2 ^ 32 = y.toNat := by rw [← b1]; exact (BitVec.toNat_setWidth (i := 32) ..).symm
      simp only [C27.result, if_true, ea, eb]
      rfl
  rw [hv] at g2
  obtain ⟨w1, w2, w3⟩ := write_ok h hp (wd_ok _) (result_w hu.1 g2) (dst := .reg dst) hd (l0 := l.noFlags) rfl rfl e rfl (lo_rep _)
  refine runs_of_run ⟨s', g1, w1, ⟨fun t et => ?_, fun f t et => ?_⟩⟩
  · rw [w2] at et; cases et
  · rw [w3] at et; cases et

/-! ## sljit_emit_op0 -/

theorem u_rep {is32 : Bool} {v : BitVec 64} {n : Nat} (h : C34.uval is32 v = n) (hx : C34.Ext is32 v) : v = rep (Val.of is32 (BitVec.ofNat _ n)) := by
  subst h
  cases is32
  · exact (BitVec.ofNat_toNat 64 v).symm.trans (by simp [C34.uval, rep, Val.of, wd])
  · rw [hx rfl]
    show _ = BitVec.signExtend 64 (BitVec.ofNat 32 _)
    congr 1
    apply BitVec.eq_of_toNat_eq
    rw [BitVec.toNat_setWidth, BitVec.toNat_ofNat, ← hx rfl]
    simp [C34.uval]

theorem s_rep {is32 : Bool} {v : BitVec 64} {n : Int} (h : C34.sval is32 v = n) (hx : C34.Ext is32 v) : v = rep (Val.of is32 (BitVec.ofInt _ n)) := by
  subst h
  cases is32
  · exact (BitVec.ofInt_toInt (x := v)).symm
  · have := hx rfl
    rw [this]
    show _ = BitVec.signExtend 64 (BitVec.ofInt 32 _)
    congr 1
    simp only [C34.sval, if_true]
    rw [BitVec.ofInt_toInt, ← this]

theorem uval_rep {is32 : Bool} (x : BitVec (wd is32)) : C34.uval is32 (rep (Val.of is32 x)) = x.toNat := by
  cases is32
  · rfl
  · exact C34.uval_sx x

theorem sval_rep {is32 : Bool} (x : BitVec (wd is32)) : C34.sval is32 (rep (Val.of is32 x)) = x.toInt := by
  cases is32
  · rfl
  · exact C34.sval_sx x

theorem smin_wd (is32 : Bool) : C34.smin is32 = -2 ^ (wd is32 - 1) := by cases is32 <;> rfl

theorem pair_ok {o : Op0} {is32 : Bool} {x y : BitVec (wd is32)} {ab : BitVec (wd is32) × BitVec (wd is32)} (e : pair o x y = some ab)
    (h32 : o = .lmulUw ∨ o = .lmulSw → is32 = false) {a' b' : BitVec 64}
    (h : C34.spec o is32 (rep (Val.of is32 x)) (rep (Val.of is32 y)) a' b') : a' = rep (Val.of is32 ab.1) ∧ b' = rep (Val.of is32 ab.2) := by
  cases o <;> simp only [pair] at e <;> try (cases e; done)
  case lmulUw =>
    have := h32 (Or.inl rfl); subst this
    cases e
    simp only [C34.spec, rep, Val.of] at h ⊢
    have := a'.isLt
    have e1 : BitVec.ofNat 64 (b'.toNat * 2 ^ 64 + a'.toNat) = a' := by
      apply BitVec.eq_of_toNat_eq
      rw [BitVec.toNat_ofNat]; omega
    have e2 : BitVec.ofNat 64 ((b'.toNat * 2 ^ 64 + a'.toNat) / 2 ^ 64) = b' := by
      rw [show (b'.toNat * 2 ^ 64 + a'.toNat) / 2 ^ 64 = b'.toNat by omega]
      exact BitVec.ofNat_toNat 64 b' |>.trans (BitVec.setWidth_eq b')
    rw [h] at e1 e2
    exact ⟨e1.symm, e2.symm⟩
  case lmulSw =>
    have := h32 (Or.inr rfl); subst this
    cases e
    simp only [C34.spec, rep, Val.of] at h ⊢
    have := a'.isLt
    have e1 : BitVec.ofInt 64 (b'.toInt * 2 ^ 64 + a'.toNat) = a' := by
      apply BitVec.eq_of_toNat_eq
      rw [BitVec.toNat_ofInt]; omega
    have e2 : BitVec.ofInt 64 ((b'.toInt * 2 ^ 64 + a'.toNat) / 2 ^ 64) = b' := by
      rw [show (b'.toInt * 2 ^ 64 + (a'.toNat : Int)) / 2 ^ 64 = b'.toInt by omega]
      exact BitVec.ofInt_toInt
    rw [h] at e1 e2
    exact ⟨e1.symm, e2.symm⟩
  all_goals
    split at e
    · cases e
    next hy =>
    have e' := Option.some.inj e
    subst e'
    simp only [C34.spec, uval_rep, sval_rep, smin_wd, not_or] at h hy
    first
      | (obtain ⟨h1, h2, h3, h4⟩ := h hy; exact ⟨u_rep h1 h3, u_rep h2 h4⟩)
      | (obtain ⟨h1, h2, h3, h4⟩ := h hy.1 hy.2; exact ⟨s_rep h1 h3, s_rep h2 h4⟩)
      | (obtain ⟨h1, h2, h3⟩ := h hy; exact ⟨u_rep h1 h3, h2⟩)
      | (obtain ⟨h1, h2, h3⟩ := h hy.1 hy.2; exact ⟨s_rep h1 h3, h2⟩)

theorem exec_op0 (hp : p.Ok) (h : Inv p s1 l s) {o : Op0} {is32 : Bool} (hok : Ins.Ok cfg p (.op0 o is32))
    (e : exec (priv p (s1.rd 2#5)) (.op0 o is32) l = some l') : After cfg p s1 mul (.op0 o is32) l' s := by
  obtain ⟨s', g1, g2, g3, g4, g5, -⟩ := C34.c34_op0 cfg o is32 s
  simp only [exec] at e
  split at e
  · next hpl =>
    rw [← Option.some.inj e]
    refine runs_of_run ⟨s', g1, keep_ok h hp (fun r hr => ?_) g5 g4 rfl rfl, Flags.none _ _ _⟩
    have hs : s'.rd (regMap 1) = s.rd (regMap 1) ∧ s'.rd (regMap 2) = s.rd (regMap 2) := by
      cases o <;> first | cases hpl; done | exact g2
    by_cases h1 : r = 1
    · rw [h1]; exact hs.1
    by_cases h2 : r = 2
    · rw [h2]; exact hs.2
    exact g3 r hr h1 h2
  · next hpl =>
    obtain ⟨hsc, h32⟩ := hok.resolve_left hpl
    obtain ⟨x, ex, e⟩ := Option.bind_eq_some_iff.mp e
    obtain ⟨y, ey, e⟩ := Option.bind_eq_some_iff.mp e
    obtain ⟨ab, ep, e⟩ := Option.bind_eq_some_iff.mp e
    have u1 : UserReg 1 := by decide
    have u2 : UserReg 2 := by decide
    have hx : s.rd (regMap 1) = rep (Val.of is32 x) := (read_ok (o := .reg 1) h u1 ex).2.2 (by rintro v ⟨⟩)
    have hy : s.rd (regMap 2) = rep (Val.of is32 y) := (read_ok (o := .reg 2) h u2 ey).2.2 (by rintro v ⟨⟩)
    rw [hx, hy] at g2
    obtain ⟨k1, k2⟩ := pair_ok ep h32 g2
    rw [← Option.some.inj e]
    refine runs_of_run ⟨s', g1, ⟨body_of h hp (fun r hr hn => g3 r hr ?_ ?_) g5 (fun q _ => by rw [g4]), ?_, ?_⟩, ⟨by rintro t ⟨⟩, by rintro f t ⟨⟩⟩⟩
    · rintro rfl; exact hn (Or.inl ⟨by omega, by omega⟩)
    · rintro rfl; exact hn (Or.inl ⟨by omega, by omega⟩)
    · intro r hr v hv
      simp only [LSt.set, LSt.noFlags] at hv
      by_cases h2 : r = 2
      · rw [if_pos h2] at hv; rw [h2, k2, Option.some.inj hv]
      rw [if_neg h2] at hv
      by_cases h1 : r = 1
      · rw [if_pos h1] at hv; rw [h1, k1, Option.some.inj hv]
      rw [if_neg h1] at hv
      rw [g3 r hr h1 h2]; exact h.reg r hr v hv
    · intro a ha
      rw [g4]; exact h.mem a ha

/-! ## sljit_emit_op1 -/

theorem zeros_eq {w n : Nat} {bit : Nat → Bool} (h1 : n ≤ w) (h2 : ∀ i < n, bit i = false) (h3 : n < w → bit n = true) : zeros w bit = n := by
  unfold zeros
  by_cases hn : n < w
  · have : (List.range w).find? bit = some n := by
      rw [List.find?_range_eq_some]
      exact ⟨h3 hn, by simpa using hn, fun j hj => by simp [h2 j hj]⟩
    rw [this]; rfl
  · have : (List.range w).find? bit = none := by
      rw [List.find?_range_eq_none]
      intro j hj
      simp [h2 j (by omega)]
    rw [this]; simp; omega

theorem rev_sum : ∀ (n r v : Nat), (∀ i < n, r / 2 ^ (8 * i) % 256 = v / 2 ^ (8 * (n - 1 - i)) % 256) →
    r % 256 ^ n = (List.range n).foldl (fun acc k => acc * 256 + v / 2 ^ (8 * k) % 256) 0
  | 0, r, v, _ => by simp [Nat.mod_one]
  | n + 1, r, v, h => by
    have h0 := h 0 (by omega)
    have ih := rev_sum n (r / 256) v fun i hi => by
      have := h (i + 1) (by omega)
      rw [show n + 1 - 1 - (i + 1) = n - 1 - i by omega, show 8 * (i + 1) = 8 + 8 * i by omega, Nat.pow_add, ← Nat.div_div_eq_div_mul] at this
      exact this
    rw [List.range_succ, List.foldl_append, ← ih, Nat.pow_succ', Nat.mod_mul]
    simp only [Nat.mul_zero, Nat.pow_zero, Nat.div_one, Nat.add_sub_cancel, Nat.sub_zero] at h0
    simp only [List.foldl_cons, List.foldl_nil, h0]
    omega

theorem rev_ok {n : Nat} {a r : BitVec 64} {x : BitVec (8 * n)} (h : IsRev n a r) (hx : a.setWidth (8 * n) = x) :
    r.setWidth (8 * n) = revBytes n x := by
  apply BitVec.eq_of_toNat_eq
  have hp : 256 ^ n = 2 ^ (8 * n) := by rw [Nat.pow_mul]
  have := rev_sum n r.toNat x.toNat fun i hi => by
    have := congrArg BitVec.toNat (h i hi)
    simp only [byte, BitVec.extractLsb'_toNat, Nat.shiftRight_eq_div_pow] at this
    rw [show (256 : Nat) = 2 ^ 8 from rfl, this, ← hx, BitVec.toNat_setWidth]
    rw [show 8 * n = 8 * (n - 1 - i) + 8 * (i + 1) by omega, Nat.pow_add, Nat.mod_mul_right_div_self,
      show 8 * (i + 1) = 8 + 8 * i by omega, Nat.pow_add, Nat.mod_mul_right_mod]
  rw [BitVec.toNat_setWidth, ← hp, this, revBytes, BitVec.toNat_ofNat, ← this, ← hp, Nat.mod_mod]

theorem read_readN {pr : BitVec 64 → Bool} {l : LSt} {o : Opd} {x : BitVec 32} (e : read pr true l o = some x) : readN pr 32 l o = some x := by
  cases o with
  | reg r =>
    obtain ⟨v, e1, e2⟩ := Option.bind_eq_some_iff.mp e
    simp only [readN, e1, Option.map_some]
    cases v with
    | w u => cases e2
    | i u => cases e2; rfl
  | imm v => exact e
  | mem b i w => exact e

theorem value_ok (h : Inv p s1 l s) {is32 : Bool} {o : Opd} (ho : Src o) {x : BitVec (wd is32)} (e : read (priv p (s1.rd 2#5)) is32 l o = some x)
    (sg : Bool) : (C24.value1 (wd is32) sg s o).setWidth (wd is32) = x := by
  cases is32
  · rw [← (read_ok h ho e).1]
    cases o <;> rfl
  · exact readN_ok h (by decide) ho (read_readN e) sg

theorem zx_rep {n : Nat} (hn : n < 32) (is32 : Bool) (x : BitVec n) : rep (Val.of is32 (x.setWidth _)) = x.setWidth 64 := by
  cases is32
  · rfl
  · show BitVec.signExtend 64 (BitVec.setWidth 32 x) = _
    apply BitVec.eq_of_getLsbD_eq; intro k hk
    rw [BitVec.getLsbD_signExtend, BitVec.msb_eq_getLsbD_last]
    simp only [BitVec.getLsbD_setWidth, hk, decide_true, Bool.true_and]
    by_cases h : k < 32
    · simp [h]
    · simp only [h, if_false]
      rw [BitVec.getLsbD_of_ge x _ (by omega), BitVec.getLsbD_of_ge x k (by omega)]; simp

theorem sx_rep {n : Nat} (hn : n < 32) (is32 : Bool) (x : BitVec n) : rep (Val.of is32 (x.signExtend _)) = x.signExtend 64 := by
  cases is32
  · rfl
  · show BitVec.signExtend 64 (BitVec.signExtend 32 x) = _
    apply BitVec.eq_of_getLsbD_eq; intro k hk
    rw [BitVec.getLsbD_signExtend, BitVec.getLsbD_signExtend, BitVec.getLsbD_signExtend, BitVec.msb_signExtend]
    have h32 : n ≤ 32 := by omega
    by_cases h : k < 32
    · simp [h, hk]
    · have : ¬ k < n := by omega
      have h3 : 32 ≤ n ↔ False := ⟨fun _ => by omega, False.elim⟩
      simp [h, hk, this]
      intro; omega

theorem cnt_rep (is32 : Bool) {n : Nat} (hn : n ≤ wd is32) : BitVec.ofNat 64 n = rep (Val.of is32 (BitVec.ofNat _ n)) := by
  cases is32
  · rfl
  · have : ∀ n < 33, BitVec.ofNat 64 n = (BitVec.ofNat 32 n).signExtend 64 := by decide
    exact this n (by change n ≤ 32 at hn; omega)

/-- A move: the value and the bits that reach memory. -/
theorem unary_move (h : Inv p s1 l s) {o : Op1C} {is32 : Bool} {dst src : Opd} (hs : Src src) (ho : C24.IsMove o)
    (e : unary (priv p (s1.rd 2#5)) o is32 l dst src = some l') :
    (C24.width o is32 = 8 ∨ C24.width o is32 = 16 ∨ C24.width o is32 = 32 ∨ C24.width o is32 = 64) ∧ ∃ u,
      C24.moved o (C24.value1 (C24.width o is32) false s src) = rep u ∧
      writeN (priv p (s1.rd 2#5)) (C24.width o is32) l dst u ((C24.moved o (C24.value1 (C24.width o is32) false s src)).setWidth _) = some l' := by
  have zx : ∀ {n : Nat} (x : BitVec n), n ≤ 64 → (x.setWidth 64).setWidth n = x := fun x hn => BitVec.setWidth_setWidth_of_le x hn |>.trans (BitVec.setWidth_eq x)
  have sx : ∀ {n : Nat} (x : BitVec n), n ≤ 64 → (x.signExtend 64).setWidth n = x := fun x hn => by
    apply BitVec.eq_of_getLsbD_eq; intro k hk
    have h64 : k < 64 := by omega
    simp only [BitVec.getLsbD_setWidth, BitVec.getLsbD_signExtend, hk, h64, decide_true, Bool.true_and, if_true]
  have fin : ∀ {n : Nat} {v : BitVec 64} {u : Val} {x : BitVec n},
      writeN (priv p (s1.rd 2#5)) n l dst u x = some l' → v = rep u → v.setWidth n = x →
      ∃ u, v = rep u ∧ writeN (priv p (s1.rd 2#5)) n l dst u (v.setWidth n) = some l' := fun hw hu hx => ⟨_, hu, by rw [hx]; exact hw⟩
  rcases ho with rfl | rfl | rfl | rfl | rfl | rfl | rfl | rfl | rfl <;> obtain ⟨x, ex, e⟩ := Option.bind_eq_some_iff.mp e <;>
    refine ⟨by simp [C24.width], ?_⟩
  · have hv := value_ok h hs ex false
    exact fin (n := 64) e ((BitVec.setWidth_eq _).symm.trans hv) hv
  · have hv := readN_ok h (by decide) hs ex false
    exact fin (n := 8) e (by rw [zx_rep (by decide), ← hv]; rfl) (by rw [← hv]; exact zx _ (by decide))
  · have hv := readN_ok h (by decide) hs ex false
    exact fin (n := 8) e (by rw [sx_rep (by decide), ← hv]; rfl) (by rw [← hv]; exact sx _ (by decide))
  · have hv := readN_ok h (by decide) hs ex false
    exact fin (n := 16) e (by rw [zx_rep (by decide), ← hv]; rfl) (by rw [← hv]; exact zx _ (by decide))
  · have hv := readN_ok h (by decide) hs ex false
    exact fin (n := 16) e (by rw [sx_rep (by decide), ← hv]; rfl) (by rw [← hv]; exact sx _ (by decide))
  · have hv := readN_ok h (by decide) hs ex false
    exact fin (n := 32) e (by rw [← hv]; rfl) (by rw [← hv]; exact zx _ (by decide))
  · have hv := readN_ok h (by decide) hs ex false
    exact fin (n := 32) e (by rw [← hv]; rfl) (by rw [← hv]; exact sx _ (by decide))
  · have hv := readN_ok h (by decide) hs ex false
    exact fin (n := 32) e (by rw [← hv]; rfl) (by rw [← hv]; exact sx _ (by decide))
  · have hv := value_ok h hs ex false
    exact fin (n := 64) e ((BitVec.setWidth_eq _).symm.trans hv) hv

theorem exec_move (hp : p.Ok) (h : Inv p s1 l s) (hf : Flags mul l s) {o : Op1C} {is32 : Bool} {dst src : Opd} (hd : DstOk p dst) (hs : Src src)
    (ho : C24.IsMove o) (hdef : ¬ C24.StoreDefect cfg o dst src) (e : unary (priv p (s1.rd 2#5)) o is32 l dst src = some l') :
    ∃ s', run (emitOp1 cfg o is32 dst src) s = some s' ∧ Inv p s1 l' s' ∧ Flags mul l' s' := by
  obtain ⟨s', g1, g2, g3, g4, g5⟩ := C24.c25_move_partial cfg o is32 dst src s ho (hd.dst hp).1 (hd.dst hp).2 hs hdef
  obtain ⟨hn, u, hu, hw⟩ := unary_move h hs ho e
  obtain ⟨w1, w2, w3⟩ := write_ok h hp hn g2 hd rfl rfl hw hu rfl
  exact ⟨s', g1, w1, hf.same w2 w3 g3 g4 g5⟩

/-- sljit_emit_op1. -/
theorem exec_op1 (hp : p.Ok) (h : Inv p s1 l s) (hf : Flags mul l s) {o : Op1C} {is32 : Bool} {dst src : Opd}
    (hok : Ins.Ok cfg p (.op1 o is32 dst src)) (e : exec (priv p (s1.rd 2#5)) (.op1 o is32 dst src) l = some l') :
    After cfg p s1 mul (.op1 o is32 dst src) l' s := by
  obtain ⟨hd, hs, ⟨ho, hdef⟩ | ⟨ho, hi, hrev⟩⟩ := hok
  · exact runs_of_run (exec_move hp h hf hd hs ho hdef e)
  intro code hc
  obtain ⟨s', g1, g2, sg, v, g3, g4⟩ := C24.c24_partial cfg o is32 dst src s ho (hd.dst hp).1 hs hi hrev code hc
  refine ⟨s', g1, g2, ?_⟩
  have fin : ∀ {n : Nat} (hn : n = 8 ∨ n = 16 ∨ n = 32 ∨ n = 64) {u : Val} {x : BitVec n}, C24.ResultW n dst v s s' →
      writeN (priv p (s1.rd 2#5)) n l.noFlags dst u x = some l' → v = rep u → v.setWidth n = x →
      Inv p s1 l' s' ∧ Flags (mulNext mul (.op1 o is32 dst src)) l' s' := by
    intro n hn u x hr hw hu hx
    obtain ⟨w1, w2, w3⟩ := write_ok h hp hn hr hd (l0 := l.noFlags) rfl rfl hw hu hx
    exact ⟨w1, ⟨fun t et => absurd (w2.symm.trans et) (by rintro ⟨⟩), fun f t et => absurd (w3.symm.trans et) (by rintro ⟨⟩)⟩⟩
  have hwd : C24.width .clz is32 = wd is32 ∧ C24.width .ctz is32 = wd is32 := by cases is32 <;> exact ⟨rfl, rfl⟩
  cases o <;> try (exfalso; apply ho; unfold C24.IsMove; simp; done)
  · obtain ⟨x, ex, e⟩ := Option.bind_eq_some_iff.mp e
    have hv := value_ok h hs ex sg
    rw [hwd.1] at g3 g4
    obtain ⟨n, rfl, g3⟩ := g3
    have hn : n ≤ wd is32 ∧ zeros (wd is32) x.getMsbD = n := by
      cases is32
      · simp only [Bool.false_eq_true, if_false] at g3
        have hv' : C24.value1 (wd false) sg s src = x := (BitVec.setWidth_eq _).symm.trans hv
        rw [hv'] at g3
        exact ⟨g3.1, zeros_eq g3.1 g3.2.1 g3.2.2⟩
      · simp only [if_true] at g3
        have hv' : BitVec.setWidth 32 (C24.value1 (wd true) sg s src) = x := hv
        rw [hv'] at g3
        exact ⟨g3.1, zeros_eq g3.1 g3.2.1 g3.2.2⟩
    rw [hn.2] at e
    exact fin (wd_ok _) g4 e (cnt_rep _ hn.1) (by rw [cnt_rep _ hn.1]; exact lo_rep _)
  · obtain ⟨x, ex, e⟩ := Option.bind_eq_some_iff.mp e
    have hv := value_ok h hs ex sg
    rw [hwd.2] at g3 g4
    obtain ⟨n, rfl, g3⟩ := g3
    have hn : n ≤ wd is32 ∧ zeros (wd is32) x.getLsbD = n := by
      cases is32
      · simp only [Bool.false_eq_true, if_false] at g3
        have hv' : C24.value1 (wd false) sg s src = x := (BitVec.setWidth_eq _).symm.trans hv
        rw [hv'] at g3
        exact ⟨g3.1, zeros_eq g3.1 g3.2.1 g3.2.2⟩
      · simp only [if_true] at g3
        have hv' : BitVec.setWidth 32 (C24.value1 (wd true) sg s src) = x := hv
        rw [hv'] at g3
        exact ⟨g3.1, zeros_eq g3.1 g3.2.1 g3.2.2⟩
    rw [hn.2] at e
    exact fin (wd_ok _) g4 e (cnt_rep _ hn.1) (by rw [cnt_rep _ hn.1]; exact lo_rep _)
  · cases is32
    · obtain ⟨x, ex, e⟩ := Option.bind_eq_some_iff.mp e
      have hv := value_ok h hs ex sg
      have hr := rev_ok (n := 8) g3 hv
      exact fin (n := 64) (by decide) g4 e ((BitVec.setWidth_eq _).symm.trans hr) hr
    · obtain ⟨x, ex, e⟩ := Option.bind_eq_some_iff.mp e
      have hv := value_ok h hs ex sg
      have hr := rev_ok (n := 4) g3.1 hv
      exact fin (n := 32) (by decide) g4 e (g3.2.trans (congrArg (BitVec.signExtend 64) hr)) hr
  · obtain ⟨x, ex, e⟩ := Option.bind_eq_some_iff.mp e
    have hr := rev_ok (n := 2) g3.1 (readN_ok h (by decide) hs ex sg)
    exact fin (n := 16) (by decide) g4 e (by rw [zx_rep (by decide), ← hr]; exact g3.2) hr
  · obtain ⟨x, ex, e⟩ := Option.bind_eq_some_iff.mp e
    have hr := rev_ok (n := 2) g3.1 (readN_ok h (by decide) hs ex sg)
    exact fin (n := 16) (by decide) g4 e (by rw [sx_rep (by decide), ← hr]; exact g3.2) hr
  · obtain ⟨x, ex, e⟩ := Option.bind_eq_some_iff.mp e
    have hr := rev_ok (n := 4) g3.1 (readN_ok h (by decide) hs ex sg)
    exact fin (n := 32) (by decide) g4 e (g3.2.trans (congrArg (BitVec.setWidth 64) hr)) hr
  · obtain ⟨x, ex, e⟩ := Option.bind_eq_some_iff.mp e
    have hr := rev_ok (n := 4) g3.1 (readN_ok h (by decide) hs ex sg)
    exact fin (n := 32) (by decide) g4 e (g3.2.trans (congrArg (BitVec.signExtend 64) hr)) hr

/-- Every call that does not transfer control and is not a label. -/
theorem exec_ok (hp : p.Ok) (h : Inv p s1 l s) (hf : Flags mul l s) {ins : Ins} (hok : Ins.Ok cfg p ins) (hl : ins ≠ .label)
    (e : exec (priv p (s1.rd 2#5)) ins l = some l') : After cfg p s1 mul ins l' s := by
  cases ins with
  | op0 o is32 => exact exec_op0 hp h hok e
  | op1 o is32 dst src => exact exec_op1 hp h hf hok e
  | op2 op dst a b => exact exec_op2 hp h hf hok e
  | op2u op a b => exact exec_op2u hp h hf hok e
  | shiftInto left is32 nz dst a b n => exact exec_shiftInto hp h hok e
  | opFlags code is32 setZ dst type => exact exec_opFlags hp h hf hok e
  | select type is32 dst a b => exact exec_select hp h hf hok e
  | label => exact absurd rfl hl
  | _ => cases e

end Verif.Lir
