import Verif.XProg.Calls
import Verif.Props.C52

/-!
# A function which calls others does what its calls say (x86-64, System V)
-/

namespace Verif.XLir
open Verif.X86 Verif.Props
open Verif.Lir (Val wd nlab nlab_snoc Contract within Fn Mem AgreeC Agree Conf CStep CSteps of_get argVals_get within_iff dist_sub)

/-- The function for the interpreter: on x86-64 the local variables are at the stack pointer, the frame does not contain the return address. -/
def XFn.view (f : XFn) : Fn := ⟨f.body, f.p.sav, f.args, f.p.total false, 0, f.p.locals⟩

variable {ft : Feat} {f : XFn} {L : XLir.Loc} {s0 s1 : St} {t : PSt}

theorem saved_map {r : Nat} (h1 : 8 ≤ r) (h2 : r ≤ 13) : C46.mreg false r ∈ C51.calleeSaved false := by
  have key : ∀ r, r ≤ 13 → 8 ≤ r → C46.mreg false r ∈ C51.calleeSaved false := by decide
  exact key r h2 h1

/-! ## The stack -/

theorem local_iff {sp q : BitVec 64} : f.view.local sp q = true ↔ (q - sp).toNat < f.p.locals := by
  show within (sp + BitVec.ofNat 64 0) f.p.locals q = true ↔ _
  rw [within, decide_eq_true_iff, BitVec.add_zero]

/-- The stack of a function that has been entered. -/
structure Stack (f : XFn) (s0 s1 : St) (pr : BitVec 64 → Bool) (D : Nat) : Prop where
  small : D + 8 < 2 ^ 64
  room : f.p.total false ≤ D
  aligned : (s0.r 4#4).toNat % 16 = 8
  below : ∀ q, within (s0.r 4#4 - BitVec.ofNat 64 D) D q = true → pr q = true
  ra : ∀ q, within (s0.r 4#4) 8 q = true → pr q = true
  frame : C51.FrameSize false f.p (f.p.total false)
  sp : s1.r 4#4 = s0.r 4#4 - BitVec.ofNat 64 (f.p.total false)

variable {pr : BitVec 64 → Bool} {D : Nat}

/-- What the function must not touch. -/
abbrev hid (f : XFn) (s1 : St) (pr : BitVec 64 → Bool) : BitVec 64 → Bool := f.view.hidden pr (s1.r 4#4)

/-- The return address is above the frame. -/
theorem Stack.ra_iff (h : Stack f s0 s1 pr D) {q : BitVec 64} :
    (q - s0.r 4#4).toNat < 8 ↔ f.p.total false ≤ (q - s1.r 4#4).toNat ∧ (q - s1.r 4#4).toNat < f.p.total false + 8 := by
  obtain ⟨-, f2, -⟩ := h.frame
  have e : q - s0.r 4#4 = (q - s1.r 4#4) - BitVec.ofNat 64 (f.p.total false) := by
    rw [h.sp]
    apply BitVec.eq_of_toNat_eq
    simp only [BitVec.toNat_sub, BitVec.toNat_ofNat]; omega
  rw [e, BitVec.toNat_sub, BitVec.toNat_ofNat]
  have := (q - s1.r 4#4).isLt
  omega

theorem Stack.priv (h : Stack f s0 s1 pr D) {q : BitVec 64} (hq : XLir.priv f.p (f.p.total false) (s1.r 4#4) q = true) :
    hid f s1 pr q = true ∧ within (s1.r 4#4 - BitVec.ofNat 64 (D - f.p.total false)) (D - f.p.total false) q = false ∧
    (within (s0.r 4#4 - BitVec.ofNat 64 D) D q = true ∨ (q - s0.r 4#4).toNat < 8) := by
  have hr := h.ra_iff (q := q)
  obtain ⟨h1, h2, -, h3, h4, ⟨h5, h6, -⟩, h7⟩ := h
  rw [show C51.shadow false = 0 from rfl] at h5
  simp only [XLir.priv, decide_eq_true_iff] at hq
  have hw : within (s0.r 4#4 - BitVec.ofNat 64 D) D q = true ∨ (q - s0.r 4#4).toNat < 8 := by
    rw [hr, within_iff (by omega), dist_sub h2 (by omega), ← h7]; omega
  refine ⟨?_, ?_, hw⟩
  · have : pr q = true := hw.elim (h3 q) fun e => h4 q (by rw [within, decide_eq_true_iff]; exact e)
    rw [hid, Fn.hidden, this, Bool.true_and, Bool.not_eq_true', ← Bool.not_eq_true, local_iff]
    omega
  · rw [← Bool.not_eq_true, within_iff (by omega)]
    omega

theorem Stack.callee (h : Stack f s0 s1 pr D) {q : BitVec 64} (hq : within (s1.r 4#4 - BitVec.ofNat 64 (D - f.p.total false)) (D - f.p.total false) q = true) :
    hid f s1 pr q = true ∧ within (s0.r 4#4 - BitVec.ofNat 64 D) D q = true := by
  obtain ⟨h1, h2, -, h3, h4, ⟨h5, h6, -⟩, h7⟩ := h
  rw [within_iff (by omega)] at hq
  have hw : within (s0.r 4#4 - BitVec.ofNat 64 D) D q = true := by
    rw [within_iff (by omega), dist_sub h2 (by omega), ← h7]; exact Or.inr hq
  refine ⟨?_, hw⟩
  rw [hid, Fn.hidden, h3 q hw, Bool.true_and, Bool.not_eq_true', ← Bool.not_eq_true, local_iff]
  omega

/-- What the caller protects and what is not on the stack is protected from the callee; of the private part of the frame it can only be the return address. -/
theorem Stack.out (h : Stack f s0 s1 pr D) {q : BitVec 64} (hq : pr q = true) (hw : within (s0.r 4#4 - BitVec.ofNat 64 D) D q = false) :
    hid f s1 pr q = true ∧ within (s1.r 4#4 - BitVec.ofNat 64 (D - f.p.total false)) (D - f.p.total false) q = false ∧
    (XLir.priv f.p (f.p.total false) (s1.r 4#4) q = false ∨ (q - s0.r 4#4).toNat < 8) := by
  refine ⟨?_, ?_, ?_⟩
  · obtain ⟨h1, h2, -, h3, -, ⟨h5, h6, -⟩, h7⟩ := h
    rw [show C51.shadow false = 0 from rfl] at h5
    rw [hid, Fn.hidden, hq, Bool.true_and, Bool.not_eq_true', ← Bool.not_eq_true, local_iff]
    rw [← Bool.not_eq_true, within_iff (by omega), dist_sub h2 (by omega), ← h7] at hw
    omega
  · rw [← Bool.not_eq_true]; intro e; rw [(h.callee e).2] at hw; cases hw
  · cases hp : XLir.priv f.p (f.p.total false) (s1.r 4#4) q with
    | false => exact Or.inl rfl
    | true => exact Or.inr ((h.priv hp).2.2.resolve_left (by rw [hw]; simp))

/-! ## Simulation -/

/-- The machine state belongs to a configuration: up to memory that the program cannot see. -/
def CSim (ft : Feat) (f : XFn) (L : XLir.Loc) (s0 s1 : St) (pr : BitVec 64 → Bool) (D : Nat) (k : Conf) (t : PSt) : Prop :=
  ∃ k', AgreeC (hid f s1 pr) k k' ∧ Sim ft f.p f.body L s0 s1 k' t ∧
    ∀ q, pr q = true → within (s0.r 4#4 - BitVec.ofNat 64 D) D q = false → k'.mem q = s0.m q

/-- After the callee has returned. -/
theorem back_inv (hA : At ft f.p f.args f.body L s0 s1) (hS : Stack f s0 s1 pr D) {l : Lir.LSt} {s t1 : St} {t2 : PSt} (hi : Inv f.p (f.p.total false) s1 l s)
    (k1 : ∀ q, q ≠ 2#4 → q ≠ 7#4 → q ≠ 9#4 → q ≠ 4#4 → t1.r q = s.r q) (k2 : t1.r 4#4 = s1.r 4#4 - 8#64)
    (k3 : ∀ q, within (s1.r 4#4 - BitVec.ofNat 64 (D - f.p.total false)) (D - f.p.total false) q = false → t1.m q = s.m q)
    {v o : Option Val} {m : Mem} {ret : Option Bool} (hr : Returned (hid f s1 pr) (D - f.p.total false - 8) t1 v m t2)
    (k4 : ∀ q, hid f s1 pr q = true → within (s1.r 4#4 - BitVec.ofNat 64 (D - f.p.total false)) (D - f.p.total false) q = false → t2.s.m q = t1.m q)
    (ho : Lir.retVal ret v = some o) :
    Inv f.p (f.p.total false) s1 (l.back f.p.sav o t2.s.m) t2.s := by
  have esp : t2.s.r 4#4 = s1.r 4#4 := by rw [hr.sp, k2, BitVec.sub_add_cancel]
  have hsav := hA.legal.sav
  rw [show C51.lastSaved false = 8 from rfl] at hsav
  have ne : ∀ q ∈ C51.calleeSaved false, q ≠ 2#4 ∧ q ≠ 7#4 ∧ q ≠ 9#4 ∧ q ≠ 4#4 := by decide
  have sv : ∀ r, 8 ≤ r → r ≤ 13 → t2.s.r (C46.mreg false r) = s.r (C46.mreg false r) := by
    intro r h1 h2
    have hm := saved_map h1 h2
    obtain ⟨n1, n2, n3, n4⟩ := ne _ hm
    rw [hr.saved _ hm, k1 _ n1 n2 n3 n4]
  refine ⟨⟨esp, fun r h1 h2 h3 => (sv r h1 (by omega)).trans (hi.body.regs r h1 h2 h3), ?_⟩, ?_, fun _ _ => rfl⟩
  · intro q h1 h2
    have hpq : XLir.priv f.p (f.p.total false) (s1.r 4#4) q = true := by
      simp only [XLir.priv, decide_eq_true_iff]; exact ⟨h1, h2⟩
    obtain ⟨g1, g2, -⟩ := hS.priv hpq
    rw [k4 q g1 g2, k3 q g2]
    exact hi.body.mem q h1 h2
  · intro r hr' v' hv'
    simp only [Lir.LSt.back] at hv'
    by_cases h1 : r = 1
    · subst h1
      rw [if_pos rfl] at hv'
      subst hv'
      show Holds v' (t2.s.r 0#4)
      cases ret with
      | none => cases ho
      | some b =>
        obtain ⟨x, e1, e2⟩ := Option.map_eq_some_iff.mp ho
        obtain ⟨w, e3, e4⟩ := Option.bind_eq_some_iff.mp e1
        rw [← Option.some.inj e2, of_get e4]
        exact hr.value w e3
    · rw [if_neg h1] at hv'
      by_cases h2 : 24 ≤ r + f.p.sav
      · rw [if_pos h2] at hv'
        have := hi.reg r hr' v' hv'
        by_cases h24 : r = 24
        · subst h24
          rw [show C46.mreg false (xr 24) = 4#4 by decide] at this ⊢
          rw [esp, ← hi.body.sp]
          exact this
        · have h23 : r ≤ 23 := by
            rcases hr' with (h | h) | h
            · have := hA.legal.scr; omega
            · omega
            · omega
          have ex : xr r = r - 10 := by unfold xr; rw [if_neg h24, if_pos (by omega)]
          rw [ex] at this ⊢
          rw [sv _ (by omega) (by omega)]
          exact this
      · rw [if_neg h2] at hv'; cases hv'

variable {X : BitVec 64 → Contract} {env : Nat → BitVec 64}

/-- One call. -/
theorem cstep_ok (hA : At ft f.p f.args f.body L s0 s1) (hS : Stack f s0 s1 pr D) (henv : ∀ i, env i = tgtOf L.laddr (L.u.fn i))
    (hX : ∀ a, Realises L.c a (X a)) {k k' : Conf} (hs : CSim ft f L s0 s1 pr D k t)
    (e : CStep X env 8 f.view (hid f s1 pr) (s1.r 4#4) (D - f.p.total false) k k') :
    ∃ t', PSteps L.c t t' ∧ CSim ft f L s0 s1 pr D k' t' := by
  obtain ⟨k1, ha, hs, hu⟩ := hs
  have mono : ∀ q, XLir.priv f.p (f.p.total false) (s1.r 4#4) q = true → hid f s1 pr q = true := fun q hq => (hS.priv hq).1
  cases e with
  | plain h =>
    obtain ⟨k2, g1, g2, g3⟩ := Lir.step_agree mono ha h
    obtain ⟨t', q1, q2⟩ := step_ok hA hs g1
    exact ⟨t', q1, k2, g2, q2, fun q hq hw => (g3 q (hS.out hq hw).1).trans (hu q hq hw)⟩
  | @call as ret rew who rest l a vals v m' o had hv hD hXa ho =>
    cases k1 with
    | done => cases ha
    | run r l1 =>
      obtain ⟨rfl, ha⟩ := ha
      obtain ⟨⟨pre, hP, hpl, hf⟩, hi⟩ := hs
      have had1 : who.addr (XLir.priv f.p (f.p.total false) (s1.r 4#4)) env l1 = some a := by
        cases who with
        | fn i => exact had
        | opd src => exact Lir.read_agree ha mono had
      obtain ⟨t1, hc⟩ := call_ok hA hP hpl hi henv had1
      have hok := hA.ins (.call as ret rew who) (by rw [hP]; exact List.mem_append_right _ List.mem_cons_self)
      have hcnt : as.length ≤ 4 ∧ as.length ≤ f.p.scr := by
        cases who with
        | fn i => exact hok
        | opd src => exact ⟨hok.1, hok.2.1⟩
      have small := hS.small
      have esp : t1.s.r 4#4 = s1.r 4#4 - 8#64 := by rw [hc.sp, hi.body.sp]
      have slot : ∀ q, (q - (s1.r 4#4 - 8#64)).toNat < 8 ↔ 2 ^ 64 ≤ (q - s1.r 4#4).toNat + 8 := by
        intro q
        have := within_iff (sp := s1.r 4#4) (q := q) (D := 8) (by decide)
        rw [within, decide_eq_true_iff] at this
        exact this
      have below : ∀ q, within (t1.s.r 4#4 - BitVec.ofNat 64 (D - f.p.total false - 8)) (D - f.p.total false - 8) q = true ∨ (q - (s1.r 4#4 - 8#64)).toNat < 8 ↔
          within (s1.r 4#4 - BitVec.ofNat 64 (D - f.p.total false)) (D - f.p.total false) q = true := by
        intro q
        rw [within_iff (by omega), within_iff (by omega), esp, dist_sub (F := 8) hD (by omega)]
        exact Or.comm
      have k3 : ∀ q, within (s1.r 4#4 - BitVec.ofNat 64 (D - f.p.total false)) (D - f.p.total false) q = false → t1.s.m q = t.s.m q := by
        intro q hq
        refine hc.m q ?_
        rw [hi.body.sp]
        rw [← Bool.not_eq_true, ← below q] at hq
        omega
      have b1 : (t1.s.r 4#4).toNat % 16 = 8 := by
        have := hS.aligned
        obtain ⟨-, f2, f3⟩ := hS.frame
        rw [esp, hS.sp]
        simp only [BitVec.toNat_sub, BitVec.toNat_ofNat]
        omega
      have b2 : ∀ q, within (t1.s.r 4#4 - BitVec.ofNat 64 (D - f.p.total false - 8)) (D - f.p.total false - 8) q = true → hid f s1 pr q = true :=
        fun q hq => (hS.callee ((below q).mp (Or.inl hq))).1
      have b2' : ∀ q, within (t1.s.r 4#4) 8 q = true → hid f s1 pr q = true := by
        intro q hq
        rw [within, decide_eq_true_iff, esp] at hq
        exact (hS.callee ((below q).mp (Or.inr hq))).1
      have b3 : ∀ n u, n < 4 → vals[n]? = some u → Holds u (t1.s.r (C51.argReg false n)) := by
        intro n u hn hu'
        obtain ⟨g1, g2⟩ := argVals_get hv n u hu'
        rw [← ha.reg] at g2
        rw [hc.args n g1]
        exact hi.reg (1 + n) (Or.inl (Or.inl ⟨by omega, by omega⟩)) u g2
      have b4 : ∀ q, hid f s1 pr q = false → t1.s.m q = l.mem q := by
        intro q hq
        rw [k3 q (by rw [← Bool.not_eq_true]; intro e; rw [(hS.callee e).1] at hq; cases hq), ← ha.mem q hq]
        refine hi.mem q ?_
        rw [← Bool.not_eq_true]; intro e; rw [mono q e] at hq; cases hq
      obtain ⟨t2, s2, hr⟩ := hX a t1.s (hid f s1 pr) (D - f.p.total false - 8) vals l.mem v m' (by omega) b1 b2 b2' b3 b4 (by rw [esp]; exact hXa)
      rw [show (⟨t1.s, a⟩ : PSt) = t1 by rw [← hc.pc]] at s2
      have k4 : ∀ q, hid f s1 pr q = true → within (s1.r 4#4 - BitVec.ofNat 64 (D - f.p.total false)) (D - f.p.total false) q = false → t2.s.m q = t1.s.m q := by
        intro q hq hw
        refine hr.keep q hq ?_
        rw [← Bool.not_eq_true]; intro e
        rw [(below q).mp (Or.inl e)] at hw; cases hw
      refine ⟨t2, hc.steps.trans s2, .run rest (l1.back f.p.sav o t2.s.m), ⟨rfl, ?_, ?_, rfl, rfl⟩, ?_, ?_⟩
      · funext r
        simp only [Lir.LSt.back, ha.reg]; rfl
      · intro q hq
        exact hr.mem q hq
      · exact next_ok hP (by simp) (by rw [hr.pc]; exact hc.ret) ⟨by rintro t ⟨⟩, by rintro g t ⟨⟩⟩ (back_inv hA hS hi hc.keep esp k3 hr k4 ho)
      · intro q hq hw
        obtain ⟨o1, o2, o3⟩ := hS.out hq hw
        show t2.s.m q = _
        rw [k4 q o1 o2, k3 q o2]
        rcases o3 with o3 | o3
        · rw [← hu q hq hw]
          exact hi.mem q o3
        · exact hA.top hi o3

/-- Any number of calls. -/
theorem csteps_ok (hA : At ft f.p f.args f.body L s0 s1) (hS : Stack f s0 s1 pr D) (henv : ∀ i, env i = tgtOf L.laddr (L.u.fn i))
    (hX : ∀ a, Realises L.c a (X a)) {k k' : Conf} (e : CSteps X env 8 f.view (hid f s1 pr) (s1.r 4#4) (D - f.p.total false) k k') :
    ∀ t, CSim ft f L s0 s1 pr D k t → ∃ t', PSteps L.c t t' ∧ CSim ft f L s0 s1 pr D k' t' := by
  induction e with
  | refl k => exact fun s hs => ⟨s, .refl _, hs⟩
  | step h _ ih =>
    intro s hs
    obtain ⟨t1, g1, g2⟩ := cstep_ok hA hS henv hX hs h
    obtain ⟨t2, g3, g4⟩ := ih t1 g2
    exact ⟨t2, g1.trans g3, g4⟩

/-- A function in memory does what its calls say, if the functions it calls do. -/
theorem fn_ok (hl : C51.Legal false f.p false f.args) (hok : ∀ i ∈ f.body, InsOk f.p i) (henv : ∀ i, env i = tgtOf L.laddr (L.u.fn i))
    (hX : ∀ a, Realises L.c a (X a)) {a : BitVec 64} {bs : List Byte} (hbs : emitEnter false f.p false f.args = some bs)
    (hpl : L.has (piece bs ++ f.body.flatMap (itemsT L.u ft f.p)) a 0) :
    Realises L.c a (f.view.does X env 8) := by
  intro s0 pr D vals m v m' hD hal hbel hra hpass hmem ⟨hsz, hrun⟩
  obtain ⟨ca, ja, hpl⟩ := hpl
  rw [List.append_assoc] at hpl
  obtain ⟨c1, c2⟩ := placed_piece hpl
  obtain ⟨s1, ⟨bs', e1, e2⟩, he, hs, hu⟩ := C51.entered hl s0
  obtain rfl : bs = bs' := Option.some.inj (hbs.symm.trans e1)
  have hpl0 : L.has (f.body.flatMap (itemsT L.u ft f.p)) (a + BitVec.ofNat 64 bs.length) 0 := ⟨ca, ja, c2⟩
  have hA : At ft f.p f.args f.body L s0 s1 := ⟨hl, hok, ⟨_, hpl0⟩, he, hs, hu⟩
  have hS : Stack f s0 s1 pr D := ⟨hD, hsz, hal, hbel, hra, C51.frameSize hl, he.sp⟩
  have hs1 := e2 L.c a c1
  obtain ⟨m'', hst, hmm⟩ := hrun (fun q => if f.view.local (s1.r 4#4) q then s0.m q else m q) (fun q hq => by
    rw [← show s1.r 4#4 = s0.r 4#4 - BitVec.ofNat 64 f.view.size from he.sp] at hq
    simp only [hq, Bool.false_eq_true, if_false])
  rw [← show s1.r 4#4 = s0.r 4#4 - BitVec.ofNat 64 f.view.size from he.sp] at hst
  have hp' : C52.Passed f.args vals s0 := by
    intro n u h1 h2
    have := hl.count
    exact hpass n u (by omega) h2
  have hsim : CSim ft f L s0 s1 pr D (.run f.body (f.view.start vals (s1.r 4#4) fun q => if f.view.local (s1.r 4#4) q then s0.m q else m q))
      ⟨s1, a + BitVec.ofNat 64 bs.length⟩ := by
    refine ⟨.run f.body (C52.start (f.p.total false) f.args vals (s0.r 4#4) s0.m), ⟨rfl, ?_, ?_, rfl, rfl⟩,
      ⟨⟨[], rfl, hpl0, ⟨by rintro t ⟨⟩, by rintro g t ⟨⟩⟩⟩, C52.start_inv hl he hp'⟩, fun _ _ _ => rfl⟩
    · funext r
      simp only [C52.start, Fn.start, he.sp]
      rw [show BitVec.ofNat 64 f.view.lo = 0#64 from rfl, BitVec.add_zero]
      rfl
    · intro q hq
      show s0.m q = if f.view.local (s1.r 4#4) q then s0.m q else m q
      cases hloc : f.view.local (s1.r 4#4) q with
      | true => rfl
      | false =>
        rw [hid, Fn.hidden, hloc, Bool.not_false, Bool.and_true] at hq
        exact hmem q hq
  obtain ⟨t, q1, k', q2, q3, q4⟩ := csteps_ok hA hS henv hX hst _ hsim
  cases k' with
  | run => cases q2
  | done v' mf =>
    obtain ⟨rfl, q2⟩ := q2
    have notpriv : ∀ q, XLir.priv f.p (f.p.total false) (s1.r 4#4) q = false → t.s.m q = mf q := fun q hq => q3.mem q (by rw [← he.sp]; exact hq)
    refine ⟨t, hs1.trans q1, q3.pc, q3.value, q3.sp, q3.saved, fun q hq => ?_, fun q hq hw => ?_⟩
    · have hh : hid f s1 pr q = false := by rw [hid, Fn.hidden, hq, Bool.false_and]
      rw [notpriv q (by rw [← Bool.not_eq_true]; intro e; rw [(hS.priv e).1] at hh; cases hh), q2 q hh]
      exact hmm q hq
    · rcases (hS.out hq hw).2.2 with o3 | o3
      · rw [notpriv q o3]
        exact q4 q hq hw
      · exact q3.top q o3

end Verif.XLir
