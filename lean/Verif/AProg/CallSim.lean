import Verif.AProg.Calls

/-!
# A function which calls others does what its calls say (ARM64)
-/

namespace Verif.ALir
open Verif.A64 hiding cond moved DstOk
open Verif.Props
open Verif.Imm.Arm64 (regMap)
open Verif.Lir (Val wd nlab nlab_snoc Contract within Fn Mem AgreeC Agree Conf CStep CSteps of_get argVals_get within_iff dist_sub)
open Verif.XLir (Holds)

/-- The function for the interpreter: on ARM64 the local variables are above the frame record (16 bytes). -/
def AFn.view (f : AFn) : Fn := ⟨f.body, f.p.sav, f.args, f.p.total, 16, f.p.locals⟩

variable {f : AFn} {L : Loc} {m0 m1 : MSt} {t : PSt}

/-! ## Arguments -/

theorem arg_map {n : Nat} (h : n < 4) : regMap (1 + n) = BitVec.ofNat 5 n := by
  have key : ∀ n, n < 4 → regMap (1 + n) = BitVec.ofNat 5 n := by decide
  exact key n h

theorem saved_map {r : Nat} (h1 : 17 ≤ r) (h2 : r ≤ 26) : ∃ j, 19 ≤ j ∧ j ≤ 28 ∧ regMap r = BitVec.ofNat 5 j := by
  have key : ∀ r, r ≤ 26 → 17 ≤ r → regMap r = BitVec.ofNat 5 (45 - r) := by decide
  exact ⟨45 - r, by omega, by omega, key r h2 h1⟩

theorem fsaved_map {r : Nat} (h1 : 23 ≤ r) (h2 : r ≤ 30) : ∃ j, 8 ≤ j ∧ j ≤ 15 ∧ fregMap r = BitVec.ofNat 5 j := by
  have key : ∀ r, r ≤ 30 → 23 ≤ r → ∃ j ≤ 15, 8 ≤ j ∧ fregMap r = BitVec.ofNat 5 j := by decide
  obtain ⟨j, g1, g2, g3⟩ := key r h2 h1
  exact ⟨j, g2, g1, g3⟩

/-! ## The stack -/

theorem local_iff {sp q : BitVec 64} (h : f.p.locals + 16 < 2 ^ 64) : f.view.local sp q = true ↔ 16 ≤ (q - sp).toNat ∧ (q - sp).toNat < 16 + f.p.locals := by
  have e : q - (sp + BitVec.ofNat 64 16) = (q - sp) - BitVec.ofNat 64 16 := by
    apply BitVec.eq_of_toNat_eq
    simp only [BitVec.toNat_sub, BitVec.toNat_add, BitVec.toNat_ofNat]; omega
  show within (sp + BitVec.ofNat 64 16) f.p.locals q = true ↔ _
  rw [within, decide_eq_true_iff, e, BitVec.toNat_sub, BitVec.toNat_ofNat]
  have := (q - sp).isLt
  omega

/-- The stack of a function that has been entered. -/
structure Stack (f : AFn) (m0 m1 : MSt) (pr : BitVec 64 → Bool) (D : Nat) : Prop where
  small : D < 2 ^ 64
  room : f.p.total ≤ D
  below : ∀ q, within (m0.s.r 31#5 - BitVec.ofNat 64 D) D q = true → pr q = true
  frame : C54.FrameSize f.p f.p.total
  sp : m1.s.r 31#5 = m0.s.r 31#5 - BitVec.ofNat 64 f.p.total

variable {pr : BitVec 64 → Bool} {D : Nat}

/-- What the function must not touch. -/
abbrev hid (f : AFn) (m1 : MSt) (pr : BitVec 64 → Bool) : BitVec 64 → Bool := f.view.hidden pr (m1.s.r 31#5)

theorem Stack.priv (h : Stack f m0 m1 pr D) {q : BitVec 64} (hq : ALir.priv f.p f.p.total (m1.s.r 31#5) q = true) :
    hid f m1 pr q = true ∧ within (m1.s.r 31#5 - BitVec.ofNat 64 (D - f.p.total)) (D - f.p.total) q = false ∧
    within (m0.s.r 31#5 - BitVec.ofNat 64 D) D q = true := by
  obtain ⟨h1, h2, h3, ⟨h4, h5, h6⟩, h7⟩ := h
  simp only [ALir.priv, decide_eq_true_iff] at hq
  have hw : within (m0.s.r 31#5 - BitVec.ofNat 64 D) D q = true := by
    rw [within_iff h1, dist_sub h2 h1, ← h7]; exact Or.inl hq.1
  refine ⟨?_, ?_, hw⟩
  · rw [hid, Fn.hidden, h3 q hw, Bool.true_and, Bool.not_eq_true', ← Bool.not_eq_true, local_iff (by omega)]
    exact hq.2
  · rw [← Bool.not_eq_true, within_iff (by omega)]; omega

theorem Stack.callee (h : Stack f m0 m1 pr D) {q : BitVec 64} (hq : within (m1.s.r 31#5 - BitVec.ofNat 64 (D - f.p.total)) (D - f.p.total) q = true) :
    hid f m1 pr q = true ∧ within (m0.s.r 31#5 - BitVec.ofNat 64 D) D q = true := by
  obtain ⟨h1, h2, h3, ⟨h4, h5, h6⟩, h7⟩ := h
  rw [within_iff (by omega)] at hq
  have hw : within (m0.s.r 31#5 - BitVec.ofNat 64 D) D q = true := by
    rw [within_iff h1, dist_sub h2 h1, ← h7]; exact Or.inr hq
  refine ⟨?_, hw⟩
  rw [hid, Fn.hidden, h3 q hw, Bool.true_and, Bool.not_eq_true', ← Bool.not_eq_true, local_iff (by omega)]
  omega

/-- What the caller protects and what is not on the stack is protected from the callee. -/
theorem Stack.out (h : Stack f m0 m1 pr D) {q : BitVec 64} (hq : pr q = true) (hw : within (m0.s.r 31#5 - BitVec.ofNat 64 D) D q = false) :
    hid f m1 pr q = true ∧ within (m1.s.r 31#5 - BitVec.ofNat 64 (D - f.p.total)) (D - f.p.total) q = false ∧ ALir.priv f.p f.p.total (m1.s.r 31#5) q = false := by
  refine ⟨?_, ?_, ?_⟩
  · obtain ⟨h1, h2, h3, ⟨h4, h5, h6⟩, h7⟩ := h
    rw [hid, Fn.hidden, hq, Bool.true_and, Bool.not_eq_true', ← Bool.not_eq_true, local_iff (by omega)]
    rw [← Bool.not_eq_true, within_iff h1, dist_sub h2 h1, ← h7] at hw
    omega
  · rw [← Bool.not_eq_true]; intro e; rw [(h.callee e).2] at hw; cases hw
  · rw [← Bool.not_eq_true]; intro e; rw [(h.priv e).2.2] at hw; cases hw

/-! ## Simulation -/

/-- The machine state belongs to a configuration: up to memory that the program cannot see. -/
def CSim (f : AFn) (L : Loc) (m0 m1 : MSt) (pr : BitVec 64 → Bool) (D : Nat) (k : Conf) (t : PSt) : Prop :=
  ∃ k', AgreeC (hid f m1 pr) k k' ∧ Sim f.p f.body L m0 m1 k' t ∧
    ∀ q, pr q = true → within (m0.s.r 31#5 - BitVec.ofNat 64 D) D q = false → k'.mem q = m0.s.m q

/-- After the callee has returned. -/
theorem back_inv (hA : At f.p f.args f.body L m0 m1) (hS : Stack f m0 m1 pr D) {l : Lir.LSt} {t t1 t2 : PSt} (hi : Inv f.p f.p.total m1 l t.s)
    (k1 : ∀ q, q ≠ 9#5 → q ≠ 10#5 → q ≠ 30#5 → t1.s.r q = t.s.r q) (k2 : t1.s.m = t.s.m) {v o : Option Val} {m : Mem} {ret : Option Bool}
    (hr : Returned (hid f m1 pr) (D - f.p.total) ⟨t1.s, t1.v⟩ v m t2) (ho : Lir.retVal ret v = some o) :
    Inv f.p f.p.total m1 (l.back f.p.sav o t2.s.m) t2.s := by
  have esp : t1.s.r 31#5 = m1.s.r 31#5 := (k1 _ (by decide) (by decide) (by decide)).trans hi.body.sp
  have sv : ∀ r, 17 ≤ r → r ≤ 26 → t2.s.r (regMap r) = t.s.r (regMap r) := by
    intro r h1 h2
    obtain ⟨j, j1, j2, e⟩ := saved_map h1 h2
    have hu := usp_map (r := r) (by omega) (by omega)
    rw [← k1 _ hu.1 hu.2.1 hu.2.2, e]
    exact hr.saved j j1 j2
  refine ⟨⟨hr.sp.trans esp, fun r h1 h2 h3 => (sv r h1 (by omega)).trans (hi.body.regs r h1 h2 h3), fun _ _ _ _ => rfl, ?_⟩, ?_, fun _ _ => rfl⟩
  · intro q d h1 h2
    have hpq : ALir.priv f.p f.p.total (m1.s.r 31#5) q = true := by
      simp only [ALir.priv, decide_eq_true_iff]; exact ⟨h1, h2⟩
    obtain ⟨g1, g2, -⟩ := hS.priv hpq
    have := hr.keep q g1 (by rw [show (⟨t1.s, t1.v⟩ : MSt).s.r 31#5 = m1.s.r 31#5 from esp]; exact g2)
    rw [show t2.s.m q = t.s.m q by rw [this, ← k2]]
    exact hi.body.mem q h1 h2
  · intro r hr' v' hv'
    simp only [Lir.LSt.back] at hv'
    by_cases h1 : r = 1
    · subst h1
      rw [if_pos rfl] at hv'
      have hd : Decl f.p 1 := by
        rcases hr' with h | h
        · exact h
        · cases h
      rw [mval_decl hA.regs hd]
      have e0 : regMap (ar f.p 1) = 0#5 := by
        have := hA.regs.sav
        simp only [ar]
        rw [if_neg (by decide), if_neg (by omega)]
        decide
      rw [e0]
      subst hv'
      cases ret with
      | none => cases ho
      | some b =>
        obtain ⟨x, e1, e2⟩ := Option.map_eq_some_iff.mp ho
        obtain ⟨w, e3, e4⟩ := Option.bind_eq_some_iff.mp e1
        rw [← Option.some.inj e2, of_get e4]
        exact hr.value w e3
    · rw [if_neg h1] at hv'
      by_cases h2 : 24 ≤ r + f.p.sav
      · rw [if_pos h2] at hv'
        have := hi.reg r hr' v' hv'
        rcases hr' with hd | rfl
        · rw [mval_decl hA.regs hd] at this ⊢
          have hsc := hA.regs.sum
          have hsv := hA.regs.sav
          have hd2 : r ≤ 23 := by unfold Decl at hd; omega
          have e : ar f.p r = r + 3 := by
            simp only [ar]
            rw [if_neg (by omega), if_pos (by omega)]
          rw [e] at this ⊢
          rw [sv (r + 3) (by omega) (by omega)]
          exact this
        · rw [mval] at this ⊢
          rw [show regMap (ar f.p 24) = 31#5 by simp only [ar, if_true]; decide] at this ⊢
          rw [hr.sp, show (⟨t1.s, t1.v⟩ : MSt).s.r 31#5 = t.s.r 31#5 from k1 _ (by decide) (by decide) (by decide)]
          exact this
      · rw [if_neg h2] at hv'; cases hv'

variable {X : BitVec 64 → Contract} {env : Nat → BitVec 64}

/-- One call. -/
theorem cstep_ok (hA : At f.p f.args f.body L m0 m1) (hS : Stack f m0 m1 pr D) (henv : ∀ i, env i = tgtOf L.laddr (L.u.fn i))
    (hX : ∀ a, Realises L.c a (X a)) {k k' : Conf} (hs : CSim f L m0 m1 pr D k t) (e : CStep X env 0 f.view (hid f m1 pr) (m1.s.r 31#5) (D - f.p.total) k k') :
    ∃ t', PSteps L.c t t' ∧ CSim f L m0 m1 pr D k' t' := by
  obtain ⟨k1, ha, hs, hu⟩ := hs
  have mono : ∀ q, ALir.priv f.p f.p.total (m1.s.r 31#5) q = true → hid f m1 pr q = true := fun q hq => (hS.priv hq).1
  cases e with
  | plain h =>
    obtain ⟨k2, g1, g2, g3⟩ := Lir.step_agree mono ha h
    obtain ⟨t', q1, q2⟩ := step_ok hA hs g1
    exact ⟨t', q1, k2, g2, q2, fun q hq hw => (g3 q (hS.out hq hw).1).trans (hu q hq hw)⟩
  | @call as ret rew who rest l a vals v m' o had hv hD hXa ho =>
    cases k1 with
    | done => cases ha
    | run r l1 =>
      obtain ⟨rfl, ha⟩ := ha
      obtain ⟨⟨pre, hP, hpl, hf⟩, hvk, hi⟩ := hs
      have had1 : who.addr (ALir.priv f.p f.p.total (m1.s.r 31#5)) env l1 = some a := by
        cases who with
        | fn i => exact had
        | opd src => exact Lir.read_agree ha mono had
      obtain ⟨t1, hc⟩ := call_ok hA hP hpl hi henv had1
      have hok : InsOk f.p (stOf f.p L.st0 pre) (.call as ret rew who) := AllOk.mid pre (by have := hA.ins; rwa [hP] at this)
      have hcnt : as.length ≤ 4 ∧ as.length ≤ f.p.scr := by
        cases who with
        | fn i => exact hok
        | opd src => exact ⟨hok.1, hok.2.1⟩
      have esp : t1.s.r 31#5 = m1.s.r 31#5 := (hc.keep _ (by decide) (by decide) (by decide)).trans hi.body.sp
      have esp' : (⟨t1.s, t1.v⟩ : MSt).s.r 31#5 = m1.s.r 31#5 := esp
      rw [BitVec.sub_zero, Nat.sub_zero] at hXa
      have b1 : C54.Aligned ⟨t1.s, t1.v⟩ := by
        show (t1.s.r 31#5).toNat % 16 = 0
        have al : (m0.s.r 31#5).toNat % 16 = 0 := hA.al
        have hF := hS.frame.2
        rw [esp, hS.sp, BitVec.toNat_sub, BitVec.toNat_ofNat, Nat.mod_eq_of_lt (show f.p.total < 2 ^ 64 by omega)]
        omega
      have b2 : ∀ q, within ((⟨t1.s, t1.v⟩ : MSt).s.r 31#5 - BitVec.ofNat 64 (D - f.p.total)) (D - f.p.total) q = true → hid f m1 pr q = true := by
        intro q hq
        rw [esp'] at hq
        exact (hS.callee hq).1
      have b3 : ∀ n u, n < 4 → vals[n]? = some u → Holds u ((⟨t1.s, t1.v⟩ : MSt).s.r (BitVec.ofNat 5 n)) := by
        intro n u hn hu'
        obtain ⟨g1, g2⟩ := argVals_get hv n u hu'
        have hd : Decl f.p (1 + n) := by unfold Decl; omega
        rw [← ha.reg] at g2
        have := hi.reg (1 + n) (Or.inl hd) u g2
        rw [mval_decl hA.regs hd] at this
        have e0 : ar f.p (1 + n) = 1 + n := by
          have := hA.regs.sav
          simp only [ar]
          rw [if_neg (by omega), if_neg (by omega)]
        rw [e0] at this
        have hm := usp_map (r := 1 + n) (by omega) (by omega)
        show Holds u (t1.s.r (BitVec.ofNat 5 n))
        rw [← arg_map hn, hc.keep _ hm.1 hm.2.1 hm.2.2]
        exact this
      have b4 : ∀ q, hid f m1 pr q = false → (⟨t1.s, t1.v⟩ : MSt).s.m q = l.mem q := by
        intro q hq
        show t1.s.m q = _
        rw [hc.m, ← ha.mem q hq]
        refine hi.mem q ?_
        rw [← Bool.not_eq_true]; intro e; rw [mono q e] at hq; cases hq
      obtain ⟨t2, s2, hr⟩ := hX a ⟨t1.s, t1.v⟩ (hid f m1 pr) (D - f.p.total) vals l.mem v m' b1 (by have := hS.small; omega) b2 b3 b4 (by rw [esp']; exact hXa)
      refine ⟨t2, (hc.steps.trans (by have := s2; rw [← hc.pc] at this; exact this)), .run rest (l1.back f.p.sav o t2.s.m), ⟨rfl, ?_, ?_, rfl, rfl⟩, ?_, ?_⟩
      · funext r
        simp only [Lir.LSt.back, ha.reg]; rfl
      · intro q hq
        exact hr.mem q hq
      · refine next_ok hP (by simp) (by rw [hr.pc]; exact hc.ret) ?_ ⟨by rintro t ⟨⟩, by rintro g t ⟨⟩⟩ (back_inv hA hS hi hc.keep hc.m hr ho)
        intro r h1 h2 h3
        obtain ⟨j, j1, j2, e⟩ := fsaved_map h1 (by omega)
        rw [e, hr.vsaved j j1 j2, ← e, ← hvk r h1 h2 h3]
        exact congrFun hc.v _
      · intro q hq hw
        obtain ⟨o1, o2, o3⟩ := hS.out hq hw
        have := hr.keep q o1 (by rw [esp']; exact o2)
        show t2.s.m q = _
        rw [this, ← hu q hq hw, show (Conf.run (Lir.Ins.call as ret rew who :: rest) l1).mem q = t.s.m q from (hi.mem q o3).symm]
        exact congrFun hc.m q

/-- Any number of calls. -/
theorem csteps_ok (hA : At f.p f.args f.body L m0 m1) (hS : Stack f m0 m1 pr D) (henv : ∀ i, env i = tgtOf L.laddr (L.u.fn i))
    (hX : ∀ a, Realises L.c a (X a)) {k k' : Conf} (e : CSteps X env 0 f.view (hid f m1 pr) (m1.s.r 31#5) (D - f.p.total) k k') :
    ∀ t, CSim f L m0 m1 pr D k t → ∃ t', PSteps L.c t t' ∧ CSim f L m0 m1 pr D k' t' := by
  induction e with
  | refl k => exact fun t ht => ⟨t, .refl _, ht⟩
  | step h _ ih =>
    intro t ht
    obtain ⟨t1, g1, g2⟩ := cstep_ok hA hS henv hX ht h
    obtain ⟨t2, g3, g4⟩ := ih t1 g2
    exact ⟨t2, g1.trans g3, g4⟩

/-- A function in memory does what its calls say, if the functions it calls do. -/
theorem fn_ok (hl : C54.Legal f.p false f.args) (hp : Regs f.p) (hok : AllOk f.p L.st0 f.body) (henv : ∀ i, env i = tgtOf L.laddr (L.u.fn i))
    (hX : ∀ a, Realises L.c a (X a)) {a : BitVec 64}
    (hpl : L.has (piece (emitEnter f.p false f.args) ++ compT L.u f.p L.st0 f.body) a 0) : Realises L.c a (f.view.does X env 0) := by
  intro m0 pr D vals m v m' hal hD hbel hpass hmem ⟨hsz, hrun⟩
  obtain ⟨ca, ja, hpl⟩ := hpl
  rw [List.append_assoc] at hpl
  obtain ⟨c1, c2⟩ := placed_piece hpl
  obtain ⟨m1, e2, he, hs⟩ := C54.entered hl m0 hal
  have hpl0 : L.has (compT L.u f.p L.st0 f.body) (a + BitVec.ofNat 64 (4 * (emitEnter f.p false f.args).length)) 0 := ⟨_, _, c2⟩
  have hA : At f.p f.args f.body L m0 m1 := ⟨hl, hp, hok, ⟨_, hpl0⟩, hal, he, hs⟩
  have hS : Stack f m0 m1 pr D := ⟨hD, hsz, hbel, C54.frameSize hl, he.sp⟩
  have hs1 := e2 L.c a c1
  obtain ⟨m'', hst, hmm⟩ := hrun (fun q => if f.view.local (m1.s.r 31#5) q then m0.s.m q else m q) (fun q hq => by
    rw [← show m1.s.r 31#5 = m0.s.r 31#5 - BitVec.ofNat 64 f.view.size from he.sp] at hq
    simp only [hq, Bool.false_eq_true, if_false])
  rw [← show m1.s.r 31#5 = m0.s.r 31#5 - BitVec.ofNat 64 f.view.size from he.sp] at hst
  have hsim : CSim f L m0 m1 pr D (.run f.body (f.view.start vals (m1.s.r 31#5) fun q => if f.view.local (m1.s.r 31#5) q then m0.s.m q else m q))
      ⟨m1.s, m1.v, a + BitVec.ofNat 64 (4 * (emitEnter f.p false f.args).length)⟩ := by
    refine ⟨.run f.body (C55.start f.p.total f.args vals (m0.s.r 31#5) m0.s.m), ⟨rfl, ?_, ?_, rfl, rfl⟩,
      ⟨⟨[], rfl, hpl0, ?_⟩, fun _ _ _ _ => rfl, C55.start_inv hl he fun n u hn hu => hpass n u (by have := hl.count; omega) hu⟩, fun _ _ _ => rfl⟩
    · funext r
      simp only [C55.start, Fn.start, he.sp]; rfl
    · intro q hq
      show m0.s.m q = if f.view.local (m1.s.r 31#5) q then m0.s.m q else m q
      cases hloc : f.view.local (m1.s.r 31#5) q with
      | true => rfl
      | false =>
        rw [hid, Fn.hidden, hloc, Bool.not_false, Bool.and_true] at hq
        exact hmem q hq
    · exact ⟨by rintro t ⟨⟩, by rintro g t ⟨⟩⟩
  obtain ⟨t, q1, k', q2, q3, q4⟩ := csteps_ok hA hS henv hX hst _ hsim
  cases k' with
  | run => cases q2
  | done v' mf =>
    obtain ⟨rfl, q2⟩ := q2
    have notpriv : ∀ q, ALir.priv f.p f.p.total (m1.s.r 31#5) q = false → t.s.m q = mf q := fun q hq => q3.mem q (by rw [← he.sp]; exact hq)
    refine ⟨t, hs1.trans q1, q3.pc, q3.value, q3.sp, q3.fp, q3.saved, q3.vsaved, fun q hq => ?_, fun q hq hw => ?_⟩
    · have hh : hid f m1 pr q = false := by rw [hid, Fn.hidden, hq, Bool.false_and]
      rw [notpriv q (by rw [← Bool.not_eq_true]; intro e; rw [(hS.priv e).1] at hh; cases hh), q2 q hh]
      exact hmm q hq
    · rw [notpriv q (hS.out hq hw).2.2]
      exact q4 q hq hw

end Verif.ALir
