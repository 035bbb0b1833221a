import Verif.Prog.Compile
import Verif.Props.C27
import Verif.Props.C29
import Verif.Props.C30
import Verif.Props.C34

/-!
# The machine state that belongs to a state of the interpreter (RV64)
-/

namespace Verif.Lir
open Verif.RV Verif.Props Verif.Props.Rv

/-- Contents of a machine register: 32 bit results are sign extended. -/
def rep : Val → BitVec 64
  | .w v => v
  | .i v => v.signExtend 64

/-- The part of the stack frame that holds the saved registers. -/
def priv (p : Frame) (sp a : BitVec 64) : Bool := decide (p.locals ≤ (a - sp).toNat ∧ (a - sp).toNat < p.total)

/-- Registers and memory; `s1` is the state after sljit_emit_enter. -/
structure Inv (p : Frame) (s1 : St) (l : LSt) (s : St) : Prop where
  body : C30.Body p s1 s
  reg : ∀ r, UserReg r → ∀ v, l.reg r = some v → s.rd (regMap r) = rep v
  mem : ∀ a, priv p (s1.rd 2#5) a = false → s.mem a = l.mem a

/-- The flags. -/
structure Flags (mul : Bool) (l : LSt) (s : St) : Prop where
  z : ∀ t, l.z = some t → (zeroFlag s ↔ t = true)
  v : ∀ f t, l.v = some (f, t) → (varFlag s ↔ t = true) ∧ (mul = false → s.rd 28#5 = 0#64 ∨ s.rd 28#5 = 1#64) ∧
    (mul = true → f = .overflow)

/-- A register that the function has declared and may assign. -/
def Decl (p : Frame) (r : Nat) : Prop := (1 ≤ r ∧ r ≤ p.scr) ∨ (24 ≤ r + p.sav ∧ r ≤ 23)

instance (p r) : Decidable (Decl p r) := by unfold Decl; infer_instance

/-- A destination. -/
def DstOk (p : Frame) : Opd → Prop
  | .reg r => Decl p r
  | .imm _ => False
  | .mem b i _ => b ≤ 24 ∧ i ≤ 24

instance (p o) : Decidable (DstOk p o) := by cases o <;> unfold DstOk <;> infer_instance

theorem Decl.user {p : Frame} (h : p.Ok) {r : Nat} (hr : Decl p r) : UserReg r ∧ r ≠ 24 := by
  have := h.regs
  have := h.sav
  unfold Decl at hr; unfold UserReg; omega

theorem DstOk.dst {p : Frame} (h : p.Ok) {o : Opd} (ho : DstOk p o) : Dst o ∧ o ≠ .reg 24 := by
  cases o with
  | reg r => exact ⟨(Decl.user h ho).1, by rintro ⟨⟩; exact (Decl.user h ho).2 rfl⟩
  | imm v => exact absurd ho (by simp [DstOk])
  | mem b i w => exact ⟨ho, by rintro ⟨⟩⟩

/-! ## Reading -/

section
variable {p : Frame} {s1 s : St} {l : LSt}

theorem word_ok (h : Inv p s1 l s) {r : Nat} (hr : UserReg r) {v : BitVec 64} (e : word l r = some v) : s.rd (regMap r) = v := by
  unfold word at e
  cases e1 : l.reg r with
  | none => simp [e1] at e
  | some x =>
    have := h.reg r hr x e1
    cases x with
    | w u => simp [e1] at e; rw [this, ← e]; rfl
    | i u => simp [e1] at e

theorem addr_ok (h : Inv p s1 l s) {b i : Nat} {w : BitVec 64} (hb : b ≤ 24) (hi : i ≤ 24) {a : BitVec 64} (e : addr l b i w = some a) :
    Rv.addr s b i w = a := by
  unfold addr at e
  obtain ⟨x, e1, e⟩ := Option.bind_eq_some_iff.mp e
  obtain ⟨y, e2, e⟩ := Option.bind_eq_some_iff.mp e
  rw [← Option.some.inj e]
  unfold Rv.addr
  congr 1
  · by_cases h0 : b = 0
    · rw [if_pos h0] at e1 ⊢; exact Option.some.inj e1
    · rw [if_neg h0] at e1 ⊢; exact word_ok h ⟨by omega, hb⟩ e1
  · by_cases h0 : i = 0
    · rw [if_pos h0] at e2 ⊢; exact Option.some.inj e2
    · rw [if_neg h0] at e2 ⊢
      obtain ⟨z, e3, e4⟩ := Option.map_eq_some_iff.mp e2
      rw [word_ok h ⟨by omega, hi⟩ e3]; exact e4

theorem free_iff {pr : BitVec 64 → Bool} {n : Nat} {a : BitVec 64} : free pr n a = true ↔ ∀ k < n, pr (a + BitVec.ofNat 64 k) = false := by
  simp [free]

theorem cell_ok (h : Inv p s1 l s) {b i n : Nat} {w : BitVec 64} (hb : b ≤ 24) (hi : i ≤ 24) {a : BitVec 64}
    (e : cell (priv p (s1.rd 2#5)) n l b i w = some a) :
    Rv.addr s b i w = a ∧ ∀ k < n / 8, priv p (s1.rd 2#5) (a + BitVec.ofNat 64 k) = false := by
  unfold cell at e
  obtain ⟨x, e1, e⟩ := Option.bind_eq_some_iff.mp e
  split at e
  · next hf =>
    rw [← Option.some.inj e]
    exact ⟨addr_ok h hb hi e1, free_iff.mp hf⟩
  · cases e

theorem add_zero64 (a : BitVec 64) : a + BitVec.ofNat 64 0 = a := by simp

theorem ld16_congr {m m' : BitVec 64 → BitVec 8} {a : BitVec 64} (h : ∀ k < 2, m (a + BitVec.ofNat 64 k) = m' (a + BitVec.ofNat 64 k)) :
    ld16 m a = ld16 m' a := by
  have h0 := h 0 (by decide)
  rw [add_zero64] at h0
  simp only [ld16, ld8, h0, h 1 (by decide)]

theorem ld32_congr {m m' : BitVec 64 → BitVec 8} {a : BitVec 64} (h : ∀ k < 4, m (a + BitVec.ofNat 64 k) = m' (a + BitVec.ofNat 64 k)) :
    ld32 m a = ld32 m' a := by
  have h1 := ld16_congr (m := m) (m' := m') (a := a) fun k hk => h k (by omega)
  have h2 := ld16_congr (m := m) (m' := m') (a := a + 2#64) fun k hk => by
    have := h (2 + k) (by omega)
    rwa [BitVec.ofNat_add, ← BitVec.add_assoc] at this
  simp only [ld32, h1, h2]

theorem ld64_congr' {m m' : BitVec 64 → BitVec 8} {a : BitVec 64} (h : ∀ k < 8, m (a + BitVec.ofNat 64 k) = m' (a + BitVec.ofNat 64 k)) :
    ld64 m a = ld64 m' a := by
  have h1 := ld32_congr (m := m) (m' := m') (a := a) fun k hk => h k (by omega)
  have h2 := ld32_congr (m := m) (m' := m') (a := a + 4#64) fun k hk => by
    have := h (4 + k) (by omega)
    rwa [BitVec.ofNat_add, ← BitVec.add_assoc] at this
  simp only [ld64, h1, h2]

theorem ldv_congr {n : Nat} {m m' : BitVec 64 → BitVec 8} {a : BitVec 64} (h : ∀ k < n / 8, m (a + BitVec.ofNat 64 k) = m' (a + BitVec.ofNat 64 k)) :
    ldv n m a = ldv n m' a := by
  unfold ldv
  split
  · have h0 := h 0 (by decide)
    rwa [add_zero64] at h0
  · exact ld16_congr h
  · exact ld32_congr h
  · exact ld64_congr' h
  · rfl

theorem lo_sx (v : BitVec 32) : (v.signExtend 64).setWidth 32 = v := by
  apply BitVec.eq_of_getLsbD_eq; intro k hk
  have : k < 64 := by omega
  simp only [BitVec.getLsbD_setWidth, BitVec.getLsbD_signExtend, hk, this, decide_true, Bool.true_and, if_true]
theorem lo_rep {is32 : Bool} (x : BitVec (wd is32)) : (rep (Val.of is32 x)).setWidth (wd is32) = x := by
  cases is32
  · exact BitVec.setWidth_eq (n := 64) x
  · exact lo_sx x

theorem ldv_ok (h : Inv p s1 l s) {n : Nat} {a : BitVec 64} (hf : ∀ k < n / 8, priv p (s1.rd 2#5) (a + BitVec.ofNat 64 k) = false) :
    ldv n s.mem a = ldv n l.mem a := ldv_congr fun k hk => h.mem _ (hf k hk)

/-- The value of an operand; 32 bit operands in registers are sign extended. -/
theorem read_ok (h : Inv p s1 l s) {is32 : Bool} {o : Opd} (ho : Src o) {x : BitVec (wd is32)}
    (e : read (priv p (s1.rd 2#5)) is32 l o = some x) :
    (value is32 s o).setWidth (wd is32) = x ∧ (is32 = true → Src32 s o) ∧ ((∀ v, o ≠ .imm v) → value is32 s o = rep (Val.of is32 x)) := by
  cases o with
  | reg r =>
    obtain ⟨v, e1, e2⟩ := Option.bind_eq_some_iff.mp e
    have hr := h.reg r ho v e1
    have hv : s.rd (regMap r) = rep (Val.of is32 x) := by
      rw [hr]
      cases is32 <;> cases v
      · rw [← Option.some.inj e2]; rfl
      · cases e2
      · cases e2
      · rw [← Option.some.inj e2]; rfl
    refine ⟨?_, fun hw => ?_, fun _ => hv⟩
    · change (s.rd (regMap r)).setWidth _ = _
      rw [hv]; exact lo_rep x
    · subst hw
      change s.rd (regMap r) = _
      rw [hv]
      exact congrArg (BitVec.signExtend 64) (lo_sx x).symm
  | imm v => exact ⟨Option.some.inj e, fun _ => trivial, fun q => absurd rfl (q v)⟩
  | mem b i w =>
    obtain ⟨a, e1, e2⟩ := Option.map_eq_some_iff.mp e
    obtain ⟨c1, c2⟩ := cell_ok h ho.1 ho.2 e1
    have := ldv_ok h c2
    rw [e2] at this
    have hv : value is32 s (.mem b i w) = rep (Val.of is32 x) := by
      subst c1
      cases is32
      · exact this
      · exact congrArg (BitVec.signExtend 64) this
    refine ⟨?_, fun _ => trivial, fun _ => hv⟩
    rw [hv]; exact lo_rep x

theorem readN_ok (h : Inv p s1 l s) {n : Nat} (hn : n = 8 ∨ n = 16 ∨ n = 32) {o : Opd} (ho : Src o) {x : BitVec n}
    (e : readN (priv p (s1.rd 2#5)) n l o = some x) (sg : Bool) : (C24.value1 n sg s o).setWidth n = x := by
  cases o with
  | reg r =>
    obtain ⟨v, e1, e2⟩ := Option.map_eq_some_iff.mp e
    have hr := h.reg r ho v e1
    change (s.rd (regMap r)).setWidth n = x
    rw [hr, ← e2]
    cases v with
    | w u => rfl
    | i u =>
      simp only [rep, Val.low]
      rcases hn with rfl | rfl | rfl <;> apply BitVec.eq_of_getLsbD_eq <;> intro k hk <;>
        (have h32 : k < 32 := by omega
         have h64 : k < 64 := by omega
         simp only [BitVec.getLsbD_setWidth, BitVec.getLsbD_signExtend, h32, h64, decide_true, Bool.true_and, if_true])
  | imm v => exact Option.some.inj e
  | mem b i w =>
    obtain ⟨a, e1, e2⟩ := Option.map_eq_some_iff.mp e
    obtain ⟨c1, c2⟩ := cell_ok h ho.1 ho.2 e1
    have := ldv_ok h c2
    rw [e2] at this
    rw [← this, ← c1]
    rcases hn with rfl | rfl | rfl <;> cases sg <;> simp only [C24.value1, C24.load, ldv, if_true, Bool.false_eq_true, if_false] <;>
      apply BitVec.eq_of_getLsbD_eq <;> intro k hk <;>
      (have h64 : k < 64 := by omega
       simp only [BitVec.getLsbD_setWidth, BitVec.getLsbD_signExtend, hk, h64, decide_true, Bool.true_and, if_true])

/-! ## Writing -/

theorem stv_other {n : Nat} {m : BitVec 64 → BitVec 8} {a q : BitVec 64} {v : BitVec n} (h : ∀ k < n / 8, q ≠ a + BitVec.ofNat 64 k) :
    stv n m a v q = m q := by
  unfold stv
  split
  all_goals first | rfl | skip
  all_goals
    have h0 := h 0 (by decide)
    rw [add_zero64] at h0
    simp only [st64, st32, st16, st8, BitVec.add_assoc, BitVec.reduceAdd, if_neg h0]
  · rw [if_neg (h 1 (by decide))]
  · rw [if_neg (h 1 (by decide)), if_neg (h 2 (by decide)), if_neg (h 3 (by decide))]
  · rw [if_neg (h 1 (by decide)), if_neg (h 2 (by decide)), if_neg (h 3 (by decide)), if_neg (h 4 (by decide)), if_neg (h 5 (by decide)),
      if_neg (h 6 (by decide)), if_neg (h 7 (by decide))]

theorem stv_same {n : Nat} {m m' : BitVec 64 → BitVec 8} {a q : BitVec 64} {v : BitVec n} (h : m q = m' q) :
    stv n m a v q = stv n m' a v q := by
  unfold stv
  split
  all_goals simp only [st64, st32, st16, st8, h]

theorem store_stv {n : Nat} (hn : n = 8 ∨ n = 16 ∨ n = 32 ∨ n = 64) (m : BitVec 64 → BitVec 8) (a v : BitVec 64) :
    C24.store n m a v = stv n m a (v.setWidth n) := by
  rcases hn with rfl | rfl | rfl | rfl
  all_goals simp only [C24.store, stv, BitVec.setWidth_eq]

/-- The user registers other than those which may change belong to the caller, or to the application. -/
theorem body_of (h : Inv p s1 l s) {s' : St} (hp : p.Ok) (hu : ∀ r, UserReg r → ¬ Decl p r → s'.rd (regMap r) = s.rd (regMap r))
    (hf : s'.f = s.f) (hm : ∀ q, priv p (s1.rd 2#5) q = true → s'.mem q = s.mem q) : C30.Body p s1 s' := by
  refine ⟨?_, fun r a b c => ?_, fun r a b c => ?_, fun q a b => ?_⟩
  · have := hu 24 (by decide) (by unfold Decl; have := hp.regs; omega)
    rw [show regMap 24 = 2#5 from by decide] at this
    rw [this, h.body.sp]
  · rw [hu r ⟨by omega, by omega⟩ (by unfold Decl; omega)]
    exact h.body.regs r a b c
  · rw [hf]; exact h.body.fregs r a b c
  · rw [hm q (by unfold priv; exact decide_eq_true ⟨a, b⟩)]
    exact h.body.mem q a b

/-- Assignment to the destination of an operation. -/
theorem write_ok (h : Inv p s1 l s) (hp : p.Ok) {n : Nat} (hn : n = 8 ∨ n = 16 ∨ n = 32 ∨ n = 64) {dst : Opd} {v : BitVec 64} {s' : St}
    (hr : C24.ResultW n dst v s s') (hd : DstOk p dst) {l0 l' : LSt} (e1 : l0.reg = l.reg) (e2 : l0.mem = l.mem) {u : Val} {x : BitVec n}
    (hw : writeN (priv p (s1.rd 2#5)) n l0 dst u x = some l') (hu : v = rep u) (hx : v.setWidth n = x) :
    Inv p s1 l' s' ∧ l'.z = l0.z ∧ l'.v = l0.v := by
  cases dst with
  | imm w => exact absurd hd (by simp [DstOk])
  | reg r =>
    have hm : s'.mem = s.mem := hr.mem
    rw [← Option.some.inj hw]
    refine ⟨⟨body_of h hp (fun q hq hn => hr.user q hq ?_) hr.fregs fun q _ => by rw [hm], ?_, ?_⟩, rfl, rfl⟩
    · rintro ⟨⟩; exact hn hd
    · intro q hq w hw
      simp only [LSt.set] at hw
      by_cases hqr : q = r
      · rw [if_pos hqr] at hw
        rw [hqr, hr.reg r rfl, hu, Option.some.inj hw]
      · rw [if_neg hqr, e1] at hw
        rw [hr.user q hq (by rintro ⟨⟩; exact hqr rfl)]
        exact h.reg q hq w hw
    · intro a ha
      rw [hm]; simp only [LSt.set, e2]; exact h.mem a ha
  | mem b i w =>
    obtain ⟨a, g1, g2⟩ := Option.map_eq_some_iff.mp hw
    have g1' : cell (priv p (s1.rd 2#5)) n l b i w = some a := by
      rw [← g1]; unfold cell addr word; rw [e1]
    obtain ⟨c1, c2⟩ := cell_ok h hd.1 hd.2 g1'
    have hm := hr.mem
    simp only [store_stv hn, c1, hx] at hm
    rw [← g2]
    refine ⟨⟨body_of h hp (fun q hq _ => hr.user q hq (by rintro ⟨⟩)) hr.fregs fun q hq => ?_, ?_, ?_⟩, rfl, rfl⟩
    · rw [hm]
      refine stv_other fun k hk e => ?_
      rw [e, c2 k hk] at hq; cases hq
    · intro q hq w hw
      rw [hr.user q hq (by rintro ⟨⟩)]
      simp only [e1] at hw
      exact h.reg q hq w hw
    · intro q hq
      rw [hm]; simp only [e2]
      exact stv_same (h.mem q hq)

/-- No destination. -/
theorem keep_ok (h : Inv p s1 l s) (hp : p.Ok) {s' : St} (hu : ∀ r, UserReg r → s'.rd (regMap r) = s.rd (regMap r))
    (hf : s'.f = s.f) (hm : s'.mem = s.mem) {l' : LSt} (e1 : l'.reg = l.reg) (e2 : l'.mem = l.mem) : Inv p s1 l' s' := by
  refine ⟨body_of h hp (fun q hq _ => hu q hq) hf fun q _ => by rw [hm], fun r hr v hv => ?_, fun a ha => ?_⟩
  · rw [hu r hr]; rw [e1] at hv; exact h.reg r hr v hv
  · rw [hm, e2]; exact h.mem a ha

/-- `Result` and `ResultW`. -/
theorem result_w {is32 : Bool} {dst : Opd} {v : BitVec 64} {s s' : St} (hd : Dst dst) (h : Result is32 dst v s s') :
    C24.ResultW (wd is32) dst v s s' := by
  refine ⟨?_, ?_, h.user, h.fixed, h.fregs⟩
  · rintro r rfl; exact h.reg r rfl hd
  · rw [h.mem]
    cases dst with
    | mem b i w => cases is32 <;> rfl
    | _ => rfl

theorem wd_ok (is32 : Bool) : wd is32 = 8 ∨ wd is32 = 16 ∨ wd is32 = 32 ∨ wd is32 = 64 := by cases is32 <;> decide

/-! ## Flags -/

theorem Flags.none (mul : Bool) (l : LSt) (s : St) : Flags mul l.noFlags s := ⟨by rintro t ⟨⟩, by rintro f t ⟨⟩⟩

theorem Flags.same {mul : Bool} {l l' : LSt} {s s' : St} (h : Flags mul l s) (ez : l'.z = l.z) (ev : l'.v = l.v)
    (h5 : zeroFlag s' ↔ zeroFlag s) (h28 : varFlag s' ↔ varFlag s) (hc : ∀ b, carryFlag s' b ↔ carryFlag s b) : Flags mul l' s' := by
  refine ⟨fun t e => by rw [h5]; exact h.z t (ez ▸ e), fun f t e => ?_⟩
  obtain ⟨a, b, c⟩ := h.v f t (ev ▸ e)
  refine ⟨by rw [h28]; exact a, fun hm => ?_, c⟩
  have h0 := hc false
  have h1 := hc true
  simp only [carryFlag, Bool.false_eq_true, if_false, if_true] at h0 h1
  rw [h0, h1]; exact b hm

theorem Flags.says {mul : Bool} {l : LSt} {s : St} (h : Flags mul l s) {type : Nat} {t : Bool} (e : cond l type = some t) :
    C29.Says s mul type t := by
  unfold cond at e
  unfold C29.Says
  by_cases h0 : type = 0
  · rw [if_pos h0] at e
    refine ⟨by omega, ?_⟩
    rw [if_pos (by omega), h.z t e, decide_eq_true h0]
  · rw [if_neg h0] at e
    by_cases h1 : type = 1
    · rw [if_pos h1] at e
      obtain ⟨u, e1, e2⟩ := Option.map_eq_some_iff.mp e
      refine ⟨by omega, ?_⟩
      rw [if_pos (by omega), h.z u e1, decide_eq_false h0, ← e2]
      cases u <;> decide
    · rw [if_neg h1] at e
      obtain ⟨⟨f, u⟩, e1, e2⟩ := Option.bind_eq_some_iff.mp e
      obtain ⟨a, b, c⟩ := h.v f u e1
      dsimp only at e2
      have hf : flagNo f ≤ 12 ∧ flagNo f % 2 = 0 := by cases f <;> decide
      split at e2
      · next ht =>
        refine ⟨by omega, ?_⟩
        rw [if_neg (by omega), a, ← Option.some.inj e2]
        refine ⟨by rw [decide_eq_true (by omega)], b, fun hm => ?_⟩
        rw [c hm] at ht; left; exact ht
      · split at e2
        · next ht =>
          refine ⟨by omega, ?_⟩
          rw [if_neg (by omega), a, ← Option.some.inj e2]
          refine ⟨?_, b, fun hm => ?_⟩
          · rw [decide_eq_false (by omega)]; cases u <;> decide
          · rw [c hm] at ht; right; exact ht
        · cases e2

end
end Verif.Lir
