import Verif.AProg.Compile
import Verif.XProg.Total
import Verif.Props.C54

/-!
# The machine state that belongs to a state of the interpreter (ARM64)
-/

namespace Verif.ALir
open Verif.A64 hiding cond moved DstOk
open Verif.Props
open Verif.Imm.Arm64 (regMap)
open Verif.Lir (Val wd ldv stv)
open Verif.XLir (neg Holds Wide holds_low holds_of holds_val wd_res wd_low wd_wide)

/-- The part of the stack frame around the local variables: the frame record, alignment and saved registers. -/
def priv (p : Frame) (F : Nat) (sp a : BitVec 64) : Bool := decide ((a - sp).toNat < F ∧ ¬ (16 ≤ (a - sp).toNat ∧ (a - sp).toNat < 16 + p.locals))

/-- A register that the function has declared. -/
def Decl (p : Frame) (r : Nat) : Prop := (1 ≤ r ∧ r ≤ p.scr) ∨ (24 ≤ r + p.sav ∧ r ≤ 23)

instance (p r) : Decidable (Decl p r) := by unfold Decl; infer_instance

/-- A register that may be used in an address. -/
def Use (p : Frame) (r : Nat) : Prop := Decl p r ∨ r = 24

/-- Operands: declared registers, constants, memory; SLJIT_SP has no index (sljitLir.c:987-1019). -/
def SrcOk (p : Frame) : RV.Opd → Prop
  | .reg r => Decl p r
  | .imm _ => True
  | .mem b i w => (b = 0 ∨ b = 24 ∨ Decl p b) ∧ (i = 0 ∨ Decl p i) ∧ (i ≠ 0 → b ≠ 0 ∧ b ≠ 24 ∧ w.toNat < 4)

instance (p o) : Decidable (SrcOk p o) := by cases o <;> unfold SrcOk <;> infer_instance

/-- A destination. -/
def DstOk (p : Frame) : RV.Opd → Prop
  | .imm _ => False
  | o => SrcOk p o

instance (p o) : Decidable (DstOk p o) := by cases o <;> unfold DstOk <;> infer_instance

/-- The register sets of a function; `Verif.Lir` has 23 registers. -/
structure Regs (p : Frame) : Prop where
  sav : p.sav ≤ 10
  sum : p.scr + p.sav ≤ 23

/-- The value of a register of the program; SLJIT_SP points to the local variables, which are above the frame record. -/
def mval (p : Frame) (s : St) (r : Nat) : BitVec 64 := s.r (regMap (ar p r)) + if r = 24 then 16#64 else 0#64

/-- Registers and memory; `m1` is the state after sljit_emit_enter.  Vector registers are not used. -/
structure Inv (p : Frame) (F : Nat) (m1 : MSt) (l : Lir.LSt) (s : St) : Prop where
  body : C54.Body p F m1 ⟨s, m1.v⟩
  reg : ∀ r, Use p r → ∀ v, l.reg r = some v → Holds v (mval p s r)
  mem : ∀ a, priv p F (m1.s.r 31#5) a = false → s.m a = l.mem a

/-- The flags; `st` is the flag state of the compiler. -/
structure FlagsR (st : FState) (l : Lir.LSt) (s : St) : Prop where
  z : ∀ t, l.z = some t → s.f.z = t
  v : ∀ g t, l.v = some (g, t) → ∀ j n, C47.flagOf j = g → C47.Holds st j n s (t ^^ n)

theorem ar_decl {p : Frame} (h : Regs p) {r : Nat} (hr : Decl p r) :
    1 ≤ ar p r ∧ ar p r ≤ 26 ∧ (ar p r ≤ p.scr ∨ 27 ≤ ar p r + p.sav) ∧ r ≠ 24 := by
  obtain ⟨h1, h2⟩ := h
  unfold Decl at hr; unfold ar
  split
  · omega
  split <;> omega

theorem ar_use {p : Frame} (h : Regs p) {r : Nat} (hr : Use p r) : 1 ≤ ar p r ∧ ar p r ≤ 27 := by
  rcases hr with hr | rfl
  · have := ar_decl h hr; omega
  · simp [ar]

theorem ar_inj {p : Frame} (h : Regs p) {r q : Nat} (hr : Use p r) (hq : Use p q) (e : ar p r = ar p q) : r = q := by
  obtain ⟨h1, h2⟩ := h
  unfold Use Decl at hr hq
  unfold ar at e
  by_cases a1 : r = 24 <;> by_cases a2 : q = 24 <;> by_cases a3 : 24 ≤ r + p.sav <;> by_cases a4 : 24 ≤ q + p.sav <;> simp only [a1, a2, a3, a4, if_true, if_false] at e <;> omega

theorem ar_zero {p : Frame} (h : Regs p) (r : Nat) : ar p r = 0 ↔ r = 0 := by
  obtain ⟨h1, h2⟩ := h
  unfold ar
  split
  · omega
  split <;> omega

theorem mval_decl {p : Frame} (h : Regs p) {r : Nat} (hr : Decl p r) (s : St) : mval p s r = s.r (regMap (ar p r)) := by
  rw [mval, if_neg (ar_decl h hr).2.2.2]; exact BitVec.add_zero _

theorem ao_mem (p : Frame) (b i : Nat) (w : BitVec 64) : ∃ B I W, ao p (.mem b i w) = .mem B I W := by
  simp only [ao]; split <;> exact ⟨_, _, _, rfl⟩

theorem ao_src {p : Frame} (h : Regs p) {o : RV.Opd} (ho : SrcOk p o) : C47.Src (ao p o) := by
  cases o with
  | reg r => have := ar_decl h ho; exact ⟨this.1, this.2.1⟩
  | imm v => trivial
  | mem b i w =>
    obtain ⟨h1, h2, h3⟩ := ho
    simp only [ao]
    split
    · exact ⟨by decide, by decide, fun h => absurd rfl h⟩
    next hn =>
    have hi : i ≠ 0 → b ≠ 0 ∧ b ≠ 24 ∧ w.toNat < 4 := h3
    refine ⟨?_, ?_, fun hi' => ?_⟩
    · rcases h1 with rfl | rfl | h1
      · rw [(ar_zero h 0).mpr rfl]; decide
      · simp [ar]
      · have := ar_decl h h1; omega
    · rcases h2 with rfl | h2
      · rw [(ar_zero h 0).mpr rfl]; decide
      · have := ar_decl h h2; omega
    · rw [Ne, ar_zero h] at hi' ⊢
      obtain ⟨a1, a2, a3⟩ := h3 hi'
      refine ⟨a1, ?_, a3⟩
      rcases h1 with q | q | q
      · exact absurd q a1
      · exact absurd q a2
      · have := ar_decl h q; omega

theorem DstOk.src {p : Frame} {o : RV.Opd} (ho : DstOk p o) : SrcOk p o := by
  cases o with
  | imm v => exact ho.elim
  | reg r => exact ho
  | mem b i w => exact ho

theorem ao_dest {p : Frame} (h : Regs p) {o : RV.Opd} (ho : DstOk p o) : C47.Dest (ao p o) := by
  have := ao_src h ho.src
  cases o with
  | imm v => exact ho.elim
  | reg r => exact this
  | mem b i w =>
    obtain ⟨B, I, W, e⟩ := ao_mem p b i w
    rw [e] at this ⊢
    exact this

/-! ## Memory -/

theorem rd_x86 (m : BitVec 64 → BitVec 8) : ∀ (k : Nat) (a : BitVec 64), rd m a k = X86.rd m a k
  | 0, _ => rfl
  | k + 1, a => by rw [rd, X86.rd, rd_x86 m k, BitVec.or_comm]

theorem wr_x86 {k : Nat} (hk : k ≤ 8) (m : BitVec 64 → BitVec 8) (a v : BitVec 64) : wr m a v k = X86.wr m a k v := by
  funext q
  unfold X86.wr
  split
  · next h =>
    have hq : q = a + BitVec.ofNat 64 (q - a).toNat := by
      rw [BitVec.ofNat_toNat, BitVec.setWidth_eq, BitVec.add_comm, BitVec.sub_add_cancel]
    have := wr_in k m a v _ h hk
    rwa [← hq] at this
  · next h => exact wr_out (by omega)

theorem ldv_rd {n : Nat} (hn : Wide n) (m : BitVec 64 → BitVec 8) (a : BitVec 64) : ldv n m a = (rd m a (n / 8)).setWidth n := by
  rw [XLir.ldv_rd hn, rd_x86]

theorem stv_wr {n : Nat} (hn : Wide n) (m : BitVec 64 → BitVec 8) (a v : BitVec 64) : wr m a v (n / 8) = stv n m a (v.setWidth n) := by
  rw [wr_x86 (by rcases hn with rfl | rfl | rfl | rfl <;> decide), XLir.stv_wr hn]

/-! ## Reading -/

section
variable {p : Frame} {F : Nat} {m1 : MSt} {s : St} {l : Lir.LSt}

theorem word_ok (h : Inv p F m1 l s) {r : Nat} (hr : Use p r) {v : BitVec 64} (e : Lir.word l r = some v) : mval p s r = v := by
  unfold Lir.word at e
  cases e1 : l.reg r with
  | none => simp [e1] at e
  | some x =>
    have := h.reg r hr x e1
    cases x with
    | w u => simp [e1] at e; rw [← e]; exact this
    | i u => simp [e1] at e

theorem addr_ok (hp : Regs p) (h : Inv p F m1 l s) {b i : Nat} {w : BitVec 64} (ho : SrcOk p (.mem b i w)) {a : BitVec 64} (e : Lir.addr l b i w = some a) :
    ∃ B I W, ao p (.mem b i w) = .mem B I W ∧ C47.addr s B I W = a := by
  obtain ⟨hb, hi, hw⟩ := ho
  unfold Lir.addr at e
  obtain ⟨x, e1, e⟩ := Option.bind_eq_some_iff.mp e
  obtain ⟨y, e2, e⟩ := Option.bind_eq_some_iff.mp e
  rw [← Option.some.inj e]
  simp only [ao]
  split
  · next hs =>
    obtain ⟨rfl, rfl⟩ := hs
    refine ⟨_, _, _, rfl, ?_⟩
    rw [if_neg (by decide)] at e1
    rw [if_pos rfl] at e2
    rw [← word_ok h (Or.inr rfl) e1, ← Option.some.inj e2]
    simp only [C47.addr, mval, ar, if_true]
    rw [if_neg (by decide), BitVec.add_assoc, BitVec.add_comm w]
  · next hs =>
    refine ⟨_, _, _, rfl, ?_⟩
    unfold C47.addr
    congr 1
    · by_cases h0 : b = 0
      · rw [if_pos h0] at e1; rw [if_pos ((ar_zero hp b).mpr h0)]; exact Option.some.inj e1
      · rw [if_neg h0] at e1; rw [if_neg (fun q => h0 ((ar_zero hp b).mp q))]
        have hd : Decl p b := by
          rcases hb.resolve_left h0 with q | q
          · exact absurd q (hw (fun q' => hs ⟨q, q'⟩)).2.1
          · exact q
        rw [← mval_decl hp hd]
        exact word_ok h (Or.inl hd) e1
    · by_cases h0 : i = 0
      · rw [if_pos h0] at e2; rw [if_pos ((ar_zero hp i).mpr h0)]; exact Option.some.inj e2
      · rw [if_neg h0] at e2; rw [if_neg (fun q => h0 ((ar_zero hp i).mp q))]
        obtain ⟨z, e3, e4⟩ := Option.map_eq_some_iff.mp e2
        have hd := hi.resolve_left h0
        rw [← mval_decl hp hd, word_ok h (Or.inl hd) e3, ← e4, Nat.mod_eq_of_lt (hw h0).2.2]

theorem cell_ok (hp : Regs p) (h : Inv p F m1 l s) {b i n : Nat} {w : BitVec 64} (ho : SrcOk p (.mem b i w)) {a : BitVec 64}
    (e : Lir.cell (priv p F (m1.s.r 31#5)) n l b i w = some a) :
    ∃ B I W, ao p (.mem b i w) = .mem B I W ∧ C47.addr s B I W = a ∧ ∀ k < n / 8, priv p F (m1.s.r 31#5) (a + BitVec.ofNat 64 k) = false := by
  unfold Lir.cell at e
  obtain ⟨x, e1, e⟩ := Option.bind_eq_some_iff.mp e
  split at e
  · next hf =>
    rw [← Option.some.inj e]
    obtain ⟨B, I, W, q1, q2⟩ := addr_ok hp h ho e1
    exact ⟨B, I, W, q1, q2, Lir.free_iff.mp hf⟩
  · cases e

theorem ldv_ok (h : Inv p F m1 l s) {n : Nat} {a : BitVec 64} (hf : ∀ k < n / 8, priv p F (m1.s.r 31#5) (a + BitVec.ofNat 64 k) = false) :
    ldv n s.m a = ldv n l.mem a := Lir.ldv_congr fun k hk => h.mem _ (hf k hk)

/-- The value of an operand. -/
theorem read_ok (hp : Regs p) (h : Inv p F m1 l s) {is32 : Bool} {o : RV.Opd} (ho : SrcOk p o) {x : BitVec (wd is32)}
    (e : Lir.read (priv p F (m1.s.r 31#5)) is32 l o = some x) : C47.value (wd is32) s (ao p o) = x := by
  cases o with
  | reg r =>
    obtain ⟨v, e1, e2⟩ := Option.bind_eq_some_iff.mp e
    have hr := h.reg r (Or.inl ho) v e1
    rw [mval_decl hp ho] at hr
    change (s.r (regMap (ar p r))).setWidth (wd is32) = x
    cases is32 <;> cases v
    · rw [← Option.some.inj e2, show s.r (regMap (ar p r)) = _ from hr]; exact BitVec.setWidth_eq _
    · cases e2
    · cases e2
    · rw [← Option.some.inj e2]; exact hr
  | imm v => exact Option.some.inj e
  | mem b i w =>
    obtain ⟨a, e1, e2⟩ := Option.map_eq_some_iff.mp e
    obtain ⟨B, I, W, c0, c1, c2⟩ := cell_ok hp h ho e1
    rw [← e2, ← ldv_ok h c2, ldv_rd (wd_wide is32), ← c1, c0]
    rfl

theorem readN_ok (hp : Regs p) (h : Inv p F m1 l s) {n : Nat} (hn : n = 8 ∨ n = 16 ∨ n = 32) {o : RV.Opd} (ho : SrcOk p o) {x : BitVec n}
    (e : Lir.readN (priv p F (m1.s.r 31#5)) n l o = some x) : (C47.source n s (ao p o)).setWidth n = x := by
  cases o with
  | reg r =>
    obtain ⟨v, e1, e2⟩ := Option.map_eq_some_iff.mp e
    have hr := h.reg r (Or.inl ho) v e1
    rw [mval_decl hp ho] at hr
    rw [← e2]
    exact holds_low hr (Or.inl (by omega))
  | imm v => exact Option.some.inj e
  | mem b i w =>
    obtain ⟨a, e1, e2⟩ := Option.map_eq_some_iff.mp e
    obtain ⟨B, I, W, c0, c1, c2⟩ := cell_ok hp h ho e1
    rw [← e2, ← ldv_ok h c2, ldv_rd (by rcases hn with h | h | h; exacts [Or.inl h, Or.inr (Or.inl h), Or.inr (Or.inr (Or.inl h))]), ← c1, c0]
    rfl

/-- The 64 bit operand of a move. -/
theorem read64_ok (hp : Regs p) (h : Inv p F m1 l s) {o : RV.Opd} (ho : SrcOk p o) {x : BitVec 64}
    (e : Lir.read (priv p F (m1.s.r 31#5)) false l o = some x) : C47.source 64 s (ao p o) = x := by
  rw [← read_ok hp h ho e]
  cases o with
  | reg r => exact (BitVec.setWidth_eq (n := 64) _).symm
  | imm v => exact (BitVec.setWidth_eq (n := 64) _).symm
  | mem b i w =>
    obtain ⟨B, I, W, e⟩ := ao_mem p b i w
    rw [e]
    exact (BitVec.setWidth_eq (n := 64) _).symm

/-! ## Writing -/

/-- The write of `v` to `dst`: `n` bits of memory or `k` bits of a register. -/
structure Wr (n k : Nat) (s s' : St) (dst : Opd) (v : BitVec 64) : Prop where
  keep : ∀ q, 1 ≤ q → q ≤ 27 → dst ≠ .reg q → s'.r (regMap q) = s.r (regMap q)
  reg : ∀ d, dst = .reg d → (s'.r (regMap d)).setWidth k = v.setWidth k
  mem : ∀ base offs d, dst = .mem base offs d → s'.m = wr s.m (C47.addr s base offs d) v (n / 8)
  same : (∀ base offs d, dst ≠ .mem base offs d) → s'.m = s.m

theorem wr_of1 {o : RV.Op1C} {is32 : Bool} {s s' : St} {dst : Opd} {v : BitVec 64} (h : C47.Written1 o is32 s s' dst v) :
    Wr (C47.width o is32) (C47.resultWidth o is32) s s' dst v := ⟨h.keep, h.reg, h.mem, h.same⟩

theorem wr_of {n m k : Nat} (hn : n ≤ 64) {s s' : St} {dst : Opd} {x : BitVec n} (h : C47.Written s s' (some dst) k x) (hk : (∀ d, dst ≠ .reg d) → k = m / 8) :
    Wr m n s s' dst (x.setWidth 64) := by
  refine ⟨fun q h1 h2 h3 => h.keep q h1 h2 (fun e => h3 (Option.some.inj e)), fun d e => ?_, fun b i w e => ?_,
    fun hx => h.same (fun b i w e => hx b i w (Option.some.inj e))⟩
  · rw [h.reg d (by rw [e]), BitVec.setWidth_setWidth_of_le _ hn, BitVec.setWidth_eq]
  · rw [← hk (by rintro d rfl; cases e)]
    exact h.mem b i w (by rw [e])

/-- The registers other than those which may change belong to the caller, or to the function. -/
theorem body_of (h : Inv p F m1 l s) {s' : St} (hp : Regs p)
    (hu : ∀ q, 1 ≤ q → q ≤ 27 → (∀ r, Decl p r → ar p r ≠ q) → s'.r (regMap q) = s.r (regMap q))
    (hm : ∀ q, priv p F (m1.s.r 31#5) q = true → s'.m q = s.m q) : C54.Body p F m1 ⟨s', m1.v⟩ := by
  refine ⟨?_, fun r a b c => ?_, fun _ _ _ _ => rfl, fun q a b => ?_⟩
  · have := hu 27 (by decide) (by decide) (fun r hr => by have := ar_decl hp hr; omega)
    exact this.trans h.body.sp
  · exact (hu r (by omega) (by omega) (fun q hq => by have := ar_decl hp hq; omega)).trans (h.body.regs r a b c)
  · exact (hm q (by unfold priv; exact decide_eq_true ⟨a, b⟩)).trans (h.body.mem q a b)

/-- Assignment to the destination of an operation. -/
theorem write_ok (h : Inv p F m1 l s) (hp : Regs p) {n k : Nat} (hn : Wide n) {dst : RV.Opd} {v : BitVec 64} {s' : St}
    (hr : Wr n k s s' (ao p dst) v) (hd : DstOk p dst) {l0 l' : Lir.LSt} (e1 : l0.reg = l.reg) (e2 : l0.mem = l.mem) {u : Val} {x : BitVec n}
    (hw : Lir.writeN (priv p F (m1.s.r 31#5)) n l0 dst u x = some l') (hu : Holds u v) (hk : k = 64 ∨ (k = 32 ∧ ∃ y, u = .i y))
    (hx : v.setWidth n = x) : Inv p F m1 l' s' ∧ l'.z = l0.z ∧ l'.v = l0.v := by
  cases dst with
  | imm w => exact hd.elim
  | reg r =>
    have hd' : Decl p r := hd
    have hm : s'.m = s.m := hr.same (by rintro b i d ⟨⟩)
    rw [← Option.some.inj hw]
    refine ⟨⟨body_of h hp (fun q h1 h2 hne => hr.keep q h1 h2 ?_) fun q _ => by rw [hm], ?_, ?_⟩, rfl, rfl⟩
    · rintro ⟨⟩; exact hne r hd' rfl
    · intro q hq w hw
      simp only [Lir.LSt.set] at hw
      by_cases hqr : q = r
      · rw [if_pos hqr] at hw
        rw [hqr, ← Option.some.inj hw, mval_decl hp hd']
        exact holds_of hu (hr.reg (ar p r) rfl) hk
      · rw [if_neg hqr, e1] at hw
        have hb := ar_use hp hq
        rw [mval, hr.keep (ar p q) hb.1 hb.2 (by intro e; injection e with e; exact hqr (ar_inj hp hq (Or.inl hd') e.symm))]
        exact h.reg q hq w hw
    · intro a ha
      rw [hm]; simp only [Lir.LSt.set, e2]; exact h.mem a ha
  | mem b i w =>
    obtain ⟨a, g1, g2⟩ := Option.map_eq_some_iff.mp hw
    have g1' : Lir.cell (priv p F (m1.s.r 31#5)) n l b i w = some a := by
      rw [← g1]; unfold Lir.cell Lir.addr Lir.word; rw [e1]
    obtain ⟨B, I, W, c0, c1, c2⟩ := cell_ok hp h hd g1'
    have hm := hr.mem _ _ _ c0
    rw [stv_wr hn, c1, hx] at hm
    have nr : ∀ q, ao p (.mem b i w) ≠ .reg q := by rw [c0]; rintro q ⟨⟩
    rw [← g2]
    refine ⟨⟨body_of h hp (fun q h1 h2 _ => hr.keep q h1 h2 (nr q)) fun q hq => ?_, ?_, ?_⟩, rfl, rfl⟩
    · rw [hm]
      refine Lir.stv_other fun k hk e => ?_
      rw [e, c2 k hk] at hq; cases hq
    · intro q hq w hw
      have hb := ar_use hp hq
      rw [mval, hr.keep (ar p q) hb.1 hb.2 (nr _)]
      simp only [e1] at hw
      exact h.reg q hq w hw
    · intro q hq
      rw [hm]; simp only [e2]
      exact Lir.stv_same (h.mem q hq)

/-- No destination. -/
theorem keep_ok (h : Inv p F m1 l s) (hp : Regs p) {s' : St} (hu : ∀ q, 1 ≤ q → q ≤ 27 → s'.r (regMap q) = s.r (regMap q))
    (hm : s'.m = s.m) {l' : Lir.LSt} (e1 : l'.reg = l.reg) (e2 : l'.mem = l.mem) : Inv p F m1 l' s' := by
  refine ⟨body_of h hp (fun q h1 h2 _ => hu q h1 h2) fun q _ => by rw [hm], fun r hr v hv => ?_, fun a ha => ?_⟩
  · have hb := ar_use hp hr
    rw [mval, hu _ hb.1 hb.2]; rw [e1] at hv; exact h.reg r hr v hv
  · rw [hm, e2]; exact h.mem a ha

/-- The result of an operation of the width of its operands. -/
theorem writeB_ok (h : Inv p F m1 l s) (hp : Regs p) {is32 : Bool} {dst : RV.Opd} {x : BitVec (wd is32)} {k : Nat} {s' : St}
    (hr : C47.Written s s' (some (ao p dst)) k x) (hk : (∀ d, ao p dst ≠ .reg d) → k = wd is32 / 8) (hd : DstOk p dst) {l0 l' : Lir.LSt} (e1 : l0.reg = l.reg) (e2 : l0.mem = l.mem)
    (hw : Lir.write (priv p F (m1.s.r 31#5)) is32 l0 dst x = some l') : Inv p F m1 l' s' ∧ l'.z = l0.z ∧ l'.v = l0.v :=
  write_ok h hp (wd_wide is32) (wr_of (by cases is32 <;> decide) hr hk) hd e1 e2 hw (holds_val x) (wd_res x) (wd_low x)

/-! ## Flags -/

theorem FlagsR.none (st : FState) (l : Lir.LSt) (s : St) : FlagsR st l.noFlags s := ⟨by rintro t ⟨⟩, by rintro g t ⟨⟩⟩

theorem FlagsR.same {st : FState} {l l' : Lir.LSt} {s s' : St} (h : FlagsR st l s) (ez : l'.z = l.z) (ev : l'.v = l.v) (ef : s'.f = s.f) : FlagsR st l' s' := by
  refine ⟨fun t e => by rw [ef]; exact h.z t (ez ▸ e), fun g t e j n hj => ?_⟩
  have := h.v g t (ev ▸ e) j n hj
  unfold C47.Holds at this ⊢
  rw [ef]; exact this

theorem FlagsR.says {st : FState} {l : Lir.LSt} {s : St} (h : FlagsR st l s) {type : Nat} {t : Bool} (e : Lir.cond l type = some t) :
    type < 14 ∧ C47.Holds st (jt type) (neg type) s t := by
  unfold Lir.cond at e
  by_cases h0 : type = 0
  · rw [if_pos h0] at e
    subst h0
    refine ⟨by decide, ?_⟩
    unfold C47.Holds
    rw [show jt 0 = .equal from rfl, C47.cond_zero, h.z t e]
    simp [neg]
  · rw [if_neg h0] at e
    by_cases h1 : type = 1
    · rw [if_pos h1] at e
      subst h1
      obtain ⟨u, e1, e2⟩ := Option.map_eq_some_iff.mp e
      refine ⟨by decide, ?_⟩
      unfold C47.Holds
      rw [show jt 1 = .equal from rfl, C47.cond_zero, h.z u e1, ← e2]
      simp [neg]
    · rw [if_neg h1] at e
      obtain ⟨⟨g, u⟩, e1, e2⟩ := Option.bind_eq_some_iff.mp e
      have hv := h.v g u e1
      dsimp only at e2
      have hf : Lir.flagNo g ≤ 12 ∧ Lir.flagNo g % 2 = 0 ∧ (2 ≤ Lir.flagNo g → C47.flagOf (jt (Lir.flagNo g)) = g ∧ C47.flagOf (jt (Lir.flagNo g + 1)) = g) := by
        cases g <;> decide
      split at e2
      · next ht =>
        refine ⟨by omega, ?_⟩
        have := hv (jt type) (neg type) (by rw [ht]; exact (hf.2.2 (by omega)).1)
        rw [← Option.some.inj e2]
        simpa [neg, ht, hf.2.1] using this
      · split at e2
        · next ht =>
          refine ⟨by omega, ?_⟩
          have := hv (jt type) (neg type) (by rw [ht]; exact (hf.2.2 (by omega)).2)
          rw [← Option.some.inj e2]
          have h1 : (Lir.flagNo g + 1) % 2 = 1 := by omega
          simpa [neg, ht, h1] using this
        · cases e2

/-- The flags which an operation sets. -/
theorem FlagsR.set {w : Nat} {op : RV.Op} {a b : BitVec w} {cin : Bool} {s : St} (h : C47.CondsOk op a b cin s) (old : FState) {l' : Lir.LSt}
    (ez : l'.z = if op.setZ then some (decide (RV.val op.code a b cin = 0#w)) else Option.none)
    (ev : l'.v = if op.flag = .none then Option.none else some (op.flag, RV.flagVal op.code op.flag a b cin)) : FlagsR (stateAfter op.code old) l' s := by
  refine ⟨fun t e => ?_, fun g t e j n hj => ?_⟩
  · rw [ez] at e
    split at e
    · next hz =>
      have := (h old).1 hz false
      unfold C47.Holds at this
      rw [C47.cond_zero, Option.some.inj e] at this
      revert this
      cases s.f.z <;> cases t <;> decide
    · cases e
  · rw [ev] at e
    split at e
    · cases e
    · next hn =>
      obtain ⟨e1, e2⟩ := Prod.mk.inj (Option.some.inj e)
      rw [← e2]
      exact (h old).2 hn j n (by rw [hj, e1])

end
end Verif.ALir
