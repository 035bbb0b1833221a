import Verif.XProg.Compile
import Verif.Prog.Exec
import Verif.Props.C50
import Verif.Props.C51

/-!
# The machine state that belongs to a state of the interpreter (x86-64, System V)
-/

namespace Verif.XLir
open Verif.X86 Verif.Props
open Verif.Lir (Val wd ldv stv)

/-- Contents of a machine register: the upper half after a 32 bit operation is not specified. -/
def Holds : Val → BitVec 64 → Prop
  | .w v, x => x = v
  | .i v, x => x.setWidth 32 = v

/-- The part of the stack above the local variables: alignment, saved registers and the return address. -/
def priv (p : Frame) (F : Nat) (sp a : BitVec 64) : Bool := decide (p.locals ≤ (a - sp).toNat ∧ (a - sp).toNat < F + 8)

/-- A register that the function has declared. -/
def Decl (p : Frame) (r : Nat) : Prop := (1 ≤ r ∧ r ≤ p.scr) ∨ (24 ≤ r + p.sav ∧ r ≤ 23)

instance (p r) : Decidable (Decl p r) := by unfold Decl; infer_instance

/-- A register that may be used in an address. -/
def Use (p : Frame) (r : Nat) : Prop := Decl p r ∨ r = 24

/-- Operands: declared registers, constants, memory (sljitLir.c:987-1019). -/
def SrcOk (p : Frame) : RV.Opd → Prop
  | .reg r => Decl p r
  | .imm _ => True
  | .mem b i w => (b = 0 ∨ b = 24 ∨ Decl p b) ∧ (i = 0 ∨ Decl p i) ∧ (i ≠ 0 → b ≠ 0 ∧ w.toNat < 4)

instance (p o) : Decidable (SrcOk p o) := by cases o <;> unfold SrcOk <;> infer_instance

/-- A destination. -/
def DstOk (p : Frame) : RV.Opd → Prop
  | .imm _ => False
  | o => SrcOk p o

instance (p o) : Decidable (DstOk p o) := by cases o <;> unfold DstOk <;> infer_instance

/-- The register sets of a function (System V has no SLJIT_ENTER_REG_ARG restrictions here): C51.Legal implies this. -/
structure Regs (p : Frame) : Prop where
  sav : p.sav ≤ 6
  sum : p.scr + p.sav ≤ 13

/-- Registers and memory; `s1` is the state after sljit_emit_enter. -/
structure Inv (p : Frame) (F : Nat) (s1 : St) (l : Lir.LSt) (s : St) : Prop where
  body : C51.Body false p F s1 s
  reg : ∀ r, Use p r → ∀ v, l.reg r = some v → Holds v (s.r (C46.mreg false (xr r)))
  mem : ∀ a, priv p F (s1.r 4#4) a = false → s.m a = l.mem a

/-- The flags. -/
structure FlagsR (l : Lir.LSt) (f : Flags) : Prop where
  z : ∀ t, l.z = some t → f.zf = some t
  v : ∀ g t, l.v = some (g, t) → ∀ j n, C46.flagOf j = g → C46.cond (jumpCode j n) f = some (t ^^ n)

theorem xr_decl {p : Frame} (h : Regs p) {r : Nat} (hr : Decl p r) : 1 ≤ xr r ∧ xr r ≤ 13 ∧ (xr r ≤ p.scr ∨ 14 ≤ xr r + p.sav) := by
  obtain ⟨h1, h2⟩ := h
  unfold Decl at hr; unfold xr
  split
  · omega
  split <;> omega

theorem xr_use {p : Frame} (h : Regs p) {r : Nat} (hr : Use p r) : 1 ≤ xr r ∧ xr r ≤ 14 := by
  rcases hr with hr | rfl
  · have := xr_decl h hr; omega
  · decide

theorem xr_inj {p : Frame} (h : Regs p) {r q : Nat} (hr : Use p r) (hq : Use p q) (e : xr r = xr q) : r = q := by
  obtain ⟨h1, h2⟩ := h
  unfold Use Decl at hr hq
  unfold xr at e
  by_cases a1 : r = 24 <;> by_cases a2 : q = 24 <;> by_cases a3 : 13 < r <;> by_cases a4 : 13 < q <;> simp only [a1, a2, a3, a4, if_true, if_false] at e <;> omega

theorem xr_zero (r : Nat) : xr r = 0 ↔ r = 0 := by
  unfold xr
  split
  · omega
  split <;> omega

theorem xo_src {p : Frame} (h : Regs p) {o : RV.Opd} (ho : SrcOk p o) : C46.Src (xo o) := by
  cases o with
  | reg r => have := xr_decl h ho; exact ⟨this.1, this.2.1⟩
  | imm v => trivial
  | mem b i w =>
    obtain ⟨h1, h2, h3⟩ := ho
    refine ⟨?_, ?_, ?_⟩
    · rcases h1 with rfl | rfl | h1
      · decide
      · decide
      · have := xr_decl h h1; omega
    · rcases h2 with rfl | h2
      · decide
      · have := xr_decl h h2; omega
    · intro hi
      rw [Ne, xr_zero] at hi ⊢
      exact h3 hi

theorem DstOk.src {p : Frame} {o : RV.Opd} (ho : DstOk p o) : SrcOk p o := by
  cases o with
  | imm v => exact ho.elim
  | reg r => exact ho
  | mem b i w => exact ho

theorem xo_dest {p : Frame} (h : Regs p) {o : RV.Opd} (ho : DstOk p o) : C46.Dest (xo o) := by
  have := xo_src h ho.src
  cases o with
  | imm v => exact ho.elim
  | reg r => exact this
  | mem b i w => exact this

/-! ## Memory -/

theorem rd_byte (m : BitVec 64 → Byte) : ∀ (k : Nat) (a : BitVec 64) (i : Nat), i < 8 * k → k ≤ 8 →
    (rd m a k).getLsbD i = (m (a + BitVec.ofNat 64 (i / 8))).getLsbD (i % 8)
  | 0, _, i, h, _ => by omega
  | k + 1, a, i, h, hk => by
    simp only [rd, BitVec.getLsbD_or, BitVec.getLsbD_shiftLeft, BitVec.getLsbD_setWidth]
    by_cases h8 : i < 8
    · have e1 : i / 8 = 0 := by omega
      have e2 : i % 8 = i := by omega
      have e3 : i < 64 := by omega
      simp [h8, e1, e2, e3]
    · have e3 : i < 64 := by omega
      have e4 : (m a).getLsbD i = false := BitVec.getLsbD_of_ge _ _ (by omega)
      rw [rd_byte m k (a + 1#64) (i - 8) (by omega) (by omega)]
      have e1 : i / 8 = 1 + (i - 8) / 8 := by omega
      have e2 : i % 8 = (i - 8) % 8 := by omega
      rw [e1, e2, BitVec.ofNat_add, ← BitVec.add_assoc]
      simp [h8, e3, e4]

theorem half_bits (k : Nat) (hi lo : BitVec k) {n i : Nat} (h : i < n) (hn : n = k + k := by rfl) :
    (hi.setWidth n <<< k ||| lo.setWidth n).getLsbD i = if i < k then lo.getLsbD i else hi.getLsbD (i - k) := by
  rw [BitVec.getLsbD_or, BitVec.getLsbD_shiftLeft, BitVec.getLsbD_setWidth, BitVec.getLsbD_setWidth]
  split
  next hk => simp [h, hk]
  next hk =>
    have : i - k < n := by omega
    rw [BitVec.getLsbD_of_ge lo i (by omega)]
    simp [h, hk, this]

theorem ld8_byte (m : BitVec 64 → Byte) (a : BitVec 64) (i : Nat) (h : i < 8) :
    (RV.ld8 m a).getLsbD i = (m (a + BitVec.ofNat 64 (i / 8))).getLsbD (i % 8) := by
  have e1 : i / 8 = 0 := by omega
  have e2 : i % 8 = i := by omega
  simp [RV.ld8, e1, e2]

theorem ld16_byte (m : BitVec 64 → Byte) (a : BitVec 64) (i : Nat) (h : i < 16) :
    (RV.ld16 m a).getLsbD i = (m (a + BitVec.ofNat 64 (i / 8))).getLsbD (i % 8) := by
  unfold RV.ld16
  rw [half_bits 8 _ _ h]
  split
  next h8 => rw [ld8_byte m a i h8]
  next h8 =>
    rw [ld8_byte m (a + 1#64) (i - 8) (by omega)]
    have e1 : i / 8 = 1 + (i - 8) / 8 := by omega
    have e2 : i % 8 = (i - 8) % 8 := by omega
    rw [e1, e2, BitVec.ofNat_add, ← BitVec.add_assoc]

theorem ld32_byte (m : BitVec 64 → Byte) (a : BitVec 64) (i : Nat) (h : i < 32) :
    (RV.ld32 m a).getLsbD i = (m (a + BitVec.ofNat 64 (i / 8))).getLsbD (i % 8) := by
  unfold RV.ld32
  rw [half_bits 16 _ _ h]
  split
  next h8 => rw [ld16_byte m a i h8]
  next h8 =>
    rw [ld16_byte m (a + 2#64) (i - 16) (by omega)]
    have e1 : i / 8 = 2 + (i - 16) / 8 := by omega
    have e2 : i % 8 = (i - 16) % 8 := by omega
    rw [e1, e2, BitVec.ofNat_add, ← BitVec.add_assoc]

theorem ld64_byte (m : BitVec 64 → Byte) (a : BitVec 64) (i : Nat) (h : i < 64) :
    (RV.ld64 m a).getLsbD i = (m (a + BitVec.ofNat 64 (i / 8))).getLsbD (i % 8) := by
  unfold RV.ld64
  rw [half_bits 32 _ _ h]
  split
  next h8 => rw [ld32_byte m a i h8]
  next h8 =>
    rw [ld32_byte m (a + 4#64) (i - 32) (by omega)]
    have e1 : i / 8 = 4 + (i - 32) / 8 := by omega
    have e2 : i % 8 = (i - 32) % 8 := by omega
    rw [e1, e2, BitVec.ofNat_add, ← BitVec.add_assoc]

/-- The widths of memory operands. -/
def Wide (n : Nat) : Prop := n = 8 ∨ n = 16 ∨ n = 32 ∨ n = 64

instance (n) : Decidable (Wide n) := by unfold Wide; infer_instance

theorem ldv_rd {n : Nat} (hn : Wide n) (m : BitVec 64 → Byte) (a : BitVec 64) : ldv n m a = (rd m a (n / 8)).setWidth n := by
  apply BitVec.eq_of_getLsbD_eq
  intro i hi
  rw [BitVec.getLsbD_setWidth, rd_byte m (n / 8) a i (by rcases hn with rfl | rfl | rfl | rfl <;> omega) (by rcases hn with rfl | rfl | rfl | rfl <;> omega)]
  simp only [hi, decide_true, Bool.true_and]
  rcases hn with rfl | rfl | rfl | rfl
  · exact ld8_byte m a i hi
  · exact ld16_byte m a i hi
  · exact ld32_byte m a i hi
  · exact ld64_byte m a i hi

theorem stv_at {n : Nat} (hn : Wide n) (m : BitVec 64 → Byte) (a : BitVec 64) (v : BitVec n) {k : Nat} (hk : k < n / 8) :
    stv n m a v (a + BitVec.ofNat 64 k) = (v >>> (8 * k)).setWidth 8 := by
  have add0 : ∀ x : BitVec 64, (a + x = a) ↔ x = 0#64 := by
    intro x
    constructor
    · intro h
      have h2 : a + x = a + 0#64 := by rw [h, BitVec.add_zero]
      exact (BitVec.add_right_inj a).mp h2
    · rintro rfl; simp
  have add1 : ∀ x : BitVec 64, (a = a + x) ↔ x = 0#64 := fun x => by rw [eq_comm]; exact add0 x
  have app : ∀ (m : BitVec 64 → Byte) (b : BitVec 64) (v : Byte) (q : BitVec 64), RV.st8 m b v q = if q = b then v else m q := fun _ _ _ _ => rfl
  rcases hn with rfl | rfl | rfl | rfl
  · obtain rfl : k = 0 := by omega
    simp [stv, RV.st8]
  · have : k = 0 ∨ k = 1 := by omega
    rcases this with rfl | rfl <;>
      simp [stv, RV.st16, app, add0, add1, BitVec.add_right_inj] <;> apply BitVec.eq_of_getLsbD_eq <;> intro i hi <;> simp [hi, show i < 16 by omega, show i < 32 by omega, show 24 + i < 32 by omega, show 8 + i < 16 by omega, show 16 + i < 32 by omega, show 8 + i < 32 by omega, show 16 + (8 + i) < 32 by omega, ← Nat.add_assoc]
  · have : k = 0 ∨ k = 1 ∨ k = 2 ∨ k = 3 := by omega
    rcases this with rfl | rfl | rfl | rfl <;>
      simp [stv, RV.st32, RV.st16, app, add0, add1, BitVec.add_assoc, BitVec.add_right_inj] <;> apply BitVec.eq_of_getLsbD_eq <;> intro i hi <;> simp [hi, show i < 16 by omega, show i < 32 by omega, show 24 + i < 32 by omega, show 8 + i < 16 by omega, show 16 + i < 32 by omega, show 8 + i < 32 by omega, show 16 + (8 + i) < 32 by omega, ← Nat.add_assoc]
  · have : k = 0 ∨ k = 1 ∨ k = 2 ∨ k = 3 ∨ k = 4 ∨ k = 5 ∨ k = 6 ∨ k = 7 := by omega
    rcases this with rfl | rfl | rfl | rfl | rfl | rfl | rfl | rfl <;>
      simp [stv, RV.st64, RV.st32, RV.st16, app, add0, add1, BitVec.add_assoc, BitVec.add_right_inj] <;> apply BitVec.eq_of_getLsbD_eq <;> intro i hi <;> simp [hi, show i < 16 by omega, show i < 32 by omega, show 24 + i < 32 by omega, show 8 + i < 16 by omega, show 16 + i < 32 by omega, show 8 + i < 32 by omega, show 16 + (8 + i) < 32 by omega, ← Nat.add_assoc]

theorem stv_wr {n : Nat} (hn : Wide n) (m : BitVec 64 → Byte) (a v : BitVec 64) : wr m a (n / 8) v = stv n m a (v.setWidth n) := by
  funext q
  unfold wr
  have hq : q = a + BitVec.ofNat 64 (q - a).toNat := by
    rw [BitVec.ofNat_toNat, BitVec.setWidth_eq, BitVec.add_comm, BitVec.sub_add_cancel]
  split
  · next h =>
    generalize (q - a).toNat = k at h hq
    rw [hq, stv_at hn m a _ h]
    apply BitVec.eq_of_getLsbD_eq
    intro i hi
    have : 8 * k + i < n := by rcases hn with rfl | rfl | rfl | rfl <;> omega
    simp [hi, this]
  · next h =>
    refine (Lir.stv_other fun k hk e => h ?_).symm
    rw [e, BitVec.add_comm, BitVec.add_sub_cancel, BitVec.toNat_ofNat, Nat.mod_eq_of_lt]
    · exact hk
    · rcases hn with rfl | rfl | rfl | rfl <;> omega

/-! ## Reading -/

section
variable {p : Frame} {F : Nat} {s1 s : St} {l : Lir.LSt}

theorem word_ok (h : Inv p F s1 l s) {r : Nat} (hr : Use p r) {v : BitVec 64} (e : Lir.word l r = some v) : s.r (C46.mreg false (xr r)) = v := by
  unfold Lir.word at e
  cases e1 : l.reg r with
  | none => simp [e1] at e
  | some x =>
    have := h.reg r hr x e1
    cases x with
    | w u => simp [e1] at e; rw [← e]; exact this
    | i u => simp [e1] at e

theorem addr_ok (h : Inv p F s1 l s) {b i : Nat} {w : BitVec 64} (ho : SrcOk p (.mem b i w)) {a : BitVec 64} (e : Lir.addr l b i w = some a) :
    C46.addr false s (xr b) (xr i) w = a := by
  obtain ⟨hb, hi, hw⟩ := ho
  unfold Lir.addr at e
  obtain ⟨x, e1, e⟩ := Option.bind_eq_some_iff.mp e
  obtain ⟨y, e2, e⟩ := Option.bind_eq_some_iff.mp e
  rw [← Option.some.inj e]
  unfold C46.addr
  congr 1
  · by_cases h0 : b = 0
    · rw [if_pos h0] at e1; rw [if_pos ((xr_zero b).mpr h0)]; exact Option.some.inj e1
    · rw [if_neg h0] at e1; rw [if_neg (fun q => h0 ((xr_zero b).mp q))]
      exact word_ok h (by rcases hb.resolve_left h0 with q | q; exacts [Or.inr q, Or.inl q]) e1
  · by_cases h0 : i = 0
    · rw [if_pos h0] at e2; rw [if_pos ((xr_zero i).mpr h0)]; exact Option.some.inj e2
    · rw [if_neg h0] at e2; rw [if_neg (fun q => h0 ((xr_zero i).mp q))]
      obtain ⟨z, e3, e4⟩ := Option.map_eq_some_iff.mp e2
      rw [word_ok h (Or.inl (hi.resolve_left h0)) e3, ← e4, Nat.mod_eq_of_lt (hw h0).2]

theorem cell_ok (h : Inv p F s1 l s) {b i n : Nat} {w : BitVec 64} (ho : SrcOk p (.mem b i w)) {a : BitVec 64}
    (e : Lir.cell (priv p F (s1.r 4#4)) n l b i w = some a) :
    C46.addr false s (xr b) (xr i) w = a ∧ ∀ k < n / 8, priv p F (s1.r 4#4) (a + BitVec.ofNat 64 k) = false := by
  unfold Lir.cell at e
  obtain ⟨x, e1, e⟩ := Option.bind_eq_some_iff.mp e
  split at e
  · next hf =>
    rw [← Option.some.inj e]
    exact ⟨addr_ok h ho e1, Lir.free_iff.mp hf⟩
  · cases e

theorem ldv_ok (h : Inv p F s1 l s) {n : Nat} {a : BitVec 64} (hf : ∀ k < n / 8, priv p F (s1.r 4#4) (a + BitVec.ofNat 64 k) = false) :
    ldv n s.m a = ldv n l.mem a := Lir.ldv_congr fun k hk => h.mem _ (hf k hk)

theorem holds_low {v : Val} {x : BitVec 64} (h : Holds v x) {n : Nat} (hn : n ≤ 32 ∨ ∃ u, v = .w u) : x.setWidth n = v.low n := by
  cases v with
  | w u => rw [show x = u from h]; rfl
  | i u =>
    have hn : n ≤ 32 := by rcases hn with hn | ⟨u, hu⟩; exacts [hn, by cases hu]
    rw [show Val.low n (.i u) = u.setWidth n from rfl, ← show x.setWidth 32 = u from h]
    apply BitVec.eq_of_getLsbD_eq
    intro i hi
    simp [hi, show i < 32 by omega]

/-- The value of an operand. -/
theorem read_ok (h : Inv p F s1 l s) {is32 : Bool} {o : RV.Opd} (ho : SrcOk p o) {x : BitVec (wd is32)}
    (e : Lir.read (priv p F (s1.r 4#4)) is32 l o = some x) : C46.value false s (wd is32) (xo o) = x := by
  cases o with
  | reg r =>
    obtain ⟨v, e1, e2⟩ := Option.bind_eq_some_iff.mp e
    have hr := h.reg r (Or.inl ho) v e1
    change (s.r (C46.mreg false (xr r))).setWidth (wd is32) = x
    cases is32 <;> cases v
    · rw [← Option.some.inj e2, show s.r (C46.mreg false (xr r)) = _ from hr]; exact BitVec.setWidth_eq _
    · cases e2
    · cases e2
    · rw [← Option.some.inj e2]; exact hr
  | imm v => exact Option.some.inj e
  | mem b i w =>
    obtain ⟨a, e1, e2⟩ := Option.map_eq_some_iff.mp e
    obtain ⟨c1, c2⟩ := cell_ok h ho e1
    rw [← e2, ← ldv_ok h c2, ldv_rd (by cases is32; exacts [Or.inr (Or.inr (Or.inr rfl)), Or.inr (Or.inr (Or.inl rfl))]), ← c1]
    rfl

theorem readN_ok (h : Inv p F s1 l s) {n : Nat} (hn : n = 8 ∨ n = 16 ∨ n = 32) {o : RV.Opd} (ho : SrcOk p o) {x : BitVec n}
    (e : Lir.readN (priv p F (s1.r 4#4)) n l o = some x) : (C50.source false n s (xo o)).setWidth n = x := by
  cases o with
  | reg r =>
    obtain ⟨v, e1, e2⟩ := Option.map_eq_some_iff.mp e
    have hr := h.reg r (Or.inl ho) v e1
    rw [← e2]
    exact holds_low hr (Or.inl (by omega))
  | imm v => exact Option.some.inj e
  | mem b i w =>
    obtain ⟨a, e1, e2⟩ := Option.map_eq_some_iff.mp e
    obtain ⟨c1, c2⟩ := cell_ok h ho e1
    rw [← e2, ← ldv_ok h c2, ldv_rd (by rcases hn with h | h | h; exacts [Or.inl h, Or.inr (Or.inl h), Or.inr (Or.inr (Or.inl h))]), ← c1]
    rfl

/-- The 64 bit operand of a move. -/
theorem read64_ok (h : Inv p F s1 l s) {o : RV.Opd} (ho : SrcOk p o) {x : BitVec 64}
    (e : Lir.read (priv p F (s1.r 4#4)) false l o = some x) : C50.source false 64 s (xo o) = x := by
  rw [← read_ok h ho e]
  cases o with
  | reg r => exact (BitVec.setWidth_eq (n := 64) _).symm
  | imm v => exact (BitVec.setWidth_eq (n := 64) _).symm
  | mem b i w => exact (BitVec.setWidth_eq (n := 64) _).symm

/-! ## Writing -/

/-- The write of `v` to `dst`: `n` bits of memory or `k` bits of a register. -/
structure Wr (n k : Nat) (s s' : St) (dst : Opd) (v : BitVec 64) : Prop where
  keep : ∀ q, 1 ≤ q → q ≤ 14 → dst ≠ .reg q → s'.r (C46.mreg false q) = s.r (C46.mreg false q)
  reg : ∀ d, dst = .reg d → (s'.r (C46.mreg false d)).setWidth k = v.setWidth k
  mem : ∀ base offs d, dst = .mem base offs d → s'.m = wr s.m (C46.addr false s base offs d) (n / 8) v
  same : (∀ base offs d, dst ≠ .mem base offs d) → s'.m = s.m

theorem wr_of1 {o : RV.Op1C} {is32 : Bool} {s s' : St} {dst : Opd} {v : BitVec 64} (h : C50.Written1 false o is32 s s' dst v) :
    Wr (C50.width o is32) (C50.resultWidth o is32) s s' dst v := ⟨h.keep, h.reg, h.mem, h.same⟩

theorem wr_of {n : Nat} (hn : n ≤ 64) {s s' : St} {dst : Opd} {x : BitVec n} (h : C46.Written false s s' (some dst) x) :
    Wr n n s s' dst (x.setWidth 64) := by
  refine ⟨fun q h1 h2 h3 => h.keep q h1 h2 (fun e => h3 (Option.some.inj e)), fun d e => ?_, fun b i w e => h.mem b i w (by rw [e]),
    fun hx => h.same (fun b i w e => hx b i w (Option.some.inj e))⟩
  rw [h.reg d (by rw [e]), BitVec.setWidth_setWidth_of_le _ hn, BitVec.setWidth_eq]

/-- The registers other than those which may change belong to the caller, or to the function. -/
theorem body_of (h : Inv p F s1 l s) {s' : St} (hp : Regs p)
    (hu : ∀ q, 1 ≤ q → q ≤ 14 → (∀ r, Decl p r → xr r ≠ q) → s'.r (C46.mreg false q) = s.r (C46.mreg false q))
    (hm : ∀ q, priv p F (s1.r 4#4) q = true → s'.m q = s.m q) : C51.Body false p F s1 s' := by
  refine ⟨?_, fun r a b c => ?_, fun q a b => ?_⟩
  · have := hu 14 (by decide) (by decide) (fun r hr => by have := xr_decl hp hr; omega)
    rw [show C46.mreg false 14 = 4#4 from by decide] at this
    rw [this, h.body.sp]
  · have hl : 8 ≤ C51.lastSaved false := by decide
    rw [hu r (by omega) (by omega) (fun q hq => by have := xr_decl hp hq; omega)]
    exact h.body.regs r a b c
  · rw [hm q (by unfold priv; exact decide_eq_true ⟨a, b⟩)]
    exact h.body.mem q a b

/-- `v`, of which the lower `k` bits are in the register. -/
theorem holds_of {u : Val} {v x : BitVec 64} {k : Nat} (h : Holds u v) (e : x.setWidth k = v.setWidth k)
    (hk : k = 64 ∨ (k = 32 ∧ ∃ y, u = .i y)) : Holds u x := by
  rcases hk with rfl | ⟨rfl, y, rfl⟩
  · rw [BitVec.setWidth_eq, BitVec.setWidth_eq] at e; rw [e]; exact h
  · exact e.trans h

/-- Assignment to the destination of an operation. -/
theorem write_ok (h : Inv p F s1 l s) (hp : Regs p) {n k : Nat} (hn : Wide n) {dst : RV.Opd} {v : BitVec 64} {s' : St}
    (hr : Wr n k s s' (xo dst) v) (hd : DstOk p dst) {l0 l' : Lir.LSt} (e1 : l0.reg = l.reg) (e2 : l0.mem = l.mem) {u : Val} {x : BitVec n}
    (hw : Lir.writeN (priv p F (s1.r 4#4)) n l0 dst u x = some l') (hu : Holds u v) (hk : k = 64 ∨ (k = 32 ∧ ∃ y, u = .i y))
    (hx : v.setWidth n = x) : Inv p F s1 l' s' ∧ l'.z = l0.z ∧ l'.v = l0.v := by
  cases dst with
  | imm w => exact hd.elim
  | reg r =>
    have hd' : Decl p r := hd
    have hm : s'.m = s.m := hr.same (by rintro b i d ⟨⟩)
    rw [← Option.some.inj hw]
    refine ⟨⟨body_of h hp (fun q h1 h2 hne => hr.keep q h1 h2 ?_) fun q _ => by rw [hm], ?_, ?_⟩, rfl, rfl⟩
    · rintro ⟨⟩; exact hne r hd' rfl
    · intro q hq w hw
      simp only [Lir.LSt.set] at hw
      by_cases hqr : q = r
      · rw [if_pos hqr] at hw
        rw [hqr, ← Option.some.inj hw]
        exact holds_of hu (hr.reg (xr r) rfl) hk
      · rw [if_neg hqr, e1] at hw
        have hb := xr_use hp hq
        rw [hr.keep (xr q) hb.1 hb.2 (by intro e; injection e with e; exact hqr (xr_inj hp hq (Or.inl hd') e.symm))]
        exact h.reg q hq w hw
    · intro a ha
      rw [hm]; simp only [Lir.LSt.set, e2]; exact h.mem a ha
  | mem b i w =>
    obtain ⟨a, g1, g2⟩ := Option.map_eq_some_iff.mp hw
    have g1' : Lir.cell (priv p F (s1.r 4#4)) n l b i w = some a := by
      rw [← g1]; unfold Lir.cell Lir.addr Lir.word; rw [e1]
    obtain ⟨c1, c2⟩ := cell_ok h hd g1'
    have hm := hr.mem _ _ _ rfl
    rw [stv_wr hn, c1, hx] at hm
    rw [← g2]
    refine ⟨⟨body_of h hp (fun q h1 h2 _ => hr.keep q h1 h2 (by rintro ⟨⟩)) fun q hq => ?_, ?_, ?_⟩, rfl, rfl⟩
    · rw [hm]
      refine Lir.stv_other fun k hk e => ?_
      rw [e, c2 k hk] at hq; cases hq
    · intro q hq w hw
      have hb := xr_use hp hq
      rw [hr.keep (xr q) hb.1 hb.2 (by rintro ⟨⟩)]
      simp only [e1] at hw
      exact h.reg q hq w hw
    · intro q hq
      rw [hm]; simp only [e2]
      exact Lir.stv_same (h.mem q hq)

/-- No destination. -/
theorem keep_ok (h : Inv p F s1 l s) (hp : Regs p) {s' : St} (hu : ∀ q, 1 ≤ q → q ≤ 14 → s'.r (C46.mreg false q) = s.r (C46.mreg false q))
    (hm : s'.m = s.m) {l' : Lir.LSt} (e1 : l'.reg = l.reg) (e2 : l'.mem = l.mem) : Inv p F s1 l' s' := by
  refine ⟨body_of h hp (fun q h1 h2 _ => hu q h1 h2) fun q _ => by rw [hm], fun r hr v hv => ?_, fun a ha => ?_⟩
  · have hb := xr_use hp hr
    rw [hu _ hb.1 hb.2]; rw [e1] at hv; exact h.reg r hr v hv
  · rw [hm, e2]; exact h.mem a ha

theorem wd_wide (is32 : Bool) : Wide (wd is32) := by cases is32; exacts [Or.inr (Or.inr (Or.inr rfl)), Or.inr (Or.inr (Or.inl rfl))]

theorem holds_val {is32 : Bool} (x : BitVec (wd is32)) : Holds (Val.of is32 x) (x.setWidth 64) := by
  cases is32
  · exact BitVec.setWidth_eq _
  · exact (BitVec.setWidth_setWidth_of_le (w := 32) x (by omega)).trans (BitVec.setWidth_eq _)

theorem wd_res {is32 : Bool} (x : BitVec (wd is32)) : wd is32 = 64 ∨ (wd is32 = 32 ∧ ∃ y, Val.of is32 x = .i y) := by
  cases is32
  · exact Or.inl rfl
  · exact Or.inr ⟨rfl, x, rfl⟩

theorem wd_low {is32 : Bool} (x : BitVec (wd is32)) : (x.setWidth 64).setWidth (wd is32) = x := by
  rw [BitVec.setWidth_setWidth_of_le _ (by cases is32 <;> decide), BitVec.setWidth_eq]

/-- The result of an operation of the width of its operands. -/
theorem writeB_ok (h : Inv p F s1 l s) (hp : Regs p) {is32 : Bool} {dst : RV.Opd} {x : BitVec (wd is32)} {s' : St}
    (hr : C46.Written false s s' (some (xo dst)) x) (hd : DstOk p dst) {l0 l' : Lir.LSt} (e1 : l0.reg = l.reg) (e2 : l0.mem = l.mem)
    (hw : Lir.write (priv p F (s1.r 4#4)) is32 l0 dst x = some l') : Inv p F s1 l' s' ∧ l'.z = l0.z ∧ l'.v = l0.v :=
  write_ok h hp (wd_wide is32) (wr_of (by cases is32 <;> decide) hr) hd e1 e2 hw (holds_val x) (wd_res x) (wd_low x)

/-! ## Flags -/

theorem FlagsR.none (l : Lir.LSt) (f : Flags) : FlagsR l.noFlags f := ⟨by rintro t ⟨⟩, by rintro g t ⟨⟩⟩

theorem FlagsR.same {l l' : Lir.LSt} {f f' : Flags} (h : FlagsR l f) (ez : l'.z = l.z) (ev : l'.v = l.v) (ef : f' = f) : FlagsR l' f' := by
  subst ef
  exact ⟨fun t e => h.z t (ez ▸ e), fun g t e => h.v g t (ev ▸ e)⟩

theorem FlagsR.says {l : Lir.LSt} {f : Flags} (h : FlagsR l f) {type : Nat} {t : Bool} (e : Lir.cond l type = some t) :
    type < 14 ∧ C46.cond (jumpCode (jt type) (neg type)) f = some t := by
  unfold Lir.cond at e
  by_cases h0 : type = 0
  · rw [if_pos h0] at e
    subst h0
    refine ⟨by decide, ?_⟩
    rw [show jt 0 = .equal from rfl, C46.cond_z, h.z t e]
    simp [neg]
  · rw [if_neg h0] at e
    by_cases h1 : type = 1
    · rw [if_pos h1] at e
      subst h1
      obtain ⟨u, e1, e2⟩ := Option.map_eq_some_iff.mp e
      refine ⟨by decide, ?_⟩
      rw [show jt 1 = .equal from rfl, C46.cond_z, h.z u e1, ← e2]
      simp [neg]
    · rw [if_neg h1] at e
      obtain ⟨⟨g, u⟩, e1, e2⟩ := Option.bind_eq_some_iff.mp e
      have hv := h.v g u e1
      dsimp only at e2
      have hf : Lir.flagNo g ≤ 12 ∧ Lir.flagNo g % 2 = 0 ∧ (2 ≤ Lir.flagNo g → C46.flagOf (jt (Lir.flagNo g)) = g ∧ C46.flagOf (jt (Lir.flagNo g + 1)) = g) := by
        cases g <;> decide
      split at e2
      · next ht =>
        refine ⟨by omega, ?_⟩
        rw [hv _ _ (by rw [ht]; exact (hf.2.2 (by omega)).1), ← Option.some.inj e2]
        simp [neg, ht, hf.2.1]
      · split at e2
        · next ht =>
          refine ⟨by omega, ?_⟩
          rw [hv _ _ (by rw [ht]; exact (hf.2.2 (by omega)).2), ← Option.some.inj e2]
          have : (Lir.flagNo g + 1) % 2 = 1 := by omega
          simp [neg, ht, this]
        · cases e2

/-- The flags which an operation sets. -/
theorem FlagsR.set {w : Nat} {op : RV.Op} {a b : BitVec w} {cin : Bool} {f : Flags} (h : C46.CondsOk op a b cin f) {l' : Lir.LSt}
    (ez : l'.z = if op.setZ then some (decide (RV.val op.code a b cin = 0#w)) else Option.none)
    (ev : l'.v = if op.flag = .none then Option.none else some (op.flag, RV.flagVal op.code op.flag a b cin)) : FlagsR l' f := by
  refine ⟨fun t e => ?_, fun g t e j n hj => ?_⟩
  · rw [ez] at e
    split at e
    · next hz =>
      have := h.1 hz false
      rw [C46.cond_z] at this
      rw [← e]
      cases hf : f.zf <;> rw [hf] at this <;> simpa using this
    · cases e
  · rw [ev] at e
    split at e
    · cases e
    · next hn =>
      obtain ⟨e1, e2⟩ := Prod.mk.inj (Option.some.inj e)
      rw [h.2 hn j n (by rw [hj, e1]), e2]

end
end Verif.XLir
