import Verif.Props.RvSpec
import Verif.RISCV.Op1Emit

/-!
# C24, C25, C26: one operand operations and moves of the RV64 backend
-/

namespace Verif.Props.C24
open Verif.RV Verif.Props.Rv

/-- What is read from memory: `w` bits, extended. -/
def load (w : Nat) (signed : Bool) (m : BitVec 64 → BitVec 8) (a : BitVec 64) : BitVec 64 :=
  match w with
  | 8 => if signed then (ld8 m a).signExtend 64 else (ld8 m a).setWidth 64
  | 16 => if signed then (ld16 m a).signExtend 64 else (ld16 m a).setWidth 64
  | 32 => if signed then (ld32 m a).signExtend 64 else (ld32 m a).setWidth 64
  | _ => ld64 m a

/-- Memory after the lower `w` bits of `v` have been written. -/
def store (w : Nat) (m : BitVec 64 → BitVec 8) (a v : BitVec 64) : BitVec 64 → BitVec 8 :=
  match w with
  | 8 => st8 m a (v.setWidth 8)
  | 16 => st16 m a (v.setWidth 16)
  | 32 => st32 m a (v.setWidth 32)
  | _ => st64 m a v

/-- The operand width of an operation (sljitLir.h:1246-1310). -/
def width (o : Op1C) (is32 : Bool) : Nat :=
  match o with
  | .movU8 | .movS8 => 8
  | .movU16 | .movS16 | .revU16 | .revS16 => 16
  | .movU32 | .movS32 | .mov32 | .revU32 | .revS32 => 32
  | .mov | .movP => 64
  | .clz | .ctz | .rev => if is32 then 32 else 64

/-- Value of a `w` bit source operand; the extension of what is read from memory is not part of the contract of the
operations that are not moves (`signed` is existentially quantified there). -/
def value1 (w : Nat) (signed : Bool) (s : St) : Opd → BitVec 64
  | .reg r => s.rd (regMap r)
  | .imm v => v
  | .mem b i d => load w signed s.mem (addr s b i d)

/-- The destination holds `v`, the rest of what an application can see is unchanged. -/
structure ResultW (w : Nat) (dst : Opd) (v : BitVec 64) (s s' : St) : Prop where
  reg : ∀ r, dst = .reg r → s'.rd (regMap r) = v
  mem : s'.mem = match dst with
    | .mem b i d => store w s.mem (addr s b i d) v
    | _ => s.mem
  user : ∀ r, UserReg r → dst ≠ .reg r → s'.rd (regMap r) = s.rd (regMap r)
  fixed : s'.rd 3#5 = s.rd 3#5 ∧ s'.rd 4#5 = s.rd 4#5
  fregs : s'.f = s.f

/-- The emitted code, wherever it is placed, runs from its first instruction to its end and establishes `Q`. -/
def Runs (e : Emit) (s : St) (Q : St → Prop) : Prop :=
  ∀ code : Code, CodeAt code s.pc e → ∃ s', Steps code s s' ∧ s'.pc = s.pc + BitVec.ofNat 64 (2 * e.length) ∧ Q s'

/-- SLJIT_MOV .. SLJIT_MOV_P. -/
def IsMove (o : Op1C) : Prop :=
  o = .mov ∨ o = .movU8 ∨ o = .movS8 ∨ o = .movU16 ∨ o = .movS16 ∨ o = .movU32 ∨ o = .movS32 ∨ o = .mov32 ∨ o = .movP

/-- The value a move transfers: the lower bits, extended (sljitLir.h:1246-1272).  SLJIT_MOV32 leaves the upper half
unspecified for applications; the backend relies on sign extension. -/
def moved (o : Op1C) (a : BitVec 64) : BitVec 64 :=
  match o with
  | .movU8 => (a.setWidth 8).setWidth 64
  | .movS8 => (a.setWidth 8).signExtend 64
  | .movU16 => (a.setWidth 16).setWidth 64
  | .movS16 => (a.setWidth 16).signExtend 64
  | .movU32 => (a.setWidth 32).setWidth 64
  | .movS32 | .mov32 => (a.setWidth 32).signExtend 64
  | _ => a

/-- Result `r` of the other operations on the operand `a` (sljitLir.h:1273-1310). -/
def computes (o : Op1C) (is32 : Bool) (a r : BitVec 64) : Prop :=
  match o with
  | .clz => ∃ n, r = BitVec.ofNat 64 n ∧ if is32 then IsClz (a.setWidth 32) n else IsClz a n
  | .ctz => ∃ n, r = BitVec.ofNat 64 n ∧ if is32 then IsCtz (a.setWidth 32) n else IsCtz a n
  | .rev => if is32 then IsRev 4 a r ∧ r = (r.setWidth 32).signExtend 64 else IsRev 8 a r
  | .revU16 => IsRev 2 a r ∧ r = (r.setWidth 16).setWidth 64
  | .revS16 => IsRev 2 a r ∧ r = (r.setWidth 16).signExtend 64
  | .revU32 => IsRev 4 a r ∧ r = (r.setWidth 32).setWidth 64
  | .revS32 => IsRev 4 a r ∧ r = (r.setWidth 32).signExtend 64
  | _ => False

/-- The requests that clobber the source register: a narrow move to memory with the Zbb extension. -/
def StoreDefect (cfg : Cfg) (o : Op1C) (dst src : Opd) : Prop :=
  cfg.zbb = true ∧ (o = .movS8 ∨ o = .movU16 ∨ o = .movS16) ∧ (∃ r, src = .reg r) ∧ ∃ b i w, dst = .mem b i w

/-! ## Connection with the helper lemmas -/

/-- Width of a data size. -/
def bitsOf : Sz → Nat | .byte => 8 | .half => 16 | .int => 32 | .word => 64

theorem load_eq (sz : Sz) (sg : Bool) (m a) : (ldOp sz sg).eval m a = load (bitsOf sz) sg m a := by
  cases sz <;> cases sg <;> rfl
theorem store_eq (sz : Sz) (m a v) : (stOp sz).eval m a v = store (bitsOf sz) m a v := by
  cases sz <;> rfl

theorem val_eq (sz : Sz) (sg : Bool) (s : St) (o : Opd) : opdVal sz sg s.core o = value1 (bitsOf sz) sg s o := by
  cases o with
  | mem b i w => simp only [opdVal, value1, addr_eq, load_eq]; rfl
  | _ => rfl

theorem resultW {sz : Sz} {dst : Opd} {v : BitVec 64} {s s' : St} (hd : Dst dst) {W : List Reg}
    (hW : ∀ q ∈ W, q = 1#5 ∨ q = 5#5 ∨ q = 6#5 ∨ q = 7#5 ∨ q = 28#5)
    (h1 : ∀ r, dst = .reg r → s'.core.x (regMap r) = v)
    (h2 : ∀ b i w, dst = .mem b i w → s'.core.mem = (stOp sz).eval s.core.mem (ea s.core b i w) v)
    (h2' : dst.isMem = false → s'.core.mem = s.core.mem)
    (h3 : ∀ q, q ∉ W → (∀ r, dst = .reg r → q ≠ regMap r) → s'.core.x q = s.core.x q) (h4 : s'.core.f = s.core.f) :
    ResultW (bitsOf sz) dst v s s' := by
  have nW : ∀ q, q ≠ 1#5 → q ≠ 5#5 → q ≠ 6#5 → q ≠ 7#5 → q ≠ 28#5 → q ∉ W := by
    intro q a b c d e hq
    rcases hW q hq with h | h | h | h | h <;> contradiction
  refine ⟨h1, ?_, ?_, ?_, h4⟩
  · cases dst with
    | mem b i w =>
      have := h2 b i w rfl
      change s'.mem = _ at this
      rw [this]; simp only [addr_eq, store_eq]; rfl
    | _ => exact h2' rfl
  · intro r hr hne
    obtain ⟨u1, u5, u6, u7, u28⟩ := user_ne hr.2
    refine h3 _ (nW _ u1 u5 u6 u7 u28) ?_
    intro r' he e
    apply hne
    rw [he] at hd
    rw [user_inj r r' hr hd e, he]
  · have aux : ∀ q : Reg, (q = 3#5 ∨ q = 4#5) → s'.rd q = s.rd q := by
      intro q hq
      refine h3 _ (by rcases hq with rfl | rfl <;> exact nW _ (by decide) (by decide) (by decide) (by decide) (by decide)) ?_
      intro r he
      rw [he] at hd
      have := user_34 r hd
      rcases hq with rfl | rfl
      · exact this.1.symm
      · exact this.2.symm
    exact ⟨aux _ (Or.inl rfl), aux _ (Or.inr rfl)⟩

theorem cast_val (sz : Sz) (sg : Bool) (c : Core) (f) (o : Opd) :
    opdVal sz sg c (o.cast f) = match o with | .imm v => f v | o => opdVal sz sg c o := by
  cases o <;> rfl
theorem cast_ok (f) {o : Opd} (h : OpdOk o) : OpdOk (o.cast f) := by
  cases o <;> exact h
theorem cast_reg (f) (o : Opd) : (o.cast f).isReg = o.isReg := by cases o <;> rfl

/-- One move through emit_op. -/
theorem move_of {cfg : Cfg} {op : Op} {dst src : Opd} {s : St} (ho : op.code.isMv = true) (hd : Dst dst) (hd2 : dst ≠ .reg 24)
    (hs : Src src) (f : BitVec 64 → BitVec 64) (hf : ∀ v, f v = movX op.code v)
    (hz : cfg.zbb = true → src.isReg = true → dst.isMem = true → op.code ≠ .movS8 ∧ op.code ≠ .movU16 ∧ op.code ≠ .movS16) :
    ∃ s', run (emitOp cfg op (.g (mvSz op.code) (mvSg op.code)) ⟨false, false, true⟩ ⟨none, 0#64⟩ dst (.reg 0) (src.cast f)) s = some s' ∧
      ResultW (bitsOf (mvSz op.code)) dst (movX op.code (value1 (bitsOf (mvSz op.code)) (mvSg op.code) s src)) s s' ∧
      s'.rd 5#5 = s.rd 5#5 ∧ s'.rd 28#5 = s.rd 28#5 := by
  have h26 : dst ≠ .reg 26 := by rintro rfl; have := hd.2; omega
  obtain ⟨s', hr, hp⟩ := emitOp_mv (cfg := cfg) (c := s.core) ho hd.ok.1 hd.ok.2 hd2 h26 (cast_ok f hs.ok)
    (fun v hv => by
      cases src with
      | imm u => simp only [Opd.cast, Opd.imm.injEq] at hv; rw [← hv, hf, movX_idem]
      | _ => cases hv)
    (by rw [cast_reg]; exact hz) s rfl
  have hv : movX op.code (opdVal (mvSz op.code) (mvSg op.code) s.core (src.cast f)) =
      movX op.code (value1 (bitsOf (mvSz op.code)) (mvSg op.code) s src) := by
    rw [cast_val, ← val_eq]
    cases src with
    | imm u => simp only [hf, movX_idem, opdVal]
    | _ => rfl
  rw [hv] at hp
  refine ⟨s', hr, resultW hd (W := temps) (by simp) hp.reg (by rintro b i w rfl; exact hp.mem)
    (by intro h; cases dst <;> first | exact hp.mem | cases h) hp.kept hp.fregs, ?_, ?_⟩
  · refine hp.kept 5#5 (by decide) ?_
    rintro r rfl; exact (user_ne hd.2).2.1.symm
  · refine hp.kept 28#5 (by decide) ?_
    rintro r rfl; exact (user_ne hd.2).2.2.2.2.symm

theorem un_of {cfg : Cfg} {op : Op} {sz : Sz} {sg : Bool} {dst src : Opd} {s : St} (hc : op.code.un) (hd : Dst dst)
    (hs : Src src) (h32 : op.code = .revU32 ∨ op.code = .revS32 → op.is32 = true) (hr : op.code = .rev → op.is32 = true → cfg.zbb = true)
    (hx : op.code = .clz ∨ op.code = .ctz → op.is32 = true → src.isReg = false → cfg.zbb = true ∨
      opdVal sz sg s.core src = sx32 (lo32 (opdVal sz sg s.core src))) :
    Runs (emitOp cfg op (.g sz sg) ⟨false, false, false⟩ ⟨none, 0#64⟩ dst (.reg 0) src) s fun s' =>
      ∃ v, UnSpec op.code op.is32 (value1 (bitsOf sz) sg s src) v ∧ ResultW (bitsOf sz) dst v s s' := by
  intro code hcode
  obtain ⟨s', h1, h2, v, h3, h4⟩ := emitOp_un (cfg := cfg) hc hd.ok.1 hd.ok.2 hs.ok h32 hr hx code s hcode rfl
  refine ⟨s', h1, h2, v, by rw [← val_eq]; exact h3, ?_⟩
  refine resultW hd (W := [1#5, 5#5, 6#5, 7#5, 28#5]) (by simp) ?_ (by rintro b i w rfl; exact h4.mem)
    (by intro h; cases dst <;> first | exact h4.mem | cases h) ?_ h4.fregs
  · rintro r rfl; exact h4.reg r rfl (by have := hd.1; omega)
  · intro q q1 q2; exact h4.kept q q1 fun r e => Or.inl (q2 r e)

/-! ## The theorems -/

/-- **C25 (and C26) for moves, partial.**  Every move, between registers, constants and memory in every addressing form,
transfers the documented value, computed in the state *before* the code; no other register, no other byte of memory and
no status flag changes.  Excluded: `StoreDefect`, for which the claim is false, see `c25_store_false`. -/
theorem c25_move_partial (cfg : Cfg) (o : Op1C) (is32 : Bool) (dst src : Opd) (s : St) (ho : IsMove o) (hd : Dst dst)
    (hd2 : dst ≠ .reg 24) (hs : Src src) (hdef : ¬ StoreDefect cfg o dst src) :
    ∃ s', run (emitOp1 cfg o is32 dst src) s = some s' ∧
      ResultW (width o is32) dst (moved o (value1 (width o is32) false s src)) s s' ∧
      (zeroFlag s' ↔ zeroFlag s) ∧ (varFlag s' ↔ varFlag s) ∧ ∀ b, carryFlag s' b ↔ carryFlag s b := by
  have hz : (o = .movS8 ∨ o = .movU16 ∨ o = .movS16) → cfg.zbb = true → src.isReg = true → dst.isMem = true → False := by
    intro h1 h2 h3 h4
    refine hdef ⟨h2, h1, ?_, ?_⟩
    · cases src with
      | reg r => exact ⟨r, rfl⟩
      | _ => cases h3
    · cases dst with
      | mem b i w => exact ⟨b, i, w, rfl⟩
      | _ => cases h4
  have key : ∀ (op : Op) (w : Nat) (sg : Bool) (f : BitVec 64 → BitVec 64), op.code.isMv = true → (∀ v, f v = movX op.code v) →
      (cfg.zbb = true → src.isReg = true → dst.isMem = true → op.code ≠ .movS8 ∧ op.code ≠ .movU16 ∧ op.code ≠ .movS16) →
      w = bitsOf (mvSz op.code) → (∀ a, moved o a = movX op.code a) →
      (∀ m a, moved o (load w (mvSg op.code) m a) = moved o (load w false m a)) →
      emitOp1 cfg o is32 dst src = emitOp cfg op (.g (mvSz op.code) (mvSg op.code)) ⟨false, false, true⟩ ⟨none, 0#64⟩ dst (.reg 0) (src.cast f) →
      ∃ s', run (emitOp1 cfg o is32 dst src) s = some s' ∧ ResultW w dst (moved o (value1 w false s src)) s s' ∧
      (zeroFlag s' ↔ zeroFlag s) ∧ (varFlag s' ↔ varFlag s) ∧ ∀ b, carryFlag s' b ↔ carryFlag s b := by
    intro op w sg f h1 h2 h3 h4 h5 h6 h7
    obtain ⟨s', a, b, c, d⟩ := move_of (cfg := cfg) (s := s) h1 hd hd2 hs f h2 h3
    refine ⟨s', by rw [h7]; exact a, ?_, by unfold zeroFlag; rw [c], by unfold varFlag; rw [d], fun b => by unfold carryFlag; rw [d]⟩
    have : moved o (value1 w false s src) = movX op.code (value1 (bitsOf (mvSz op.code)) (mvSg op.code) s src) := by
      rw [← h5, ← h4]
      cases src with
      | mem b i d => exact (h6 _ _).symm
      | _ => rfl
    rw [this, h4]; exact b
  have cid : ∀ o : Opd, o.cast id = o := by intro o; cases o <;> rfl
  rcases ho with rfl | rfl | rfl | rfl | rfl | rfl | rfl | rfl | rfl
  · exact key ⟨.mov, false, false, .none⟩ _ false id rfl (fun _ => rfl) (by intros; simp) rfl (fun _ => rfl) (fun _ _ => rfl) (by rw [cid]; rfl)
  · exact key ⟨.movU8, is32, false, .none⟩ _ false _ rfl (fun _ => rfl) (by intros; simp) rfl (fun _ => rfl) (fun _ _ => rfl) rfl
  · refine key ⟨.movS8, is32, false, .none⟩ _ true _ rfl (fun _ => rfl) (fun a b c => (hz (by decide) a b c).elim) rfl (fun _ => rfl) (fun m a => ?_) rfl
    simp only [moved, load, width, mvSg]; bits [BitVec.getLsbD_signExtend, BitVec.msb_eq_getLsbD_last]
  · exact key ⟨.movU16, is32, false, .none⟩ _ false _ rfl (fun _ => rfl) (fun a b c => (hz (by decide) a b c).elim) rfl (fun _ => rfl) (fun _ _ => rfl) rfl
  · refine key ⟨.movS16, is32, false, .none⟩ _ true _ rfl (fun _ => rfl) (fun a b c => (hz (by decide) a b c).elim) rfl (fun _ => rfl) (fun m a => ?_) rfl
    simp only [moved, load, width, mvSg]; bits [BitVec.getLsbD_signExtend, BitVec.msb_eq_getLsbD_last]
  · exact key ⟨.movU32, false, false, .none⟩ _ false _ rfl (fun _ => rfl) (by intros; simp) rfl (fun _ => rfl) (fun _ _ => rfl) rfl
  · refine key ⟨.movS32, false, false, .none⟩ _ true _ rfl (fun _ => rfl) (by intros; simp) rfl (fun _ => rfl) (fun m a => ?_) rfl
    simp only [moved, load, width, mvSg]; bits [BitVec.getLsbD_signExtend, BitVec.msb_eq_getLsbD_last]
  · refine key ⟨.movS32, false, false, .none⟩ _ true _ rfl (fun _ => rfl) (by intros; simp) rfl (fun _ => rfl) (fun m a => ?_) rfl
    simp only [moved, load, width, mvSg]; bits [BitVec.getLsbD_signExtend, BitVec.msb_eq_getLsbD_last]
  · exact key ⟨.mov, false, false, .none⟩ _ false id rfl (fun _ => rfl) (by intros; simp) rfl (fun _ => rfl) (fun _ _ => rfl) (by rw [cid]; rfl)

/-- **C24, partial.**  Bit counting and byte reversal, for every value, operand form and register assignment: the emitted
code (which contains a loop when the Zbb extension is missing) terminates and leaves the documented result.
Excluded: SLJIT_REV32 without the Zbb extension, see `c24_rev32_false`.  Constant sources are not supported by the API. -/
theorem c24_partial (cfg : Cfg) (o : Op1C) (is32 : Bool) (dst src : Opd) (s : St) (ho : ¬ IsMove o) (hd : Dst dst)
    (hs : Src src) (hi : ∀ v, src ≠ .imm v) (hrev : o = .rev → is32 = true → cfg.zbb = true) :
    Runs (emitOp1 cfg o is32 dst src) s fun s' =>
      ∃ sg v, computes o is32 (value1 (width o is32) sg s src) v ∧ ResultW (width o is32) dst v s s' := by
  have key : ∀ (op : Op) (sz : Sz) (sg : Bool), op.code.un → (op.code = .revU32 ∨ op.code = .revS32 → op.is32 = true) →
      (op.code = .rev → op.is32 = true → cfg.zbb = true) →
      (op.code = .clz ∨ op.code = .ctz → op.is32 = true → sz = .int ∧ sg = true) → width o is32 = bitsOf sz →
      (∀ a r, UnSpec op.code op.is32 a r → computes o is32 a r) →
      emitOp1 cfg o is32 dst src = emitOp cfg op (.g sz sg) ⟨false, false, false⟩ ⟨none, 0#64⟩ dst (.reg 0) src →
      Runs (emitOp1 cfg o is32 dst src) s fun s' =>
        ∃ sg v, computes o is32 (value1 (width o is32) sg s src) v ∧ ResultW (width o is32) dst v s s' := by
    intro op sz sg h1 h2 h3 h4 h5 h6 h7
    rw [h7, h5]
    intro code hc
    obtain ⟨s', a, b, v, c, d⟩ := un_of (cfg := cfg) (sz := sz) (sg := sg) (s := s) h1 hd hs h2 h3 (by
      intro q1 q2 q3
      right
      obtain ⟨rfl, rfl⟩ := h4 q1 q2
      cases src with
      | reg r => cases q3
      | imm v => exact absurd rfl (hi v)
      | mem b i w => simp only [opdVal, ldOp, LdOp.eval]; exact (congrArg sx32 (lo32_sx32 _)).symm) code hc
    exact ⟨s', a, b, sg, v, h6 _ _ c, d⟩
  cases o
  case clz => cases is32 <;> exact key ⟨.clz, _, false, .none⟩ _ _ (by simp [OpC.un]) (by decide) (fun h => by cases h) (by decide) rfl (fun _ _ h => h) rfl
  case ctz => cases is32 <;> exact key ⟨.ctz, _, false, .none⟩ _ _ (by simp [OpC.un]) (by decide) (fun h => by cases h) (by decide) rfl (fun _ _ h => h) rfl
  case rev => cases is32 <;> exact key ⟨.rev, _, false, .none⟩ _ _ (by simp [OpC.un]) (by decide) (fun _ h => hrev rfl h) (by decide) rfl (fun _ _ h => h) rfl
  case revU16 => exact key ⟨.revU16, is32, false, .none⟩ _ _ (by simp [OpC.un]) (by rintro (h | h) <;> cases h) (fun h => by cases h) (by rintro (h | h) <;> cases h) rfl (fun _ _ h => h) rfl
  case revS16 => exact key ⟨.revS16, is32, false, .none⟩ _ _ (by simp [OpC.un]) (by rintro (h | h) <;> cases h) (fun h => by cases h) (by rintro (h | h) <;> cases h) rfl (fun _ _ h => h) rfl
  case revU32 => exact key ⟨.revU32, true, false, .none⟩ _ _ (by simp [OpC.un]) (fun _ => rfl) (fun h => by cases h) (by decide) rfl (fun _ _ h => h) rfl
  case revS32 => exact key ⟨.revS32, true, false, .none⟩ _ _ (by simp [OpC.un]) (fun _ => rfl) (fun h => by cases h) (by decide) rfl (fun _ _ h => h) rfl
  all_goals exact absurd (by unfold IsMove; decide) ho

/-! ## Where the claims fail -/

/-- R0 (x10) holds `a`, R1 (x11) holds `b`; everything else is zero. -/
def st (a b : BitVec 64) : St :=
  ⟨fun r => if r = 10#5 then a else if r = 11#5 then b else 0#64, fun _ => 0#64, fun _ => 0#8, 0#64⟩

/-- **C25 fails**: with the Zbb extension SLJIT_MOV_S8 from R0 = 0xff to `[R1 + 8]` changes R0 to -1
(sljitNativeRISCV_common.c:1918-1920 with `dst_r = src2_r` from :2502). -/
theorem c25_store_false : ∃ (cfg : Cfg) (dst src : Opd) (s : St), Dst dst ∧ Src src ∧ dst ≠ .reg 1 ∧
    s.rd (regMap 1) = 0xff#64 ∧
    (run (emitOp1 cfg .movS8 false dst src) s).map (fun s' => s'.rd (regMap 1)) = some (-1#64) :=
  ⟨⟨true, false, true⟩, .mem 2 0 8#64, .reg 1, st 0xff#64 0x1000#64, ⟨by decide, by decide⟩, ⟨by decide, by decide⟩, by decide,
    by decide +kernel, by decide +kernel⟩

/-- **C25 and C26 fail**: SLJIT_MOV_U16 from R0 to `[R0]` with the Zbb extension computes the address after R0 has been
truncated: R0 = 0x12345 is stored to address 0x2345. -/
theorem c25_store_addr_false : ∃ (cfg : Cfg) (dst src : Opd) (s : St), Dst dst ∧ Src src ∧
    addr s 1 0 0#64 = 0x12345#64 ∧ dst = .mem 1 0 0#64 ∧
    (run (emitOp1 cfg .movU16 false dst src) s).map (fun s' => (s'.mem 0x12345#64, s'.mem 0x2345#64)) = some (0#8, 0x45#8) ∧
    store 16 s.mem (addr s 1 0 0#64) (moved .movU16 (value1 16 false s src)) 0x12345#64 = 0x45#8 :=
  ⟨⟨true, false, true⟩, .mem 1 0 0#64, .reg 1, st 0x12345#64 0#64, ⟨by decide, by decide⟩, ⟨by decide, by decide⟩, by decide +kernel,
    rfl, by decide +kernel, by decide +kernel⟩

/-- **C24 fails**: SLJIT_REV32 without the Zbb extension leaves a zero extended value, which is not what the 32 bit
operations of this backend take: reversing 0x80 gives 0x80000000, a negative 32 bit number, but the following
SLJIT_SUB32 | SLJIT_SET_SIG_LESS with 0 finds it not less than 0 (sljitNativeRISCV_common.c:1797-1842). -/
theorem c24_rev32_false : ∃ (cfg : Cfg) (s : St),
    (run (emitOp1 cfg .rev true (.reg 2) (.reg 1)) s).map (fun s' => s'.rd (regMap 2)) = some 0x80000000#64 ∧
    ¬ computes .rev true (s.rd (regMap 1)) 0x80000000#64 ∧
    (run (emitOp1 cfg .rev true (.reg 2) (.reg 1) ++ emitOp2 cfg ⟨.sub, true, false, .sigLess⟩ (.reg 0) (.reg 2) (.imm 0#64)) s).map
      (fun s' => s'.rd 28#5) = some 0#64 ∧
    (0x80000000#32).slt 0#32 = true := by
  refine ⟨⟨true, false, false⟩, st 0x80#64 0#64, by decide +kernel, ?_, by decide +kernel, by decide⟩
  intro h
  simp only [computes, if_true] at h
  exact absurd h.2 (by decide)

/-! ## The hypotheses can be met -/

/-- SLJIT_MOV_S16 from `[R0 + (R1 << 1)]` to R0 itself. -/
example : ∃ s', run (emitOp1 ⟨false, false, false⟩ .movS16 false (.reg 1) (.mem 1 2 1#64))
    { st 0x100#64 0x10#64 with mem := fun a => if a = 0x121#64 then 0x80#8 else 0#8 } = some s' ∧ s'.rd (regMap 1) = 0xffffffffffff8000#64 := by
  obtain ⟨s', hr, h, -⟩ := c25_move_partial ⟨false, false, false⟩ .movS16 false (.reg 1) (.mem 1 2 1#64)
    { st 0x100#64 0x10#64 with mem := fun a => if a = 0x121#64 then 0x80#8 else 0#8 } (by unfold IsMove; decide) ⟨by decide, by decide⟩ (by decide)
    ⟨by decide, by decide⟩ (by rintro ⟨h, -⟩; cases h)
  exact ⟨s', hr, (h.reg 1 rfl).trans (by decide +kernel)⟩

/-- SLJIT_CLZ32 in place, by the loop. -/
example : Runs (emitOp1 ⟨true, false, false⟩ .clz true (.reg 1) (.reg 1)) (st 0x1234#64 0#64) fun s' => s'.rd (regMap 1) = 19#64 := by
  intro code hc
  obtain ⟨s', a, b, sg, v, ⟨n, rfl, c⟩, d⟩ := c24_partial ⟨true, false, false⟩ .clz true (.reg 1) (.reg 1) (st 0x1234#64 0#64)
    (by unfold IsMove; decide) ⟨by decide, by decide⟩ ⟨by decide, by decide⟩ (by intro v h; cases h) (by intro h; cases h) code hc
  refine ⟨s', a, b, ?_⟩
  show s'.rd (regMap 1) = 19#64
  rw [d.reg 1 rfl]
  simp only [if_true] at c
  obtain ⟨c1, c2, c3⟩ := c
  rcases Nat.lt_trichotomy n 19 with h | h | h
  · have := c3 (by omega)
    exfalso
    revert this
    have : ∀ n, n < 19 → ¬ ((value1 (width .clz true) sg (st 0x1234#64 0#64) (.reg 1)).setWidth 32).getMsbD n = true := by
      cases sg <;> decide +kernel
    exact this n h
  · rw [h]
  · have := c2 19 h
    exact absurd this (by cases sg <;> decide +kernel)

end Verif.Props.C24
