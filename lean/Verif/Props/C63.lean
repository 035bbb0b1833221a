import Verif.Loong.Op1Proof
import Verif.Props.C62
import Verif.Props.C24

/-!
# C63: one operand operations and moves of the LoongArch64 backend

`width`, `moved`, `computes`, `load`, `store` are the documented widths, values and memory accesses of C24; they do not depend on
the architecture.
-/

namespace Verif.Props.C63
open Verif.LA
open Verif.RV (Op OpC Opd Op1C Sz IsRev mvSz mvSg movX ldOp stOp)
open Verif.Props.C24 (width load store IsMove moved computes bitsOf load_eq store_eq)
open Verif.Props.C62 (UserReg Src Dst addr addr_eq zeroFlag varFlag carryFlag user_inj user_fixed demo)
open Verif.Imm.Loong (regMap)

/-- Value of a `w` bit source operand. -/
def value1 (w : Nat) (signed : Bool) (s : Core) : Opd → BitVec 64
  | .reg r => s.x (regMap r)
  | .imm v => v
  | .mem b i d => load w signed s.mem (addr s b i d)

/-- The destination holds `v`, the rest of what an application can see is unchanged, including both status flags. -/
structure ResultW (w : Nat) (dst : Opd) (v : BitVec 64) (s s' : Core) : Prop where
  reg : ∀ r, dst = .reg r → s'.x (regMap r) = v
  mem : s'.mem = match dst with
    | .mem b i d => store w s.mem (addr s b i d) v
    | _ => s.mem
  user : ∀ r, UserReg r → dst ≠ .reg r → s'.x (regMap r) = s.x (regMap r)
  fixed : s'.x 2#5 = s.x 2#5 ∧ s'.x 21#5 = s.x 21#5
  flags : (zeroFlag s' ↔ zeroFlag s) ∧ (varFlag s' ↔ varFlag s) ∧ ∀ b, carryFlag s' b ↔ carryFlag s b
  fregs : s'.f = s.f

/-! ## Connection with the helper lemmas -/

theorem val_eq (sz : Sz) (sg : Bool) (s : Core) (o : Opd) : opdVal sz sg s o = value1 (bitsOf sz) sg s o := by
  cases o with
  | mem b i w => simp only [opdVal, value1, addr_eq, load_eq]
  | _ => rfl

theorem resultW {sz : Sz} {dst : Opd} {v : BitVec 64} {s s' : Core} (hd : Dst dst) (h : MDone sz dst v s s') :
    ResultW (bitsOf sz) dst v s s' := by
  have keep : ∀ q, q ∉ temps → (∀ r, dst = .reg r → q ≠ regMap r) → s'.x q = s.x q := h.kept
  have hu : ∀ r, dst = .reg r → UserReg r := by rintro r rfl; exact hd
  have k12 : s'.x 12#5 = s.x 12#5 := keep _ (by decide) fun r e => (user_ne (hu r e).2).2.1.symm
  have k15 : s'.x 15#5 = s.x 15#5 := keep _ (by decide) fun r e => (user_ne (hu r e).2).2.2.2.2.symm
  refine ⟨h.reg, ?_, ?_, ⟨keep _ (by decide) fun r e => (user_fixed r (hu r e)).1.symm,
    keep _ (by decide) fun r e => (user_fixed r (hu r e)).2.symm⟩,
    ⟨by unfold zeroFlag; rw [k12], by unfold varFlag; rw [k15], fun b => by unfold carryFlag; rw [k15]⟩, h.fregs⟩
  · rw [h.mem]
    cases dst with
    | mem b i w => simp only [addr_eq, store_eq]
    | _ => rfl
  · intro r hr hne
    refine keep _ (user_temps hr.2) ?_
    intro r' he e
    exact hne (by rw [he, user_inj r r' hr (hu r' he) e])

theorem cast_val (sz : Sz) (sg : Bool) (c : Core) (f) (o : Opd) :
    opdVal sz sg c (o.cast f) = match o with | .imm v => f v | o => opdVal sz sg c o := by
  cases o <;> rfl
theorem cast_ok (f) {o : Opd} (h : OpdOk o) : OpdOk (o.cast f) := by
  cases o <;> exact h

theorem ne26 {dst : Opd} (hd : Dst dst) : dst ≠ .reg 26 := by rintro rfl; have := hd.2; omega

/-- One move through emit_op. -/
theorem move_of {op : Op} {dst src : Opd} {s : Core} (ho : op.code.isMv = true) (h32 : op.code = .mov → op.is32 = false) (hd : Dst dst)
    (hs : Src src) (f : BitVec 64 → BitVec 64) (hf : ∀ v, f v = movX op.code v) :
    ∃ s', run (emitOp op (.g (mvSz op.code) (mvSg op.code)) ⟨false, false, true⟩ ⟨none, 0#64⟩ dst (.reg 0) (src.cast f)) s = some s' ∧
      ResultW (bitsOf (mvSz op.code)) dst (movX op.code (value1 (bitsOf (mvSz op.code)) (mvSg op.code) s src)) s s' := by
  obtain ⟨s', hr, hp⟩ := emitOp_mv (c := s) ho h32 hd.ok.1 hd.ok.2 (ne26 hd) (cast_ok f hs.ok)
    (fun v hv => by
      cases src with
      | imm u => simp only [Opd.cast, Opd.imm.injEq] at hv; rw [← hv, hf, Verif.RV.movX_idem]
      | _ => cases hv)
  have hv : movX op.code (opdVal (mvSz op.code) (mvSg op.code) s (src.cast f)) =
      movX op.code (value1 (bitsOf (mvSz op.code)) (mvSg op.code) s src) := by
    rw [cast_val, ← val_eq]
    cases src with
    | imm u => simp only [hf, Verif.RV.movX_idem, opdVal]
    | _ => rfl
  rw [hv] at hp
  exact ⟨s', hr, resultW hd hp⟩

/-! ## The theorems -/

/-- **C63, moves.**  Every move, between registers, constants and memory in every addressing form, transfers the documented value,
computed in the state *before* the code; no other register, no other byte of memory and no status flag changes. -/
theorem c63_move (o : Op1C) (is32 : Bool) (dst src : Opd) (s : Core) (ho : IsMove o) (hd : Dst dst) (hs : Src src) :
    ∃ s', run (emitOp1 o is32 dst src) s = some s' ∧
      ResultW (width o is32) dst (moved o (value1 (width o is32) false s src)) s s' := by
  have key : ∀ (op : Op) (w : Nat) (f : BitVec 64 → BitVec 64), op.code.isMv = true → (op.code = .mov → op.is32 = false) → (∀ v, f v = movX op.code v) →
      w = bitsOf (mvSz op.code) → (∀ a, moved o a = movX op.code a) →
      (∀ m a, moved o (load w (mvSg op.code) m a) = moved o (load w false m a)) →
      emitOp1 o is32 dst src = emitOp op (.g (mvSz op.code) (mvSg op.code)) ⟨false, false, true⟩ ⟨none, 0#64⟩ dst (.reg 0) (src.cast f) →
      ∃ s', run (emitOp1 o is32 dst src) s = some s' ∧ ResultW w dst (moved o (value1 w false s src)) s s' := by
    intro op w f h1 h2 h3 h4 h5 h6 h7
    obtain ⟨s', a, b⟩ := move_of (s := s) h1 h2 hd hs f h3
    refine ⟨s', by rw [h7]; exact a, ?_⟩
    have : moved o (value1 w false s src) = movX op.code (value1 (bitsOf (mvSz op.code)) (mvSg op.code) s src) := by
      rw [← h5, ← h4]
      cases src with
      | mem b i d => exact (h6 _ _).symm
      | _ => rfl
    rw [this, h4]; exact b
  have cid : ∀ o : Opd, o.cast id = o := by intro o; cases o <;> rfl
  rcases ho with rfl | rfl | rfl | rfl | rfl | rfl | rfl | rfl | rfl
  · exact key ⟨.mov, false, false, .none⟩ _ id rfl (fun _ => rfl) (fun _ => rfl) rfl (fun _ => rfl) (fun _ _ => rfl) (by rw [cid]; rfl)
  · exact key ⟨.movU8, is32, false, .none⟩ _ _ rfl (fun h => by cases h) (fun _ => rfl) rfl (fun _ => rfl) (fun _ _ => rfl) rfl
  · refine key ⟨.movS8, is32, false, .none⟩ _ _ rfl (fun h => by cases h) (fun _ => rfl) rfl (fun _ => rfl) (fun m a => ?_) rfl
    simp only [moved, load, width, mvSg]; bits [BitVec.getLsbD_signExtend, BitVec.msb_eq_getLsbD_last]
  · exact key ⟨.movU16, is32, false, .none⟩ _ _ rfl (fun h => by cases h) (fun _ => rfl) rfl (fun _ => rfl) (fun _ _ => rfl) rfl
  · refine key ⟨.movS16, is32, false, .none⟩ _ _ rfl (fun h => by cases h) (fun _ => rfl) rfl (fun _ => rfl) (fun m a => ?_) rfl
    simp only [moved, load, width, mvSg]; bits [BitVec.getLsbD_signExtend, BitVec.msb_eq_getLsbD_last]
  · exact key ⟨.movU32, false, false, .none⟩ _ _ rfl (fun h => by cases h) (fun _ => rfl) rfl (fun _ => rfl) (fun _ _ => rfl) rfl
  · refine key ⟨.movS32, false, false, .none⟩ _ _ rfl (fun h => by cases h) (fun _ => rfl) rfl (fun _ => rfl) (fun m a => ?_) rfl
    simp only [moved, load, width, mvSg]; bits [BitVec.getLsbD_signExtend, BitVec.msb_eq_getLsbD_last]
  · refine key ⟨.movS32, false, false, .none⟩ _ _ rfl (fun h => by cases h) (fun _ => rfl) rfl (fun _ => rfl) (fun m a => ?_) rfl
    simp only [moved, load, width, mvSg]; bits [BitVec.getLsbD_signExtend, BitVec.msb_eq_getLsbD_last]
  · exact key ⟨.mov, false, false, .none⟩ _ id rfl (fun _ => rfl) (fun _ => rfl) rfl (fun _ => rfl) (fun _ _ => rfl) (by rw [cid]; rfl)

/-- **C63, bit counting and byte order, partial.**  For every value, operand form and register assignment the emitted code leaves the documented
result and changes nothing else, not even a flag.  Missing: the upper half of the register after SLJIT_REV32, which is not the sign
extension that 32 bit operations rely on (`c63_rev32_false`); its low half is right. -/
theorem c63_unary_partial (o : Op1C) (is32 : Bool) (dst src : Opd) (s : Core) (ho : ¬ IsMove o) (hd : Dst dst)
    (hs : Src src) (hi : ∀ v, src ≠ .imm v) :
    ∃ s' sg v, run (emitOp1 o is32 dst src) s = some s' ∧ ResultW (width o is32) dst v s s' ∧
      (o = .rev ∧ is32 = true → IsRev 4 (value1 (width o is32) sg s src) v) ∧
      (¬ (o = .rev ∧ is32 = true) → computes o is32 (value1 (width o is32) sg s src) v) := by
  have key : ∀ (op : Op) (sz : Sz) (sg : Bool), op.code.un → width o is32 = bitsOf sz →
      (o = .rev ∧ is32 = true ↔ op.code = .rev ∧ op.is32 = true) →
      (∀ a r, Verif.RV.UnSpec op.code op.is32 a r → computes o is32 a r) →
      emitOp1 o is32 dst src = emitOp op (.g sz sg) ⟨false, false, false⟩ ⟨none, 0#64⟩ dst (.reg 0) src →
      ∃ s' sg v, run (emitOp1 o is32 dst src) s = some s' ∧ ResultW (width o is32) dst v s s' ∧
      (o = .rev ∧ is32 = true → IsRev 4 (value1 (width o is32) sg s src) v) ∧
      (¬ (o = .rev ∧ is32 = true) → computes o is32 (value1 (width o is32) sg s src) v) := by
    intro op sz sg h1 h2 h3 h4 h5
    obtain ⟨s', hr, v, hv, hp⟩ := emitOp_un (c := s) (sz := sz) (sg := sg) h1 hd.ok.1 hd.ok.2 (ne26 hd) hs.ok
    rw [h5, h2]
    rw [val_eq] at hv
    unfold UnL at hv
    refine ⟨s', sg, v, hr, resultW hd hp, fun h => ?_, fun h => ?_⟩
    · rwa [if_pos (h3.mp h)] at hv
    · rw [if_neg (fun q => h (h3.mpr q))] at hv
      exact h4 _ _ hv
  cases o
  case clz => cases is32 <;> exact key ⟨.clz, _, false, .none⟩ _ _ (by simp [OpC.un]) rfl (by simp) (fun _ _ h => h) rfl
  case ctz => cases is32 <;> exact key ⟨.ctz, _, false, .none⟩ _ _ (by simp [OpC.un]) rfl (by simp) (fun _ _ h => h) rfl
  case rev => cases is32 <;> exact key ⟨.rev, _, false, .none⟩ _ _ (by simp [OpC.un]) rfl (by simp) (fun _ _ h => h) rfl
  case revU16 => exact key ⟨.revU16, is32, false, .none⟩ _ _ (by simp [OpC.un]) rfl (by simp) (fun _ _ h => h) rfl
  case revS16 => exact key ⟨.revS16, is32, false, .none⟩ _ _ (by simp [OpC.un]) rfl (by simp) (fun _ _ h => h) rfl
  case revU32 => exact key ⟨.revU32, true, false, .none⟩ _ _ (by simp [OpC.un]) rfl (by simp) (fun _ _ h => h) rfl
  case revS32 => exact key ⟨.revS32, true, false, .none⟩ _ _ (by simp [OpC.un]) rfl (by simp) (fun _ _ h => h) rfl
  all_goals exact absurd (by unfold IsMove; decide) ho

/-! ## Where the claim fails -/

/-- **C63 fails**: SLJIT_REV32 reverses both words of the register (sljitNativeLOONGARCH_64.c:1432, REVB.2W): 0x80 becomes
0x80000000, a negative 32 bit number which is not sign extended, and the following SLJIT_SUB32 | SLJIT_SET_SIG_LESS with 0
finds it not less than 0. -/
theorem c63_rev32_false : ∃ s : Core,
    (run (emitOp1 .rev true (.reg 2) (.reg 1)) s).map (fun s' => s'.x (regMap 2)) = some 0x80000000#64 ∧
    ¬ computes .rev true (s.x (regMap 1)) 0x80000000#64 ∧
    (run (emitOp1 .rev true (.reg 2) (.reg 1) ++ emitOp2 ⟨.sub, true, false, .sigLess⟩ (.reg 0) (.reg 2) (.imm 0#64)) s).map
      (fun s' => s'.x 15#5) = some 0#64 ∧
    (0x80000000#32).slt 0#32 = true := by
  refine ⟨demo 0x80#64 0#64 0#64 0#64 0#64 0#64 0#8, by decide +kernel, ?_, by decide +kernel, by decide⟩
  intro h
  simp only [computes, if_true] at h
  exact absurd h.2 (by decide)

/-! ## The hypotheses can be met -/

/-- SLJIT_MOV_S16 from `[R0 + (R1 << 1)]` to R0 itself. -/
example : ∃ s', run (emitOp1 .movS16 false (.reg 1) (.mem 1 2 1#64)) (demo 0x100#64 0x10#64 0#64 0#64 0#64 0x121#64 0x80#8) = some s' ∧
    s'.x (regMap 1) = 0xffffffffffff8000#64 := by
  obtain ⟨s', hr, h⟩ := c63_move .movS16 false (.reg 1) (.mem 1 2 1#64) (demo 0x100#64 0x10#64 0#64 0#64 0#64 0x121#64 0x80#8)
    (by unfold IsMove; decide) ⟨by decide, by decide⟩ ⟨by decide, by decide, fun _ => by decide⟩
  exact ⟨s', hr, (h.reg 1 rfl).trans (by decide +kernel)⟩

/-- SLJIT_MOV_U16 from R0 to `[R0]`: what fails on RISC-V with Zbb (`Verif.Props.C24.c25_store_addr_false`). -/
example : ∃ s', run (emitOp1 .movU16 false (.mem 1 0 0#64) (.reg 1)) (demo 0x12345#64 0#64 0#64 0#64 0#64 0#64 0#8) = some s' ∧
    s'.mem 0x12345#64 = 0x45#8 ∧ s'.x (regMap 1) = 0x12345#64 := by
  obtain ⟨s', hr, h⟩ := c63_move .movU16 false (.mem 1 0 0#64) (.reg 1) (demo 0x12345#64 0#64 0#64 0#64 0#64 0#64 0#8)
    (by unfold IsMove; decide) ⟨by decide, by decide, fun h => absurd rfl h⟩ ⟨by decide, by decide⟩
  refine ⟨s', hr, ?_, (h.user 1 ⟨by decide, by decide⟩ (by rintro ⟨⟩)).trans (by decide +kernel)⟩
  have hm := h.mem
  dsimp only at hm
  rw [hm]; decide +kernel

/-- SLJIT_CTZ32 in place. -/
example : ∃ s', run (emitOp1 .ctz true (.reg 1) (.reg 1)) (demo 0x1230#64 0#64 0#64 0#64 0#64 0#64 0#8) = some s' ∧ s'.x (regMap 1) = 4#64 := by
  obtain ⟨s', sg, v, hr, h, -, hc⟩ := c63_unary_partial .ctz true (.reg 1) (.reg 1) (demo 0x1230#64 0#64 0#64 0#64 0#64 0#64 0#8)
    (by unfold IsMove; decide) ⟨by decide, by decide⟩ ⟨by decide, by decide⟩ (by intro v h; cases h)
  refine ⟨s', hr, ?_⟩
  rw [h.reg 1 rfl]
  obtain ⟨n, rfl, c1, c2, c3⟩ := hc (by simp)
  rcases Nat.lt_trichotomy n 4 with h | h | h
  · have := c3 (by omega)
    exfalso
    revert this
    have : ∀ n, n < 4 → ¬ ((value1 (width .ctz true) sg (demo 0x1230#64 0#64 0#64 0#64 0#64 0#64 0#8) (.reg 1)).setWidth 32).getLsbD n = true := by
      cases sg <;> decide +kernel
    exact this n h
  · rw [h]
  · have := c2 4 h
    exact absurd this (by cases sg <;> decide +kernel)

end Verif.Props.C63
