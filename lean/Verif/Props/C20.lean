import Verif.Props.RvSpec

/-!
# C20, C21, C23, C26: two operand integer operations of the RV64 backend
-/

namespace Verif.Props.C20
open Verif.RV Verif.Props.Rv

/-- SLJIT_ADD .. SLJIT_XOR. -/
def Arith (o : OpC) : Prop :=
  o = .add ∨ o = .addc ∨ o = .sub ∨ o = .subc ∨ o = .mul ∨ o = .and ∨ o = .or ∨ o = .xor

/-- The shifts and rotates. -/
def Shift (o : OpC) : Prop :=
  o = .shl ∨ o = .mshl ∨ o = .lshr ∨ o = .mlshr ∨ o = .ashr ∨ o = .mashr ∨ o = .rotl ∨ o = .rotr

/-- The documented result on the operand values: modulo `2^64`, or modulo `2^32` and sign extended. -/
def result (op : Op) (a b : BitVec 64) (cin : Bool) : BitVec 64 :=
  if op.is32 then (val op.code (a.setWidth 32) (b.setWidth 32) cin).signExtend 64 else val op.code a b cin

/-- The documented value of the variable flag. -/
def flag (op : Op) (a b : BitVec 64) (cin : Bool) : Bool :=
  if op.is32 then flagVal op.code op.flag (a.setWidth 32) (b.setWidth 32) cin else flagVal op.code op.flag a b cin

/-- The constant as the operation sees it. -/
def isConst (op : Op) (o : Opd) (p : BitVec 64 → Prop) : Prop :=
  ∃ v, o = .imm v ∧ p (if op.is32 then (v.setWidth 32).signExtend 64 else v)

/-- A non-zero constant of 12 signed bits. -/
def small (v : BitVec 64) : Prop := v ≠ 0#64 ∧ -2048 ≤ v.toInt ∧ v.toInt ≤ 2047

/-- The requests the backend mistranslates into a wild jump: SLJIT_SET_OVERFLOW on two constants, one of them 0. -/
def OverflowDefect (op : Op) (src1 src2 : Opd) : Prop :=
  op.flag = .overflow ∧
    ((op.code = .add ∨ op.code = .sub) ∧ isConst op src1 (· = 0#64) ∧ isConst op src2 small ∨
      op.code = .add ∧ isConst op src2 (· = 0#64) ∧ isConst op src1 small)

/-- The requests for which the backend does not compute the carry flag: a constant 0 as the first source (unless the
second is a small non-zero constant), or as the second source of an operation in place. -/
def CarryDefect (op : Op) (dst src1 src2 : Opd) : Prop :=
  op.flag = .carry ∧ (op.code = .add ∨ op.code = .addc) ∧
    (isConst op src1 (· = 0#64) ∧ ¬ isConst op src2 small ∨ isConst op src2 (· = 0#64) ∧ ∃ r, src1 = .reg r ∧ dst = .reg r)

/-! ## Connection with the helper lemmas -/

theorem norm_zero {op : Op} {o : Opd} (h : Src o) : (norm op o).zero ↔ isConst op o (· = 0#64) := by
  unfold norm isConst Opd.zero
  cases hw : op.is32
  · simp only [Bool.false_eq_true, if_false]
    constructor
    · rintro (rfl | rfl)
      · exact ⟨_, rfl, rfl⟩
      · exact absurd h.1 (by decide)
    · rintro ⟨v, rfl, rfl⟩; exact Or.inl rfl
  · simp only [if_true]
    constructor
    · rintro (e | e)
      · cases o with
        | imm v => simp only [Opd.s32, Opd.imm.injEq] at e; exact ⟨v, rfl, e⟩
        | _ => cases e
      · cases o with
        | reg r => cases e; exact absurd h.1 (by decide)
        | _ => cases e
    · rintro ⟨v, rfl, e⟩; exact Or.inl (by simp only [Opd.s32]; rw [show sx32 (lo32 v) = 0#64 from e])

theorem smallImm_iff {o : Opd} : o.smallImm ≠ none ↔ ∃ v, o = .imm v ∧ small v := by
  cases o with
  | imm u =>
    simp only [Opd.smallImm, small, Opd.imm.injEq, exists_eq_left', fits12_iff, Fits12]
    split
    · next h => exact ⟨fun _ => h, fun _ => by simp⟩
    · next h => exact ⟨fun q => absurd rfl q, fun q => absurd q h⟩
  | _ => simp [Opd.smallImm]

theorem norm_small {op : Op} {o : Opd} : (norm op o).smallImm ≠ none ↔ isConst op o small := by
  rw [smallImm_iff]
  unfold norm isConst
  cases hw : op.is32
  · simp
  · simp only [if_true]
    cases o with
    | imm v => simp only [Opd.s32, Opd.imm.injEq, exists_eq_left']; rfl
    | _ => simp [Opd.s32]

theorem overflow_ok {op : Op} {src1 src2 : Opd} (h1 : Src src1) (h2 : Src src2) (h : ¬ OverflowDefect op src1 src2) :
    OverflowOk op src1 src2 := by
  intro hf hc
  constructor
  · intro hz
    by_contra hn
    exact h ⟨hf, Or.inl ⟨hc, (norm_zero h1).mp hz, norm_small.mp hn⟩⟩
  · intro ha hz
    by_contra hn
    exact h ⟨hf, Or.inr ⟨ha, (norm_zero h2).mp hz, norm_small.mp hn⟩⟩

theorem carry_ok {op : Op} {dst src1 src2 : Opd} (h1 : Src src1) (h2 : Src src2) (h : ¬ CarryDefect op dst src1 src2) :
    CarryOk op dst src1 src2 := by
  intro hf hc
  constructor
  · intro hz hn
    exact h ⟨hf, hc, Or.inl ⟨(norm_zero h1).mp hz, fun q => norm_small.mpr q hn⟩⟩
  · intro hz hr he
    cases src1 with
    | reg r => exact h ⟨hf, hc, Or.inr ⟨(norm_zero h2).mp hz, r, rfl, he.symm⟩⟩
    | _ => cases hr

theorem bin_of {o : OpC} (h : Arith o ∨ Shift o) : o.bin := by
  unfold Arith Shift at h; unfold OpC.bin; tauto
theorem sh_iff {o : OpC} : o.isSh ↔ Shift o := by
  unfold Shift OpC.isSh; tauto

theorem hyp32 {op : Op} {s : St} {src1 src2 : Opd} (h1 : op.is32 = true → Src32 s src1 ∧ (Shift op.code ∨ Src32 s src2)) :
    op.is32 = true → (∀ r, src1 = .reg r → Sx (s.core.x (regMap r))) ∧
      (∀ r, src2 = .reg r → op.code.isSh ∨ Sx (s.core.x (regMap r))) := by
  intro hw
  obtain ⟨q1, q2⟩ := h1 hw
  refine ⟨?_, ?_⟩
  · rintro r rfl; exact q1
  · rintro r rfl
    rcases q2 with q2 | q2
    · exact Or.inl (sh_iff.mpr q2)
    · exact Or.inr q2

/-! ## The theorems -/

/-- **C20 (and C23, C25, C26 for two operand operations), partial.**  For every operation code, operand form, register
assignment (including all coincidences of destination, sources, base and index registers), constant, configuration and
machine state: the code emitted by sljit_emit_op2 runs to its end, the destination holds the documented result computed
from the operand values in the state *before* the code, and nothing else the application can see has changed.
Excluded: `OverflowDefect`, for which the claim is false, see `c20_overflow_false`. -/
theorem c20_result_partial (cfg : Cfg) (op : Op) (dst src1 src2 : Opd) (s : St) (cin : Bool)
    (hop : Arith op.code ∨ Shift op.code) (hfl : op.flagOk) (hd : Dst dst) (h1 : Src src1) (h2 : Src src2)
    (hcin : op.code = .addc ∨ op.code = .subc → carryFlag s cin)
    (h32 : op.is32 = true → Src32 s src1 ∧ (Shift op.code ∨ Src32 s src2))
    (hov : ¬ OverflowDefect op src1 src2) :
    ∃ s', run (emitOp2 cfg op dst src1 src2) s = some s' ∧
      Result op.is32 dst (result op (value op.is32 s src1) (value op.is32 s src2) cin) s s' := by
  obtain ⟨s', hr, hp⟩ := emitOp2_res (cfg := cfg) (cin := cin) (bin_of hop) hfl hd.ok.1 hd.ok.2 h1.ok h2.ok (c := s.core) (fun h => hcin h) (hyp32 h32)
    (overflow_ok h1 h2 hov) s rfl
  refine ⟨s', hr, ?_⟩
  rw [value_eq, value_eq] at hp
  exact Result.of (Or.inl hd) hp

/-- **C21, partial.**  With SLJIT_SET_Z and a flag type, sljit_emit_op2 and sljit_emit_op2u (`dst = .reg 0`) set the zero
and the variable flag according to the operand values.  Excluded: `OverflowDefect` and `CarryDefect`, for which the claim
is false, see `c20_overflow_false` and `c21_carry_false`. -/
theorem c21_flags_partial (cfg : Cfg) (op : Op) (dst src1 src2 : Opd) (s : St) (cin : Bool)
    (hop : Arith op.code ∨ Shift op.code) (hfl : op.flagOk) (hd : Dst dst ∨ dst = .reg 0) (h1 : Src src1) (h2 : Src src2)
    (hcin : op.code = .addc ∨ op.code = .subc → carryFlag s cin)
    (h32 : op.is32 = true → Src32 s src1 ∧ (Shift op.code ∨ Src32 s src2))
    (hov : ¬ OverflowDefect op src1 src2) (hcy : ¬ CarryDefect op dst src1 src2) :
    ∃ s', run (emitOp2 cfg op dst src1 src2) s = some s' ∧
      Result op.is32 dst (result op (value op.is32 s src1) (value op.is32 s src2) cin) s s' ∧
      (op.setZ = true → (zeroFlag s' ↔ result op (value op.is32 s src1) (value op.is32 s src2) cin = 0#64)) ∧
      (op.flag ≠ .none → (varFlag s' ↔ flag op (value op.is32 s src1) (value op.is32 s src2) cin = true)) ∧
      (op.flag = .carry → carryFlag s' (flag op (value op.is32 s src1) (value op.is32 s src2) cin)) := by
  have hd' : DOk dst := by
    rcases hd with hd | hd
    · exact hd.ok.1
    · rw [hd]; exact Or.inl (by decide)
  obtain ⟨s', hr, hp⟩ := emitOp2_ok (cfg := cfg) (cin := cin) (bin_of hop) hfl hd' h1.ok h2.ok (c := s.core) (fun h => hcin h) (hyp32 h32)
    (carry_ok h1 h2 hcy) (overflow_ok h1 h2 hov) s rfl
  refine ⟨s', hr, ?_⟩
  rw [value_eq, value_eq] at hp
  exact ⟨Result.of hd hp.done, hp.zero, hp.flag, fun h => hp.bool (by rw [h]; decide) (Or.inl (by rw [h]; decide))⟩

/-- **C23.**  Shifts and rotates: no excluded cases.  `val` takes the amount modulo the word size, so this covers the
masking variants for every amount and the others for every permitted amount. -/
theorem c23_shift (cfg : Cfg) (op : Op) (dst src1 src2 : Opd) (s : St)
    (hop : Shift op.code) (hfl : op.flagOk) (hd : Dst dst ∨ dst = .reg 0) (h1 : Src src1) (h2 : Src src2)
    (h32 : op.is32 = true → Src32 s src1) :
    ∃ s', run (emitOp2 cfg op dst src1 src2) s = some s' ∧
      Result op.is32 dst (result op (value op.is32 s src1) (value op.is32 s src2) false) s s' ∧
      (op.setZ = true → (zeroFlag s' ↔ result op (value op.is32 s src1) (value op.is32 s src2) false = 0#64)) := by
  have hf : op.flag = .none := by
    unfold Op.flagOk at hfl
    rcases hop with h | h | h | h | h | h | h | h <;> rw [h] at hfl <;> first | exact hfl | exact hfl.1
  have hc : ¬ (op.code = .addc ∨ op.code = .subc) := by
    rcases hop with h | h | h | h | h | h | h | h <;> rw [h] <;> decide
  obtain ⟨s', a, b, c, -, -⟩ := c21_flags_partial cfg op dst src1 src2 s false (Or.inr hop) hfl hd h1 h2
    (fun h => absurd h hc) (fun h => ⟨h32 h, Or.inl hop⟩) (by rintro ⟨h, -⟩; rw [hf] at h; cases h) (by rintro ⟨h, -⟩; rw [hf] at h; cases h)
  exact ⟨s', a, b, c⟩

/-! ## Where the claims fail -/

/-- All registers zero except x5 and x10. -/
def demo (x5 x10 x28 : BitVec 64) : St :=
  ⟨fun r => if r = 5#5 then x5 else if r = 10#5 then x10 else if r = 28#5 then x28 else 0#64, fun _ => 0#64, fun _ => 0#8, 0#64⟩

/-- **C20/C21 fail**: SLJIT_ADD | SLJIT_SET_OVERFLOW of the constants 0 and 5 with compressed instructions begins with
`c.mv x5, x0`, whose encoding is `c.jr x5`: the machine jumps to whatever address x5 holds
(sljitNativeRISCV_common.c:2019-2027). -/
theorem c20_overflow_false : ∃ (cfg : Cfg) (op : Op) (s : St) (code : Code), op.flagOk ∧ s.pc = 0#64 ∧
    (∀ i, i < (emitOp2 cfg op (.reg 1) (.imm 0#64) (.imm 5#64)).length →
      some (code (BitVec.ofNat 64 (2 * i))) = (emitOp2 cfg op (.reg 1) (.imm 0#64) (.imm 5#64))[i]?) ∧
    ((step code s).map St.pc) = some 0xdead0000#64 := by
  refine ⟨⟨true, false, false⟩, ⟨.add, false, false, .overflow⟩, demo 0xdead0000#64 0#64 0#64,
    fun a => ((emitOp2 ⟨true, false, false⟩ ⟨.add, false, false, .overflow⟩ (.reg 1) (.imm 0#64) (.imm 5#64))[a.toNat / 2]?).getD 0#16, ?_, ?_, ?_, ?_⟩
  · simp [Op.flagOk]
  · rfl
  · decide +kernel
  · decide +kernel

/-- **C21/C22 fail**: SLJIT_ADDC | SLJIT_SET_CARRY of R0 = 5, in place, with the constant 0 and carry in 1 gives 6 and must
clear the carry, but the carry stays set (sljitNativeRISCV_common.c:2093-2121: `carry_src_r` becomes TMP_ZERO, which is
0, and 0 means that no carry is requested). -/
theorem c21_carry_false : ∃ (cfg : Cfg) (op : Op) (s : St), op.flagOk ∧ op.code = .addc ∧ op.flag = .carry ∧ carryFlag s true ∧
    (run (emitOp2 cfg op (.reg 1) (.reg 1) (.imm 0#64)) s).map (fun s' => (s'.rd 10#5, s'.rd 28#5)) = some (6#64, 1#64) ∧
    flag op (value false s (.reg 1)) (value false s (.imm 0#64)) true = false :=
  ⟨⟨true, false, false⟩, ⟨.addc, false, false, .carry⟩, demo 0#64 5#64 1#64, by simp [Op.flagOk], rfl, rfl, by unfold carryFlag; decide +kernel, by decide +kernel, by decide +kernel⟩

/-- The same for SLJIT_ADD with the constant 0 as the first source: the carry flag keeps its old value. -/
theorem c21_carry_false' : ∃ (cfg : Cfg) (op : Op) (s : St), op.flagOk ∧ op.code = .add ∧ op.flag = .carry ∧
    (run (emitOp2 cfg op (.reg 2) (.imm 0#64) (.reg 1)) s).map (fun s' => (s'.rd 11#5, s'.rd 28#5)) = some (5#64, 1#64) ∧
    flag op (value false s (.imm 0#64)) (value false s (.reg 1)) true = false :=
  ⟨⟨true, false, false⟩, ⟨.add, false, false, .carry⟩, demo 0#64 5#64 1#64, by simp [Op.flagOk], rfl, rfl, by decide +kernel, by decide +kernel⟩

/-! ## The hypotheses can be met -/

/-- SLJIT_SUB32 | SLJIT_SET_Z | SLJIT_SET_SIG_LESS, in place, with a memory operand whose base is the destination. -/
example : ∃ s', run (emitOp2 ⟨true, true, true⟩ ⟨.sub, true, true, .sigLess⟩ (.reg 1) (.reg 1) (.mem 1 0 0x12345#64))
    (demo 0#64 7#64 0#64) = some s' ∧ s'.rd 10#5 = 7#64 ∧ ¬ zeroFlag s' ∧ ¬ varFlag s' := by
  obtain ⟨s', hr, h1, h2, h3, -⟩ := c21_flags_partial ⟨true, true, true⟩ ⟨.sub, true, true, .sigLess⟩ (.reg 1) (.reg 1)
    (.mem 1 0 0x12345#64) (demo 0#64 7#64 0#64) false (Or.inl (by unfold Arith; decide)) trivial (Or.inl ⟨by decide, by decide⟩)
    ⟨by decide, by decide⟩ ⟨by decide, by decide⟩ (by rintro (h | h) <;> cases h) (fun _ => ⟨by unfold Src32; decide +kernel, Or.inr trivial⟩)
    (by rintro ⟨h, -⟩; cases h) (by rintro ⟨h, -⟩; cases h)
  refine ⟨s', hr, ?_, ?_, ?_⟩
  · exact (h1.reg 1 rfl ⟨by decide, by decide⟩).trans (by decide +kernel)
  · rw [h2 rfl]; decide +kernel
  · rw [h3 (by decide)]; decide +kernel

/-- SLJIT_ADDC | SLJIT_SET_CARRY with carry in, register operands. -/
example : ∃ s', run (emitOp2 ⟨false, false, false⟩ ⟨.addc, false, false, .carry⟩ (.reg 2) (.reg 1) (.imm (-1#64)))
    (demo 0#64 7#64 1#64) = some s' ∧ s'.rd 11#5 = 7#64 ∧ carryFlag s' true := by
  obtain ⟨s', hr, h1, -, -, h4⟩ := c21_flags_partial ⟨false, false, false⟩ ⟨.addc, false, false, .carry⟩ (.reg 2) (.reg 1)
    (.imm (-1#64)) (demo 0#64 7#64 1#64) true (Or.inl (by unfold Arith; decide)) (by simp [Op.flagOk]) (Or.inl ⟨by decide, by decide⟩)
    ⟨by decide, by decide⟩ trivial (fun _ => by unfold carryFlag; decide +kernel) (fun h => by cases h)
    (by rintro ⟨h, -⟩; cases h)
    (by
      rintro ⟨-, -, ⟨⟨v, h, -⟩, -⟩ | ⟨-, r, h, h'⟩⟩
      · cases h
      · cases h; cases h')
  refine ⟨s', hr, ?_, ?_⟩
  · exact (h1.reg 2 rfl ⟨by decide, by decide⟩).trans (by decide +kernel)
  · have := h4 rfl
    rwa [show flag ⟨.addc, false, false, .carry⟩ (value false (demo 0#64 7#64 1#64) (.reg 1)) (value false (demo 0#64 7#64 1#64) (.imm (-1#64))) true = true by decide +kernel] at this

end Verif.Props.C20
