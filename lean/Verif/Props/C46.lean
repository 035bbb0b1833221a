import Verif.X86.Into
import Verif.X86.JumpCode

/-!
# C46: x86-64 binary operations

sljit_emit_op2, sljit_emit_op2u and sljit_emit_op2r (sljitNativeX86_common.c:2680-2827) with the functions below them, down to the
bytes of the instructions (X86/Ops.lean, X86/Emit.lean).  The bytes are decoded and executed by `run` (X86/Arch.lean), which is
written from the Intel manual.
-/

namespace Verif.Props.C46
open Verif.X86
open Verif (RV.Op RV.OpC RV.Flag RV.val RV.flagVal RV.Op.flagOk)

/-! ## Specification -/

/-- Source operands of the API: SLJIT_R0.. (1-13), constants, [base + displacement] (the base may be SLJIT_SP, 14, or absent) and
[base + (offset << shift)] (sljitLir.c:987-1019). -/
def Src : Opd → Prop
  | .reg r => 1 ≤ r ∧ r ≤ 13
  | .mem base offs w => base ≤ 14 ∧ offs ≤ 13 ∧ (offs ≠ 0 → base ≠ 0 ∧ w.toNat < 4)
  | .imm _ => True

/-- Destinations of the API. -/
def Dest : Opd → Prop
  | .imm _ => False
  | b => Src b

/-- The machine register of a register. -/
def mreg (win : Bool) (r : Nat) : BitVec 4 := (regMap win r).setWidth 4

/-- The address of a memory operand. -/
def addr (win : Bool) (s : St) (base offs : Nat) (w : BitVec 64) : BitVec 64 :=
  (if base = 0 then 0#64 else s.r (mreg win base)) + if offs = 0 then w else s.r (mreg win offs) <<< w.toNat

/-- The value of an operand of w = 32 or 64 bits. -/
def value (win : Bool) (s : St) (w : Nat) : Opd → BitVec w
  | .reg r => (s.r (mreg win r)).setWidth w
  | .imm v => v.setWidth w
  | .mem base offs d => (rd s.m (addr win s base offs d) (w / 8)).setWidth w

/-- Bits of an operation. -/
def width (op : RV.Op) : Nat := if op.is32 then 32 else 64

/-- s' is s after writing x to dst (`none`: no destination): nothing else changes in the memory and in the registers of the user. -/
structure Written {w : Nat} (win : Bool) (s s' : St) (dst : Option Opd) (x : BitVec w) : Prop where
  keep : ∀ q, 1 ≤ q → q ≤ 14 → dst ≠ some (.reg q) → s'.r (mreg win q) = s.r (mreg win q)
  reg : ∀ d, dst = some (.reg d) → (s'.r (mreg win d)).setWidth w = x
  mem : ∀ base offs d, dst = some (.mem base offs d) → s'.m = wr s.m (addr win s base offs d) (w / 8) (x.setWidth 64)
  same : (∀ base offs d, dst ≠ some (.mem base offs d)) → s'.m = s.m

/-- Truth of the condition of Jcc 0F 80-8F (Intel SDM volume 1, appendix B); `none` if a flag is undefined. -/
def cond (b : Byte) (f : Flags) : Option Bool :=
  (match (fld b 1 3).toNat with
    | 0 => f.of
    | 1 => f.cf
    | 2 => f.zf
    | 3 => f.cf.bind fun c => f.zf.map fun z => c || z
    | 4 => f.sf
    | 6 => f.sf.bind fun s => f.of.map fun o => s ^^ o
    | 7 => f.zf.bind fun z => f.sf.bind fun s => f.of.map fun o => z || (s ^^ o)
    | _ => none).map (· ^^ b.getLsbD 0)

/-- The variable flag which enables a condition (sljitLir.h:1563-1606). -/
def flagOf : JT → RV.Flag
  | .equal => .none
  | .less => .less
  | .greater => .greater
  | .sigLess => .sigLess
  | .sigGreater => .sigGreater
  | .overflow => .overflow
  | .carry => .carry

/-- Every condition which the operation enables has the specified truth value. -/
def CondsOk {w : Nat} (op : RV.Op) (a b : BitVec w) (cin : Bool) (f : Flags) : Prop :=
  (op.setZ = true → ∀ neg, cond (jumpCode .equal neg) f = some (decide (RV.val op.code a b cin = 0#w) ^^ neg)) ∧
  (op.flag ≠ .none → ∀ t neg, flagOf t = op.flag → cond (jumpCode t neg) f = some (RV.flagVal op.code op.flag a b cin ^^ neg))

/-- The claim about sljit_emit_op2: code is emitted, it runs to its end from every state, writes the result to the destination and nothing else
which the user can see, and sets the requested flags.  For ADDC and SUBC the carry flag has to be set before. -/
def Op2At (win : Bool) (op : RV.Op) (dst src1 src2 : Opd) : Prop :=
  ∀ (s : St) (cin : Bool), (op.code = .addc ∨ op.code = .subc → s.f.cf = some cin) →
    ∃ bs s', emitOp2 win op dst src1 src2 = some bs ∧ Steps bs s s' ∧
      Written win s s' (some dst) (RV.val op.code (value win s (width op) src1) (value win s (width op) src2) cin) ∧
      CondsOk op (value win s (width op) src1) (value win s (width op) src2) cin s'.f

/-- The claim about sljit_emit_op2u: only the flags. -/
def Op2uAt (win : Bool) (op : RV.Op) (src1 src2 : Opd) : Prop :=
  ∀ (s : St) (cin : Bool), (op.code = .addc ∨ op.code = .subc → s.f.cf = some cin) →
    ∃ bs s', emitOp2u win op src1 src2 = some bs ∧ Steps bs s s' ∧
      Written win s s' none (RV.val op.code (value win s (width op) src1) (value win s (width op) src2) cin) ∧
      CondsOk op (value win s (width op) src1) (value win s (width op) src2) cin s'.f

/-- The address of the operand uses the register. -/
def reads : Opd → Nat → Prop
  | .mem base offs _, r => base = r ∨ offs = r
  | _, _ => False

/-- A memory operand whose displacement (or address) is not a signed 32 bit number. -/
def far : Opd → Prop
  | .mem _ 0 w => ¬ (-2 ^ 31 ≤ w.toInt ∧ w.toInt < 2 ^ 31)
  | _ => False

/-- Shifts and rotations. -/
def shiftLike : RV.OpC → Bool
  | .shl | .mshl | .lshr | .mlshr | .ashr | .mashr | .rotl | .rotr => true
  | _ => false

/-- The result of sljit_emit_shift_into (sljitLir.h:1430-1443) for the count n < w. -/
def into {w : Nat} (left : Bool) (x y : BitVec w) (n : Nat) : BitVec w :=
  if left then (x <<< n) ||| ((y >>> 1) >>> (w - 1 - n)) else (x >>> n) ||| ((y <<< 1) <<< (w - 1 - n))

/-- The claim about sljit_emit_shift_into.  The plain and the M variants of the shifts do the same, so the count is taken modulo the width for both. -/
def IntoAt (win m32 left : Bool) (dst src1 src2 : Nat) (src3 : Opd) : Prop :=
  ∀ s : St, ∃ bs s', emitShiftInto win m32 left dst src1 src2 src3 = some bs ∧ Steps bs s s' ∧
    Written win s s' (some (.reg dst)) (into left (value win s (if m32 then 32 else 64) (.reg src1)) (value win s (if m32 then 32 else 64) (.reg src2))
      ((value win s (if m32 then 32 else 64) src3).toNat % (if m32 then 32 else 64)))

/-! ## Helper facts -/

theorem src_user {b : Opd} (h : Src b) : User b := by cases b <;> exact h

theorem dest_dst {b : Opd} (h : Dest b) : Dst b := by
  cases b with
  | imm _ => exact h
  | reg r => obtain ⟨h1, h2⟩ := h; exact ⟨h1, by omega, by omega⟩
  | mem _ _ _ => exact h

theorem width_B (op : RV.Op) : width op = B op.is32 := by unfold width; cases op.is32 <;> rfl

theorem addr_ea (win : Bool) (s : St) (base offs : Nat) (w : BitVec 64) : addr win s base offs w = ea win s base offs w := by
  simp only [addr, ea, mreg, num]

theorem value_lo (win : Bool) (s : St) (m32 : Bool) (b : Opd) : value win s (B m32) b = lo m32 (opv win m32 s b) := by
  cases b with
  | reg r => rw [opv.eq_1, lo_trunc]; rfl
  | imm v => rw [opv.eq_2, lo_trunc]; rfl
  | mem base offs d =>
    simp only [value, opv, lo, addr_ea]
    cases m32 <;> rfl

theorem cond_cc (t : JT) (ht : t ≠ .equal) (neg : Bool) (f : Flags) : cond (jumpCode t neg) f = (ccOf (flagOf t) f).map (· ^^ neg) := by
  obtain ⟨cf, zf, sf, of⟩ := f
  cases t <;> first | exact absurd rfl ht | skip
  all_goals
    cases neg <;> rcases cf with _ | cf <;> rcases zf with _ | zf <;> rcases sf with _ | sf <;> rcases of with _ | of <;>
      first | rfl | decide +revert

theorem cond_z (neg : Bool) (f : Flags) : cond (jumpCode .equal neg) f = f.zf.map (· ^^ neg) := by
  obtain ⟨cf, zf, sf, of⟩ := f
  cases neg <;> cases zf <;> rfl

theorem conds {w : Nat} {op : RV.Op} {a b : BitVec w} {cin : Bool} {x : BitVec w} {f : Flags} (h : Post op a b cin x f) : CondsOk op a b cin f := by
  refine ⟨fun hz neg => ?_, fun hf t neg ht => ?_⟩
  · rw [cond_z, h.zero hz, h.val]; rfl
  · rw [cond_cc t (fun e => hf (by rw [← ht, e]; rfl)), ht, h.flag hf]; rfl

theorem lo_trunc' (m32 : Bool) (v : BitVec 64) : (trunc m32 v).setWidth (B m32) = v.setWidth (B m32) := lo_trunc m32 v

theorem written {win m32 : Bool} {s s' : St} {dst : Option Opd} {x : BitVec (B m32)} {c1 c2 : Bool} (h : Res win m32 s s' dst (up m32 x) c1 c2)
    (hd : ∀ d, dst = some (.reg d) → 1 ≤ d ∧ d ≤ 16) : Written win s s' dst x := by
  refine ⟨fun q h1 h2 h3 => ?_, fun d e => ?_, fun base offs d e => ?_, fun hn => ?_⟩
  · refine h.reg h1 (by omega) (fun d e => ⟨(hd d e).1, (hd d e).2, fun e' => h3 (by rw [e, e'])⟩) (fun e => ?_) (fun e => ?_)
    · unfold TMP_REG1 at e; omega
    · unfold TMP_REG2 at e; omega
  · rw [show mreg win d = num win d from rfl, h.val d e, lo_trunc']; exact lo_up m32 x
  · rw [h.mem, e, addr_ea]
    cases m32 <;> rfl
  · rw [h.mem]
    unfold wrMem
    split
    next base offs w => exact absurd rfl (hn base offs w)
    next => rfl

/-- From an effect to the claim. -/
theorem finish {win : Bool} {op : RV.Op} {c : Code} {s : St} {dst : Option Opd} {src1 src2 : Opd} {cin : Bool} {f : Flags} {x : BitVec (B op.is32)} {c1 c2 : Bool}
    (h : Eff win op.is32 c s dst (up op.is32 x) c1 c2 f) (hd : ∀ d, dst = some (.reg d) → 1 ≤ d ∧ d ≤ 16)
    (hp : Post op (lo op.is32 (opv win op.is32 s src1)) (lo op.is32 (opv win op.is32 s src2)) cin x f) :
    ∃ bs s', c = some bs ∧ Steps bs s s' ∧
      Written win s s' dst (RV.val op.code (value win s (width op) src1) (value win s (width op) src2) cin) ∧
      CondsOk op (value win s (width op) src1) (value win s (width op) src2) cin s'.f := by
  obtain ⟨s', ⟨bs, hbs, hst⟩, r, hf⟩ := h
  refine ⟨bs, s', hbs, hst, ?_⟩
  rw [width_B, value_lo, value_lo, hf, ← hp.val]
  exact ⟨written r hd, conds hp⟩

/-- Without destination, TMP_REG1 does not count. -/
theorem Written.drop {w : Nat} {win : Bool} {s s' : St} {x : BitVec w} (h : Written win s s' (some (.reg 15)) x) : Written win s s' none x :=
  ⟨fun q h1 h2 _ => h.keep q h1 h2 (fun e => by cases e; omega), fun d e => (by cases e), fun _ _ _ e => (by cases e), fun _ => h.same (fun _ _ _ e => (by cases e))⟩

theorem half_bits (w : BitVec 64) : isHalf w = true ↔ (-2 ^ 31 ≤ w.toInt ∧ w.toInt < 2 ^ 31) := by
  simp only [isHalf, Bool.and_eq_true, BitVec.sle, decide_eq_true_eq, show (0x7fffffff#64).toInt = 2147483647 by decide, show (-2147483648#64).toInt = -2147483648 by decide]
  omega

theorem far_long {b : Opd} (h : ¬ far b) : long b = false := by
  cases b with
  | reg _ => rfl
  | imm _ => rfl
  | mem base offs w =>
    cases offs with
    | succ n => rfl
    | zero =>
      have := not_not.1 h
      simp only [long, (half_bits w).2 this]; rfl

theorem reads_dep {b : Opd} {r : Nat} (h : ¬ reads b r) : dependsOn b r = false := by
  cases b with
  | reg _ => rfl
  | imm _ => rfl
  | mem base offs w => simpa [reads, dependsOn] using h

theorem shift_iff (c : RV.OpC) : (shiftCode c).isSome = shiftLike c := by cases c <;> rfl

/-! ## Theorems -/

/-- sljit_emit_op2.  Every operation, width, combination of flags and operand kind; what is missing: operands where the address of the second one
uses the destination register (unless the destination is also the first operand), and shifts by a memory operand with a far address (unless the
destination is a register which this address does not use, or SLJIT_R3).  In these cases the code is wrong, see below. -/
theorem c46_op2_partial {win : Bool} {op : RV.Op} (hop : isOp2 op.code = true) (hf : op.flagOk) {dst src1 src2 : Opd} (hd : Dest dst) (h1 : Src src1) (h2 : Src src2)
    (h3 : shiftLike op.code = false → ∀ d, dst = .reg d → dst ≠ src1 → ¬ reads src2 d)
    (h4 : shiftLike op.code = true → far src2 → ∃ d, dst = .reg d ∧ (d = 4 ∨ ¬ reads src2 d)) : Op2At win op dst src1 src2 := by
  intro s cin hc
  have hs : Safe op.code dst src1 src2 := by
    rw [Safe, shift_iff]
    split
    next h =>
      intro hl
      obtain ⟨d, rfl, hd'⟩ := h4 h (by by_contra hn; rw [far_long hn] at hl; cases hl)
      refine ⟨d, rfl, ?_, hd'.imp id reads_dep⟩
      have := hd.2; unfold TMP_REG1; omega
    next h => exact fun d e hne => reads_dep (h3 (by simpa using h) d e hne)
  obtain ⟨x, f, e, p⟩ := e_op2 (win := win) (s := s) hop hf (dest_dst hd) (src_user h1) (src_user h2) hs hc
  exact finish e (fun d e => by cases e; have := hd.1; have := hd.2; omega) p

/-- sljit_emit_op2u; missing: shifts by a memory operand with a far address, where the code is wrong. -/
theorem c46_op2u_partial {win : Bool} {op : RV.Op} (hop : isOp2 op.code = true) (hf : op.flagOk) {src1 src2 : Opd} (h1 : Src src1) (h2 : Src src2)
    (h4 : shiftLike op.code = true → ¬ far src2) : Op2uAt win op src1 src2 := by
  intro s cin hc
  by_cases hsub : op.code = .sub
  · have : emitOp2u win op src1 src2 = cmpBinary win op.is32 src1 src2 := by simp only [emitOp2u, hsub]
    rw [this]
    have hB : 0 < B op.is32 := by cases op.is32 <;> decide
    exact finish (e_cmp (src_user h1).good ((src_user h1).ne (by decide)) (src_user h2) (aluN_of rfl)) (fun d e => by cases e) (post_sub hsub hB _ _ cin)
  by_cases hand : op.code = .and
  · have : emitOp2u win op src1 src2 = testBinary win op.is32 src1 src2 := by simp only [emitOp2u, hand]
    rw [this]
    exact finish (e_testBinary (src_user h1) (src_user h2) (aluN_of rfl)) (fun d e => by cases e) (post_log (Or.inl hand) hf _ _ cin _ (by rw [hand]; rfl))
  have he : emitOp2u win op src1 src2 = emitOp2 win op (.reg TMP_REG1) src1 src2 := by
    unfold emitOp2u
    split
    next h => exact absurd h hsub
    next h => exact absurd h hand
    next => rfl
  rw [he]
  have hs : Safe op.code (.reg TMP_REG1) src1 src2 := by
    rw [Safe, shift_iff]
    split
    next h => intro hl; rw [far_long (h4 h)] at hl; cases hl
    next h =>
      intro d e _
      cases e
      refine reads_dep ?_
      cases src2 with
      | reg _ => exact id
      | imm _ => exact id
      | mem base offs w => obtain ⟨q1, q2, -⟩ := h2; simp only [reads, TMP_REG1]; omega
  obtain ⟨x, f, e, p⟩ := e_op2 (win := win) (s := s) hop hf (dst := .reg TMP_REG1) ⟨by decide, by decide, by decide⟩ (src_user h1) (src_user h2) hs hc
  obtain ⟨bs, s', q1, q2, q3, q4⟩ := finish e (fun d e => by cases e; exact ⟨by decide, by decide⟩) p
  exact ⟨bs, s', q1, q2, q3.drop, q4⟩

/-- sljit_emit_op2r with SLJIT_MULADD: the product is added to the destination, for all operands. -/
theorem c46_muladd (win m32 : Bool) {dst : Nat} (hd : Dest (.reg dst)) {src1 src2 : Opd} (h1 : Src src1) (h2 : Src src2) (s : St) :
    ∃ bs s', emitMulAdd win m32 dst src1 src2 = some bs ∧ Steps bs s s' ∧
      Written win s s' (some (.reg dst)) (value win s (if m32 then 32 else 64) (.reg dst) +
        value win s (if m32 then 32 else 64) src1 * value win s (if m32 then 32 else 64) src2) := by
  have hw : (if m32 then 32 else 64) = B m32 := by cases m32 <;> rfl
  have hdep : dependsOn src2 TMP_REG1 = false := by
    cases src2 with
    | reg _ => rfl
    | imm _ => rfl
    | mem base offs w => obtain ⟨q1, q2, -⟩ := h2; simp [dependsOn, TMP_REG1]; omega
  have E1 : Eff win m32 (emitMul win m32 (.reg TMP_REG1) src1 src2) s (some (.reg TMP_REG1)) (up m32 (mulF (lo m32 (opv win m32 s src1)) (lo m32 (opv win m32 s src2))).1) true true
      (mulF (lo m32 (opv win m32 s src1)) (lo m32 (opv win m32 s src2))).2 :=
    e_mul (s := s) (dst := .reg TMP_REG1) ⟨by decide, by decide, by decide⟩ (src_user h1) (src_user h2) (fun d e _ => by cases e; exact Or.inl hdep) (mulN_of _ _)
  generalize hx : (mulF (lo m32 (opv win m32 s src1)) (lo m32 (opv win m32 s src2))).1 = x at E1
  generalize (mulF (lo m32 (opv win m32 s src1)) (lo m32 (opv win m32 s src2))).2 = f1 at E1
  have hg : Good (.reg dst) := (src_user (b := .reg dst) hd).good
  have ht : dst ≠ TMP_REG1 := by have := hd.2; unfold TMP_REG1; omega
  have E2 : ∃ f, Eff win m32 (emitMulAdd win m32 dst src1 src2) s (some (.reg dst)) (up m32 (lo m32 (opv win m32 s (.reg dst)) + x)) true true f := by
    refine ⟨(addF (lo m32 (opv win m32 s (.reg dst))) x false).2, ?_⟩
    refine Eff.weaken (Eff.comp E1 (fun s1 r1 hf1 => ?_) (fun d e => by cases e; exact hg) (Or.inl rfl) (b1 := false) (b2 := false)) (fun h => by cases h) (fun h => by cases h)
    have : Eff win m32 (ins win m32 {} (.reg TMP_REG1) (.reg dst) [(binOf 0#3).mr]) s1 (adst 0#3 (.reg dst))
        (up m32 (addF (lo m32 (opv win m32 s (.reg dst))) x false).1) false false (addF (lo m32 (opv win m32 s (.reg dst))) x false).2 := by
      refine e_mr hg rfl (fun h => by cases h) (aluN_of ?_)
      rw [r1.val _ rfl, lo_trunc, lo_up, r1.opv hg (fun d e => ?_) (fun _ e => ht (by cases e; rfl)) (fun _ e => ?_)]
      · rfl
      · cases e; exact ⟨_, rfl, by decide, by decide, by simp [uses, ht]⟩
      · cases e; have := hd.2; exact absurd this (by decide)
    have hv : (addF (lo m32 (opv win m32 s (.reg dst))) x false).1 = lo m32 (opv win m32 s (.reg dst)) + x := by simp [addF]
    rw [hv] at this
    exact this
  obtain ⟨f, s', ⟨bs, hbs, hst⟩, r, -⟩ := E2
  refine ⟨bs, s', hbs, hst, ?_⟩
  rw [hw, value_lo, value_lo, value_lo]
  have := written r (fun d e => by cases e; have := hd.1; have := hd.2; omega)
  rw [← hx] at this
  exact this

/-- sljit_emit_shift_into, for all operands which the API allows (the destination and src2 have to be different); what is missing: a constant zero count when
the destination is not src1, a count in memory whose address uses the destination register
(unless this is src1 or SLJIT_R3, or a rotation with a near address), and src1 = SLJIT_R3 (rcx) with the count in the destination.  In
these cases the code is wrong, see below. -/
theorem c46_shift_into_partial {win m32 left : Bool} {dst src1 src2 : Nat} {src3 : Opd} (hd : Dest (.reg dst)) (h1 : Src (.reg src1)) (h2 : Src (.reg src2)) (h3 : Src src3) (hds : dst ≠ src2)
    (h4 : ∀ u, src3 = .imm u → u.toNat % (if m32 then 32 else 64) = 0 → dst = src1)
    (h5 : dst ≠ src1 → dst ≠ 4 → src1 ≠ src2 ∨ far src3 → ¬ reads src3 dst) (h6 : src1 = 4 → src1 ≠ src2 → dst ≠ src1 → src3 ≠ .reg dst) : IntoAt win m32 left dst src1 src2 src3 := by
  intro s
  have hw : (if m32 then 32 else 64) = B m32 := by cases m32 <;> rfl
  rw [hw]
  have hv : ∀ x y : BitVec (B m32), ∀ n, n < B m32 → (dblF left x y n ⟨none, none, none, none⟩).1 = into left x y n := by
    intro x y n hn
    unfold dblF into
    by_cases e : n = 0
    · subst e
      rw [if_pos rfl]
      have hB : 0 < B m32 := by cases m32 <;> decide
      cases left
      · simp only [Bool.false_eq_true, if_false]
        rw [← BitVec.shiftLeft_add, BitVec.shiftLeft_eq_zero (by omega)]; simp
      · simp only [if_true]
        rw [← BitVec.shiftRight_add, BitVec.ushiftRight_eq_zero (by omega)]; simp
    · rw [if_neg e]
      cases left
      · simp only [Bool.false_eq_true, if_false]
        rw [← BitVec.shiftLeft_add, show 1 + (B m32 - 1 - n) = B m32 - n by omega]
      · simp only [if_true]
        rw [← BitVec.shiftRight_add, show 1 + (B m32 - 1 - n) = B m32 - n by omega]
  have fin : (∃ s', Emits (emitShiftInto win m32 left dst src1 src2 src3) s s' ∧
      Res win m32 s s' (some (.reg dst)) (dblV m32 left (s.r (num win src1)) (s.r (num win src2)) (cnt m32 (opv win m32 s src3))) true true) →
      ∃ bs s', emitShiftInto win m32 left dst src1 src2 src3 = some bs ∧ Steps bs s s' ∧
        Written win s s' (some (.reg dst)) (into left (value win s (B m32) (.reg src1)) (value win s (B m32) (.reg src2)) ((value win s (B m32) src3).toNat % B m32)) := by
    rintro ⟨s', ⟨bs, e, st⟩, r⟩
    refine ⟨bs, s', e, st, ?_⟩
    rw [value_lo, value_lo, value_lo, opv.eq_1, opv.eq_1, lo_trunc, lo_trunc, ← cnt_lo, ← hv _ _ _ (by rw [B_W]; exact cnt_lt m32 _)]
    exact written r (fun d e => by cases e; have := hd.1; have := hd.2; omega)
  by_cases hz : ∃ u, src3 = .imm u ∧ u.toNat % B m32 = 0
  · obtain ⟨u, rfl, hu⟩ := hz
    have e := h4 u rfl (by rw [hw]; exact hu)
    subst e
    have hc : cnt m32 u = 0 := by rw [cnt, ← B_W]; exact hu
    refine ⟨[], s, ?_, Steps.nil s, fun _ _ _ _ => rfl, fun d e => ?_, fun _ _ _ e => (by cases e), fun _ => rfl⟩
    · have : maskCount m32 (.imm u) = .imm 0#64 := by
        rw [maskCount]; congr 1; exact BitVec.eq_of_toNat_eq (by rw [mask_cnt, hc]; rfl)
      simp only [emitShiftInto, this, if_true]
    · cases e
      rw [show (value win s (B m32) (.imm u)).toNat % B m32 = 0 by rw [value_lo, ← cnt_lo, opv.eq_2, cnt_trunc, hc], ← hv _ _ 0 (by cases m32 <;> decide)]
      rfl
  have h0 : ∀ u, src3 = .imm u → cnt m32 u ≠ 0 := fun u e hc => hz ⟨u, e, by rw [B_W]; exact hc⟩
  apply fin
  by_cases h12 : src1 = src2
  · subst h12
    refine e_intoRot hd h1 (src_user h3) h0 (fun hl => ?_)
    by_cases e : dst = 4
    · exact Or.inl e
    · exact Or.inr (reads_dep (h5 hds e (Or.inr (by by_contra hn; rw [far_long hn] at hl; cases hl))))
  · exact e_into hd h1 h2 hds h12 (src_user h3) h0 (fun a b => reads_dep (h5 a b (Or.inl h12))) (fun a b => h6 a h12 b)

/-! ## The hypotheses are met -/

example : IntoAt false true true 1 1 4 (.mem 1 3 2#64) :=
  c46_shift_into_partial ⟨by decide, by decide⟩ ⟨by decide, by decide⟩ ⟨by decide, by decide⟩ ⟨by decide, by decide, by decide⟩ (by decide) (fun u e => by cases e)
    (fun h => absurd rfl h) (fun h => by cases h)

example : IntoAt true false false 4 2 3 (.mem 4 0 0x123456789ab#64) :=
  c46_shift_into_partial ⟨by decide, by decide⟩ ⟨by decide, by decide⟩ ⟨by decide, by decide⟩ ⟨by decide, by decide, by decide⟩ (by decide) (fun u e => by cases e)
    (fun _ h => absurd rfl h) (fun h => by cases h)

example : IntoAt false false true 1 4 4 (.mem 1 0 8#64) :=
  c46_shift_into_partial ⟨by decide, by decide⟩ ⟨by decide, by decide⟩ ⟨by decide, by decide⟩ ⟨by decide, by decide, by decide⟩ (by decide) (fun u e => by cases e)
    (fun _ _ h => (h.elim (fun h => absurd rfl h) (fun h => absurd (show (-2 ^ 31 ≤ (8#64).toInt ∧ (8#64).toInt < 2 ^ 31) by decide) h))) (fun _ h => absurd rfl h)


example : Op2At false ⟨.sub, true, true, .sigLess⟩ (.mem 14 0 16#64) (.reg 3) (.mem 1 2 3#64) :=
  c46_op2_partial (op := ⟨.sub, true, true, .sigLess⟩) rfl trivial ⟨by decide, by decide, by decide⟩ ⟨by decide, by decide⟩ ⟨by decide, by decide, by decide⟩ (fun _ d e => by cases e) (fun h => by cases h)

example : Op2At true ⟨.add, false, false, .carry⟩ (.reg 1) (.reg 1) (.mem 1 0 0x123456789ab#64) :=
  c46_op2_partial (op := ⟨.add, false, false, .carry⟩) rfl (Or.inr (Or.inr rfl)) ⟨by decide, by decide⟩ ⟨by decide, by decide⟩ ⟨by decide, by decide, by decide⟩ (fun _ d _ h => absurd rfl h) (fun h => by cases h)

example : Op2At false ⟨.shl, false, true, .none⟩ (.reg 2) (.reg 5) (.mem 1 0 0x123456789ab#64) :=
  c46_op2_partial (op := ⟨.shl, false, true, .none⟩) rfl rfl ⟨by decide, by decide⟩ ⟨by decide, by decide⟩ ⟨by decide, by decide, by decide⟩ (fun h => by cases h)
    (fun _ _ => ⟨2, rfl, Or.inr (by simp [reads])⟩)

example : Op2uAt false ⟨.rotl, true, false, .none⟩ (.mem 3 0 8#64) (.reg 2) :=
  c46_op2u_partial (op := ⟨.rotl, true, false, .none⟩) rfl ⟨rfl, rfl⟩ ⟨by decide, by decide, by decide⟩ ⟨by decide, by decide⟩ (fun _ h => h)

/-! ## Where the code is wrong -/

/-- The state after the whole code is determined. -/
theorem outcome {α : Type} {bs : List Byte} {s : St} {g : St → α} {y : α} (k : Nat) (h : (run k bs s).map (fun p => (p.1, g p.2)) = some ([], y)) {s' : St} (hs : Steps bs s s') : g s' = y := by
  obtain ⟨n, hn⟩ := hs
  have e : ∀ m, run (m + 1) [] s' = none := fun m => rfl
  by_cases hk : n ≤ k
  · obtain ⟨d, rfl⟩ := Nat.exists_eq_add_of_le hk
    have := hn d []
    rw [List.append_nil] at this
    rw [this] at h
    cases d with
    | zero => simp only [run, Option.map_some, Option.some.injEq, Prod.mk.injEq] at h; exact h.2
    | succ d => rw [e] at h; cases h
  · exfalso
    have h0 : run n bs s = some ([], s') := by have := hn 0 []; simpa [run] using this
    obtain ⟨d, rfl⟩ := Nat.exists_eq_add_of_lt (Nat.lt_of_not_le hk)
    have split : ∀ k d (bs : List Byte) s, run (k + d) bs s = (run k bs s).bind fun p => run d p.1 p.2 := by
      intro k
      induction k with
      | zero => intro d bs s; simp [run]
      | succ k ih =>
        intro d bs s
        rw [Nat.add_right_comm]
        simp only [run]
        cases parse bs with
        | none => rfl
        | some p =>
          simp only [Option.bind_some]
          cases exec p.1 s with
          | none => rfl
          | some s1 => simp only [Option.bind_some, ih]
    rw [show k + d + 1 = k + (d + 1) from rfl, split] at h0
    cases hr : run k bs s with
    | none => rw [hr] at h; cases h
    | some p =>
      rw [hr] at h h0
      simp only [Option.map_some, Option.some.injEq, Prod.mk.injEq] at h
      simp only [Option.bind_some, h.1, run, parse, Option.bind_none] at h0
      cases h0

/-- A state: R0 (rax) = 16, R1 (rsi) = 1, R2 (rdi) = 2, R3 (rcx) = 3, and the byte 5 at address 16 and 0x123456789ab. -/
def st : St where
  r q := if q = 0#4 then 16#64 else if q = 6#4 then 1#64 else if q = 7#4 then 2#64 else if q = 1#4 then 3#64 else 0#64
  m a := if a = 16#64 ∨ a = 0x123456789ab#64 then 5#8 else 0#8
  f := ⟨none, none, none, none⟩

/-- R0 = R1 + [R0]: emit_cum_binary moves R1 to R0 before R0 is used as address (sljitNativeX86_common.c:2108-2121), so 1 + [1] = 1 is
computed instead of 1 + 5. -/
theorem c46_add_false : ¬ Op2At false ⟨.add, false, false, .none⟩ (.reg 1) (.reg 2) (.mem 1 0 0#64) := by
  intro h
  obtain ⟨bs, s', hb, hs, hw, -⟩ := h st false (by rintro (h | h) <;> cases h)
  have e : emitOp2 false ⟨.add, false, false, .none⟩ (.reg 1) (.reg 2) (.mem 1 0 0#64) = some [0x48#8, 0x89#8, 0xf0#8, 0x48#8, 0x03#8, 0x00#8] := by decide
  rw [e] at hb
  cases hb
  have := outcome (g := fun s => s.r 0#4) (y := 1#64) 2 (by decide +kernel) hs
  have hv := hw.reg 1 rfl
  rw [show mreg false 1 = 0#4 by decide] at hv
  simp only [this] at hv
  exact absurd hv (by decide +kernel)

/-- R0 = R1 - [R0], the same in emit_non_cum_binary (sljitNativeX86_common.c:2184-2196). -/
theorem c46_sub_false : ¬ Op2At false ⟨.sub, true, true, .none⟩ (.reg 1) (.reg 2) (.mem 1 0 0#64) := by
  intro h
  obtain ⟨bs, s', hb, hs, hw, -⟩ := h st false (by rintro (h | h) <;> cases h)
  have e : emitOp2 false ⟨.sub, true, true, .none⟩ (.reg 1) (.reg 2) (.mem 1 0 0#64) = some [0x89#8, 0xf0#8, 0x2b#8, 0x00#8] := by decide
  rw [e] at hb
  cases hb
  have := outcome (g := fun s => s.r 0#4) (y := 1#64) 2 (by decide +kernel) hs
  have hv := hw.reg 1 rfl
  rw [show mreg false 1 = 0#4 by decide] at hv
  simp only [this] at hv
  exact absurd hv (by decide +kernel)

/-- R0 = R1 * [R0]: emit_mul computes the product in TMP_REG1, but moves it to the destination only if that is a memory operand
(sljitNativeX86_common.c:2307-2317): R0 is still 16. -/
theorem c46_mul_false : ¬ Op2At false ⟨.mul, false, false, .none⟩ (.reg 1) (.reg 2) (.mem 1 0 0#64) := by
  intro h
  obtain ⟨bs, s', hb, hs, hw, -⟩ := h st false (by rintro (h | h) <;> cases h)
  have e : emitOp2 false ⟨.mul, false, false, .none⟩ (.reg 1) (.reg 2) (.mem 1 0 0#64) = some [0x48#8, 0x89#8, 0xf2#8, 0x48#8, 0x0f#8, 0xaf#8, 0x10#8] := by decide
  rw [e] at hb
  cases hb
  have := outcome (g := fun s => s.r 0#4) (y := 16#64) 2 (by decide +kernel) hs
  have hv := hw.reg 1 rfl
  rw [show mreg false 1 = 0#4 by decide] at hv
  simp only [this] at hv
  exact absurd hv (by decide +kernel)

/-- [R1] = R2 << [0x123456789ab]: emit_shift keeps SLJIT_R3 (rcx) in TMP_REG2 (sljitNativeX86_common.c:2622-2640), but the address of the count is
also loaded into TMP_REG2: afterwards SLJIT_R3 is that address. -/
theorem c46_shift_false : ¬ Op2At false ⟨.shl, false, false, .none⟩ (.mem 2 0 0#64) (.reg 3) (.mem 0 0 0x123456789ab#64) := by
  intro h
  obtain ⟨bs, s', hb, hs, hw, -⟩ := h st false (by rintro (h | h) <;> cases h)
  have e : (emitOp2 false ⟨.shl, false, false, .none⟩ (.mem 2 0 0#64) (.reg 3) (.mem 0 0 0x123456789ab#64)).bind
      (fun bs => (run 7 bs st).map fun p => (p.1, p.2.r 1#4)) = some ([], 0x123456789ab#64) := by decide +kernel
  rw [hb, Option.bind_some] at e
  have := outcome (g := fun s => s.r 1#4) 7 e hs
  have hv := hw.keep 4 (by decide) (by decide) (by decide)
  rw [show mreg false 4 = 1#4 by decide] at hv
  simp only [this] at hv
  exact absurd hv (by decide +kernel)

/-- The same in sljit_emit_op2u, where the destination is TMP_REG1: a shift which sets only flags changes SLJIT_R3. -/
theorem c46_op2u_shift_false : ¬ Op2uAt false ⟨.shl, false, true, .none⟩ (.reg 3) (.mem 0 0 0x123456789ab#64) := by
  intro h
  obtain ⟨bs, s', hb, hs, hw, -⟩ := h st false (by rintro (h | h) <;> cases h)
  have e : (emitOp2u false ⟨.shl, false, true, .none⟩ (.reg 3) (.mem 0 0 0x123456789ab#64)).bind
      (fun bs => (run 7 bs st).map fun p => (p.1, p.2.r 1#4)) = some ([], 0x123456789ab#64) := by decide +kernel
  rw [hb, Option.bind_some] at e
  have := outcome (g := fun s => s.r 1#4) 7 e hs
  have hv := hw.keep 4 (by decide) (by decide) (by decide)
  rw [show mreg false 4 = 1#4 by decide] at hv
  simp only [this] at hv
  exact absurd hv (by decide +kernel)

/-- R0 = R1 << 0, R2 shifted in: nothing is emitted for a constant zero count (sljitNativeX86_common.c:2866-2867), so R0 is still 16. -/
theorem c46_into_zero_false : ¬ IntoAt false false true 1 2 3 (.imm 0#64) := by
  intro h
  obtain ⟨bs, s', hb, hs, hw⟩ := h st
  have e : emitShiftInto false false true 1 2 3 (.imm 0#64) = some [] := by decide
  rw [e] at hb
  cases hb
  have := outcome (g := fun s => s.r 0#4) (y := 16#64) 0 (by decide +kernel) hs
  have hv := hw.reg 1 rfl
  rw [show mreg false 1 = 0#4 by decide] at hv
  simp only [this] at hv
  exact absurd hv (by decide +kernel)

/-- R0 = R1 << [R0], R2 shifted in: R1 is moved to R0 before R0 is used as address (sljitNativeX86_common.c:2926-2932, 2959). -/
theorem c46_into_mem_false : ¬ IntoAt false false true 1 2 3 (.mem 1 0 0#64) := by
  intro h
  obtain ⟨bs, s', hb, hs, hw⟩ := h st
  have e : (emitShiftInto false false true 1 2 3 (.mem 1 0 0#64)).bind (fun bs => (run 5 bs st).map fun p => (p.1, p.2.r 0#4)) = some ([], 1#64) := by decide +kernel
  rw [hb, Option.bind_some] at e
  have := outcome (g := fun s => s.r 0#4) 5 e hs
  have hv := hw.reg 1 rfl
  rw [show mreg false 1 = 0#4 by decide] at hv
  simp only [this] at hv
  exact absurd hv (by decide +kernel)

/-- R0 = R3 << R0, R1 shifted in: R3 is SLJIT_PREF_SHIFT_REG, which is overwritten by the count before it is moved to R0
(sljitNativeX86_common.c:2959-2966): 16 << 16 is computed instead of 3 << 16. -/
theorem c46_into_rcx_false : ¬ IntoAt false false true 1 4 2 (.reg 1) := by
  intro h
  obtain ⟨bs, s', hb, hs, hw⟩ := h st
  have e : (emitShiftInto false false true 1 4 2 (.reg 1)).bind (fun bs => (run 5 bs st).map fun p => (p.1, p.2.r 0#4)) = some ([], 0x100000#64) := by decide +kernel
  rw [hb, Option.bind_some] at e
  have := outcome (g := fun s => s.r 0#4) 5 e hs
  have hv := hw.reg 1 rfl
  rw [show mreg false 1 = 0#4 by decide] at hv
  simp only [this] at hv
  exact absurd hv (by decide +kernel)

end Verif.Props.C46
