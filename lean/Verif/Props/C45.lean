import Verif.A32.Into
import Verif.Props.C37

/-!
# C45: ARM32 binary operations

sljit_emit_op2, sljit_emit_op2u, sljit_emit_op2r and sljit_emit_shift_into (sljitNativeARM_32.c:2502-2640) with emit_op, emit_single_op,
emit_op_mem, load_immediate and get_cc below them (A32/Ops.lean, Imm/Arm32.lean).  The instruction words are decoded and executed by `step`
(A32/Arch.lean), which is written from the ARM architecture manual; `runs` also executes loads from the constant pool.
-/

namespace Verif.Props.C45
open Verif.A32
open Verif.Imm.A32 (expand)
open Verif.Imm.Arm32 (regMap TMP_REG1 getImm computeImm Item getImm_sound computeImm_sound)
open Verif (RV.Op RV.OpC RV.Flag RV.val RV.flagVal RV.Op.flagOk)

/-! ## Specification -/

/-- Source operands of the API: SLJIT_R0.. (1-12), constants, [base + displacement] (the base may be SLJIT_SP, 13, or absent) and
[base + (offset << shift)] (sljitLir.c:987-1019). -/
def Src : Opd → Prop
  | .reg r => 1 ≤ r ∧ r ≤ 12
  | .mem base offs w => base ≤ 13 ∧ offs ≤ 12 ∧ (offs ≠ 0 → base ≠ 0 ∧ w.toNat < 4)
  | .imm _ => True

/-- Destinations of the API. -/
def Dest : Opd → Prop
  | .imm _ => False
  | b => Src b

/-- The address of a memory operand. -/
def addr (s : St) (base offs : Nat) (w : BitVec 32) : BitVec 32 :=
  (if base = 0 then 0#32 else s.r (regMap base)) + if offs = 0 then w else s.r (regMap offs) <<< w.toNat

/-- The value of an operand. -/
def value (s : St) : Opd → BitVec 32
  | .reg r => s.r (regMap r)
  | .imm v => v
  | .mem base offs d => rd s.m (addr s base offs d) 4

/-- s' is s after writing x to dst (`none`: no destination): nothing else changes in the memory and in the registers of the user and the
stack pointer (13). -/
structure Written (s s' : St) (dst : Option Opd) (x : BitVec 32) : Prop where
  keep : ∀ q, 1 ≤ q → q ≤ 13 → dst ≠ some (.reg q) → s'.r (regMap q) = s.r (regMap q)
  reg : ∀ d, dst = some (.reg d) → s'.r (regMap d) = x
  mem : ∀ base offs d, dst = some (.mem base offs d) → s'.m = wr s.m (addr s base offs d) x 4
  same : (∀ base offs d, dst ≠ some (.mem base offs d)) → s'.m = s.m

/-- The variable flag which enables a condition (sljitLir.h:1563-1606). -/
def flagOf : JT → RV.Flag
  | .equal => .none
  | .less => .less
  | .greater => .greater
  | .sigLess => .sigLess
  | .sigGreater => .sigGreater
  | .overflow => .overflow
  | .carry => .carry

/-- Every condition which the operation enables has the specified truth value: the condition field which get_cc returns after the operation
(`stateAfter`), judged by the machine.  `old` is the flag state before the operation. -/
def CondsOk (op : RV.Op) (a b : BitVec 32) (cin : Bool) (s : St) : Prop :=
  ∀ old,
    (op.setZ = true → ∀ neg, condOk (getCc (stateAfter op.code old) .equal neg) s = some (decide (RV.val op.code a b cin = 0#32) ^^ neg)) ∧
    (op.flag ≠ .none → ∀ t neg, flagOf t = op.flag → condOk (getCc (stateAfter op.code old) t neg) s = some (RV.flagVal op.code op.flag a b cin ^^ neg))

/-- The carry flag before ADDC and SUBC: what the condition SLJIT_CARRY tells after ADD(C), SUB(C). -/
def CarryIs (op : RV.Op) (s : St) (cin : Bool) : Prop :=
  (op.code = .addc → condOk (getCc .add .carry false) s = some cin) ∧ (op.code = .subc → condOk (getCc .sub .carry false) s = some cin)

/-- SHL, LSHR and ASHR are defined for counts below 32 only, if the count is not a constant (sljitLir.h:1267-1289). -/
def CountIs (op : RV.OpC) (src2 : Opd) (s : St) : Prop :=
  op = .shl ∨ op = .lshr ∨ op = .ashr → (∀ w, src2 ≠ .imm w) → (value s src2).toNat < 32

/-- The claim about sljit_emit_op2: code is emitted, it runs to its end from every state, writes the result to the destination and nothing else
which the user can see, and sets the requested flags. -/
def Op2At (v6 : Bool) (op : RV.Op) (dst src1 src2 : Opd) : Prop :=
  ∀ (s : St) (cin : Bool), CarryIs op s cin → CountIs op.code src2 s →
    ∃ is s', emitOp2 v6 op dst src1 src2 = some is ∧ runs is s = some s' ∧
      Written s s' (some dst) (RV.val op.code (value s src1) (value s src2) cin) ∧ CondsOk op (value s src1) (value s src2) cin s'

/-- The claim about sljit_emit_op2u: only the flags. -/
def Op2uAt (v6 : Bool) (op : RV.Op) (src1 src2 : Opd) : Prop :=
  ∀ (s : St) (cin : Bool), CarryIs op s cin → CountIs op.code src2 s →
    ∃ is s', emitOp2u v6 op src1 src2 = some is ∧ runs is s = some s' ∧
      Written s s' none (RV.val op.code (value s src1) (value s src2) cin) ∧ CondsOk op (value s src1) (value s src2) cin s'

/-- The result of sljit_emit_shift_into (sljitLir.h:1430-1443) for the count n < 32. -/
def into (left : Bool) (x y : BitVec 32) (n : Nat) : BitVec 32 :=
  if left then (x <<< n) ||| ((y >>> 1) >>> (31 - n)) else (x >>> n) ||| ((y <<< 1) <<< (31 - n))

/-- The claim about sljit_emit_shift_into (`masked`: SLJIT_MSHL and SLJIT_MLSHR). -/
def IntoAt (v6 left masked : Bool) (dst src1 src2 : Nat) (src3 : Opd) : Prop :=
  ∀ s : St, (masked = false → (∀ w, src3 ≠ .imm w) → (value s src3).toNat < 32) →
    ∃ is s', emitShiftInto v6 left masked dst src1 src2 src3 = some is ∧ runs is s = some s' ∧
      Written s s' (some (.reg dst)) (into left (s.r (regMap src1)) (s.r (regMap src2)) ((value s src3).toNat % 32))

/-- A modified immediate constant of ARM. -/
def Enc (x : BitVec 32) : Prop := ∃ f, expand f = x
/-- A number with two disjoint parts which are modified immediate constants. -/
def Split (x : BitVec 32) : Prop := ∃ f g, expand f ||| expand g = x ∧ expand f &&& expand g = 0#32

/-- Constant operands where the code is wrong, see below, and some more with such constants. -/
structure Odd (op : RV.Op) (src1 src2 : Opd) : Prop where
  dbl2 : op.code = .addc ∨ op.code = .subc → op.setZ = false → op.flag = .none → ∀ w, src2 = .imm w → Enc w ∨ Enc (~~~ w) ∨ ¬ Split (-w)
  one1 : op.code = .addc → ∀ w, src1 = .imm w → Enc w ∨ ¬ Enc (-w) ∧ (op.flag ≠ .none ∨ ¬ Split (-w))
  xor : op.code = .xor → src1 = .imm (-1#32) → ∀ w, src2 = .imm w → Enc w ∨ ¬ Enc (~~~ w) ∨ w = -1#32

/-! ## Helper facts -/

theorem src_usr {b : Opd} (h : Src b) : Usr b := by
  cases b with
  | reg r => exact ⟨h.1, by have := h.2; omega⟩
  | imm _ => trivial
  | mem base offs w => exact ⟨h.1, by have := h.2.1; omega, h.2.2⟩

theorem dest_dst {b : Opd} (h : Dest b) : DstOk b := by
  cases b with
  | imm _ => exact h
  | reg r => exact ⟨h.1, by have := h.2; omega⟩
  | mem base offs w => exact src_usr (b := .mem base offs w) h

theorem value_ov (s : St) (b : Opd) : value s b = ov s b := by cases b <;> rfl

theorem enc_get (x : BitVec 32) : Enc x ↔ getImm x ≠ 0#32 := by
  refine ⟨fun ⟨f, e⟩ => ?_, fun h => ⟨_, (getImm_sound h).2⟩⟩
  rw [← e]; exact C37.c37_arm32_complete f

theorem split_compute {x : BitVec 32} (h : ¬ Split x) : computeImm x = none := by
  cases e : computeImm x with
  | none => rfl
  | some i => exact absurd ⟨_, _, (computeImm_sound e).2.2.1, (computeImm_sound e).2.2.2⟩ h

theorem safe {op : RV.Op} {src1 src2 : Opd} (h : Odd op src1 src2) : Safe op (hasFlags op) src1 src2 := by
  have hz : ∀ x, getImm x = 0#32 → ¬ Enc x := fun x e h => (enc_get x).1 h e
  refine ⟨fun ho hs w e e1 e2 => ?_, fun ho w e e1 => ?_, fun ho hs w e e1 => ?_, fun ho e w e2 e3 e4 => ?_⟩
  · simp only [hasFlags, Bool.or_eq_false_iff, decide_eq_false_iff_not, not_not] at hs
    rcases h.dbl2 ho hs.1 hs.2 w e with h | h | h
    · exact absurd h (hz _ e1)
    · exact absurd h (hz _ e2)
    · exact split_compute h
  · rcases h.one1 ho w e with h | h
    · exact absurd h (hz _ e1)
    · by_contra hn; exact h.1 ((enc_get _).2 hn)
  · simp only [hasFlags, Bool.or_eq_false_iff, decide_eq_false_iff_not, not_not] at hs
    rcases h.one1 ho w e with h | ⟨-, h | h⟩
    · exact absurd h (hz _ e1)
    · exact absurd hs.2 h
    · exact split_compute h
  · rcases h.xor ho e w e2 with h | h | h
    · exact absurd h (hz _ e3)
    · exact absurd ((enc_get _).2 e4) h
    · exact h

theorem carry_in {op : RV.Op} {s : St} {cin : Bool} (h : CarryIs op s cin) : CarryIn op s cin := by
  refine ⟨fun e => ?_, fun e => ?_⟩
  · exact Option.some.inj (h.1 e)
  · have : (!s.c) = cin := Option.some.inj (h.2 e)
    rw [← this, Bool.not_not]

theorem conds {op : RV.Op} {a b : BitVec 32} {cin : Bool} {s : St} (hf : op.flagOk) (ho : isOp2 op.code = true) (h : FlagsOk op a b cin s.n s.z s.c s.v) : CondsOk op a b cin s := by
  intro old
  refine ⟨fun hz neg => ?_, fun hfl t neg ht => ?_⟩
  · cases neg <;> simp [getCc, condOk, h.zero hz]
  · obtain ⟨code, is32, setZ, flag⟩ := op
    cases t <;> simp only [flagOf] at ht <;> subst ht
    · exact absurd rfl hfl
    all_goals cases code <;> first | (simp [RV.Op.flagOk] at hf; done) | (simp [isOp2, isAlu, isShift] at ho; done) | skip
    · have := h.less rfl rfl
      cases neg <;> simp [getCc, condOk, stateAfter, RV.flagVal, this]
    · have := h.greater rfl rfl
      cases neg <;> simp only [getCc, condOk, stateAfter, RV.flagVal, ← this] <;> cases s.c <;> cases s.z <;> rfl
    · have := h.sigLess rfl rfl
      cases neg <;> simp only [getCc, condOk, stateAfter, RV.flagVal, ← this] <;> cases s.n <;> cases s.v <;> rfl
    · have := h.sigGreater rfl rfl
      cases neg <;> simp only [getCc, condOk, stateAfter, RV.flagVal, ← this] <;> cases s.n <;> cases s.v <;> cases s.z <;> rfl
    · have := h.ovf rfl (Or.inl rfl)
      cases neg <;> simp [getCc, condOk, stateAfter, this]
    · have := h.ovf rfl (Or.inr rfl)
      cases neg <;> simp [getCc, condOk, stateAfter, this]
    · have := h.ovfM rfl rfl
      cases neg <;> simp [getCc, condOk, stateAfter, this]
    · have := h.carryA rfl (Or.inl rfl)
      cases neg <;> simp [getCc, condOk, stateAfter, this]
    · have := h.carryA rfl (Or.inr rfl)
      cases neg <;> simp [getCc, condOk, stateAfter, this]
    · have := h.carryS rfl (Or.inl rfl)
      cases neg <;> simp [getCc, condOk, stateAfter, this]
    · have := h.carryS rfl (Or.inr rfl)
      cases neg <;> simp [getCc, condOk, stateAfter, this]

theorem written {s s' : St} {dst : Opd} {x : BitVec 32} {set : Bool} {F : Bool → Bool → Bool → Bool → Prop} (h : Fin s s' dst x set F) (hd : Dest dst) : Written s s' (some dst) x := by
  refine ⟨fun q h1 h2 h3 => ?_, fun d e => ?_, fun base offs d e => ?_, fun hn => ?_⟩
  · refine h.keep _ (usr_reg h2).1 (usr_reg h2).2.1 (fun d e => ?_)
    subst e
    exact regMap_inj ⟨h1, by omega⟩ ⟨hd.1, by have := hd.2; omega⟩ (fun e => h3 (by rw [e]))
  · cases e
    refine h.reg d rfl ?_
    have := hd.2; unfold TMP_REG1; omega
  · cases e; exact h.mem _ _ _ rfl
  · exact h.same (fun _ _ _ e => hn _ _ _ (by rw [e]))

theorem no_flags {op : RV.Op} (h : hasFlags op = false) (a b : BitVec 32) (cin : Bool) (s : St) : CondsOk op a b cin s := by
  simp only [hasFlags, Bool.or_eq_false_iff, decide_eq_false_iff_not, not_not] at h
  intro old
  exact ⟨fun hz => (by rw [h.1] at hz; cases hz), fun hf => absurd h.2 hf⟩

/-! ## Theorems -/

/-- sljit_emit_op2.  Every operation, combination of flags, and kind of operands, for ARMv6 and ARMv7; missing: the constants of `Odd`, where the
code is wrong (see below). -/
theorem c45_op2_partial {v6 : Bool} {op : RV.Op} (ho : isOp2 op.code = true) (hf : op.flagOk) {dst src1 src2 : Opd} (hd : Dest dst) (h1 : Src src1) (h2 : Src src2)
    (hx : Odd op src1 src2) : Op2At v6 op dst src1 src2 := by
  intro s cin hc hn
  obtain ⟨is, s', e1, e2, e3⟩ := emit_op2 (v6 := v6) (s := s) ho hf (dest_dst hd) (src_usr h1) (src_usr h2) (safe hx) (carry_in hc)
    (fun hi hk => by rw [← value_ov]; exact hn hk hi)
  refine ⟨is, s', e1, e2, ?_⟩
  rw [value_ov, value_ov]
  refine ⟨written e3 hd, ?_⟩
  cases hs : hasFlags op with
  | true => exact conds hf ho (e3.flags hs)
  | false => exact no_flags hs _ _ _ _

/-- sljit_emit_op2u, with the same exclusions. -/
theorem c45_op2u_partial {v6 : Bool} {op : RV.Op} (ho : isOp2 op.code = true) (hf : op.flagOk) {src1 src2 : Opd} (h1 : Src src1) (h2 : Src src2)
    (hx : Odd op src1 src2) : Op2uAt v6 op src1 src2 := by
  intro s cin hc hn
  obtain ⟨is, s', e1, e2, e3⟩ := emit_op2 (v6 := v6) (s := s) (dst := .reg TMP_REG1) ho hf ⟨by decide, by decide⟩ (src_usr h1) (src_usr h2) (safe hx) (carry_in hc)
    (fun hi hk => by rw [← value_ov]; exact hn hk hi)
  refine ⟨is, s', e1, e2, ?_⟩
  rw [value_ov, value_ov]
  refine ⟨⟨fun q q1 q2 _ => ?_, fun _ e => (by cases e), fun _ _ _ e => (by cases e), fun _ => e3.same (fun _ _ _ e => by cases e)⟩, ?_⟩
  · refine e3.keep _ (usr_reg q2).1 (usr_reg q2).2.1 (fun d e => ?_)
    cases e; exact (usr_reg q2).1
  cases hs : hasFlags op with
  | true => exact conds hf ho (e3.flags hs)
  | false => exact no_flags hs _ _ _ _

/-- sljit_emit_op2r with SLJIT_MULADD: the product is added to the destination, for all operands. -/
theorem c45_muladd (v6 : Bool) {dst : Nat} (hd : Dest (.reg dst)) {src1 src2 : Opd} (h1 : Src src1) (h2 : Src src2) (s : St) :
    ∃ s', runs (emitMulAdd v6 dst src1 src2) s = some s' ∧
      Written s s' (some (.reg dst)) (value s (.reg dst) + value s src1 * value s src2) := by
  obtain ⟨is, s', e1, e2, e3⟩ := run_muladd (v6 := v6) (d := dst) ⟨hd.1, by have := hd.2; omega⟩ (src_usr h1) (src_usr h2) s
  cases e1
  refine ⟨s', e2, ?_⟩
  rw [value_ov, value_ov, value_ov]
  exact written e3 hd

/-- sljit_emit_shift_into, where the destination is not the second source (sljitLir.h:1445); missing: constant counts which are multiples of 32,
unless the first source is the destination or the second source.  Then the code is wrong, see below. -/
theorem c45_shift_into_partial (v6 left masked : Bool) {dst src1 src2 : Nat} (hd : Dest (.reg dst)) (h1 : Src (.reg src1)) (h2 : Src (.reg src2)) {src3 : Opd} (h3 : Src src3) (hne : dst ≠ src2)
    (h0 : ∀ w, src3 = .imm w → w.toNat % 32 = 0 → dst = src1 ∨ src1 = src2) : IntoAt v6 left masked dst src1 src2 src3 := by
  intro s hc
  obtain ⟨is, s', e1, e2, e3⟩ := run_into (v6 := v6) (left := left) (masked := masked) (s := s) ⟨hd.1, by have := hd.2; omega⟩ ⟨h1.1, by have := h1.2; omega⟩ ⟨h2.1, by have := h2.2; omega⟩ (src_usr h3) hne
    (fun hm hi => by rw [← value_ov]; exact hc hm hi) (fun w e hz => h0 w e (by rw [← toNat_and31, hz]; rfl))
  refine ⟨is, s', e1, e2, ?_⟩
  rw [value_ov]
  exact written e3 hd

/-! ## The hypotheses are met -/

example : Op2At false ⟨.sub, true, true, .sigLess⟩ (.mem 13 0 16#32) (.reg 3) (.mem 1 2 3#32) :=
  c45_op2_partial (op := ⟨.sub, true, true, .sigLess⟩) rfl trivial ⟨by decide, by decide, by decide⟩ ⟨by decide, by decide⟩ ⟨by decide, by decide, by decide⟩
    ⟨fun h => (by simp at h), fun h => (by simp at h), fun h => (by simp at h)⟩

example : Op2At true ⟨.addc, true, false, .carry⟩ (.reg 1) (.reg 1) (.imm 0x12345678#32) :=
  c45_op2_partial (op := ⟨.addc, true, false, .carry⟩) rfl ⟨Or.inr rfl, rfl⟩ ⟨by decide, by decide⟩ ⟨by decide, by decide⟩ trivial
    ⟨fun _ _ h => (by cases h), fun _ w e => (by cases e), fun h => (by simp at h)⟩

example : Op2At false ⟨.xor, true, true, .none⟩ (.reg 12) (.imm (-1#32)) (.mem 3 0 0x12345678#32) :=
  c45_op2_partial (op := ⟨.xor, true, true, .none⟩) rfl rfl ⟨by decide, by decide⟩ trivial ⟨by decide, by decide, by decide⟩
    ⟨fun h => (by simp at h), fun h => (by simp at h), fun _ _ w e => (by cases e)⟩

example : Op2uAt false ⟨.mul, true, false, .overflow⟩ (.mem 3 0 8#32) (.reg 2) :=
  c45_op2u_partial (op := ⟨.mul, true, false, .overflow⟩) rfl ⟨Or.inr rfl, rfl⟩ ⟨by decide, by decide, by decide⟩ ⟨by decide, by decide⟩
    ⟨fun h => (by simp at h), fun h => (by simp at h), fun h => (by simp at h)⟩

example : IntoAt false true false 1 2 3 (.mem 1 0 4#32) :=
  c45_shift_into_partial _ _ _ ⟨by decide, by decide⟩ ⟨by decide, by decide⟩ ⟨by decide, by decide⟩ ⟨by decide, by decide, by decide⟩ (by decide) (fun _ e => by cases e)

/-! ## Where the code is wrong -/

/-- R0 = 0, R1 = 5, R2 = 6, all flags clear. -/
def st : St where
  r q := if q = 1#4 then 5#32 else if q = 2#4 then 6#32 else 0#32
  m _ := 0#8
  n := false
  z := false
  c := false
  v := false

theorem not_at {v6 : Bool} {op : RV.Op} {src1 src2 : Opd} {cin : Bool} {y : BitVec 32} (hc : CarryIs op st cin) (hn : CountIs op.code src2 st)
    (h : (emitOp2 v6 op (.reg 1) src1 src2).bind (fun is => (runs is st).map fun s => s.r 0#4) = some y) (hy : RV.val op.code (value st src1) (value st src2) cin ≠ y) :
    ¬ Op2At v6 op (.reg 1) src1 src2 := by
  intro ha
  obtain ⟨is, s', e1, e2, e3, -⟩ := ha st cin hc hn
  rw [e1, Option.bind_some, e2, Option.map_some] at h
  have := e3.reg 1 rfl
  rw [show regMap 1 = 0#4 by decide, Option.some.inj h] at this
  exact hy this.symm

/-- R0 = -1 + R1 + carry: emit_op replaces ADDC by SUBC of the negated constant (sljitNativeARM_32.c:2237), which is right for SUB only; SBC
subtracts one more, since x - y - 1 + C is computed: 3 instead of 4. -/
theorem c45_addc_imm_false : ¬ Op2At false ⟨.addc, true, false, .none⟩ (.reg 1) (.imm (-1#32)) (.reg 2) :=
  not_at (cin := false) (y := 3#32) ⟨fun _ => rfl, fun h => by cases h⟩ (fun h => by rcases h with h | h | h <;> cases h) (by decide +kernel) (by decide +kernel)

/-- R0 = R1 + 0xff00ff01 + carry: two immediates of the negated constant 0xff00ff are subtracted, the second one by SUB and the first one by SBC
(sljitNativeARM_32.c:2332-2339): one less than specified. -/
theorem c45_addc_double_false : ¬ Op2At false ⟨.addc, true, false, .none⟩ (.reg 1) (.reg 2) (.imm 0xff00ff01#32) :=
  not_at (cin := false) (y := 0xff00ff05#32) ⟨fun _ => rfl, fun h => by cases h⟩ (fun h => by rcases h with h | h | h <;> cases h) (by decide +kernel) (by decide +kernel)

/-- R0 = R1 - 0xff00ff01 - carry: the same for SUBC, one more than specified (the carry of SUBC is the inverted C flag, here set). -/
theorem c45_subc_double_false : ¬ Op2At false ⟨.subc, true, false, .none⟩ (.reg 1) (.reg 2) (.imm 0xff00ff01#32) :=
  not_at (cin := true) (y := 0xff0104#32) ⟨fun h => (by cases h), fun _ => rfl⟩ (fun h => by rcases h with h | h | h <;> cases h) (by decide +kernel) (by decide +kernel)

/-- R0 = -1 ^ 0xffffff01: the complement of the second constant is used as operand of an operation which ignores the first one
(sljitNativeARM_32.c:1737-1749, 2250-2290). -/
theorem c45_xor_false : ¬ Op2At false ⟨.xor, true, false, .none⟩ (.reg 1) (.imm (-1#32)) (.imm 0xffffff01#32) :=
  not_at (cin := false) (y := 0#32) ⟨fun h => (by cases h), fun h => by cases h⟩ (fun h => by rcases h with h | h | h <;> cases h) (by decide +kernel) (by decide +kernel)

/-- R0 = R1 << 0 | ...: a constant count of zero emits nothing (sljitNativeARM_32.c:2613-2617), so R0 does not become R1. -/
theorem c45_shift_into_false : ¬ IntoAt false true false 1 2 3 (.imm 0#32) := by
  intro h
  obtain ⟨is, s', e1, e2, e3⟩ := h st (fun _ h => absurd rfl (h 0#32))
  have : is = [] := Option.some.inj (e1.symm.trans (by decide))
  subst this
  cases e2
  exact absurd (e3.reg 1 rfl) (by decide +kernel)

end Verif.Props.C45
