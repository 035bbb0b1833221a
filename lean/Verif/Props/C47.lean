import Verif.A64.Rest
import Verif.RISCV.Api

/-!
# C47: ARM64 integer operations

sljit_emit_op0, sljit_emit_op1, sljit_emit_op2, sljit_emit_op2u, sljit_emit_op2r, sljit_emit_shift_into, sljit_emit_op_flags and
sljit_emit_select (sljitNativeARM_64.c:1579-1875, 2586-2662) with emit_op_imm, emit_op_mem, load_immediate, logical_imm and get_cc below them
(A64/Ops.lean, Imm/Arm64.lean).  The instruction words are decoded and executed by `step` (A64/Arch.lean), which is written from the Arm
architecture manual.
-/

namespace Verif.Props.C47
open Verif.A64 hiding cond moved
open Verif.Imm.Arm64 (regMap)
open Verif (RV.Op RV.OpC RV.Flag RV.val RV.flagVal RV.Op.flagOk RV.Op1C RV.Op0 RV.IsClz RV.IsCtz RV.IsRev)

/-! ## Specification -/

/-- Width of an operation: 32 bits with SLJIT_32. -/
def bitsOf (is32 : Bool) : Nat := if is32 then 32 else 64

/-- Source operands of the API: SLJIT_R0.. (1-26), constants, [base + displacement] (the base may be SLJIT_SP, 27, or absent) and
[base + (offset << shift)] (sljitLir.c:987-1019). -/
def Src : Opd → Prop
  | .reg r => 1 ≤ r ∧ r ≤ 26
  | .mem base offs w => base ≤ 27 ∧ offs ≤ 26 ∧ (offs ≠ 0 → base ≠ 0 ∧ base ≠ 27 ∧ w.toNat < 4)
  | .imm _ => True

/-- Destinations of the API. -/
def Dest : Opd → Prop
  | .imm _ => False
  | b => Src b

/-- The address of a memory operand. -/
def addr (s : St) (base offs : Nat) (w : BitVec 64) : BitVec 64 :=
  (if base = 0 then 0#64 else s.r (regMap base)) + if offs = 0 then w else s.r (regMap offs) <<< w.toNat

/-- The value of an operand of n bits. -/
def value (n : Nat) (s : St) : Opd → BitVec n
  | .reg r => (s.r (regMap r)).setWidth n
  | .imm v => v.setWidth n
  | .mem base offs d => (rd s.m (addr s base offs d) (n / 8)).setWidth n

/-- s' is s after writing x to dst (`none`: no destination): the low n bits of a register or k bytes of memory are x; nothing else changes in
the memory and in the registers of the user and the stack pointer (27). -/
structure Written {n : Nat} (s s' : St) (dst : Option Opd) (k : Nat) (x : BitVec n) : Prop where
  keep : ∀ q, 1 ≤ q → q ≤ 27 → dst ≠ some (.reg q) → s'.r (regMap q) = s.r (regMap q)
  reg : ∀ d, dst = some (.reg d) → (s'.r (regMap d)).setWidth n = x
  mem : ∀ base offs d, dst = some (.mem base offs d) → s'.m = wr s.m (addr s base offs d) (x.setWidth 64) k
  same : (∀ base offs d, dst ≠ some (.mem base offs d)) → s'.m = s.m

/-- The variable flag which enables a condition (sljitLir.h:1563-1606). -/
def flagOf : JT → RV.Flag
  | .equal => .none
  | .less => .less
  | .greater => .greater
  | .sigLess => .sigLess
  | .sigGreater => .sigGreater
  | .overflow => .overflow
  | .carry => .carry

/-- The truth value of a condition, as an instruction with the inverse of the condition code of get_cc finds it; `st` is the flag state of the
compiler (get_cc returns the inverted condition, since sljit emits a branch over the taken one). -/
def Holds (st : FState) (t : JT) (neg : Bool) (s : St) (b : Bool) : Prop := A64.cond (getCc st t neg) s.f = !b

/-- Every condition which the operation enables has the specified truth value.  `old` is the flag state of the compiler before the operation. -/
def CondsOk {n : Nat} (op : RV.Op) (a b : BitVec n) (cin : Bool) (s : St) : Prop :=
  ∀ old,
    (op.setZ = true → ∀ neg, Holds (stateAfter op.code old) .equal neg s (decide (RV.val op.code a b cin = 0#n) ^^ neg)) ∧
    (op.flag ≠ .none → ∀ t neg, flagOf t = op.flag → Holds (stateAfter op.code old) t neg s (RV.flagVal op.code op.flag a b cin ^^ neg))

/-- The carry flag before ADDC and SUBC: what the condition SLJIT_CARRY tells after ADD(C), SUB(C). -/
def CarryIs (op : RV.Op) (s : St) (cin : Bool) : Prop :=
  (op.code = .addc → Holds .add .carry false s cin) ∧ (op.code = .subc → Holds .sub .carry false s cin)

/-- The binary operations of sljit_emit_op2. -/
def IsOp2 (o : RV.OpC) : Prop := o ∈ [.add, .addc, .sub, .subc, .mul, .and, .or, .xor, .shl, .mshl, .lshr, .mlshr, .ashr, .mashr, .rotl, .rotr]

instance (o : RV.OpC) : Decidable (IsOp2 o) := by unfold IsOp2; infer_instance

instance (st : FState) (t : JT) (neg : Bool) (s : St) (b : Bool) : Decidable (Holds st t neg s b) := by unfold Holds; infer_instance

/-- The claim about sljit_emit_op2: code is emitted, it runs to its end from every state, writes the result to the destination and nothing else
which the user can see, and sets the requested flags. -/
def Op2At (op : RV.Op) (dst src1 src2 : Opd) : Prop :=
  ∀ (s : St) (cin : Bool), CarryIs op s cin →
    ∃ is s', emitOp2 op dst src1 src2 = some is ∧ runs is s = some s' ∧
      Written s s' (some dst) (bitsOf op.is32 / 8) (RV.val op.code (value (bitsOf op.is32) s src1) (value _ s src2) cin) ∧
      CondsOk op (value (bitsOf op.is32) s src1) (value _ s src2) cin s'

/-- The claim about sljit_emit_op2u: only the flags. -/
def Op2uAt (op : RV.Op) (src1 src2 : Opd) : Prop :=
  ∀ (s : St) (cin : Bool), CarryIs op s cin →
    ∃ is s', emitOp2u op src1 src2 = some is ∧ runs is s = some s' ∧
      Written s s' none (bitsOf op.is32 / 8) (RV.val op.code (value (bitsOf op.is32) s src1) (value _ s src2) cin) ∧
      CondsOk op (value (bitsOf op.is32) s src1) (value _ s src2) cin s'

/-- The result of sljit_emit_shift_into (sljitLir.h:1430-1443) for the count k < n. -/
def into {n : Nat} (left : Bool) (x y : BitVec n) (k : Nat) : BitVec n :=
  if left then (x <<< k) ||| ((y >>> 1) >>> (n - 1 - k)) else (x >>> k) ||| ((y <<< 1) <<< (n - 1 - k))

/-- The claim about sljit_emit_shift_into; with SLJIT_SHIFT_INTO_NON_ZERO (`nz`) the count must not be zero. -/
def IntoAt (is32 left nz : Bool) (dst src1 src2 : Nat) (src3 : Opd) : Prop :=
  ∀ s : St, (nz = true → (value (bitsOf is32) s src3).toNat % bitsOf is32 ≠ 0) →
    ∃ is s', emitShiftInto is32 left nz dst src1 src2 src3 = some is ∧ runs is s = some s' ∧
      Written s s' (some (.reg dst)) 0 (into left (value (bitsOf is32) s (.reg src1)) (value _ s (.reg src2)) ((value (bitsOf is32) s src3).toNat % bitsOf is32))

/-- SLJIT_MOV .. SLJIT_MOV_P. -/
def IsMove (o : RV.Op1C) : Prop := o ∈ [.mov, .movU8, .movS8, .movU16, .movS16, .movU32, .movS32, .mov32, .movP]

/-- The operand width (sljitLir.h:1246-1310). -/
def width (o : RV.Op1C) (is32 : Bool) : Nat :=
  match o with
  | .movU8 | .movS8 => 8
  | .movU16 | .movS16 | .revU16 | .revS16 => 16
  | .movU32 | .movS32 | .mov32 | .revU32 | .revS32 => 32
  | .mov | .movP => 64
  | .clz | .ctz | .rev => if is32 then 32 else 64

/-- The part of a destination register which is defined. -/
def resultWidth (o : RV.Op1C) (is32 : Bool) : Nat :=
  match o with
  | .mov | .movP | .movU32 | .movS32 | .revU32 | .revS32 => 64
  | .mov32 => 32
  | _ => bitsOf is32

/-- The source of a one operand operation: a register, a constant, or `n` bits of memory. -/
def source (n : Nat) (s : St) : Opd → BitVec 64
  | .reg r => s.r (regMap r)
  | .imm v => v
  | .mem base offs d => rd s.m (addr s base offs d) (n / 8)

/-- The value a move transfers: the lower bits, extended. -/
def moved (o : RV.Op1C) (a : BitVec 64) : BitVec 64 :=
  match o with
  | .movU8 => (a.setWidth 8).setWidth 64
  | .movS8 => (a.setWidth 8).signExtend 64
  | .movU16 => (a.setWidth 16).setWidth 64
  | .movS16 => (a.setWidth 16).signExtend 64
  | .movU32 => (a.setWidth 32).setWidth 64
  | .movS32 => (a.setWidth 32).signExtend 64
  | _ => a

/-- Result r of the other operations on the operand a. -/
def Computes (o : RV.Op1C) (is32 : Bool) (a r : BitVec 64) : Prop :=
  match o with
  | .clz => ∃ n, r = BitVec.ofNat 64 n ∧ RV.IsClz (a.setWidth (bitsOf is32)) n
  | .ctz => ∃ n, r = BitVec.ofNat 64 n ∧ RV.IsCtz (a.setWidth (bitsOf is32)) n
  | .rev => RV.IsRev (bitsOf is32 / 8) a r
  | .revU16 => RV.IsRev 2 a r ∧ r = (r.setWidth 16).setWidth 64
  | .revS16 => RV.IsRev 2 a r ∧ r = (r.setWidth 16).signExtend 64
  | .revU32 => RV.IsRev 4 a r ∧ r = (r.setWidth 32).setWidth 64
  | .revS32 => RV.IsRev 4 a r ∧ r = (r.setWidth 32).signExtend 64
  | _ => False

/-- s' is s after the one operand operation wrote v; the flags are kept. -/
structure Written1 (o : RV.Op1C) (is32 : Bool) (s s' : St) (dst : Opd) (v : BitVec 64) : Prop where
  keep : ∀ q, 1 ≤ q → q ≤ 27 → dst ≠ .reg q → s'.r (regMap q) = s.r (regMap q)
  reg : ∀ d, dst = .reg d → (s'.r (regMap d)).setWidth (resultWidth o is32) = v.setWidth (resultWidth o is32)
  mem : ∀ base offs d, dst = .mem base offs d → s'.m = wr s.m (addr s base offs d) v (width o is32 / 8)
  same : (∀ base offs d, dst ≠ .mem base offs d) → s'.m = s.m
  flags : s'.f = s.f

/-- The operations of sljit_emit_op0 with R0 = a and R1 = b (sljitLir.h:1178-1214); a', b' are the values afterwards. -/
def Op0Spec (o : RV.Op0) (is32 : Bool) (a b a' b' : BitVec 64) : Prop :=
  let n := bitsOf is32
  let x := a.setWidth n
  let y := b.setWidth n
  let x' := a'.setWidth n
  let y' := b'.setWidth n
  match o with
  | .lmulUw => b'.toNat * 2 ^ 64 + a'.toNat = a.toNat * b.toNat
  | .lmulSw => b'.toInt * 2 ^ 64 + a'.toNat = a.toInt * b.toInt
  | .divmodUw => y ≠ 0#n → x'.toNat = x.toNat / y.toNat ∧ y'.toNat = x.toNat % y.toNat
  | .divmodSw => y ≠ 0#n → ¬ (x = BitVec.intMin n ∧ y.toInt = -1) → x'.toInt = x.toInt.tdiv y.toInt ∧ y'.toInt = x.toInt.tmod y.toInt
  | .divUw => y ≠ 0#n → x'.toNat = x.toNat / y.toNat ∧ b' = b
  | .divSw => y ≠ 0#n → ¬ (x = BitVec.intMin n ∧ y.toInt = -1) → x'.toInt = x.toInt.tdiv y.toInt ∧ b' = b
  | _ => a' = a ∧ b' = b

/-! ## Helper facts -/

theorem bits_W (is32 : Bool) : bitsOf is32 = W (!is32) := by cases is32 <;> rfl

theorem src_usr {b : Opd} (h : Src b) : Usr b := by cases b <;> exact h

theorem dest_usr {b : Opd} (h : Dest b) : Dst1 b := by cases b <;> exact h

theorem dest_dst {b : Opd} (h : Dest b) : DstOk b := by
  cases b with
  | imm _ => exact h
  | reg r => exact .inl h
  | mem base offs w => exact h

theorem is_known {o : RV.OpC} (h : IsOp2 o) : known o = true := by
  revert h; unfold IsOp2; cases o <;> decide

theorem value_ov (is32 : Bool) (s : St) (b : Opd) : value (W !is32) s b = ov (!is32) s b := by cases b <;> rfl

theorem written {is32 : Bool} {s s' : St} {dst : Opd} {x : BitVec (W !is32)} (h : Fin s s' dst x) (hd : Dest dst) : Written s s' (some dst) (W (!is32) / 8) x := by
  refine ⟨fun q h1 h2 h3 => ?_, fun d e => ?_, fun base offs d e => ?_, fun hn => ?_⟩
  · obtain ⟨n1, n2, n3⟩ := usp_map h1 h2
    refine h.keep _ n1 n2 n3 (fun d e => ?_)
    subst e
    exact map_inj ⟨h1, h2⟩ ⟨hd.1, by have := hd.2; omega⟩ (fun e => h3 (by rw [e]))
  · cases e
    refine h.reg d rfl ?_
    have := hd.2; unfold TMP_REG2; omega
  · cases e; exact h.mem _ _ _ rfl
  · exact h.same (fun _ _ _ e => hn _ _ _ (by rw [e]))

theorem carry_in {op : RV.Op} {s : St} {cin : Bool} (h : CarryIs op s cin) : CarryOk op cin s.f := by
  refine ⟨fun e => ?_, fun e => ?_⟩
  · have : (!s.f.c) = !cin := h.1 e
    revert this; cases s.f.c <;> cases cin <;> decide
  · exact h.2 e

theorem cond_zero (f : Flags) (st : FState) (neg : Bool) : A64.cond (getCc st .equal neg) f = !(f.z ^^ neg) := by
  obtain ⟨n, z, c, v⟩ := f
  have key : ∀ n z c v neg : Bool, A64.cond (getCc .none .equal neg) ⟨n, z, c, v⟩ = !(z ^^ neg) := by decide
  have e : getCc st .equal neg = getCc .none .equal neg := by cases neg <;> rfl
  rw [e]; exact key n z c v neg

theorem conds {n : Nat} {op : RV.Op} {a b x : BitVec n} {cin : Bool} {s : St} (hf : op.flagOk) (ho : IsOp2 op.code) (h : Post op a b cin x s.f) : CondsOk op a b cin s := by
  intro old
  refine ⟨fun hz neg => ?_, fun hfl t neg ht => ?_⟩
  · have := h.zero hz
    rw [h.val] at this
    unfold Holds
    rw [← this]
    exact cond_zero _ _ _
  · have hv := h.flag hfl
    unfold Holds
    rw [← hv]
    clear hv h
    obtain ⟨code, is32, setZ, flag⟩ := op
    generalize s.f = f
    obtain ⟨N, Z, C, V⟩ := f
    cases t <;> simp only [flagOf] at ht <;> subst ht
    · exact absurd rfl hfl
    all_goals cases code <;> first | (simp [RV.Op.flagOk] at hf; done) | (simp [IsOp2] at ho; done) | skip
    all_goals clear hf ho hfl
    all_goals revert N Z C V neg
    all_goals dsimp only
    all_goals cases old <;> decide

/-! ## Theorems -/

/-- sljit_emit_op2: every operation, combination of flags, and kind of operands. -/
theorem c47_op2 {op : RV.Op} (ho : IsOp2 op.code) (hf : op.flagOk) {dst src1 src2 : Opd} (hd : Dest dst) (h1 : Src src1) (h2 : Src src2) : Op2At op dst src1 src2 := by
  intro s cin hc
  obtain ⟨is, s', x, e1, e2, e3, e4⟩ := emitOp2_run (is_known ho) hf (dest_dst hd) (src_usr h1) (src_usr h2) (carry_in hc)
  refine ⟨is, s', e1, e2, ?_⟩
  rw [bits_W, value_ov, value_ov]
  refine ⟨?_, conds hf ho e4⟩
  rw [← e4.val]
  exact written e3 hd

/-- sljit_emit_op2u. -/
theorem c47_op2u {op : RV.Op} (ho : IsOp2 op.code) (hf : op.flagOk) {src1 src2 : Opd} (h1 : Src src1) (h2 : Src src2) : Op2uAt op src1 src2 := by
  intro s cin hc
  obtain ⟨is, s', x, e1, e2, e3, e4⟩ := emitOp2_run (dst := .reg TMP_REG2) (is_known ho) hf (.inr rfl) (src_usr h1) (src_usr h2) (carry_in hc)
  refine ⟨is, s', e1, e2, ?_⟩
  rw [bits_W, value_ov, value_ov]
  refine ⟨⟨fun q q1 q2 _ => ?_, fun _ e => (by cases e), fun _ _ _ e => (by cases e), fun _ => e3.same (fun _ _ _ e => by cases e)⟩, conds hf ho e4⟩
  obtain ⟨n1, n2, n3⟩ := usp_map q1 q2
  exact e3.keep _ n1 n2 n3 (fun d e => by cases e; exact n2)

/-- sljit_emit_op2r with SLJIT_MULADD: the product is added to the destination. -/
theorem c47_muladd (is32 : Bool) {dst : Nat} (hd : Dest (.reg dst)) {src1 src2 : Opd} (h1 : Src src1) (h2 : Src src2) (s : St) :
    ∃ is s', emitMulAdd is32 dst src1 src2 = some is ∧ runs is s = some s' ∧
      Written s s' (some (.reg dst)) (bitsOf is32 / 8) (value (bitsOf is32) s (.reg dst) + value _ s src1 * value _ s src2) := by
  obtain ⟨is, s', e1, e2, e3⟩ := muladd_run is32 (dst := dst) hd (src_usr h1) (src_usr h2) s
  refine ⟨is, s', e1, e2, ?_⟩
  rw [bits_W, value_ov, value_ov, value_ov]
  exact written e3 hd

/-- sljit_emit_shift_into, where the destination is not the second source (sljitLir.h:1445); missing: constant counts which are multiples of the
width, unless the first source is the destination or the second source.  Then the code is wrong, see below. -/
theorem c47_shift_into_partial (is32 left nz : Bool) {dst src1 src2 : Nat} (hd : Dest (.reg dst)) (h1 : Src (.reg src1)) (h2 : Src (.reg src2)) {src3 : Opd} (h3 : Src src3) (hne : dst ≠ src2)
    (h0 : ∀ v, src3 = .imm v → v.toNat % bitsOf is32 = 0 → dst = src1 ∨ src1 = src2) : IntoAt is32 left nz dst src1 src2 src3 := by
  intro s hn
  rw [bits_W] at h0 hn ⊢
  rw [value_ov] at hn
  obtain ⟨is, s', e1, e2, e3⟩ := into_run is32 left nz (dst := dst) (src1 := src1) (src2 := src2) hd h1 h2 (src_usr h3) hne h0 s hn
  refine ⟨is, s', e1, e2, ?_⟩
  rw [value_ov]
  have w := written e3 hd
  exact ⟨w.keep, w.reg, fun _ _ _ e => (by cases e), w.same⟩

theorem written1 {o : RV.Op1C} {is32 : Bool} {s s' : St} {dst : Opd} {v : BitVec 64} {k : Nat} {sf : Bool} (hd : Dest dst) (hk : k = width o is32 / 8) (hr : W sf = resultWidth o is32) (h : Fin1 s s' dst sf k v) :
    Written1 o is32 s s' dst v := by
  subst hk
  refine ⟨fun q h1 h2 h3 => ?_, fun d e => ?_, h.mem, h.same, h.f⟩
  · obtain ⟨n1, n2, n3⟩ := usp_map h1 h2
    refine h.keep _ n1 n2 (fun d e => ?_)
    subst e
    exact map_inj ⟨h1, h2⟩ ⟨hd.1, by have := hd.2; omega⟩ (fun e => h3 (by rw [e]))
  · rw [← hr]; exact h.reg d e

theorem width_ty (o : RV.Op1C) (is32 : Bool) : 2 ^ (memTy o is32).1 = width o is32 / 8 ∧ W (sf1 o is32) = resultWidth o is32 := by
  cases o <;> cases is32 <;> decide

theorem source_val (n : Nat) (s : St) (b : Opd) : source n s b = val1 (n / 8) s b := by cases b <;> rfl

/-- sljit_emit_op1 with the moves: between registers, constants and memory, with the extensions. -/
theorem c47_mov {o : RV.Op1C} (ho : IsMove o) (is32 : Bool) {dst src : Opd} (hd : Dest dst) (hs : Src src) (s : St) :
    ∃ is s', emitOp1 o is32 dst src = some is ∧ runs is s = some s' ∧ Written1 o is32 s s' dst (moved o (source (width o is32) s src)) := by
  have hm : isMov o = true := by revert ho; unfold IsMove; cases o <;> decide
  obtain ⟨is, s', e1, e2, e3⟩ := move_run hm is32 (dest_usr hd) (src_usr hs) s
  refine ⟨is, s', e1, e2, ?_⟩
  have w := written1 (o := o) (is32 := is32) hd (width_ty o is32).1 (width_ty o is32).2 e3
  rw [source_val, ← (width_ty o is32).1]
  by_cases h32 : o = .mov32
  · subst h32
    generalize val1 (2 ^ (memTy RV.Op1C.mov32 is32).1) s src = v at *
    have a : Agree 32 (A64.moved .mov32 v) v := fun i hi => by
      show BitVec.getLsbD ((v.setWidth 32).signExtend 64) i = _
      rw [BitVec.getLsbD_signExtend, BitVec.getLsbD_setWidth]; simp [hi, show i < 64 by omega]
    refine ⟨w.keep, fun d e => ?_, fun base offs d e => ?_, w.same, w.flags⟩
    · rw [w.reg d e]; exact Agree.lo (sf := false) a
    · rw [w.mem base offs d e]; exact wr_congr _ _ _ _ (fun i hi => a i (by simpa [width] using hi))
  · have : A64.moved o = moved o := by funext a; cases o <;> first | rfl | exact absurd rfl h32
    rw [← this]; exact w

/-- sljit_emit_op1 with CLZ, CTZ and the byte reversals; the source is not a constant (sljitLir.h:1273-1310). -/
theorem c47_op1 {o : RV.Op1C} (ho : ¬ IsMove o) (is32 : Bool) {dst src : Opd} (hd : Dest dst) (hs : Src src) (hi : ∀ v, src ≠ .imm v) (s : St) :
    ∃ is s' v, emitOp1 o is32 dst src = some is ∧ runs is s = some s' ∧ Computes o is32 (source (width o is32) s src) v ∧ Written1 o is32 s s' dst v := by
  have hm : isMov o = false := by revert ho; unfold IsMove; cases o <;> decide
  obtain ⟨is, s', v, e1, e2, e3, e4⟩ := fun_run hm is32 (dest_usr hd) (src_usr hs) hi s
  refine ⟨is, s', v, e1, e2, ?_, written1 hd (width_ty o is32).1 (width_ty o is32).2 e4⟩
  rw [source_val, ← (width_ty o is32).1]
  cases o <;> first | (cases hm; done) | skip
  all_goals cases is32 <;> simp only [Comp, Computes, bitsOf, Bool.false_eq_true, if_false, if_true] at e3 ⊢ <;> exact e3

/-- sljit_emit_op_flags with SLJIT_MOV and SLJIT_MOV32: the destination becomes 1 if the condition holds, otherwise 0.  The flags are kept. -/
theorem c47_flags_mov (mov32 : Bool) {dst : Opd} (hd : Dest dst) (st : FState) (t : JT) (neg : Bool) (s : St) (b : Bool) (hb : Holds st t neg s b) :
    ∃ is s', emitFlagsMov mov32 dst (getCc st t neg) = some is ∧ runs is s = some s' ∧ Written s s' (some dst) (bitsOf mov32 / 8) (if b then 1#64 else 0#64) ∧ s'.f = s.f := by
  obtain ⟨is, s', e1, e2, e3⟩ := flagsMov_run mov32 (dest_usr hd) (getCc st t neg) s
  have hv : (if A64.cond (getCc st t neg) s.f then 0#64 else 1#64) = if b then 1#64 else 0#64 := by
    rw [show A64.cond (getCc st t neg) s.f = !b from hb]; cases b <;> rfl
  rw [hv] at e3
  refine ⟨is, s', e1, e2, ⟨fun q h1 h2 h3 => ?_, fun d e => ?_, fun base offs d e => ?_, fun hn => e3.same (fun _ _ _ e => hn _ _ _ (by rw [e]))⟩, e3.f⟩
  · obtain ⟨n1, n2, n3⟩ := usp_map h1 h2
    refine e3.keep _ n1 n2 (fun d e => ?_)
    subst e
    exact map_inj ⟨h1, h2⟩ ⟨hd.1, by have := hd.2; omega⟩ (fun e => h3 (by rw [e]))
  · cases e
    have := e3.reg d rfl
    rw [show lo true (s'.r (regMap d)) = (s'.r (regMap d)).setWidth 64 from rfl] at this
    rw [this]; cases b <;> rfl
  · cases e
    rw [e3.mem _ _ _ rfl, bits_W, sz_div]
    cases b <;> rfl

/-- sljit_emit_op_flags with SLJIT_AND, SLJIT_OR and SLJIT_XOR: the operation on the destination and the truth value of the condition; the zero
flag if it is requested. -/
theorem c47_flags_op {op : RV.Op} (ho : op.code = .and ∨ op.code = .or ∨ op.code = .xor) (hf : op.flag = .none) {dst : Opd} (hd : Dest dst) (st : FState) (t : JT) (neg : Bool) (s : St) (b : Bool) (hb : Holds st t neg s b) :
    ∃ is s', emitFlagsOp op dst (getCc st t neg) = some is ∧ runs is s = some s' ∧
      Written s s' (some dst) (bitsOf op.is32 / 8) (RV.val op.code (value (bitsOf op.is32) s dst) (if b then 1#_ else 0#_) false) ∧
      CondsOk op (value (bitsOf op.is32) s dst) (if b then 1#_ else 0#_) false s' := by
  have h2 : IsOp2 op.code := by rcases ho with h | h | h <;> rw [h] <;> decide
  have hfo : op.flagOk := by unfold RV.Op.flagOk; rcases ho with h | h | h <;> rw [h] <;> exact hf
  obtain ⟨is, s', x, e1, e2, e3, e4⟩ := flagsOp_run (is_known h2) hfo (by rcases ho with h | h | h <;> rw [h] <;> decide) (dest_usr hd) (getCc st t neg) s
  refine ⟨is, s', e1, e2, ?_⟩
  rw [bits_W, value_ov]
  have hv : (if A64.cond (getCc st t neg) s.f then 0#(W !op.is32) else 1#_) = if b then 1#_ else 0#_ := by
    rw [show A64.cond (getCc st t neg) s.f = !b from hb]; cases b <;> rfl
  rw [hv] at e4
  refine ⟨?_, conds hfo h2 e4⟩
  rw [← e4.val]
  exact written e3 hd

/-- sljit_emit_select: the first source if the condition holds, otherwise the second one. -/
theorem c47_select (is32 : Bool) {dst src2 : Nat} (hd : Dest (.reg dst)) (h2 : Src (.reg src2)) {src1 : Opd} (h1 : Src src1) (st : FState) (t : JT) (neg : Bool) (s : St) (b : Bool) (hb : Holds st t neg s b) :
    ∃ is s', emitSelect is32 dst src1 src2 (getCc st t neg) = some is ∧ runs is s = some s' ∧
      Written s s' (some (.reg dst)) (bitsOf is32 / 8) (if b then value (bitsOf is32) s src1 else value _ s (.reg src2)) ∧ s'.f = s.f := by
  obtain ⟨is, s', e1, e2, e3, e4⟩ := select_run is32 (dst := dst) (src2 := src2) hd h2 (src_usr h1) (getCc st t neg) s
  refine ⟨is, s', e1, e2, ?_, e4⟩
  rw [bits_W, value_ov, value_ov]
  have hv : (if A64.cond (getCc st t neg) s.f then ov (!is32) s (.reg src2) else ov (!is32) s src1) = if b then ov (!is32) s src1 else ov (!is32) s (.reg src2) := by
    rw [show A64.cond (getCc st t neg) s.f = !b from hb]; cases b <;> rfl
  rw [← hv]
  exact written e3 hd

/-- A comparison and its use: sljit_emit_op2u with a subtraction, and sljit_emit_op_flags with SLJIT_MOV of a condition which it enables. -/
theorem c47_compare {op : RV.Op} (ho : op.code = .sub) (hf : op.flagOk) {src1 src2 dst : Opd} (h1 : Src src1) (h2 : Src src2) (hd : Dest dst) {t : JT} (ht : flagOf t = op.flag) (hn : op.flag ≠ .none) (neg : Bool) (s : St) :
    ∃ is js s', emitOp2u op src1 src2 = some is ∧ emitFlagsMov false dst (getCc (stateAfter op.code .none) t neg) = some js ∧ runs (is ++ js) s = some s' ∧
      Written s s' (some dst) 8 (if RV.flagVal .sub op.flag (value (bitsOf op.is32) s src1) (value _ s src2) false ^^ neg then 1#64 else 0#64) := by
  obtain ⟨is, s1, e1, e2, e3, e4⟩ := c47_op2u (op := op) (by rw [ho]; decide) hf h1 h2 s false ⟨fun h => (by rw [ho] at h; cases h), fun h => (by rw [ho] at h; cases h)⟩
  obtain ⟨js, s2, f1, f2, f3, -⟩ := c47_flags_mov false hd _ t neg s1 _ ((e4 .none).2 hn t neg ht)
  refine ⟨is, js, s2, e1, f1, by rw [runs_app e2]; exact f2, ?_⟩
  rw [← ho]
  have ha : ∀ base offs w, Dest (.mem base offs w) → addr s1 base offs w = addr s base offs w := by
    intro base offs w h
    obtain ⟨a1, a2, a3⟩ := h
    have e : ∀ r, r ≤ 27 → r ≠ 0 → s1.r (regMap r) = s.r (regMap r) := fun r hr h0 => e3.keep r (by omega) hr (by simp)
    unfold addr
    congr 1
    · split
      · rfl
      · next h => exact e _ a1 h
    · split
      · rfl
      · next h => rw [e _ (by omega) h]
  refine ⟨fun q q1 q2 q3 => (f3.keep q q1 q2 q3).trans (e3.keep q q1 q2 (by simp)), f3.reg, fun base offs d e => ?_, fun hn => (f3.same hn).trans (e3.same (fun _ _ _ => by simp))⟩
  rw [f3.mem base offs d e, e3.same (fun _ _ _ => by simp)]
  cases e
  rw [ha _ _ _ hd]; rfl

/-! ### op0 -/

theorem mulhu_spec (a b : BitVec 64) : (BitVec.ofNat 64 (a.toNat * b.toNat / 2 ^ 64)).toNat * 2 ^ 64 + (a * b).toNat = a.toNat * b.toNat := by
  have h3 : a.toNat * b.toNat < 2 ^ 128 := Nat.lt_of_lt_of_le (Nat.mul_lt_mul'' a.isLt b.isLt) (by decide)
  rw [BitVec.toNat_ofNat, BitVec.toNat_mul]
  generalize a.toNat * b.toNat = p at *
  omega

theorem mulhs_spec (a b : BitVec 64) : (BitVec.ofInt 64 (a.toInt * b.toInt / 2 ^ 64)).toInt * 2 ^ 64 + (a * b).toNat = a.toInt * b.toInt := by
  have h1 := BitVec.toInt_mul_toInt_le (x := a) (y := b)
  have h2 := BitVec.le_toInt_mul_toInt (x := a) (y := b)
  have e : ((a * b).toNat : Int) = (a.toInt * b.toInt) % 2 ^ 64 := by
    have : (a * b).toNat = ((a.toInt * b.toInt) % 2 ^ 64).toNat := by
      rw [← BitVec.ofInt_toInt (x := a * b), BitVec.toNat_ofInt, BitVec.toInt_mul, Int.bmod_emod]; rfl
    rw [this]; omega
  rw [e, BitVec.toInt_ofInt]
  generalize a.toInt * b.toInt = p at *
  norm_num at h1 h2
  rw [Int.bmod_eq_of_le (by norm_num; omega) (by norm_num; omega)]
  omega

theorem quot_u {sf : Bool} (a b : BitVec (W sf)) : (quot false sf a b).toNat = a.toNat / b.toNat := by
  rw [quot, if_neg (by decide), BitVec.toNat_ofNat, Nat.mod_eq_of_lt (Nat.lt_of_le_of_lt (Nat.div_le_self _ _) a.isLt)]

theorem rem_u {sf : Bool} (a b : BitVec (W sf)) : (a - quot false sf a b * b).toNat = a.toNat % b.toNat := by
  have h : quot false sf a b * b = BitVec.ofNat _ (a.toNat / b.toNat * b.toNat) := by
    apply BitVec.eq_of_toNat_eq
    rw [BitVec.toNat_mul, quot_u, BitVec.toNat_ofNat]
  have hle : a.toNat / b.toNat * b.toNat ≤ a.toNat := Nat.div_mul_le_self _ _
  have hn : (quot false sf a b * b).toNat = a.toNat / b.toNat * b.toNat := by
    rw [h, BitVec.toNat_ofNat, Nat.mod_eq_of_lt (Nat.lt_of_le_of_lt hle a.isLt)]
  rw [BitVec.toNat_sub_of_le (by rw [BitVec.le_def, hn]; exact hle), hn]
  have := Nat.div_add_mod' a.toNat b.toNat
  omega

theorem quot_s {n : Nat} (hn : 0 < n) (a b : BitVec n) (hb : b.toInt ≠ 0) (h : ¬ (a = BitVec.intMin n ∧ b.toInt = -1)) :
    (BitVec.ofInt n (a.toInt.tdiv b.toInt)).toInt = a.toInt.tdiv b.toInt := by
  have h1 := BitVec.toInt_lt (x := a)
  have h2 := BitVec.le_toInt (x := a)
  have e2 : (2 : Int) ^ n = 2 * 2 ^ (n - 1) := by
    rw [show n = (n - 1) + 1 by omega, Int.pow_succ]; simp [Int.mul_comm]
  have hp : (0 : Int) < 2 ^ (n - 1) := Int.pow_pos (by decide)
  have hq : -2 ^ (n - 1) ≤ a.toInt.tdiv b.toInt ∧ a.toInt.tdiv b.toInt < 2 ^ (n - 1) := by
    have hle := Int.natAbs_tdiv_le_natAbs a.toInt b.toInt
    by_cases hm : b.toInt = -1
    · rw [hm, Int.tdiv_neg, Int.tdiv_one]
      have : a.toInt ≠ -2 ^ (n - 1) := fun e => h ⟨by
        apply BitVec.eq_of_toInt_eq
        rw [e, BitVec.toInt_intMin_of_pos hn], hm⟩
      omega
    · by_cases hone : b.toInt = 1
      · rw [hone, Int.tdiv_one]; exact ⟨h2, h1⟩
      · have : (a.toInt.tdiv b.toInt).natAbs ≤ a.toInt.natAbs / 2 := by
          rw [Int.natAbs_tdiv]
          exact Nat.div_le_div_left (by omega) (by decide)
        omega
  rw [BitVec.toInt_ofInt]
  refine Int.bmod_eq_of_le ?_ ?_ <;> (push_cast; omega)

theorem rem_s {n : Nat} (hn : 0 < n) (a b : BitVec n) (hb : b.toInt ≠ 0) :
    (a - BitVec.ofInt n (a.toInt.tdiv b.toInt) * b).toInt = a.toInt.tmod b.toInt := by
  have e : a - BitVec.ofInt n (a.toInt.tdiv b.toInt) * b = BitVec.ofInt n (a.toInt.tmod b.toInt) := by
    have hm : a.toInt.tmod b.toInt = a.toInt - a.toInt.tdiv b.toInt * b.toInt := by
      have := Int.mul_tdiv_add_tmod a.toInt b.toInt
      rw [Int.mul_comm] at this; omega
    rw [hm, Int.sub_eq_add_neg, BitVec.ofInt_add, BitVec.ofInt_neg, BitVec.ofInt_mul, BitVec.ofInt_toInt, BitVec.ofInt_toInt, BitVec.sub_eq_add_neg]
  rw [e, BitVec.toInt_ofInt]
  have h1 := BitVec.toInt_lt (x := b)
  have h2 := BitVec.le_toInt (x := b)
  have e2 : (2 : Int) ^ n = 2 * 2 ^ (n - 1) := by
    rw [show n = (n - 1) + 1 by omega, Int.pow_succ]; simp [Int.mul_comm]
  have hr : (a.toInt.tmod b.toInt).natAbs < b.toInt.natAbs := by
    rw [Int.natAbs_tmod]; exact Nat.mod_lt _ (by omega)
  refine Int.bmod_eq_of_le ?_ ?_ <;> (push_cast; omega)

/-- sljit_emit_op0: multiplication with a double width result, divisions; nothing but R0 and R1 changes. -/
theorem c47_op0 {o : RV.Op0} (ho : o ≠ .nop ∧ o ≠ .memoryBarrier) (is32 : Bool) (s : St) :
    ∃ is s', emitOp0 o is32 = some is ∧ runs is s = some s' ∧ s'.m = s.m ∧ s'.f = s.f ∧
      (∀ q, 3 ≤ q → q ≤ 27 → s'.r (regMap q) = s.r (regMap q)) ∧ Op0Spec o is32 (s.r (regMap 1)) (s.r (regMap 2)) (s'.r (regMap 1)) (s'.r (regMap 2)) := by
  have r0 : regMap 1 = 0#5 := rfl
  have r1 : regMap 2 = 1#5 := rfl
  have ne : ∀ q, 3 ≤ q → q ≤ 27 → regMap q ≠ 9#5 ∧ regMap q ≠ 0#5 ∧ regMap q ≠ 1#5 := fun q h1 h2 =>
    ⟨(usp_map (by omega) h2).1, map_inj (r := 1) ⟨by omega, h2⟩ (by decide) (by omega), map_inj (r := 2) ⟨by omega, h2⟩ (by decide) (by omega)⟩
  have hz : ∀ b : BitVec (bitsOf is32), b ≠ 0#_ → b.toInt ≠ 0 := fun b h e => h (BitVec.eq_of_toInt_eq (by rw [e, BitVec.toInt_zero]))
  have hw : 0 < bitsOf is32 := by cases is32 <;> decide
  rw [r0, r1]
  have lmul : ∀ sg : Bool, ∃ s', runs [MOV ||| Imm.Arm64.RD TMP_REG1 ||| RM 1, MADD ||| Imm.Arm64.RD 1 ||| Imm.Arm64.RN 1 ||| RM 2 ||| RT2 Imm.Arm64.TMP_ZERO, (if sg then SMULH else UMULH) ||| Imm.Arm64.RD 2 ||| Imm.Arm64.RN TMP_REG1 ||| RM 2] s = some s' ∧ s'.m = s.m ∧ s'.f = s.f ∧
      (∀ q, 3 ≤ q → q ≤ 27 → s'.r (regMap q) = s.r (regMap q)) ∧ s'.r 0#5 = s.r 0#5 * s.r 1#5 ∧
      s'.r 1#5 = (if sg then BitVec.ofInt 64 ((s.r 0#5).toInt * (s.r 1#5).toInt / 2 ^ 64) else BitVec.ofNat 64 ((s.r 0#5).toNat * (s.r 1#5).toNat / 2 ^ 64)) := by
    intro sg
    refine ⟨_, lmul_run sg s, rfl, rfl, fun q h1 h2 => ?_, ?_, ?_⟩
    · obtain ⟨n1, n2, n3⟩ := ne q h1 h2
      rw [set_ne _ _ n3, set_ne _ _ n2, set_ne _ _ n1]
    · rw [set_ne _ _ (by decide), set_self]
    · rw [set_self]
  have div : ∀ sg : Bool, ∃ s', runs [((if sg then SDIV else UDIV) ^^^ iv is32) ||| Imm.Arm64.RD 1 ||| Imm.Arm64.RN 1 ||| RM 2] s = some s' ∧ s'.m = s.m ∧ s'.f = s.f ∧
      (∀ q, 3 ≤ q → q ≤ 27 → s'.r (regMap q) = s.r (regMap q)) ∧ lo (!is32) (s'.r 0#5) = quot sg (!is32) (lo (!is32) (s.r 0#5)) (lo (!is32) (s.r 1#5)) ∧ s'.r 1#5 = s.r 1#5 := by
    intro sg
    have e := s_div (s := s) sg is32 (d := 1) (n := 1) (m := 2)
    rw [setX_ne _ _ (by decide), x_ne (by decide), x_ne (by decide), r0, r1] at e
    refine ⟨_, runs_one e, rfl, rfl, fun q h1 h2 => ?_, ?_, ?_⟩
    · rw [set_ne _ _ (ne q h1 h2).2.1]
    · rw [set_self, lo_up]
    · rw [set_ne _ _ (by decide)]
  cases o with
  | nop => exact absurd rfl ho.1
  | memoryBarrier => exact absurd rfl ho.2
  | lmulUw =>
    obtain ⟨s', e1, e2, e3, e4, e5, e6⟩ := lmul false
    refine ⟨_, s', rfl, e1, e2, e3, e4, ?_⟩
    simp only [Op0Spec]
    rw [e5, e6]; exact mulhu_spec _ _
  | lmulSw =>
    obtain ⟨s', e1, e2, e3, e4, e5, e6⟩ := lmul true
    refine ⟨_, s', rfl, e1, e2, e3, e4, ?_⟩
    simp only [Op0Spec]
    rw [e5, e6]; exact mulhs_spec _ _
  | divmodUw =>
    obtain ⟨s', e1, e2, e3, e4, e5, e6⟩ := divmod_run false is32 s
    refine ⟨_, s', rfl, e1, e2, e3, fun q h1 h2 => e4 _ (ne q h1 h2).1 (ne q h1 h2).2.1 (ne q h1 h2).2.2, ?_⟩
    simp only [Op0Spec]
    intro _
    cases is32 <;> exact ⟨(congrArg BitVec.toNat e5).trans (quot_u _ _), (congrArg BitVec.toNat e6).trans (rem_u _ _)⟩
  | divmodSw =>
    obtain ⟨s', e1, e2, e3, e4, e5, e6⟩ := divmod_run true is32 s
    refine ⟨_, s', rfl, e1, e2, e3, fun q h1 h2 => e4 _ (ne q h1 h2).1 (ne q h1 h2).2.1 (ne q h1 h2).2.2, ?_⟩
    simp only [Op0Spec]
    intro hb hm
    cases is32 <;> exact ⟨(congrArg BitVec.toInt e5).trans (quot_s hw _ _ (hz _ hb) hm), (congrArg BitVec.toInt e6).trans (rem_s hw _ _ (hz _ hb))⟩
  | divUw =>
    obtain ⟨s', e1, e2, e3, e4, e5, e6⟩ := div false
    refine ⟨_, s', rfl, e1, e2, e3, e4, ?_⟩
    simp only [Op0Spec]
    intro _
    cases is32 <;> exact ⟨(congrArg BitVec.toNat e5).trans (quot_u _ _), e6⟩
  | divSw =>
    obtain ⟨s', e1, e2, e3, e4, e5, e6⟩ := div true
    refine ⟨_, s', rfl, e1, e2, e3, e4, ?_⟩
    simp only [Op0Spec]
    intro hb hm
    cases is32 <;> exact ⟨(congrArg BitVec.toInt e5).trans (quot_s hw _ _ (hz _ hb) hm), e6⟩
  | endbr => exact ⟨[], s, rfl, rfl, rfl, rfl, fun _ _ _ => rfl, rfl, rfl⟩
  | skipFrames => exact ⟨[], s, rfl, rfl, rfl, rfl, fun _ _ _ => rfl, rfl, rfl⟩

/-! ## The hypotheses are met -/

example : Op2At ⟨.sub, true, true, .sigLess⟩ (.mem 27 0 16#64) (.reg 3) (.mem 1 2 3#64) :=
  c47_op2 (op := ⟨.sub, true, true, .sigLess⟩) (by decide) trivial ⟨by decide, by decide, by decide⟩ ⟨by decide, by decide⟩ ⟨by decide, by decide, by decide⟩

example : Op2At ⟨.addc, false, false, .carry⟩ (.reg 1) (.reg 1) (.imm 0x123456789abcdef0#64) :=
  c47_op2 (op := ⟨.addc, false, false, .carry⟩) (by decide) ⟨.inr rfl, rfl⟩ ⟨by decide, by decide⟩ ⟨by decide, by decide⟩ trivial

example : Op2uAt ⟨.mul, true, false, .overflow⟩ (.mem 3 0 8#64) (.reg 2) :=
  c47_op2u (op := ⟨.mul, true, false, .overflow⟩) (by decide) ⟨.inr rfl, rfl⟩ ⟨by decide, by decide, by decide⟩ ⟨by decide, by decide⟩

example : IntoAt false true false 1 2 3 (.mem 1 0 4#64) :=
  c47_shift_into_partial _ _ _ ⟨by decide, by decide⟩ ⟨by decide, by decide⟩ ⟨by decide, by decide⟩ ⟨by decide, by decide, by decide⟩ (by decide) (fun _ e => by cases e)

example : IntoAt true false true 1 2 3 (.imm 5#64) :=
  c47_shift_into_partial _ _ _ ⟨by decide, by decide⟩ ⟨by decide, by decide⟩ ⟨by decide, by decide⟩ trivial (by decide) (fun v e h => by cases e; exact absurd h (by decide))

/-- R0 = 0, R1 = 5, R2 = 6, all flags clear. -/
def st : St where
  r q := if q = 1#5 then 5#64 else if q = 2#5 then 6#64 else 0#64
  m _ := 0#8
  f := ⟨false, false, false, false⟩

example : Holds .sub .less false st true := by decide
example : Holds .add .carry true st true := by decide
example : CarryIs ⟨.subc, false, false, .none⟩ st true := ⟨fun h => (by cases h), fun _ => by decide⟩
example : Op0Spec .divmodSw true 0xfffffff9#64 2#64 0xfffffffd#64 0xffffffff#64 := fun _ _ => by decide

/-! ## Where the code is wrong -/

/-- R0 = R1 << 0 | ...: a constant count of zero emits nothing (sljitNativeARM_64.c:1824-1827), so R0 does not become R1. -/
theorem c47_shift_into_false : ¬ IntoAt false true false 1 2 3 (.imm 0#64) := by
  intro h
  obtain ⟨is, s', e1, e2, e3⟩ := h st (fun h => by cases h)
  have : is = [] := Option.some.inj (e1.symm.trans (by decide))
  subst this
  cases e2
  exact absurd (e3.reg 1 rfl) (by decide +kernel)

end Verif.Props.C47
