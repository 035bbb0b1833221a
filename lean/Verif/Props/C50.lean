import Verif.X86.Op0Eff
import Verif.Props.C46

/-!
# C50: x86-64 moves, bit operations, divisions and uses of flags

sljit_emit_op0 (the multiplications and divisions), sljit_emit_op1, sljit_emit_op_flags (sljitNativeX86_common.c:1409-2031, 3596-3677) and
sljit_emit_select (sljitNativeX86_64.c:1027-1065) with the functions below them, down to the bytes of the instructions (X86/Ops1.lean,
X86/Ops.lean, X86/Emit.lean).  The bytes are decoded and executed by `run` (X86/Arch.lean), which is written from the Intel manual.
-/

namespace Verif.Props.C50
open Verif.X86
open Verif.Props.C46 (Src Dest mreg addr value cond Written CondsOk)
open Verif (RV.Op RV.OpC RV.val RV.Op.flagOk RV.Op1C RV.Op0 RV.IsClz RV.IsCtz RV.IsRev)

/-! ## Specification -/

/-- Width of an operation: 32 bits with SLJIT_32. -/
def bitsOf (is32 : Bool) : Nat := if is32 then 32 else 64

/-- SLJIT_MOV .. SLJIT_MOV_P. -/
def IsMove (o : RV.Op1C) : Prop := o ∈ [.mov, .movU8, .movS8, .movU16, .movS16, .movU32, .movS32, .mov32, .movP]

instance (o : RV.Op1C) : Decidable (IsMove o) := by unfold IsMove; infer_instance

/-- The operand width (sljitLir.h:1246-1310). -/
def width (o : RV.Op1C) (is32 : Bool) : Nat :=
  match o with
  | .movU8 | .movS8 => 8
  | .movU16 | .movS16 | .revU16 | .revS16 => 16
  | .movU32 | .movS32 | .mov32 | .revU32 | .revS32 => 32
  | .mov | .movP => 64
  | .clz | .ctz | .rev => if is32 then 32 else 64

/-- The part of a destination register which is defined.  (SLJIT_MOV_U32 and SLJIT_MOV_S32 have no SLJIT_32 variant in the API.) -/
def resultWidth (o : RV.Op1C) (is32 : Bool) : Nat :=
  match o with
  | .mov | .movP | .revU32 | .revS32 => 64
  | .mov32 => 32
  | _ => bitsOf is32

/-- The source of a one operand operation: a register, a constant, or `n` bits of memory. -/
def source (win : Bool) (n : Nat) (s : St) : Opd → BitVec 64
  | .reg r => s.r (mreg win r)
  | .imm v => v
  | .mem base offs d => rd s.m (addr win s base offs d) (n / 8)

/-- The value a move transfers: the lower bits, extended. -/
def moved (o : RV.Op1C) (a : BitVec 64) : BitVec 64 :=
  match o with
  | .movU8 => (a.setWidth 8).setWidth 64
  | .movS8 => (a.setWidth 8).signExtend 64
  | .movU16 => (a.setWidth 16).setWidth 64
  | .movS16 => (a.setWidth 16).signExtend 64
  | .movU32 => (a.setWidth 32).setWidth 64
  | .movS32 => (a.setWidth 32).signExtend 64
  | _ => a

/-- Result r of the other operations on the operand a. -/
def Computes (o : RV.Op1C) (is32 : Bool) (a r : BitVec 64) : Prop :=
  match o with
  | .clz => ∃ n, r = BitVec.ofNat 64 n ∧ RV.IsClz (a.setWidth (bitsOf is32)) n
  | .ctz => ∃ n, r = BitVec.ofNat 64 n ∧ RV.IsCtz (a.setWidth (bitsOf is32)) n
  | .rev => RV.IsRev (bitsOf is32 / 8) a r
  | .revU16 => RV.IsRev 2 a r ∧ r = (r.setWidth 16).setWidth 64
  | .revS16 => RV.IsRev 2 a r ∧ r = (r.setWidth 16).signExtend 64
  | .revU32 => RV.IsRev 4 a r ∧ r = (r.setWidth 32).setWidth 64
  | .revS32 => RV.IsRev 4 a r ∧ r = (r.setWidth 32).signExtend 64
  | _ => False

/-- s' is s after the one operand operation wrote v. -/
structure Written1 (win : Bool) (o : RV.Op1C) (is32 : Bool) (s s' : St) (dst : Opd) (v : BitVec 64) : Prop where
  keep : ∀ q, 1 ≤ q → q ≤ 14 → dst ≠ .reg q → s'.r (mreg win q) = s.r (mreg win q)
  reg : ∀ d, dst = .reg d → (s'.r (mreg win d)).setWidth (resultWidth o is32) = v.setWidth (resultWidth o is32)
  mem : ∀ base offs d, dst = .mem base offs d → s'.m = wr s.m (addr win s base offs d) (width o is32 / 8) v
  same : (∀ base offs d, dst ≠ .mem base offs d) → s'.m = s.m

/-- The operations of sljit_emit_op0 with R0 = a and R1 = b (sljitLir.h:1178-1214); a', b' are the values afterwards.  Divisions by zero and the
division of the smallest number by -1 are undefined. -/
def Op0Spec (o : RV.Op0) (is32 : Bool) (a b a' b' : BitVec 64) : Prop :=
  let n := bitsOf is32
  let x := a.setWidth n
  let y := b.setWidth n
  let x' := a'.setWidth n
  let y' := b'.setWidth n
  match o with
  | .lmulUw => b'.toNat * 2 ^ 64 + a'.toNat = a.toNat * b.toNat
  | .lmulSw => b'.toInt * 2 ^ 64 + a'.toNat = a.toInt * b.toInt
  | .divmodUw => x'.toNat = x.toNat / y.toNat ∧ y'.toNat = x.toNat % y.toNat
  | .divmodSw => x'.toInt = x.toInt.tdiv y.toInt ∧ y'.toInt = x.toInt.tmod y.toInt
  | .divUw => x'.toNat = x.toNat / y.toNat ∧ b' = b
  | .divSw => x'.toInt = x.toInt.tdiv y.toInt ∧ b' = b
  | _ => a' = a ∧ b' = b

/-- The operation is defined for R0 = a and R1 = b. -/
def Op0Ok (o : RV.Op0) (is32 : Bool) (a b : BitVec 64) : Prop :=
  match o with
  | .lmulUw | .lmulSw => is32 = false
  | .divmodUw | .divUw => b.setWidth (bitsOf is32) ≠ 0#_
  | .divmodSw | .divSw => b.setWidth (bitsOf is32) ≠ 0#_ ∧ ¬ (a.setWidth (bitsOf is32) = BitVec.intMin _ ∧ (b.setWidth (bitsOf is32)).toInt = -1)
  | _ => False

/-- The claim about sljit_emit_op0. -/
def Op0At (win : Bool) (o : RV.Op0) (is32 : Bool) (s : St) : Prop :=
  ∃ bs s', emitOp0 win o is32 = some bs ∧ Steps bs s s' ∧ s'.m = s.m ∧ (∀ q, 3 ≤ q → q ≤ 14 → s'.r (mreg win q) = s.r (mreg win q)) ∧
    Op0Spec o is32 (s.r (mreg win 1)) (s.r (mreg win 2)) (s'.r (mreg win 1)) (s'.r (mreg win 2))

/-! ## Helper facts -/

theorem bits_B (m : Bool) : bitsOf m = B m := by cases m <;> rfl

theorem source_bsv (win : Bool) (n : Nat) (s : St) (b : Opd) : source win n s b = bsv win (n / 8) s b := by
  cases b <;> first | rfl | (simp only [source, bsv, C46.addr_ea])

theorem ext_zx {k : Nat} (h0 : 0 < k) (hk : k ≤ 8) (x : BitVec 64) : ext1 false k x = (x.setWidth (8 * k)).setWidth 64 := by
  apply BitVec.eq_of_getLsbD_eq
  intro i hi
  simp only [ext1, Bool.false_eq_true, if_false]
  rw [mask_bit h0 hk, BitVec.getLsbD_setWidth, BitVec.getLsbD_setWidth]
  simp [hi, Bool.and_comm]

theorem ext_sx {k : Nat} (h0 : 0 < k) (hk : k ≤ 8) (x : BitVec 64) : ext1 true k x = (x.setWidth (8 * k)).signExtend 64 := by
  apply BitVec.eq_of_getLsbD_eq
  intro i hi
  simp only [ext1, if_true]
  rw [sext_bit h0 hk _ hi, BitVec.getLsbD_signExtend, BitVec.msb_setWidth, BitVec.getLsbD_setWidth]
  by_cases h : i < 8 * k
  · simp [h, hi]
  · simp [h, hi]; omega

theorem width_le (o : RV.Op1C) (is32 : Bool) : width o is32 ≤ resultWidth o is32 := by cases o <;> cases is32 <;> decide

theorem width8 (o : RV.Op1C) (is32 : Bool) : 8 * (width o is32 / 8) = width o is32 := by cases o <;> cases is32 <;> rfl

/-- From an effect to the specification. -/
theorem written1 {win : Bool} {o : RV.Op1C} {is32 : Bool} {s s' : St} {dst : Opd} {k : Nat} {x v : BitVec 64} (h : Out1 win s s' dst k x) (hd : Dest dst) (hk : k = width o is32 / 8)
    (hx : ∀ i, i < resultWidth o is32 → x.getLsbD i = v.getLsbD i) : Written1 win o is32 s s' dst v := by
  refine ⟨fun q h1 h2 h3 => ?_, fun d e => ?_, fun base offs d e => ?_, fun hn => ?_⟩
  · refine h.regs _ (fun d e => ?_) (num_ne h1 (by omega) (by decide) (by decide) (by unfold TMP_REG1; omega)) (num_ne_t2 h1 (by omega))
    subst e
    exact num_ne h1 (by omega) hd.1 (by have := hd.2; omega) (fun e => h3 (by rw [e]))
  · rw [show mreg win d = num win d from rfl, h.val d e]
    apply BitVec.eq_of_getLsbD_eq
    intro i hi
    rw [BitVec.getLsbD_setWidth, BitVec.getLsbD_setWidth, hx i hi]
  · subst e hk
    rw [h.mem, C46.addr_ea]
    exact wr_bits fun i hi => hx i (Nat.lt_of_lt_of_le (by rw [width8] at hi; exact hi) (width_le o is32))
  · rw [h.mem]
    cases dst with
    | mem base offs w => exact absurd rfl (hn base offs w)
    | _ => rfl

theorem cond_ccJ (t : JT) (neg : Bool) (f : Flags) : cond (jumpCode t neg) f = ccJ t neg f := by
  cases t <;> cases neg <;> rfl

theorem dest13 {dst : Opd} (h : Dest dst) : ∀ d, dst = .reg d → d ≤ 13 := fun d e => by subst e; exact h.2

/-- The casts of constants. -/
theorem cast_ok {sign : Bool} {k : Nat} (hk : k = 1 ∨ k = 2) (v : BitVec 64) : isHalf (ext1 sign k v) = true ∧ ext1 sign k v = ext1 sign k (ext1 sign k v) := by
  have h0 : 0 < k := by omega
  have h8 : k ≤ 8 := by omega
  constructor
  · have hb : ∀ i, i < 64 → 31 ≤ i → (ext1 sign k v).getLsbD i = (ext1 sign k v).getLsbD 31 := by
      intro i hi h31
      cases sign
      · simp only [ext1, Bool.false_eq_true, if_false]
        rw [mask_bit h0 h8, mask_bit h0 h8]
        simp [show ¬ i < 8 * k by omega, show ¬ 31 < 8 * k by omega]
      · simp only [ext1, if_true]
        rw [sext_bit h0 h8 _ hi, sext_bit h0 h8 _ (by omega)]
        simp [show ¬ i < 8 * k by omega, show ¬ 31 < 8 * k by omega]
    have e : ext1 sign k v = sx32 (ext1 sign k v) := by
      apply BitVec.eq_of_getLsbD_eq
      intro i hi
      rw [sx32_sext, sext_bit (by decide) (by decide) _ hi]
      by_cases h : i < 32
      · rw [if_pos (by omega)]
      · rw [if_neg (by omega), hb i hi (by omega)]
    rw [e]; exact half_sx _
  · apply BitVec.eq_of_getLsbD_eq
    intro i hi
    cases sign
    · simp only [ext1, Bool.false_eq_true, if_false]
      rw [mask_bit h0 h8 (v &&& _)]
      rw [mask_bit h0 h8]
      by_cases h : i < 8 * k <;> simp [h]
    · simp only [ext1, if_true]
      rw [sext_bit h0 h8 _ hi, sext_bit h0 h8 (sext k v) hi]
      by_cases h : i < 8 * k
      · rw [if_pos h, sext_bit h0 h8 _ hi, if_pos h]
      · rw [if_neg h, sext_bit h0 h8 _ (by omega), if_pos (by omega)]

/-- An effect without store. -/
theorem toSpec {win : Bool} {o : RV.Op1C} {is32 : Bool} {s : St} {dst : Opd} {k : Nat} {x v : BitVec 64} {c : Code} {f : Flags} (h : Eff1 win c s dst k x f) (hd : Dest dst) (hk : k = width o is32 / 8)
    (hx : ∀ i, i < resultWidth o is32 → x.getLsbD i = v.getLsbD i) : ∃ bs s', c = some bs ∧ Steps bs s s' ∧ Written1 win o is32 s s' dst v ∧ s'.f = f := by
  obtain ⟨s', ⟨bs, hb, hs⟩, h, hf⟩ := h
  exact ⟨bs, s', hb, hs, written1 h hd hk hx, hf⟩

/-- Constants after the casts. -/
theorem cast_bsv {win sign : Bool} {k : Nat} (h0 : 0 < k) (h8 : k ≤ 8) {s : St} {op : RV.Op1C} (hc : ∀ v, castImm op (.imm v) = .imm (ext1 sign k v)) (src : Opd) :
    ext1 sign k (bsv win k s (castImm op src)) = ext1 sign k (bsv win k s src) := by
  cases src with
  | reg _ => rfl
  | mem _ _ _ => rfl
  | imm v =>
    rw [hc]
    show ext1 sign k (ext1 sign k v) = ext1 sign k v
    apply BitVec.eq_of_getLsbD_eq
    intro i hi
    cases sign
    · simp only [ext1, Bool.false_eq_true, if_false]
      rw [mask_bit h0 h8 (v &&& _), mask_bit h0 h8]
      by_cases h : i < 8 * k <;> simp [h]
    · simp only [ext1, if_true]
      rw [sext_bit h0 h8 (sext k v) hi, sext_bit h0 h8 v hi]
      by_cases h : i < 8 * k
      · rw [if_pos h, sext_bit h0 h8 _ hi, if_pos h]
      · rw [if_neg h, sext_bit h0 h8 _ (by omega), if_pos (by omega)]

theorem trunc_bit {m32 : Bool} {i : Nat} (hi : i < B m32) (x : BitVec 64) : (trunc m32 x).getLsbD i = x.getLsbD i := by
  cases m32
  · rfl
  · have hi : i < 32 := hi
    simp only [trunc, if_true, BitVec.getLsbD_setWidth, hi, show i < 64 by omega, decide_true, Bool.true_and]

theorem castUser {op : RV.Op1C} {src : Opd} (h : User src) : User (castImm op src) := by
  cases src <;> first | exact h | trivial

/-- Moves of 8 and 16 bits. -/
theorem narrow {win sign : Bool} {k : Nat} (hk : k = 1 ∨ k = 2) {s : St} {op : RV.Op1C} {dst src : Opd} (hd : Dest dst) (hs : Src src) (hc : ∀ v, castImm op (.imm v) = .imm (ext1 sign k v)) :
    Eff1 win (if k = 1 then emitMovByte win sign dst (castImm op src) else emitMovHalf win sign dst (castImm op src)) s dst k (ext1 sign k (bsv win k s src)) s.f := by
  have hdd := C46.dest_dst hd
  have hv : ∀ v, castImm op src = .imm v → isHalf v = true ∧ v = ext1 sign k v := by
    intro v e
    cases src with
    | imm u => rw [hc] at e; cases e; exact cast_ok hk u
    | reg _ => cases e
    | mem _ _ _ => cases e
  rw [← cast_bsv (by omega) (by omega) hc src]
  have hu := castUser (op := op) (C46.src_user hs)
  rcases hk with rfl | rfl
  · exact e_movByte hdd.good hdd.imm hu hv
  · exact e_movHalf hdd.good hdd.imm (Or.inl hu) hv

/-- Moves of 32 bits with extension. -/
theorem wide {win sign : Bool} {s : St} {op : RV.Op1C} {dst src : Opd} (hd : Dest dst) (hs : Src src) (hc : ∀ v, castImm op (.imm v) = .imm (ext1 sign 4 v)) :
    Eff1 win (emitMovInt win sign dst (castImm op src)) s dst 4 (ext1 sign 4 (bsv win 4 s src)) s.f := by
  rw [← cast_bsv (by decide) (by decide) hc src]
  exact e_movInt (C46.dest_dst hd) (castUser (C46.src_user hs))

/-- SLJIT_MOV, SLJIT_MOV32 and SLJIT_MOV_P. -/
theorem plain {win m32 : Bool} {s : St} {dst src : Opd} (hd : Dest dst) (hs : Src src) :
    ∃ x, (∀ i, i < B m32 → x.getLsbD i = (bsv win (NB m32) s src).getLsbD i) ∧
      Eff1 win (if src.isReg ∧ src = dst then some [] else emitMov win m32 dst src) s dst (NB m32) x s.f := by
  have hdd := C46.dest_dst hd
  by_cases h : src.isReg ∧ src = dst
  · rw [if_pos h]
    obtain ⟨h, rfl⟩ := h
    cases src with
    | reg r =>
      exact ⟨s.r (num win r), fun _ _ => rfl, s, ⟨[], rfl, Steps.nil s⟩, ⟨fun _ _ _ _ => rfl, fun d e => by cases e; rfl, rfl⟩, rfl⟩
    | imm _ => cases h
    | mem _ _ _ => cases h
  · rw [if_neg h]
    refine ⟨_, fun i hi => ?_, Eff.out (e_mov (m32 := m32) hdd.good hdd.imm (C46.src_user hs).good (fun _ e => (C46.src_user hs).ne (by decide) e))⟩
    rw [trunc_bit hi]
    exact bsv_bit (Nat.le_refl _) (by cases m32 <;> exact hi)

theorem cast_imm :
    (∀ v, castImm .movU8 (.imm v) = .imm (ext1 false 1 v)) ∧ (∀ v, castImm .movS8 (.imm v) = .imm (ext1 true 1 v)) ∧
    (∀ v, castImm .movU16 (.imm v) = .imm (ext1 false 2 v)) ∧ (∀ v, castImm .movS16 (.imm v) = .imm (ext1 true 2 v)) ∧
    (∀ v, castImm .movU32 (.imm v) = .imm (ext1 false 4 v)) ∧ ∀ v, castImm .movS32 (.imm v) = .imm (ext1 true 4 v) := by
  refine ⟨fun v => ?_, fun v => ?_, fun v => ?_, fun v => ?_, fun v => ?_, fun v => ?_⟩
  · rw [ext_zx (by decide) (by decide)]; rfl
  · rw [ext_sx (by decide) (by decide)]; rfl
  · rw [ext_zx (by decide) (by decide)]; rfl
  · rw [ext_sx (by decide) (by decide)]; rfl
  · rw [ext_zx (by decide) (by decide)]; rfl
  · rw [ext_sx (by decide) (by decide)]; rfl

/-- Bits of the value, whatever the extension is. -/
theorem low_ext {s1 s2 : Bool} {k i : Nat} (h0 : 0 < k) (h8 : k ≤ 8) (x : BitVec 64) (hi : i < 8 * k) : (ext1 s1 k x).getLsbD i = (ext1 s2 k x).getLsbD i := by
  rw [ext1_bit h0 h8 x hi, ext1_bit h0 h8 x hi]

/-! ## Theorems -/

/-- sljit_emit_op1 with SLJIT_MOV .. SLJIT_MOV_P, for all operands.  The flags are kept. -/
theorem c50_mov {win : Bool} (ft : Feat) {o : RV.Op1C} (ho : IsMove o) (is32 : Bool) {dst src : Opd} (hd : Dest dst) (hs : Src src) (s : St) :
    ∃ bs s', emitOp1 ft win o is32 dst src = some bs ∧ Steps bs s s' ∧ Written1 win o is32 s s' dst (moved o (source win (width o is32) s src)) ∧ s'.f = s.f := by
  obtain ⟨c1, c2, c3, c4, c5, c6⟩ := cast_imm
  rw [source_bsv]
  have int : ∀ sign : Bool, (sign = true ↔ o = .movS32) → (o = .movU32 ∨ o = .movS32) →
      ∃ sg : Bool, emitOp1 ft win o is32 dst src = emitMovInt win sg dst (castImm (if sg then .movS32 else .movU32) src) ∧ (is32 = false → sg = sign) := by
    intro sign h1 h2
    rcases h2 with rfl | rfl
    · have : sign = false := by cases sign <;> simp_all
      subst this
      by_cases h : is32 = true ∧ src.isImm = true
      · refine ⟨true, ?_, fun e => by rw [e] at h; exact absurd h.1 (by decide)⟩
        simp [emitOp1, castOp, h.1, h.2]
      · refine ⟨false, ?_, fun _ => rfl⟩
        simp [emitOp1, castOp, h]
    · have : sign = true := h1.2 rfl
      subst this
      by_cases h : is32 = true ∧ src.isMem = true
      · refine ⟨false, ?_, fun e => by rw [e] at h; exact absurd h.1 (by decide)⟩
        simp [emitOp1, castOp, h.1, h.2]
      · refine ⟨true, ?_, fun _ => rfl⟩
        simp [emitOp1, castOp, h]
  have fin : ∀ sign sg : Bool, o = (if sign then .movS32 else .movU32) → emitOp1 ft win o is32 dst src = emitMovInt win sg dst (castImm (if sg then .movS32 else .movU32) src) → (is32 = false → sg = sign) →
      ∃ bs s', emitOp1 ft win o is32 dst src = some bs ∧ Steps bs s s' ∧ Written1 win o is32 s s' dst (ext1 sign 4 (bsv win 4 s src)) ∧ s'.f = s.f := by
    intro sign sg h0 h1 h2
    rw [h1]
    refine toSpec (wide (sign := sg) hd hs (by cases sg; exact c5; exact c6)) hd (by rw [h0]; cases sign <;> cases is32 <;> rfl) (fun i hi => ?_)
    cases is32 with
    | false => rw [h2 rfl]
    | true =>
      have : resultWidth o true = 32 := by rw [h0]; cases sign <;> rfl
      exact low_ext (by decide) (by decide) _ (by rw [this] at hi; exact hi)
  cases o <;> first | (exact absurd ho (by decide)) | skip
  case mov =>
    have hk : width .mov is32 / 8 = 8 := by cases is32 <;> rfl
    rw [hk]
    obtain ⟨x, hx, e⟩ := plain (win := win) (m32 := false) (s := s) hd hs
    have : emitOp1 ft win .mov is32 dst src = if src.isReg ∧ src = dst then some [] else emitMov win false dst src := by
      cases src <;> simp [emitOp1, castOp, castImm]
    rw [this]
    exact toSpec e hd hk.symm hx
  case movP =>
    have hk : width .movP is32 / 8 = 8 := by cases is32 <;> rfl
    rw [hk]
    obtain ⟨x, hx, e⟩ := plain (win := win) (m32 := false) (s := s) hd hs
    have : emitOp1 ft win .movP is32 dst src = if src.isReg ∧ src = dst then some [] else emitMov win false dst src := by
      cases src <;> simp [emitOp1, castOp, castImm]
    rw [this]
    exact toSpec e hd hk.symm hx
  case mov32 =>
    have hk : width .mov32 is32 / 8 = 4 := by cases is32 <;> rfl
    rw [hk]
    obtain ⟨x, hx, e⟩ := plain (win := win) (m32 := true) (s := s) hd hs
    have : emitOp1 ft win .mov32 is32 dst src = if src.isReg ∧ src = dst then some [] else emitMov win true dst src := by
      cases src <;> simp [emitOp1, castOp, castImm]
    rw [this]
    exact toSpec e hd hk.symm hx
  case movU8 =>
    have hk : width .movU8 is32 / 8 = 1 := by cases is32 <;> rfl
    rw [hk]
    have e := narrow (win := win) (k := 1) (Or.inl rfl) (s := s) hd hs c1
    rw [if_pos rfl] at e
    have : emitOp1 ft win .movU8 is32 dst src = emitMovByte win false dst (castImm .movU8 src) := by simp [emitOp1, castOp]
    rw [this]
    exact toSpec e hd hk.symm (fun i _ => by rw [ext_zx (by decide) (by decide)]; rfl)
  case movS8 =>
    have hk : width .movS8 is32 / 8 = 1 := by cases is32 <;> rfl
    rw [hk]
    have e := narrow (win := win) (k := 1) (Or.inl rfl) (s := s) hd hs c2
    rw [if_pos rfl] at e
    have : emitOp1 ft win .movS8 is32 dst src = emitMovByte win true dst (castImm .movS8 src) := by simp [emitOp1, castOp]
    rw [this]
    exact toSpec e hd hk.symm (fun i _ => by rw [ext_sx (by decide) (by decide)]; rfl)
  case movU16 =>
    have hk : width .movU16 is32 / 8 = 2 := by cases is32 <;> rfl
    rw [hk]
    have e := narrow (win := win) (k := 2) (Or.inr rfl) (s := s) hd hs c3
    rw [if_neg (by decide)] at e
    have : emitOp1 ft win .movU16 is32 dst src = emitMovHalf win false dst (castImm .movU16 src) := by simp [emitOp1, castOp]
    rw [this]
    exact toSpec e hd hk.symm (fun i _ => by rw [ext_zx (by decide) (by decide)]; rfl)
  case movS16 =>
    have hk : width .movS16 is32 / 8 = 2 := by cases is32 <;> rfl
    rw [hk]
    have e := narrow (win := win) (k := 2) (Or.inr rfl) (s := s) hd hs c4
    rw [if_neg (by decide)] at e
    have : emitOp1 ft win .movS16 is32 dst src = emitMovHalf win true dst (castImm .movS16 src) := by simp [emitOp1, castOp]
    rw [this]
    exact toSpec e hd hk.symm (fun i _ => by rw [ext_sx (by decide) (by decide)]; rfl)
  case movU32 =>
    have hk : width .movU32 is32 / 8 = 4 := by cases is32 <;> rfl
    rw [hk]
    obtain ⟨sg, h1, h2⟩ := int false (by decide) (Or.inl rfl)
    have := fin false sg rfl h1 h2
    rw [ext_zx (by decide) (by decide)] at this
    exact this
  case movS32 =>
    have hk : width .movS32 is32 / 8 = 4 := by cases is32 <;> rfl
    rw [hk]
    obtain ⟨sg, h1, h2⟩ := int true (by decide) (Or.inr rfl)
    have := fin true sg rfl h1 h2
    rw [ext_sx (by decide) (by decide)] at this
    exact this

/-- Reversed bytes of 16 bits with extension. -/
theorem rev16_spec (ar : Bool) (a : BitVec 64) : ∃ r : BitVec 64, RV.IsRev 2 a r ∧ r = (if ar then (r.setWidth 16).signExtend 64 else (r.setWidth 16).setWidth 64) ∧
    ∀ i, i < 64 → r.getLsbD i = if i < 16 then a.getLsbD (8 * (1 - i / 8) + i % 8) else if ar then a.getLsbD 7 else false := by
  let r : BitVec 64 := ext1 ar 2 (rev 2 a)
  have hb : ∀ i, i < 64 → r.getLsbD i = if i < 16 then a.getLsbD (8 * (1 - i / 8) + i % 8) else if ar then a.getLsbD 7 else false := by
    intro i hi
    cases ar
    · simp only [r, ext1, Bool.false_eq_true, if_false]
      rw [mask_bit (by decide) (by decide), rev_bit 2 (by decide) _ _ hi]
      by_cases h : i < 16 <;> simp [h]
    · simp only [r, ext1, if_true]
      rw [sext_bit (by decide) (by decide) _ hi]
      by_cases h : i < 16
      · rw [if_pos h, if_pos h, rev_bit 2 (by decide) _ _ hi]; simp [h]
      · rw [if_neg h, if_neg h, rev_bit 2 (by decide) _ _ (by decide)]; simp
  refine ⟨r, isRev_of (by decide) (fun k hk => ?_), ?_, hb⟩
  · rw [hb k (by omega), if_pos (by omega)]
  · cases ar
    · simp only [Bool.false_eq_true, if_false]
      exact (cast_ok (sign := false) (Or.inr rfl) (rev 2 a)).2.trans (ext_zx (by decide) (by decide) _)
    · simp only [if_true]
      exact (cast_ok (sign := true) (Or.inr rfl) (rev 2 a)).2.trans (ext_sx (by decide) (by decide) _)

/-- sljit_emit_op1 with SLJIT_CLZ, SLJIT_CTZ and SLJIT_REV .. SLJIT_REV_S32, for all operands which the API allows, with and without LZCNT and TZCNT. -/
theorem c50_op1 {win : Bool} (ft : Feat) {o : RV.Op1C} (ho : ¬ IsMove o) (is32 : Bool) {dst src : Opd} (hd : Dest dst) (hs : Src src) (hi : ∀ v, src ≠ .imm v) (s : St) :
    ∃ bs s' v, emitOp1 ft win o is32 dst src = some bs ∧ Steps bs s s' ∧ Computes o is32 (source win (width o is32) s src) v ∧ Written1 win o is32 s s' dst v := by
  have hdd := C46.dest_dst hd
  have hu := C46.src_user hs
  have hi' : src.isImm = false := by cases src <;> first | rfl | exact absurd rfl (hi _)
  have hw : (bsv win (NB is32) s src).setWidth (bitsOf is32) = (opv win is32 s src).setWidth (bitsOf is32) := by
    apply BitVec.eq_of_getLsbD_eq
    intro i h
    rw [BitVec.getLsbD_setWidth, BitVec.getLsbD_setWidth, bsv_bit (Nat.le_refl _) (by cases is32 <;> exact h)]
  have count : ∀ isClz : Bool, o = (if isClz then .clz else .ctz) →
      ∃ bs s' v, emitClzCtz ft win is32 isClz dst src = some bs ∧ Steps bs s s' ∧ Computes o is32 (source win (width o is32) s src) v ∧ Written1 win o is32 s s' dst v := by
    intro isClz h
    obtain ⟨n, f, hn, e⟩ := e_clzCtz (win := win) (m32 := is32) (ft := ft) (isClz := isClz) (s := s) hdd hu hi'
    have hk : width o is32 / 8 = NB is32 := by rw [h]; cases isClz <;> cases is32 <;> rfl
    have hr : resultWidth o is32 = B is32 := by rw [h]; cases isClz <;> cases is32 <;> rfl
    obtain ⟨bs, s', e1, e2, e3, -⟩ := toSpec (o := o) (is32 := is32) (v := BitVec.ofNat 64 n) (Eff.out e) hd hk.symm (fun i hi => by
      rw [hr] at hi
      exact trunc_bit hi _)
    refine ⟨bs, s', _, e1, e2, ?_, e3⟩
    rw [source_bsv, hk, h]
    cases isClz
    · refine ⟨n, rfl, ?_⟩; rw [hw]; cases is32 <;> exact hn
    · refine ⟨n, rfl, ?_⟩; rw [hw]; cases is32 <;> exact hn
  have half : ∀ ar : Bool, o = (if ar then .revS16 else .revU16) →
      ∃ bs s' v, emitBswap win is32 o dst src = some bs ∧ Steps bs s s' ∧ Computes o is32 (source win (width o is32) s src) v ∧ Written1 win o is32 s s' dst v := by
    intro ar h
    obtain ⟨v, f, hv, e⟩ := e_swap16 (win := win) (m32 := is32) (ar := ar) (s := s) hdd hu hi'
    obtain ⟨r, r1, r2, r3⟩ := rev16_spec ar (bsv win 2 s src)
    have hk : width o is32 / 8 = 2 := by rw [h]; cases ar <;> cases is32 <;> rfl
    have hr : resultWidth o is32 = B is32 := by rw [h]; cases ar <;> cases is32 <;> rfl
    rw [← h] at e
    obtain ⟨bs, s', e1, e2, e3, -⟩ := toSpec (o := o) (is32 := is32) (v := r) e hd hk.symm (fun i hi => by
      rw [hr] at hi
      rw [hv i hi, r3 i (Nat.lt_of_lt_of_le hi (B_le is32))])
    refine ⟨bs, s', r, e1, e2, ?_, e3⟩
    rw [source_bsv, hk, h]
    cases ar
    · exact ⟨r1, r2⟩
    · exact ⟨r1, r2⟩
  cases o <;> first | (exact absurd (by decide) ho) | skip
  case clz => exact count true rfl
  case ctz => exact count false rfl
  case revU16 => exact half false rfl
  case revS16 => exact half true rfl
  case rev =>
    obtain ⟨r1, e⟩ := e_swapTo (win := win) (m32 := is32) (s := s) hdd hu
    have hk : width .rev is32 / 8 = NB is32 := by cases is32 <;> rfl
    have hr : resultWidth .rev is32 = B is32 := by cases is32 <;> rfl
    have hc : emitOp1 ft win .rev is32 dst src = ((if src ≠ .reg (dstR dst) then emitMov win is32 (.reg (dstR dst)) src else some []) +> (some (bswapIns win is32 (dstR dst)) +>
      if dst.isMem then emitMov win is32 dst (.reg TMP_REG1) else some [])) := by
      simp [emitOp1, emitBswap, cat_none]
    obtain ⟨bs, s', e1, e2, e3, -⟩ := toSpec (o := .rev) (is32 := is32) (v := rev (NB is32) (opv win is32 s src)) (Eff.out e) hd hk.symm (fun i hi => by
      rw [hr] at hi
      exact trunc_bit hi _)
    refine ⟨bs, s', _, hc.trans e1, e2, ?_, e3⟩
    rw [source_bsv, hk]
    show RV.IsRev (bitsOf is32 / 8) _ _
    rw [show bitsOf is32 / 8 = NB is32 by cases is32 <;> rfl]
    exact r1
  case revU32 =>
    have hk : width .revU32 is32 / 8 = 4 := by cases is32 <;> rfl
    obtain ⟨r1, e⟩ := e_swapTo (win := win) (m32 := true) (s := s) hdd hu
    have hc : emitOp1 ft win .revU32 is32 dst src = ((if src ≠ .reg (dstR dst) then emitMov win true (.reg (dstR dst)) src else some []) +> (some (bswapIns win true (dstR dst)) +>
      if dst.isMem then emitMov win true dst (.reg TMP_REG1) else some [])) := by
      simp [emitOp1, emitBswap, cat_none]
    have ht : trunc true (rev (NB true) (opv win true s src)) = rev 4 (opv win true s src) := by
      apply BitVec.eq_of_getLsbD_eq
      intro i h
      simp only [trunc, if_true, BitVec.getLsbD_setWidth]
      by_cases h32 : i < 32
      · simp only [h32, h, decide_true, Bool.true_and]; rfl
      · rw [rev_bit 4 (by decide) _ _ h]; simp [h32]
    obtain ⟨bs, s', e1, e2, e3, -⟩ := toSpec (o := .revU32) (is32 := is32) (v := trunc true (rev (NB true) (opv win true s src))) (Eff.out e) hd hk.symm (fun i hi => rfl)
    refine ⟨bs, s', _, hc.trans e1, e2, ?_, e3⟩
    rw [source_bsv, hk]
    refine ⟨?_, ?_⟩
    · rw [ht]; exact r1
    · rw [show trunc true (rev (NB true) (opv win true s src)) = ((rev (NB true) (opv win true s src)).setWidth 32).setWidth 64 from rfl]
      simp
  case revS32 =>
    have hk : width .revS32 is32 / 8 = 4 := by cases is32 <;> rfl
    obtain ⟨r1, e⟩ := e_swapTo (win := win) (m32 := true) (s := s) hdd hu
    have hsv : RV.IsRev 4 (bsv win 4 s src) (ext1 true 4 (rev 4 (opv win true s src))) := by
      refine isRev_of (by decide) (fun k hk => ?_)
      rw [ext1_bit (by decide) (by decide) _ hk, rev_bit 4 (by decide) _ _ (by omega)]
      simp only [hk, decide_true, Bool.true_and]
      exact bsv_bit (m32 := true) (k := 4) (Nat.le_refl _) (by omega)
    have hsx : ext1 true 4 (rev 4 (opv win true s src)) = ((ext1 true 4 (rev 4 (opv win true s src))).setWidth 32).signExtend 64 := by
      have := cast_bsv (win := win) (sign := true) (k := 4) (by decide) (by decide) (s := s) (op := .movS32) cast_imm.2.2.2.2.2 (.imm (rev 4 (opv win true s src)))
      rw [cast_imm.2.2.2.2.2] at this
      have this : ext1 true 4 (ext1 true 4 (rev 4 (opv win true s src))) = ext1 true 4 (rev 4 (opv win true s src)) := this
      exact this.symm.trans (ext_sx (by decide) (by decide) _)
    cases dst with
    | imm _ => exact hd.elim
    | mem base offs w =>
      have hc : emitOp1 ft win .revS32 is32 (.mem base offs w) src = ((if src ≠ .reg (dstR (.mem base offs w)) then emitMov win true (.reg (dstR (.mem base offs w))) src else some []) +> (some (bswapIns win true (dstR (.mem base offs w))) +>
        if (Opd.mem base offs w).isMem then emitMov win true (.mem base offs w) (.reg TMP_REG1) else some [])) := by
        simp [emitOp1, emitBswap, cat_none, Opd.isMem]
      have el := (Eff.out e).low (y := ext1 true 4 (rev 4 (opv win true s src))) (fun i hi => by
        rw [ext1_bit (by decide) (by decide) _ (show i < 8 * 4 from hi)]
        exact trunc_bit (m32 := true) hi _)
      obtain ⟨bs, s', e1, e2, e3, -⟩ := toSpec (o := .revS32) (is32 := is32) el hd hk.symm (fun i hi => rfl)
      refine ⟨bs, s', _, hc.trans e1, e2, ?_, e3⟩
      rw [source_bsv, hk]
      exact ⟨hsv, hsx⟩
    | reg d =>
      have hc : emitOp1 ft win .revS32 is32 (.reg d) src = (((if src ≠ .reg d then emitMov win true (.reg d) src else some []) +> (some (bswapIns win true d) +> some [])) +>
          ins win false {} (.reg d) (.reg d) [0x63#8]) := by
        simp [emitOp1, emitBswap, cat_none, cat_nil, cat_assoc, Opd.isMem, dstR]
      simp only [Opd.isMem, Bool.false_eq_true, if_false, dstR] at e
      obtain ⟨s1, em1, r1', f1⟩ := e
      obtain ⟨s2, em2, r2', f2⟩ := e_movsxd (win := win) (s := s1) (r := d) (b := .reg d) hdd.good rfl
      have o2 : Out1 win s s2 (.reg d) 4 (ext1 true 4 (rev 4 (opv win true s src))) := by
        refine ⟨fun q q1 q2 q3 => ?_, fun d' e => ?_, ?_⟩
        · rw [r2'.regs q (fun d' e => by cases e; exact q1 _ rfl) (fun _ => rfl) (fun _ => rfl),
            r1'.regs q (fun d' e => by cases e; exact q1 _ rfl) (fun e => absurd e q2) (fun e => absurd e q3)]
        · cases e
          rw [r2'.val d rfl, trunc_false]
          show ext1 true 4 (s1.r (num win d)) = _
          rw [r1'.val d rfl]
          apply BitVec.eq_of_getLsbD_eq
          intro i hi
          simp only [ext1, if_true]
          rw [sext_bit (by decide) (by decide) _ hi, sext_bit (by decide) (by decide) _ hi]
          have hj : (if i < 8 * 4 then i else 8 * 4 - 1) < 32 := by split <;> omega
          generalize (if i < 8 * 4 then i else 8 * 4 - 1) = j at hj
          exact trunc_bit (m32 := true) hj _
        · rw [r2'.mem]; exact r1'.mem
      obtain ⟨bs, hb, hst⟩ := em1.cat em2
      refine ⟨bs, s2, ext1 true 4 (rev 4 (opv win true s src)), hc.trans hb, hst, ?_, written1 o2 hd hk.symm (fun _ _ => rfl)⟩
      rw [source_bsv, hk]
      exact ⟨hsv, hsx⟩

/-- sljit_emit_op_flags with SLJIT_MOV and SLJIT_MOV32: the destination becomes 1 if the condition holds, otherwise 0.  The flags are kept. -/
theorem c50_flags_mov {win : Bool} (mov32 : Bool) {dst : Opd} (hd : Dest dst) (t : JT) (neg : Bool) (s : St) (c : Bool) (hc : cond (jumpCode t neg) s.f = some c) :
    ∃ bs s', emitFlagsMov win mov32 dst t neg = some bs ∧ Steps bs s s' ∧ Written win s s' (some dst) (if c then 1#(bitsOf mov32) else 0#_) ∧ s'.f = s.f := by
  obtain ⟨s', ⟨bs, hb, hst⟩, h, hf⟩ := e_flagsMov (win := win) (s := s) (t := t) (neg := neg) (c := c) (by rw [← cond_ccJ]; exact hc) (mov32 := mov32) (C46.dest_dst hd)
  have w := written1 (o := if mov32 then .mov32 else .mov) (is32 := false) (v := bitOf c) h hd (by cases mov32 <;> rfl) (fun _ _ => rfl)
  refine ⟨bs, s', hb, hst, ⟨fun q h1 h2 h3 => w.keep q h1 h2 (fun e => h3 (by rw [e])), fun d e => ?_, fun base offs d e => ?_, fun hn => w.same (fun _ _ _ e => hn _ _ _ (by rw [e]))⟩, hf⟩
  · have hv := w.reg d (by cases e; rfl)
    cases mov32 <;> cases c <;> exact hv
  · have hv := w.mem base offs d (by cases e; rfl)
    cases mov32 <;> cases c <;> exact hv

/-- sljit_emit_op_flags with SLJIT_AND, SLJIT_OR and SLJIT_XOR: the operation with the destination and the condition (0 or 1). -/
theorem c50_flags_op {win : Bool} {op : RV.Op} (ho : op.code = .and ∨ op.code = .or ∨ op.code = .xor) (hf : op.flagOk) {dst : Opd} (hd : Dest dst) (t : JT) (neg : Bool) (s : St) (c : Bool)
    (hc : cond (jumpCode t neg) s.f = some c) :
    ∃ bs s', emitFlagsOp win op dst t neg = some bs ∧ Steps bs s s' ∧
      Written win s s' (some dst) (RV.val op.code (value win s (bitsOf op.is32) dst) (if c then 1#_ else 0#_) false) ∧
      CondsOk op (value win s (bitsOf op.is32) dst) (if c then 1#_ else 0#_) false s'.f := by
  obtain ⟨x, f, ⟨s', ⟨bs, hb, hst⟩, r, hff⟩, hp⟩ := e_flagsOp (win := win) (s := s) ho hf (t := t) (neg := neg) (c := c) (by rw [← cond_ccJ]; exact hc) (C46.dest_dst hd) (dest13 hd)
  refine ⟨bs, s', hb, hst, ?_⟩
  have hl : lo op.is32 (bitOf c) = if c then 1#(B op.is32) else 0#_ := by cases op.is32 <;> cases c <;> rfl
  rw [hl] at hp
  rw [bits_B, C46.value_lo, hff, ← hp.val]
  exact ⟨C46.written r (fun d e => by cases e; have := hd.1; have := hd.2; omega), C46.conds hp⟩

/-- sljit_emit_select: src1 if the condition holds, otherwise src2.  The flags are kept. -/
theorem c50_select {win : Bool} (is32 : Bool) {dst src2 : Nat} (hd : Dest (.reg dst)) (h2 : Src (.reg src2)) {src1 : Opd} (h1 : Src src1) (t : JT) (neg : Bool) (s : St) (c : Bool)
    (hc : cond (jumpCode t neg) s.f = some c) :
    ∃ bs s', emitSelect win is32 t neg dst src1 src2 = some bs ∧ Steps bs s s' ∧
      Written win s s' (some (.reg dst)) (if c then value win s (bitsOf is32) src1 else value win s _ (.reg src2)) ∧ s'.f = s.f := by
  obtain ⟨s', ⟨bs, hb, hst⟩, r, hff⟩ := e_select (win := win) (m32 := is32) (s := s) (t := t) (neg := neg) (c := c) (by rw [← cond_ccJ]; exact hc) (C46.dest_dst hd) hd.2 (C46.src_user h1) (C46.src_user h2)
  refine ⟨bs, s', hb, hst, ?_, hff⟩
  rw [bits_B, C46.value_lo, C46.value_lo]
  refine C46.written (c1 := true) (c2 := true) ⟨r.regs, fun d e => ?_, ?_⟩ (fun d e => by cases e; have := hd.1; have := hd.2; omega)
  · rw [r.val d e]
    have hu : ∀ y : BitVec 64, trunc is32 y = trunc is32 (up is32 (lo is32 y)) := fun y => by rw [trunc_up, trunc_trunc]
    cases c <;> exact hu _
  · rw [r.mem]; rfl

/-- A comparison and its use: sljit_emit_op2u with a subtraction, and sljit_emit_select with a condition which it enables. -/
theorem c50_compare {win : Bool} {op : RV.Op} (ho : op.code = .sub) (hf : op.flagOk) {a b : Opd} (ha : Src a) (hb : Src b) (is32 : Bool) {dst src2 : Nat} (hd : Dest (.reg dst)) (h2 : Src (.reg src2))
    {t : JT} (ht : C46.flagOf t = op.flag) (hn : op.flag ≠ .none) (neg : Bool) (v : BitVec 64) (s : St) :
    ∃ bs cs s', emitOp2u win op a b = some bs ∧ emitSelect win is32 t neg dst (.imm v) src2 = some cs ∧ Steps (bs ++ cs) s s' ∧
      Written win s s' (some (.reg dst)) (if RV.flagVal .sub op.flag (value win s (C46.width op) a) (value win s _ b) false ^^ neg then v.setWidth (bitsOf is32) else value win s _ (.reg src2)) := by
  obtain ⟨bs, s1, b1, b2, b3, b4⟩ := C46.c46_op2u_partial (win := win) (op := op) (by rw [ho]; rfl) hf ha hb (fun h => by rw [ho] at h; cases h) s false (by rw [ho]; rintro (h | h) <;> cases h)
  have hc := b4.2 hn t neg ht
  rw [ho] at hc
  obtain ⟨cs, s', c1, c2, c3, -⟩ := c50_select (win := win) is32 hd h2 (src1 := .imm v) trivial t neg s1 _ hc
  refine ⟨bs, cs, s', b1, c1, b2.append c2, ?_⟩
  have hm : s1.m = s.m := b3.same (fun _ _ _ e => by cases e)
  have hr : s1.r (mreg win src2) = s.r (mreg win src2) := b3.keep src2 h2.1 (by have := h2.2; omega) (fun e => by cases e)
  have hv : value win s1 (bitsOf is32) (.reg src2) = value win s _ (.reg src2) := by simp only [value, hr]
  rw [hv] at c3
  refine ⟨fun q q1 q2 q3 => (c3.keep q q1 q2 q3).trans (b3.keep q q1 q2 (fun e => by cases e)), c3.reg, fun _ _ _ e => (by cases e), fun h => (c3.same h).trans hm⟩

theorem op0_keep {win : Bool} {s s' : St} (h : Out0 win s s') : ∀ q, 3 ≤ q → q ≤ 14 → s'.r (mreg win q) = s.r (mreg win q) := fun q h1 h2 =>
  h.regs _ (num_ne (by omega) (by omega) (by decide) (by decide) (by unfold R0; omega)) (num_ne (by omega) (by omega) (by decide) (by decide) (by unfold R1; omega))
    (num_ne (by omega) (by omega) (by decide) (by decide) (by unfold TMP_REG1; omega))

/-- Divisions: what holds always. -/
theorem divide {win signed mod is32 : Bool} {s : St} (hok : Op0Ok (divOp signed mod) is32 (s.r (mreg win 1)) (s.r (mreg win 2))) :
    ∃ bs s' , emitOp0 win (divOp signed mod) is32 = some bs ∧ Steps bs s s' ∧ Out0 win s s' ∧
      (let x := (s.r (mreg win 1)).setWidth (bitsOf is32); let y := (s.r (mreg win 2)).setWidth (bitsOf is32); let x' := (s'.r (mreg win 1)).setWidth (bitsOf is32)
       let y' := (s'.r (mreg win 2)).setWidth (bitsOf is32)
       (if signed then x'.toInt = x.toInt.tdiv y.toInt else x'.toNat = x.toNat / y.toNat) ∧
       (if mod then (if signed then y'.toInt = x.toInt.tmod y.toInt else y'.toNat = x.toNat % y.toNat) else y' = y ∧ (win = false ∨ is32 = false → s'.r (mreg win 2) = s.r (mreg win 2)))) := by
  rw [bits_B]
  have hq : ∃ q r, divWide signed (hiOf signed (lo is32 (s.r (num win R0)))) (lo is32 (s.r (num win R0))) (lo is32 (s.r (num win R1))) = some (q, r) ∧
      (if signed then q.toInt = (lo is32 (s.r (num win R0))).toInt.tdiv (lo is32 (s.r (num win R1))).toInt else q.toNat = (lo is32 (s.r (num win R0))).toNat / (lo is32 (s.r (num win R1))).toNat) ∧
      (if signed then r.toInt = (lo is32 (s.r (num win R0))).toInt.tmod (lo is32 (s.r (num win R1))).toInt else r.toNat = (lo is32 (s.r (num win R0))).toNat % (lo is32 (s.r (num win R1))).toNat) := by
    have h0 : 0 < B is32 := by cases is32 <;> decide
    cases signed
    · have hb : lo is32 (s.r (num win R1)) ≠ 0#_ := by
        rw [show divOp false mod = if mod then .divmodUw else .divUw by cases mod <;> rfl] at hok
        cases mod <;> cases is32 <;> exact hok
      obtain ⟨q, r, e1, e2, e3⟩ := div_u (lo is32 (s.r (num win R0))) (lo is32 (s.r (num win R1))) hb
      exact ⟨q, r, e1, by simpa using e2, by simpa using e3⟩
    · have hb : lo is32 (s.r (num win R1)) ≠ 0#_ ∧ ¬ (lo is32 (s.r (num win R0)) = BitVec.intMin _ ∧ (lo is32 (s.r (num win R1))).toInt = -1) := by
        rw [show divOp true mod = if mod then .divmodSw else .divSw by cases mod <;> rfl] at hok
        cases mod <;> cases is32 <;> exact hok
      obtain ⟨q, r, e1, e2, e3⟩ := div_s h0 (lo is32 (s.r (num win R0))) (lo is32 (s.r (num win R1))) hb.1 hb.2
      exact ⟨q, r, e1, by simpa using e2, by simpa using e3⟩
  obtain ⟨q, r, e1, e2, e3⟩ := hq
  obtain ⟨s', ⟨bs, hb, hst⟩, ho, v0, v1⟩ := e_divide (win := win) (m32 := is32) (mod := mod) e1
  refine ⟨bs, s', hb, hst, ho, ?_, ?_⟩
  · have : (s'.r (mreg win 1)).setWidth (B is32) = q := v0
    simp only [this]; exact e2
  · cases mod
    · simp only [Bool.false_eq_true, if_false] at v1 ⊢; exact v1
    · simp only [if_true] at v1 ⊢
      have : (s'.r (mreg win 2)).setWidth (B is32) = r := v1
      rw [this]; exact e3

/-- sljit_emit_op0: the multiplications and divisions for all values for which they are defined.  What is missing: SLJIT_DIV_U32 and SLJIT_DIV_S32 on Windows, where
only the lower half of SLJIT_R1 is preserved (`c50_div32_win`, `c50_div32_win_false`). -/
theorem c50_op0_partial {win : Bool} {o : RV.Op0} {is32 : Bool} {s : St} (hok : Op0Ok o is32 (s.r (mreg win 1)) (s.r (mreg win 2)))
    (hw : win = true → is32 = true → o ≠ .divUw ∧ o ≠ .divSw) : Op0At win o is32 s := by
  have lmul : ∀ signed : Bool, ∃ bs s', emitOp0 win (if signed then .lmulSw else .lmulUw) false = some bs ∧ Steps bs s s' ∧ Out0 win s s' ∧
      s'.r (mreg win 1) = (mulWide signed (s.r (mreg win 1)) (s.r (mreg win 2))).1 ∧ s'.r (mreg win 2) = (mulWide signed (s.r (mreg win 1)) (s.r (mreg win 2))).2.1 := by
    intro signed
    obtain ⟨s', ⟨bs, hb, hst⟩, ho, v⟩ := e_lmul (win := win) (s := s) (signed := signed)
    exact ⟨bs, s', hb, hst, ho, v⟩
  cases o <;> first | exact hok.elim | skip
  case lmulUw =>
    have : is32 = false := hok
    subst this
    obtain ⟨bs, s', hb, hst, ho, v0, v1⟩ := lmul false
    exact ⟨bs, s', hb, hst, ho.mem, op0_keep ho, by rw [v0, v1]; exact mul_u _ _⟩
  case lmulSw =>
    have : is32 = false := hok
    subst this
    obtain ⟨bs, s', hb, hst, ho, v0, v1⟩ := lmul true
    exact ⟨bs, s', hb, hst, ho.mem, op0_keep ho, by rw [v0, v1]; exact mul_s _ _⟩
  case divmodUw =>
    obtain ⟨bs, s', hb, hst, ho, v⟩ := divide (win := win) (signed := false) (mod := true) (is32 := is32) (s := s) hok
    exact ⟨bs, s', hb, hst, ho.mem, op0_keep ho, v⟩
  case divmodSw =>
    obtain ⟨bs, s', hb, hst, ho, v⟩ := divide (win := win) (signed := true) (mod := true) (is32 := is32) (s := s) hok
    exact ⟨bs, s', hb, hst, ho.mem, op0_keep ho, v⟩
  case divUw =>
    obtain ⟨bs, s', hb, hst, ho, v⟩ := divide (win := win) (signed := false) (mod := false) (is32 := is32) (s := s) hok
    refine ⟨bs, s', hb, hst, ho.mem, op0_keep ho, v.1, v.2.2 ?_⟩
    cases win <;> cases is32 <;> first | simp; done | exact absurd rfl (hw rfl rfl).1
  case divSw =>
    obtain ⟨bs, s', hb, hst, ho, v⟩ := divide (win := win) (signed := true) (mod := false) (is32 := is32) (s := s) hok
    refine ⟨bs, s', hb, hst, ho.mem, op0_keep ho, v.1, v.2.2 ?_⟩
    cases win <;> cases is32 <;> first | simp; done | exact absurd rfl (hw rfl rfl).2

/-- SLJIT_DIV_U32 and SLJIT_DIV_S32 on Windows: the quotient is right, and the lower half of SLJIT_R1 is preserved. -/
theorem c50_div32_win {signed : Bool} {s : St} (hok : Op0Ok (if signed then .divSw else .divUw) true (s.r (mreg true 1)) (s.r (mreg true 2))) :
    ∃ bs s', emitOp0 true (if signed then .divSw else .divUw) true = some bs ∧ Steps bs s s' ∧ s'.m = s.m ∧ (∀ q, 3 ≤ q → q ≤ 14 → s'.r (mreg true q) = s.r (mreg true q)) ∧
      (let x := (s.r (mreg true 1)).setWidth 32; let y := (s.r (mreg true 2)).setWidth 32; let x' := (s'.r (mreg true 1)).setWidth 32
       if signed then x'.toInt = x.toInt.tdiv y.toInt else x'.toNat = x.toNat / y.toNat) ∧ (s'.r (mreg true 2)).setWidth 32 = (s.r (mreg true 2)).setWidth 32 := by
  cases signed
  · obtain ⟨bs, s', hb, hst, ho, v⟩ := divide (win := true) (signed := false) (mod := false) (is32 := true) (s := s) hok
    exact ⟨bs, s', hb, hst, ho.mem, op0_keep ho, v.1, v.2.1⟩
  · obtain ⟨bs, s', hb, hst, ho, v⟩ := divide (win := true) (signed := true) (mod := false) (is32 := true) (s := s) hok
    exact ⟨bs, s', hb, hst, ho.mem, op0_keep ho, v.1, v.2.1⟩

/-! ## The hypotheses are met -/

/-- A state: R0 (rax) = -7, rdx = 2^32 + 2 (R1 on Windows), rsi = 3 (R1 on other systems), the carry flag is set. -/
def st : St where
  r q := if q = 0#4 then -7#64 else if q = 2#4 then 0x100000002#64 else if q = 6#4 then 3#64 else 0#64
  m a := a.setWidth 8
  f := ⟨some true, some false, some true, some false⟩

example := c50_mov (win := false) ⟨false, false⟩ (o := .movS16) (by decide) true (dst := .mem 1 2 3#64) (src := .imm 0x12345#64) ⟨by decide, by decide, by decide⟩ trivial st
example := c50_mov (win := true) ⟨true, true⟩ (o := .movU32) (by decide) false (dst := .reg 5) (src := .mem 14 0 0x123456789#64) ⟨by decide, by decide⟩ ⟨by decide, by decide, by decide⟩ st
example := c50_op1 (win := false) ⟨false, true⟩ (o := .clz) (by decide) true (dst := .mem 2 0 8#64) (src := .mem 2 1 0#64) ⟨by decide, by decide, by decide⟩ ⟨by decide, by decide, by decide⟩ (fun v e => by cases e) st
example := c50_op1 (win := true) ⟨false, true⟩ (o := .revS16) (by decide) true (dst := .reg 3) (src := .reg 3) ⟨by decide, by decide⟩ ⟨by decide, by decide⟩ (fun v e => by cases e) st
example := c50_flags_mov (win := false) true (dst := .mem 1 0 4#64) ⟨by decide, by decide, by decide⟩ .greater false st false (by decide)
example := c50_flags_op (win := false) (op := ⟨.or, false, false, .none⟩) (Or.inr (Or.inl rfl)) rfl (dst := .reg 2) ⟨by decide, by decide⟩ .less false st true (by decide)
example := c50_select (win := false) true (dst := 1) (src2 := 2) ⟨by decide, by decide⟩ ⟨by decide, by decide⟩ (src1 := .mem 1 0 8#64) ⟨by decide, by decide, by decide⟩ .sigLess true st false (by decide)
example : Op0At false .divSw false st := c50_op0_partial ⟨by decide, by decide⟩ (fun h => by cases h)
example : Op0At true .divmodUw true st := c50_op0_partial (show _ ≠ _ by decide) (fun _ _ => ⟨by decide, by decide⟩)
example := c50_div32_win (signed := true) (s := st) ⟨by decide, by decide⟩

/-! ## Where the code is wrong -/

/-- SLJIT_DIV_U32 on Windows: SLJIT_R1 = 2^32 + 2 becomes 2, since it is saved and restored by 32 bit moves (sljitNativeX86_common.c:1449, 1527), although "SLJIT_R1 preserves its value"
(sljitLir.h:1201). -/
theorem c50_div32_win_false : ¬ Op0At true .divUw true st := by
  rintro ⟨bs, s', hb, hst, -, -, -, h⟩
  have e : emitOp0 true .divUw true = some [0x41#8, 0x89#8, 0xd1#8, 0x33#8, 0xd2#8, 0x41#8, 0xf7#8, 0xf1#8, 0x44#8, 0x89#8, 0xca#8] := by decide +kernel
  rw [e] at hb
  cases hb
  have := C46.outcome (g := fun s => s.r 2#4) (y := 2#64) 4 (by decide +kernel) hst
  rw [show mreg true 2 = 2#4 by decide, this] at h
  exact absurd h (by decide)

end Verif.Props.C50
