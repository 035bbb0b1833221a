import Verif.Loong.FlagsOp
import Verif.Props.C29
import Verif.Props.C62

/-!
# C65: conditions as values (sljit_emit_op_flags) on LoongArch64

The meaning of a condition is given by the operands of the operation that set the flags (`Verif.Props.C29.CondOf`, which does not
depend on the architecture).  `Says` is the connection between the two sides: what the flag registers have to contain.
-/

namespace Verif.Props.C65
open Verif.LA
open Verif.RV (Op OpC Flag Opd ld32 ld64 st32 st64)
open Verif.Props.C20 (Arith Shift result flag CarryDefect)
open Verif.Props.C29 (flagNo CondOf bit combine)
open Verif.Props.C62 (UserReg Src Dst addr value Result zeroFlag varFlag carryFlag Src32 CacheDefect demo)
open Verif.Imm.Loong (regMap)

/-- The flags of state `s` say that the condition `type` is `t`.  The variable flag register is 0 or 1, except for the overflow
flag of a multiplication (`mul`) and the result of an atomic store (14, 15). -/
def Says (s : Core) (mul : Bool) (type : Nat) (t : Bool) : Prop :=
  type < 16 ∧ (
  if type < 2 then (zeroFlag s ↔ t = decide (type = 0))
  else (varFlag s ↔ t = decide (type % 2 = 0)) ∧ (mul = false → type < 14 → s.x 15#5 = 0#64 ∨ s.x 15#5 = 1#64) ∧
    (mul = true → type = 10 ∨ type = 11))

/-- After sljit_emit_op2 or sljit_emit_op2u every condition it was asked to set is in the flags. -/
theorem c65_set_partial (op : Op) (dst src1 src2 : Opd) (s : Core) (cin : Bool)
    (hop : Arith op.code ∨ Shift op.code) (hfl : op.flagOk) (hd : Dst dst ∨ dst = .reg 0) (h1 : Src src1) (h2 : Src src2)
    (hcin : op.code = .addc ∨ op.code = .subc → carryFlag s cin)
    (h32 : op.is32 = true → Src32 s src1 ∧ (Shift op.code ∨ Src32 s src2))
    (hno : ¬ CacheDefect dst src1 src2) (hcy : ¬ CarryDefect op dst src1 src2) :
    ∃ s' v, run (emitOp2 op dst src1 src2) s = some s' ∧ Result op.is32 dst v s s' ∧
      ∀ type t, CondOf op (value op.is32 s src1) (value op.is32 s src2) cin type t → Says s' (decide (op.code = .mul)) type t := by
  have hd' : DOk dst := by
    rcases hd with hd | hd
    · exact hd.ok.1
    · rw [hd]; exact Or.inl (by decide)
  obtain ⟨s', hr, hp⟩ := emitOp2_ok (cin := cin) (Verif.Props.C20.bin_of hop) hfl hd' h1.ok h2.ok (c := s) (fun h => hcin h) (C62.hyp32 h32)
    (Verif.Props.C20.carry_ok h1.rv h2.rv hcy) (C62.cache_ok hno)
  rw [C62.value_eq, C62.value_eq] at hp
  obtain ⟨v, hv, -⟩ := hp.done
  refine ⟨s', v, hr, C62.Result.of hd hv, ?_⟩
  generalize value op.is32 s src1 = a at hp
  generalize value op.is32 s src2 = b at hp
  have hz : op.setZ = true → (zeroFlag s' ↔ result op a b cin = 0#64) := hp.zero
  have hf : op.flag ≠ .none → (varFlag s' ↔ flag op a b cin = true) := hp.flag
  have hb : op.flag ≠ .none → op.flag ≠ .overflow ∨ op.code ≠ .mul → s'.x 15#5 = Verif.RV.bool64 (flag op a b cin) := hp.bool
  have hno : op.flag ≠ .none → 2 ≤ flagNo op.flag ∧ flagNo op.flag < 13 ∧ flagNo op.flag % 2 = 0 := by
    intro h; cases hq : op.flag <;> first | exact absurd hq h | decide
  have hmul : op.flag ≠ .none → op.code = .mul → op.flag = .overflow := by
    intro h e
    unfold Verif.RV.Op.flagOk at hfl
    rw [e] at hfl
    exact hfl.1.resolve_left h
  have var : op.flag ≠ .none → (decide (op.code = .mul) = false → s'.x 15#5 = 0#64 ∨ s'.x 15#5 = 1#64) := by
    intro h e
    rw [hb h (Or.inr (by simpa using e))]
    cases flag op a b cin <;> simp [Verif.RV.bool64]
  rintro type t (⟨sz, ⟨rfl, rfl⟩ | ⟨rfl, rfl⟩⟩ | ⟨nf, h⟩)
  · refine ⟨by decide, ?_⟩
    rw [if_pos (by decide), hz sz]; simp
  · refine ⟨by decide, ?_⟩
    rw [if_pos (by decide), hz sz]; simp
  · obtain ⟨n1, n2, n3⟩ := hno nf
    have m10 : decide (op.code = .mul) = true → flagNo op.flag = 10 := by
      intro e; rw [hmul nf (by simpa using e)]; rfl
    rcases h with ⟨rfl, rfl⟩ | ⟨rfl, rfl⟩
    · refine ⟨by omega, ?_⟩
      rw [if_neg (by omega), hf nf]
      exact ⟨by simp [n3], fun e _ => var nf e, fun e => Or.inl (m10 e)⟩
    · refine ⟨by omega, ?_⟩
      rw [if_neg (by omega), hf nf]
      refine ⟨?_, fun e _ => var nf e, fun e => Or.inr (by rw [m10 e])⟩
      have : (flagNo op.flag + 1) % 2 = 1 := by omega
      simp [this]

theorem Says.flag {s : Core} {mul : Bool} {type : Nat} {t : Bool} (h : Says s mul type t) : FlagIs s (!mul) type t := by
  obtain ⟨ht, h⟩ := h
  unfold FlagIs
  unfold zeroFlag varFlag at h
  generalize s.x 12#5 = v5 at *
  generalize s.x 15#5 = v28 at *
  interval_cases type <;> cases mul <;> simp at h ⊢ <;>
    first
    | exact h
    | (obtain ⟨h1, rfl | rfl⟩ := h <;> cases t <;> simp_all [Verif.RV.bool64])

/-- **C65, sljit_emit_op_flags** with SLJIT_MOV: dst receives 1 or 0 according to the condition, and the flags stay as they are. -/
theorem c65_mov (is32 setZ mul : Bool) (dst : Opd) (type : Nat) (t : Bool) (s : Core) (hd : Dst dst) (h : Says s mul type t) :
    ∃ s', run (emitOpFlags .mov is32 setZ (!mul) dst type) s = some s' ∧ Result is32 dst (combine .mov (value is32 s dst) t) s s' ∧
      s'.x 12#5 = s.x 12#5 ∧ s'.x 15#5 = s.x 15#5 := by
  obtain ⟨s', h1, h2, h3, h4⟩ := emitOpFlags_mov (is32 := is32) (setZ := setZ) hd.ok.1 hd.ok.2 (by have := h.1; omega) h.flag
  exact ⟨s', h1, C62.Result.of (op := ⟨.mov, is32, false, .none⟩) (Or.inl hd) h2, h3, h4⟩

/-- **C65, sljit_emit_op_flags** with SLJIT_AND, SLJIT_OR, SLJIT_XOR: dst is combined with the condition; with SLJIT_SET_Z the zero
flag says whether the new value is zero. -/
theorem c65_logic (code : OpC) (is32 setZ mul : Bool) (dst : Opd) (type : Nat) (t : Bool) (s : Core)
    (hc : code = .and ∨ code = .or ∨ code = .xor) (hd : Dst dst) (h : Says s mul type t) (h32 : is32 = true → Src32 s dst) :
    ∃ s', run (emitOpFlags code is32 setZ (!mul) dst type) s = some s' ∧
      Result is32 dst (combine code (value is32 s dst) t) s s' ∧
      (setZ = true → (zeroFlag s' ↔ combine code (value is32 s dst) t = 0#64)) := by
  have hsx : ∀ t, Verif.RV.Sx (Verif.RV.bool64 t) := by unfold Verif.RV.Sx; decide
  have hv := C62.value_eq ⟨code, is32, setZ, .none⟩ s dst
  have hd32 : is32 = true → Verif.RV.Sx (value is32 s dst) := by
    intro e
    cases dst with
    | reg r => exact h32 e
    | imm v => exact absurd hd (by simp [Dst])
    | mem b i w =>
      subst e
      simp only [value, if_true]
      exact Verif.RV.Sx_sx32 _
  have hne : dst ≠ .reg TMP_REG2 := by rintro rfl; exact absurd hd.2 (by decide)
  obtain ⟨s', h1, h2⟩ := emitOpFlags_logic (op := ⟨code, is32, setZ, .none⟩) hc rfl hd.ok.1 hne hd.ok.2 (by have := h.1; omega) h.flag
    (by rw [hv]; exact hd32)
  rw [hv] at h2
  have hres : Verif.RV.resX ⟨code, is32, setZ, .none⟩ (value is32 s dst) (Verif.RV.bool64 t) false = combine code (value is32 s dst) t := by
    rcases hc with rfl | rfl | rfl
    · exact Verif.RV.resX_and rfl _ _ _ (fun e => ⟨hd32 e, hsx t⟩)
    · exact Verif.RV.resX_or rfl _ _ _ (fun e => ⟨hd32 e, hsx t⟩)
    · exact Verif.RV.resX_xor rfl _ _ _ (fun e => ⟨hd32 e, hsx t⟩)
  obtain ⟨⟨v, d1, dg⟩, d2, -, -⟩ := h2
  have dv := dg.2 (by rintro ⟨e, -⟩; rcases hc with rfl | rfl | rfl <;> cases e)
  simp only [] at dv hres
  rw [hres] at dv d2
  rw [dv] at d1
  exact ⟨s', h1, C62.Result.of (op := ⟨code, is32, setZ, .none⟩) (Or.inl hd) d1, d2⟩

/-- A comparison (sljit_emit_op2u) and its materialized condition. -/
theorem c65_compare_partial (op : Op) (src1 src2 : Opd) (is32 setZ : Bool) (dst : Opd) (type : Nat) (t : Bool) (s : Core) (cin : Bool)
    (hop : Arith op.code ∨ Shift op.code) (hfl : op.flagOk) (hd : Dst dst) (h1 : Src src1) (h2 : Src src2)
    (hcin : op.code = .addc ∨ op.code = .subc → carryFlag s cin)
    (h32 : op.is32 = true → Src32 s src1 ∧ (Shift op.code ∨ Src32 s src2))
    (hcy : ¬ CarryDefect op (.reg 0) src1 src2)
    (hcond : CondOf op (value op.is32 s src1) (value op.is32 s src2) cin type t) :
    ∃ s', run (emitOp2 op (.reg 0) src1 src2 ++ emitOpFlags .mov is32 setZ (!decide (op.code = .mul)) dst type) s = some s' ∧
      Result is32 dst (bit t) s s' := by
  obtain ⟨s1, v, r1, q1, say⟩ := c65_set_partial op (.reg 0) src1 src2 s cin hop hfl (Or.inr rfl) h1 h2 hcin h32
    (by rintro ⟨_, _, _, _, _, _, _, _, _, _, _, _, h, -⟩; cases h) hcy
  obtain ⟨s2, r2, q2, -⟩ := c65_mov is32 setZ _ dst type t s1 hd (say type t hcond)
  refine ⟨s2, ?_, ?_⟩
  · rw [run_append, r1]; exact r2
  · have same : ∀ r, UserReg r → s1.x (regMap r) = s.x (regMap r) := fun r hr => q1.user r hr (by rintro ⟨⟩; exact absurd hr.1 (by decide))
    have ha : ∀ b i w, dst = .mem b i w → addr s1 b i w = addr s b i w := by
      rintro b i w rfl
      unfold addr
      congr 1
      · split
        · rfl
        · exact same _ ⟨by omega, hd.1⟩
      · split
        · rfl
        · rw [same _ ⟨by omega, hd.2.1⟩]
    refine ⟨q2.reg, ?_, fun r hr hne => (q2.user r hr hne).trans (same r hr), ⟨q2.fixed.1.trans q1.fixed.1, q2.fixed.2.trans q1.fixed.2⟩, q2.fregs.trans q1.fregs⟩
    have m1 : s1.mem = s.mem := q1.mem
    have m2 := q2.mem
    cases dst with
    | mem b i w =>
      simp only [ha b i w rfl, m1] at m2
      exact m2
    | reg r => exact m2.trans m1
    | imm v => exact m2.trans m1

/-! ## The hypotheses can be met -/

/-- Signed comparison -3 < 5 with an immediate, stored into memory as 1. -/
example : ∃ s', run (emitOp2 ⟨.sub, false, false, .sigLess⟩ (.reg 0) (.imm (-3#64)) (.reg 2) ++
      emitOpFlags .mov false false true (.mem 1 0 0x12345#64) 6) (demo 0x1000#64 5#64 0#64 0#64 0#64 0#64 0#8) = some s' ∧
      ld64 s'.mem 0x13345#64 = 1#64 := by
  obtain ⟨s', h1, h2⟩ := c65_compare_partial ⟨.sub, false, false, .sigLess⟩ (.imm (-3#64)) (.reg 2) false false (.mem 1 0 0x12345#64) 6 true
    (demo 0x1000#64 5#64 0#64 0#64 0#64 0#64 0#8) false (Or.inl (by unfold Arith; decide)) trivial ⟨by decide, by decide, fun h => absurd rfl h⟩ trivial
    ⟨by decide, by decide⟩ (by simp) (by simp) (by simp [CarryDefect]) (Or.inr ⟨by decide, Or.inl ⟨rfl, by decide +kernel⟩⟩)
  refine ⟨s', h1, ?_⟩
  have hm := h2.mem
  simp only [Bool.false_eq_true, if_false] at hm
  rw [hm]
  decide +kernel

/-- A state that satisfies the hypotheses: the condition zero is true, the variable flag is set. -/
example : Says (demo 0#64 0#64 0#64 0#64 1#64 0#64 0#8) false 0 true ∧ Says (demo 0#64 0#64 0#64 0#64 1#64 0#64 0#8) false 13 false ∧
    Says (demo 0#64 0#64 0#64 0#64 7#64 0#64 0#8) true 10 true ∧ Says (demo 0#64 0#64 0#64 0#64 7#64 0#64 0#8) false 14 true := by
  refine ⟨⟨by decide, ?_⟩, ⟨by decide, ?_⟩, ⟨by decide, ?_⟩, ⟨by decide, ?_⟩⟩ <;> simp only [zeroFlag, varFlag] <;> decide +kernel

/-- The condition is not carry, xor'ed into a memory cell whose address needs a temporary; the result 5 is not zero. -/
example : ∃ s', run (emitOpFlags .xor true true true (.mem 1 2 3#64) 13) (demo 0x1000#64 0x10#64 0#64 0#64 0#64 0x1080#64 4#8) = some s' ∧
    ld32 s'.mem 0x1080#64 = 5#32 ∧ ¬ zeroFlag s' := by
  obtain ⟨s', h1, h2, h3⟩ := c65_logic .xor true true false (.mem 1 2 3#64) 13 true (demo 0x1000#64 0x10#64 0#64 0#64 0#64 0x1080#64 4#8)
    (by simp) ⟨by decide, by decide, fun _ => by decide⟩ ⟨by decide, by rw [if_neg (by decide)]; simp only [varFlag]; decide +kernel⟩ (fun _ => trivial)
  refine ⟨s', h1, ?_, ?_⟩
  · have hm := h2.mem
    simp only [if_true] at hm
    rw [hm]
    decide +kernel
  · rw [h3 rfl]; decide +kernel

end Verif.Props.C65
