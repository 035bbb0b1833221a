import Verif.RISCV.Select
import Verif.Props.C20
import Verif.Props.C24
import Verif.Props.C28

/-!
# C29: sljit_emit_op_flags, sljit_emit_select, and conditional jumps on flags (RV64)

The meaning of a condition is given by the operands of the operation that set the flags (`CondOf`).  `Says` is the
connection between the two sides: what the flag registers have to contain.
-/

namespace Verif.Props.C29
open Verif.RV Verif.Props.Rv

/-- The even condition type that names a variable flag (sljitLir.h:1720-1756). -/
def flagNo : Flag → Nat
  | .less => 2
  | .greater => 4
  | .sigLess => 6
  | .sigGreater => 8
  | .overflow => 10
  | .carry => 12
  | .none => 0

/-- After the operation `op` on `a` and `b`, the condition `type` is `t`.  Types come in pairs, the odd one is the negation
of the even one. -/
def CondOf (op : Op) (a b : BitVec 64) (cin : Bool) (type : Nat) (t : Bool) : Prop :=
  (op.setZ = true ∧ (type = 0 ∧ t = decide (C20.result op a b cin = 0#64) ∨ type = 1 ∧ t = !decide (C20.result op a b cin = 0#64))) ∨
  (op.flag ≠ .none ∧ (type = flagNo op.flag ∧ t = C20.flag op a b cin ∨ type = flagNo op.flag + 1 ∧ t = !C20.flag op a b cin))

/-- The flags of state `s` say that the condition `type` is `t`.  The variable flag register is 0 or 1, except for the overflow
flag of a multiplication (`mul`). -/
def Says (s : St) (mul : Bool) (type : Nat) (t : Bool) : Prop :=
  type < 14 ∧ (
  if type < 2 then (zeroFlag s ↔ t = decide (type = 0))
  else (varFlag s ↔ t = decide (type % 2 = 0)) ∧ (mul = false → s.rd 28#5 = 0#64 ∨ s.rd 28#5 = 1#64) ∧ (mul = true → type = 10 ∨ type = 11))

/-! ## Producing the flags -/

/-- After sljit_emit_op2 or sljit_emit_op2u every condition it was asked to set is in the flags. -/
theorem c29_set_partial (cfg : Cfg) (op : Op) (dst src1 src2 : Opd) (s : St) (cin : Bool)
    (hop : C20.Arith op.code ∨ C20.Shift op.code) (hfl : op.flagOk) (hd : Dst dst ∨ dst = .reg 0) (h1 : Src src1) (h2 : Src src2)
    (hcin : op.code = .addc ∨ op.code = .subc → carryFlag s cin)
    (h32 : op.is32 = true → Src32 s src1 ∧ (C20.Shift op.code ∨ Src32 s src2))
    (hov : ¬ C20.OverflowDefect op src1 src2) (hcy : ¬ C20.CarryDefect op dst src1 src2) :
    ∃ s', run (emitOp2 cfg op dst src1 src2) s = some s' ∧
      Result op.is32 dst (C20.result op (value op.is32 s src1) (value op.is32 s src2) cin) s s' ∧
      ∀ type t, CondOf op (value op.is32 s src1) (value op.is32 s src2) cin type t → Says s' (decide (op.code = .mul)) type t := by
  have hd' : DOk dst := by
    rcases hd with hd | hd
    · exact hd.ok.1
    · rw [hd]; exact Or.inl (by decide)
  obtain ⟨s', hr, hp⟩ := emitOp2_ok (cfg := cfg) (cin := cin) (C20.bin_of hop) hfl hd' h1.ok h2.ok (c := s.core) (fun h => hcin h) (C20.hyp32 h32)
    (C20.carry_ok h1 h2 hcy) (C20.overflow_ok h1 h2 hov) s rfl
  refine ⟨s', hr, ?_⟩
  rw [value_eq, value_eq] at hp
  refine ⟨Result.of hd hp.done, ?_⟩
  generalize value op.is32 s src1 = a at hp
  generalize value op.is32 s src2 = b at hp
  have hz : op.setZ = true → (zeroFlag s' ↔ C20.result op a b cin = 0#64) := hp.zero
  have hf : op.flag ≠ .none → (varFlag s' ↔ C20.flag op a b cin = true) := hp.flag
  have hb : op.flag ≠ .none → op.flag ≠ .overflow ∨ op.code ≠ .mul → s'.rd 28#5 = bool64 (C20.flag op a b cin) := hp.bool
  have hno : op.flag ≠ .none → 2 ≤ flagNo op.flag ∧ flagNo op.flag < 13 ∧ flagNo op.flag % 2 = 0 := by
    intro h; cases hq : op.flag <;> first | exact absurd hq h | decide
  have hmul : op.flag ≠ .none → op.code = .mul → op.flag = .overflow := by
    intro h e
    unfold Op.flagOk at hfl
    rw [e] at hfl
    exact hfl.1.resolve_left h
  have var : op.flag ≠ .none → (decide (op.code = .mul) = false → s'.rd 28#5 = 0#64 ∨ s'.rd 28#5 = 1#64) := by
    intro h e
    rw [hb h (Or.inr (by simpa using e))]
    cases C20.flag op a b cin <;> simp [bool64]
  rintro type t (⟨sz, ⟨rfl, rfl⟩ | ⟨rfl, rfl⟩⟩ | ⟨nf, h⟩)
  · refine ⟨by decide, ?_⟩
    rw [if_pos (by decide), hz sz]; simp
  · refine ⟨by decide, ?_⟩
    rw [if_pos (by decide), hz sz]; simp
  · obtain ⟨n1, n2, n3⟩ := hno nf
    have m10 : decide (op.code = .mul) = true → flagNo op.flag = 10 := by
      intro e; rw [hmul nf (by simpa using e)]; rfl
    rcases h with ⟨rfl, rfl⟩ | ⟨rfl, rfl⟩
    · refine ⟨by omega, ?_⟩
      rw [if_neg (by omega), hf nf]
      exact ⟨by simp [n3], var nf, fun e => Or.inl (m10 e)⟩
    · refine ⟨by omega, ?_⟩
      rw [if_neg (by omega), hf nf]
      refine ⟨?_, var nf, fun e => Or.inr (by rw [m10 e])⟩
      have : (flagNo op.flag + 1) % 2 = 1 := by omega
      simp [this]

/-! ## Using the flags -/

theorem Says.flag {s : St} {mul : Bool} {type : Nat} {t : Bool} (h : Says s mul type t) : FlagIs s.core (!mul) type t := by
  obtain ⟨ht, h⟩ := h
  unfold FlagIs
  have e5 : s.core.x 5#5 = s.rd 5#5 := rfl
  have e28 : s.core.x 28#5 = s.rd 28#5 := rfl
  rw [e5, e28]
  unfold zeroFlag varFlag at h
  generalize s.rd 5#5 = v5 at *
  generalize s.rd 28#5 = v28 at *
  interval_cases type <;> cases mul <;> simp [inverted] at h ⊢ <;>
    first
    | exact h
    | (obtain ⟨h1, rfl | rfl⟩ := h <;> cases t <;> simp_all [bool64])

/-- 1 or 0. -/
def bit (t : Bool) : BitVec 64 := if t then 1#64 else 0#64

/-- What sljit_emit_op_flags leaves in dst: SLJIT_MOV stores the condition, the others combine it with dst. -/
def combine (code : OpC) (old : BitVec 64) (t : Bool) : BitVec 64 :=
  match code with
  | .and => old &&& bit t
  | .or => old ||| bit t
  | .xor => old ^^^ bit t
  | _ => bit t

/-- **C29, sljit_emit_op_flags** with SLJIT_MOV: dst receives 1 or 0 according to the condition, and the flags stay as they are. -/
theorem c29_mov (cfg : Cfg) (is32 setZ mul : Bool) (dst : Opd) (type : Nat) (t : Bool) (s : St) (hd : Dst dst) (h : Says s mul type t) :
    ∃ s', run (emitOpFlags cfg .mov is32 setZ (!mul) dst type) s = some s' ∧ Result is32 dst (combine .mov (value is32 s dst) t) s s' ∧
      s'.rd 5#5 = s.rd 5#5 ∧ s'.rd 28#5 = s.rd 28#5 := by
  obtain ⟨s', h1, h2, h3, h4⟩ := emitOpFlags_mov (cfg := cfg) (is32 := is32) (setZ := setZ) hd.ok.1 hd.ok.2 (by have := h.1; omega) h.flag s rfl
  exact ⟨s', h1, Result.of (op := ⟨.mov, is32, false, .none⟩) (Or.inl hd) h2, h3, h4⟩

/-- **C29, sljit_emit_op_flags** with SLJIT_AND, SLJIT_OR, SLJIT_XOR: dst is combined with the condition; with SLJIT_SET_Z the zero
flag says whether the new value is zero. -/
theorem c29_logic (cfg : Cfg) (code : OpC) (is32 setZ mul : Bool) (dst : Opd) (type : Nat) (t : Bool) (s : St)
    (hc : code = .and ∨ code = .or ∨ code = .xor) (hd : Dst dst) (h : Says s mul type t) (h32 : is32 = true → Src32 s dst) :
    ∃ s', run (emitOpFlags cfg code is32 setZ (!mul) dst type) s = some s' ∧
      Result is32 dst (combine code (value is32 s dst) t) s s' ∧
      (setZ = true → (zeroFlag s' ↔ combine code (value is32 s dst) t = 0#64)) := by
  have hsx : ∀ t, Sx (bool64 t) := by unfold Sx; decide
  have hv := value_eq ⟨code, is32, setZ, .none⟩ s dst
  have hd32 : is32 = true → Sx (value is32 s dst) := by
    intro e
    cases dst with
    | reg r => exact h32 e
    | imm v => exact absurd hd (by simp [Dst])
    | mem b i w =>
      subst e
      simp only [value, if_true]
      exact Sx_sx32 _
  have hne : dst ≠ .reg TMP_REG2 := by rintro rfl; exact absurd hd.2 (by decide)
  obtain ⟨s', h1, h2⟩ := emitOpFlags_logic (cfg := cfg) (op := ⟨code, is32, setZ, .none⟩) hc rfl hd.ok.1 hne hd.ok.2 (by have := h.1; omega) h.flag
    (by rw [hv]; exact hd32) s rfl
  rw [hv] at h2
  have hres : resX ⟨code, is32, setZ, .none⟩ (value is32 s dst) (bool64 t) false = combine code (value is32 s dst) t := by
    rcases hc with rfl | rfl | rfl
    · exact resX_and rfl _ _ _ (fun e => ⟨hd32 e, hsx t⟩)
    · exact resX_or rfl _ _ _ (fun e => ⟨hd32 e, hsx t⟩)
    · exact resX_xor rfl _ _ _ (fun e => ⟨hd32 e, hsx t⟩)
  obtain ⟨d1, d2, -, -⟩ := h2
  rw [hres] at d1 d2
  exact ⟨s', h1, Result.of (op := ⟨code, is32, setZ, .none⟩) (Or.inl hd) d1, d2⟩

/-- A comparison (sljit_emit_op2u) and its materialized condition. -/
theorem c29_compare_partial (cfg : Cfg) (op : Op) (src1 src2 : Opd) (is32 setZ : Bool) (dst : Opd) (type : Nat) (t : Bool) (s : St) (cin : Bool)
    (hop : C20.Arith op.code ∨ C20.Shift op.code) (hfl : op.flagOk) (hd : Dst dst) (h1 : Src src1) (h2 : Src src2)
    (hcin : op.code = .addc ∨ op.code = .subc → carryFlag s cin)
    (h32 : op.is32 = true → Src32 s src1 ∧ (C20.Shift op.code ∨ Src32 s src2))
    (hov : ¬ C20.OverflowDefect op src1 src2) (hcy : ¬ C20.CarryDefect op (.reg 0) src1 src2)
    (hcond : CondOf op (value op.is32 s src1) (value op.is32 s src2) cin type t) :
    ∃ s', run (emitOp2 cfg op (.reg 0) src1 src2 ++ emitOpFlags cfg .mov is32 setZ (!decide (op.code = .mul)) dst type) s = some s' ∧
      Result is32 dst (bit t) s s' := by
  obtain ⟨s1, r1, q1, say⟩ := c29_set_partial cfg op (.reg 0) src1 src2 s cin hop hfl (Or.inr rfl) h1 h2 hcin h32 hov hcy
  obtain ⟨s2, r2, q2, -⟩ := c29_mov cfg is32 setZ _ dst type t s1 hd (say type t hcond)
  refine ⟨s2, ?_, ?_⟩
  · rw [run_append r1]; exact r2
  · have same : ∀ r, UserReg r → s1.rd (regMap r) = s.rd (regMap r) := fun r hr => q1.user r hr (by rintro ⟨⟩; exact absurd hr.1 (by decide))
    have ha : ∀ b i w, dst = .mem b i w → addr s1 b i w = addr s b i w := by
      rintro b i w rfl
      unfold addr
      congr 1
      · split
        · rfl
        · exact same _ ⟨by omega, hd.1⟩
      · split
        · rfl
        · rw [same _ ⟨by omega, hd.2⟩]
    refine ⟨q2.reg, ?_, fun r hr hne => (q2.user r hr hne).trans (same r hr), ⟨q2.fixed.1.trans q1.fixed.1, q2.fixed.2.trans q1.fixed.2⟩, q2.fregs.trans q1.fregs⟩
    have m1 : s1.mem = s.mem := q1.mem
    have m2 := q2.mem
    cases dst with
    | mem b i w =>
      simp only [ha b i w rfl, m1] at m2
      exact m2
    | reg r => exact m2.trans m1
    | imm v => exact m2.trans m1

/-- **C29 (and C18)**: a conditional jump on flags is taken if and only if the condition holds. -/
theorem c29_jump (mul : Bool) (type : Nat) (t : Bool) (s : St) (h : Says s mul type t) : (jumpBr type).skips s = !t :=
  jumpBr_skips (by have := h.1; omega) h.flag.cond

/-! ## sljit_emit_select -/

/-- Value of an operand of select: a whole register, or a sign extended 32 bit value. -/
def selValue (is32 : Bool) (s : St) (o : Opd) : BitVec 64 :=
  if is32 then (C28.value32 s o).signExtend 64 else C28.value64 s o

/-- The address of src1 is computed in dst, which is its base register (see `c29_select_false`). -/
def BaseDefect (dst : Nat) (src1 : Opd) (src2 : Nat) : Prop :=
  ∃ i w, src1 = .mem dst i w ∧ dst = src2 ∧
    ¬ (i = 0 ∧ -2048 ≤ w.toInt ∧ w.toInt ≤ 2047) ∧ ¬ (i ≠ 0 ∧ w.toNat % 4 = 0)

/-- **C29, sljit_emit_select**: dst receives src1 when the condition holds and src2 otherwise, and nothing else changes; dst may be
src1, src2, and occur in the address of src1.  Excluded: `BaseDefect`, and 32 bit memory cells with the upper bit set
(`c29_select32_false`).  SLJIT_SP is not a possible dst. -/
theorem c29_select_partial (cfg : Cfg) (type : Nat) (is32 mul : Bool) (dst : Nat) (src1 : Opd) (src2 : Nat) (t : Bool) (s : St)
    (hd : UserReg dst) (hsp : dst ≠ SLJIT_SP) (h1 : Src src1) (h2 : UserReg src2) (hbase : ¬ BaseDefect dst src1 src2)
    (hmem : is32 = true → ∀ b i w, src1 = .mem b i w → (ld32 s.mem (addr s b i w)).msb = false)
    (h32 : is32 = true → (src1 = .reg dst → Src32 s (.reg dst)) ∧ Src32 s (.reg src2)) (h : Says s mul type t) :
    C24.Runs (emitSelect cfg type is32 dst src1 src2) s fun s' =>
      Result false (.reg dst) (if t then selValue is32 s src1 else selValue is32 s (.reg src2)) s s' ∧
      s'.rd 5#5 = s.rd 5#5 ∧ s'.rd 28#5 = s.rd 28#5 := by
  intro code hc
  have hd23 : dst ≤ 23 := by have := hd.2; have : dst ≠ 24 := hsp; omega
  obtain ⟨s', e1, e2, e3, e4⟩ := emitSelect_ok (cfg := cfg) (is32 := is32) (dst := dst) (src1 := src1) (src2 := src2) (c := s.core)
    (by have := h.1; omega) (by have := hd.1; omega) hd23 h1.ok h2.2 (by
      rintro b i w rfl rfl rfl
      by_contra hn
      simp only [not_or] at hn
      refine hbase ⟨i, w, rfl, rfl, fun q => hn.1 ?_, fun q => hn.2 ⟨q.1, ?_⟩⟩
      · simp only [fastArg, Bool.and_eq_true, decide_eq_true_eq]
        exact ⟨q.1, fits12_iff.mpr q.2⟩
      · apply BitVec.eq_of_toNat_eq
        rw [and3]; exact q.2)
    (fun e => by
      by_cases q : src1 = .reg dst
      · exact Or.inl ((h32 e).1 q)
      · by_cases q' : dst = src2
        · rw [q']; exact Or.inl (h32 e).2
        · exact Or.inr ⟨q', q⟩) h.flag.cond code s hc rfl
  refine ⟨s', e1, e2, ?_, ?_, ?_⟩
  · obtain ⟨u1, u5, u6, u7, u28⟩ := user_ne hd.2
    have hv : (if t then selVal is32 s.core src1 else selVal is32 s.core (.reg src2)) =
        if t then selValue is32 s src1 else selValue is32 s (.reg src2) := by
      congr 1
      · unfold selValue
        cases is32
        · cases src1 with
          | mem b i w => simp only [selVal, addr_eq]; rfl
          | _ => rfl
        · cases src1 with
          | mem b i w =>
            simp only [selVal, addr_eq, if_true]
            exact (BitVec.signExtend_eq_setWidth_of_msb_false (hmem rfl b i w rfl)).symm
          | _ => rfl
    refine ⟨?_, e4.2.1, ?_, ⟨?_, ?_⟩, e4.2.2⟩
    · rintro r ⟨⟩ -; rw [← hv]; exact e3
    · intro r hr hne
      refine e4.1 _ ?_
      obtain ⟨w1, w5, w6, w7, w28⟩ := user_ne hr.2
      simp only [List.mem_cons, List.not_mem_nil, or_false, not_or]
      exact ⟨fun e => hne (by rw [user_inj _ _ hr hd e]), w6, w7⟩
    · exact e4.1 _ (by simp only [List.mem_cons, List.not_mem_nil, or_false, not_or]; exact ⟨(user_34 dst hd).1.symm, by decide, by decide⟩)
    · exact e4.1 _ (by simp only [List.mem_cons, List.not_mem_nil, or_false, not_or]; exact ⟨(user_34 dst hd).2.symm, by decide, by decide⟩)
  · exact e4.1 _ (by have := (user_ne hd.2).2.1; simp only [List.mem_cons, List.not_mem_nil, or_false, not_or]; exact ⟨this.symm, by decide, by decide⟩)
  · exact e4.1 _ (by have := (user_ne hd.2).2.2.2.2; simp only [List.mem_cons, List.not_mem_nil, or_false, not_or]; exact ⟨this.symm, by decide, by decide⟩)

/-! ## Where the claim fails -/

/-- The code alone in memory, zeros (which are no instruction) elsewhere. -/
def alone (base : BitVec 64) (e : Emit) : Code := fun a => e.getD ((a - base).toNat / 2) 0#16

/-- Repeat `step` until there is no instruction. -/
def go (code : Code) : Nat → St → Option St
  | 0, s => if (step code s).isNone then some s else none
  | n + 1, s => match step code s with
    | none => some s
    | some s' => go code n s'

/-- A run which reaches a state without instruction ends in the state computed by `go`. -/
theorem go_stop {code : Code} {s s' : St} (h : Steps code s s') (hs : step code s' = none) : ∀ n v, go code n s = some v → v = s' := by
  induction h with
  | refl s =>
    intro n v hv
    cases n with
    | zero => simp only [go, hs] at hv; exact (Option.some.inj hv).symm
    | succ n => simp only [go, hs] at hv; exact (Option.some.inj hv).symm
  | step h1 _ ih =>
    intro n v hv
    cases n with
    | zero => simp [go, h1] at hv
    | succ n => simp only [go, h1] at hv; exact ih hs n v hv

/-- `x5 = 0`: SLJIT_ZERO holds.  R0 (x10) holds 0x1000, the word at 0x1000 is -1, at 0x9000 it is 7. -/
def demo : St := ⟨fun r => if r = 10#5 then 0x1000#64 else if r = 11#5 then 5#64 else 0#64, fun _ => 0#64,
  fun a => if a.toNat / 4 = 0x400 then 0xff#8 else if a.toNat = 0x9000 then 7#8 else 0#8, 0x100#64⟩

def cfg0 : Cfg := ⟨false, false, false⟩

theorem refute {e : Emit} {Q : St → Prop} (h : C24.Runs e demo Q) (n : Nat) (v : St)
    (hv : go (alone 0x100#64 e) n demo = some v) (hc : CodeAt (alone 0x100#64 e) 0x100#64 e)
    (hend : ∀ s : St, s.pc = 0x100#64 + BitVec.ofNat 64 (2 * e.length) → step (alone 0x100#64 e) s = none) : Q v := by
  obtain ⟨s', h1, h2, h3⟩ := h _ hc
  rw [go_stop h1 (hend s' h2) n v hv]; exact h3

/-- Decidable form of `CodeAt`. -/
def codeAtB (code : Code) : BitVec 64 → List (BitVec 16) → Bool
  | _, [] => true
  | a, h :: hs => code a == h && codeAtB code (a + 2#64) hs

theorem codeAt_of {code : Code} : ∀ {l a}, codeAtB code a l = true → CodeAt code a l
  | [], _, _ => trivial
  | _ :: _, _, h => by
    simp only [codeAtB, Bool.and_eq_true, beq_iff_eq] at h
    exact ⟨h.1, codeAt_of h.2⟩

theorem stop_of {code : Code} {p : BitVec 64} (h : code p = 0#16) : ∀ s : St, s.pc = p → step code s = none := by
  intro s e
  unfold step
  rw [e, h]
  rfl

theorem refute' {e : Emit} {Q : St → Prop} (h : C24.Runs e demo Q) (n : Nat) (v : BitVec 64) (r : BitVec 5)
    (hv : (go (alone 0x100#64 e) n demo).map (·.rd r) = some v) (hc : codeAtB (alone 0x100#64 e) 0x100#64 e = true)
    (hend : alone 0x100#64 e (0x100#64 + BitVec.ofNat 64 (2 * e.length)) = 0#16) : ∃ s', Q s' ∧ s'.rd r = v := by
  cases hg : go (alone 0x100#64 e) n demo with
  | none => rw [hg] at hv; cases hv
  | some w =>
    rw [hg] at hv
    exact ⟨w, refute h n w hg (codeAt_of hc) (stop_of hend), Option.some.inj hv⟩

/-- **Claim false**: a 32 bit select from memory.  The cell is loaded with LWU (inp_flags, sljitNativeRISCV_common.c:3743), so the value -1
becomes 0xffffffff in dst, while 32 bit operations expect and produce sign extended registers. -/
theorem c29_select32_false : ¬ ∀ (cfg : Cfg) (type dst : Nat) (src1 : Opd) (src2 : Nat) (t : Bool) (s : St),
    UserReg dst → dst ≠ SLJIT_SP → Src src1 → UserReg src2 → ¬ BaseDefect dst src1 src2 →
    Src32 s (.reg dst) → Src32 s (.reg src2) → Says s false type t →
    C24.Runs (emitSelect cfg type true dst src1 src2) s fun s' =>
      s'.rd (regMap dst) = if t then selValue true s src1 else selValue true s (.reg src2) := by
  intro h
  have hr := h cfg0 0 2 (.mem 1 0 0#64) 3 true demo (by decide) (by decide) (by simp [Src]) (by decide)
    (by rintro ⟨i, w, e, -⟩; cases e) (by unfold Src32; decide +kernel) (by unfold Src32; decide +kernel)
    ⟨by decide, by rw [if_pos (by decide)]; unfold zeroFlag; decide +kernel⟩
  obtain ⟨s', e1, e2⟩ := refute' hr 10 0xffffffff#64 (regMap 2) (by decide +kernel) (by decide +kernel) (by decide +kernel)
  rw [e2] at e1
  revert e1
  decide +kernel

/-- **Claim false**: dst is src2 and the base of src1, whose offset does not fit into the load.  The upper part of the offset is
first written into dst, which is the base (emit_op_mem with dst_reg as its temporary, sljitNativeRISCV_common.c:3782). -/
theorem c29_select_false : ¬ ∀ (cfg : Cfg) (type dst : Nat) (src1 : Opd) (src2 : Nat) (t : Bool) (s : St),
    UserReg dst → dst ≠ SLJIT_SP → Src src1 → UserReg src2 → Says s false type t →
    C24.Runs (emitSelect cfg type false dst src1 src2) s fun s' =>
      s'.rd (regMap dst) = if t then selValue false s src1 else selValue false s (.reg src2) := by
  intro h
  have hr := h cfg0 0 1 (.mem 1 0 0x8000#64) 1 true demo (by decide) (by decide) (by simp [Src]) (by decide)
    ⟨by decide, by rw [if_pos (by decide)]; unfold zeroFlag; decide +kernel⟩
  obtain ⟨s', e1, e2⟩ := refute' hr 10 0#64 (regMap 1) (by decide +kernel) (by decide +kernel) (by decide +kernel)
  rw [e2] at e1
  revert e1
  decide +kernel

/-! ## Concrete cases -/

/-- Signed comparison -3 < 5 with an immediate, stored into memory as 1: the hypotheses of `c29_compare_partial` are met. -/
example : ∃ s', run (emitOp2 cfg0 ⟨.sub, false, false, .sigLess⟩ (.reg 0) (.imm (-3#64)) (.reg 2) ++
      emitOpFlags cfg0 .mov false false true (.mem 1 0 8#64) 6) demo = some s' ∧ Result false (.mem 1 0 8#64) 1#64 demo s' := by
  exact c29_compare_partial cfg0 ⟨.sub, false, false, .sigLess⟩ (.imm (-3#64)) (.reg 2) false false (.mem 1 0 8#64) 6 true demo false
    (Or.inl (by simp [C20.Arith])) (by unfold Op.flagOk; decide) (by simp [Dst]) trivial (show UserReg 2 by decide) (by simp) (by simp)
    (by simp [C20.OverflowDefect]) (by simp [C20.CarryDefect]) (Or.inr ⟨by decide, Or.inl ⟨rfl, by decide +kernel⟩⟩)

/-- The state `demo` satisfies the hypotheses of the other theorems: the condition zero is true, the variable flag is false. -/
example : Says demo false 0 true ∧ Says demo false 1 false ∧ Says demo false 12 false ∧ Says demo true 11 true := by
  refine ⟨⟨by decide, ?_⟩, ⟨by decide, ?_⟩, ⟨by decide, ?_⟩, ⟨by decide, ?_⟩⟩ <;> simp only [zeroFlag, varFlag] <;> decide +kernel

/-- A select with dst = src2 = base of src1, whose offset fits. -/
example : C24.Runs (emitSelect cfg0 0 false 1 (.mem 1 0 (-16#64)) 1) demo fun s' => s'.rd (regMap 1) = 0#64 := by
  intro code hc
  obtain ⟨s', h1, h2, h3, -⟩ := c29_select_partial cfg0 0 false false 1 (.mem 1 0 (-16#64)) 1 true demo (by decide) (by decide) (by simp [Src]) (by decide)
    (by rintro ⟨i, w, e, -, n, -⟩; cases e; exact n (by decide)) (by simp) (by simp)
    ⟨by decide, by rw [if_pos (by decide)]; unfold zeroFlag; decide +kernel⟩ code hc
  refine ⟨s', h1, h2, (h3.reg 1 rfl (by decide)).trans ?_⟩
  decide +kernel

end Verif.Props.C29
