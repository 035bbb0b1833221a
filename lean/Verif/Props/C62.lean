import Verif.Loong.EmitOp2Proof
import Verif.Props.C20

/-!
# C62: two operand integer operations of the LoongArch64 backend

The specification is stated on whole machine states, with the memory access functions of the instruction set and the register
numbering of sljitLir.h; `Verif.RV.val` and `Verif.RV.flagVal` are the documented results and flags (they do not depend on the
architecture and are also used by C20).
-/

namespace Verif.Props.C62
open Verif.LA
open Verif.RV (Op OpC Flag Opd ld32 ld64 st32 st64 val flagVal)
open Verif.Props.C20 (Arith Shift result flag isConst small CarryDefect)
open Verif.Imm.Loong (regMap)

/-- A general purpose register an application can name, or SLJIT_SP (24). -/
def UserReg (r : Nat) : Prop := 1 ≤ r ∧ r ≤ 24

/-- A source operand: register, constant, `[base + w]`, `[w]` (base 0), `[base + (index << w)]` with a shift below 4
(function_check_src_mem, sljitLir.c:987-1019). -/
def Src : Opd → Prop
  | .reg r => UserReg r
  | .imm _ => True
  | .mem b i w => b ≤ 24 ∧ i ≤ 24 ∧ (i ≠ 0 → w.toNat < 4)

/-- A destination operand. -/
def Dst : Opd → Prop
  | .reg r => UserReg r
  | .imm _ => False
  | .mem b i w => b ≤ 24 ∧ i ≤ 24 ∧ (i ≠ 0 → w.toNat < 4)

/-- Effective address (sljitLir.h:998-1014). -/
def addr (s : Core) (b i : Nat) (w : BitVec 64) : BitVec 64 :=
  (if b = 0 then 0#64 else s.x (regMap b)) + (if i = 0 then w else s.x (regMap i) <<< (w.toNat % 4))

/-- Value of a source operand of a 64 bit operation, or of a 32 bit one (sign extended memory cell). -/
def value (is32 : Bool) (s : Core) : Opd → BitVec 64
  | .reg r => s.x (regMap r)
  | .imm v => v
  | .mem b i w => if is32 then (ld32 s.mem (addr s b i w)).signExtend 64 else ld64 s.mem (addr s b i w)

/-- The destination holds `v`; no other register of the application, no float register and no other memory byte has
changed.  Also the thread pointer (r2) and the reserved register r21 are kept. -/
structure Result (is32 : Bool) (dst : Opd) (v : BitVec 64) (s s' : Core) : Prop where
  reg : ∀ r, dst = .reg r → UserReg r → s'.x (regMap r) = v
  mem : s'.mem = match dst with
    | .mem b i w => if is32 then st32 s.mem (addr s b i w) (v.setWidth 32) else st64 s.mem (addr s b i w) v
    | _ => s.mem
  user : ∀ r, UserReg r → dst ≠ .reg r → s'.x (regMap r) = s.x (regMap r)
  fixed : s'.x 2#5 = s.x 2#5 ∧ s'.x 21#5 = s.x 21#5
  fregs : s'.f = s.f

/-- The zero flag of the backend (EQUAL_FLAG, r12): set means that the register is zero. -/
def zeroFlag (s : Core) : Prop := s.x 12#5 = 0#64
/-- The variable flag (OTHER_FLAG, r15): set means that the register is not zero. -/
def varFlag (s : Core) : Prop := s.x 15#5 ≠ 0#64
/-- The carry flag as SLJIT_ADDC and SLJIT_SUBC take it: the variable flag register is 0 or 1. -/
def carryFlag (s : Core) (cin : Bool) : Prop := s.x 15#5 = if cin then 1#64 else 0#64

/-- 32 bit operations take registers that hold results of 32 bit operations (sljitLir.h:1072-1075): sign extended. -/
def Src32 (s : Core) : Opd → Prop
  | .reg r => s.x (regMap r) = ((s.x (regMap r)).setWidth 32).signExtend 64
  | _ => True

/-- A displacement that does not fit into an instruction. -/
def far (w : BitVec 64) : Prop := ¬ (-2048 ≤ w.toInt ∧ w.toInt ≤ 2047)

/-- The operands for which getput_arg believes that TMP_REG3 still holds a constant which it has overwritten with a shifted
offset register: `[b1 + (i1 << w1)]`, `[b2 + w2]`, and the destination `[b3 + w3]` where `w3` is close to `w2`. -/
def CacheDefect (dst src1 src2 : Opd) : Prop :=
  ∃ b1 i1 w1 b2 w2 b3 w3, src1 = .mem b1 i1 w1 ∧ i1 ≠ 0 ∧ w1 ≠ 0#64 ∧ src2 = .mem b2 0 w2 ∧ far w2 ∧
    dst = .mem b3 0 w3 ∧ far w3 ∧ b2 ≠ b3 ∧ ((w3 - w2).toNat ≤ 4096 ∨ (w2 - w3).toNat ≤ 4096)

/-- SLJIT_ADDC32 with a signed sum that needs more than 32 bits. -/
def AddcDefect (op : Op) (a b : BitVec 64) (cin : Bool) : Prop :=
  op.code = .addc ∧ op.is32 = true ∧ ¬ (-2147483648 ≤ (a.setWidth 32).toInt + (b.setWidth 32).toInt + cin.toNat ∧
    (a.setWidth 32).toInt + (b.setWidth 32).toInt + cin.toNat < 2147483648)

/-! ## Connection with the helper lemmas -/

theorem addr_eq (s : Core) (b i : Nat) (w : BitVec 64) : ea s b i w = addr s b i w := by
  unfold ea addr
  rw [Verif.Props.Rv.and3]
  congr 1
  by_cases h : b = 0
  · rw [if_pos h, h]; exact s.x0
  · rw [if_neg h]

theorem value_eq (op : Op) (s : Core) (o : Opd) : opdVal (Verif.RV.opSz op) op.is32 s o = value op.is32 s o := by
  cases o with
  | reg r => rfl
  | imm v => rfl
  | mem b i w =>
    simp only [opdVal, value, addr_eq, Verif.RV.opSz]
    cases op.is32 <;> rfl

theorem Src.ok {o : Opd} (h : Src o) : OpdOk o := by
  cases o with
  | reg r => exact h.2
  | imm v => trivial
  | mem b i w => exact h

theorem Src.rv {o : Opd} (h : Src o) : Verif.Props.Rv.Src o := by
  cases o with
  | reg r => exact h
  | imm v => trivial
  | mem b i w => exact ⟨h.1, h.2.1⟩

theorem Dst.ok {o : Opd} (h : Dst o) : DOk o ∧ o ≠ .reg 0 := by
  cases o with
  | reg r => exact ⟨Or.inl h.2, by rintro ⟨⟩; exact absurd h.1 (by decide)⟩
  | imm v => exact absurd h (by simp [Dst])
  | mem b i w => exact ⟨h, by rintro ⟨⟩⟩

theorem user_inj : ∀ r q : Nat, UserReg r → UserReg q → regMap r = regMap q → r = q := by
  intro r q hr hq h
  have key : ∀ a : Fin 25, ∀ b : Fin 25, regMap a.1 = regMap b.1 → a = b := by decide +kernel
  exact congrArg Fin.val (key ⟨r, by have := hr.2; omega⟩ ⟨q, by have := hq.2; omega⟩ h)

theorem user_fixed : ∀ r, UserReg r → regMap r ≠ 2#5 ∧ regMap r ≠ 21#5 := by
  intro r hr
  have key : ∀ a : Fin 25, a.1 ≠ 0 → regMap a.1 ≠ 2#5 ∧ regMap a.1 ≠ 21#5 := by decide +kernel
  exact key ⟨r, by have := hr.2; omega⟩ (by have := hr.1; simp; omega)

theorem Result.of {op : Op} {dst : Opd} {v : BitVec 64} {s s' : Core} (hd : Dst dst ∨ dst = .reg 0)
    (h : Done (Verif.RV.opSz op) dst v s s') : Result op.is32 dst v s s' := by
  have keep := h.kept
  refine ⟨fun r e hr => h.reg r e (by have := hr.1; omega), ?_, ?_, ?_, h.fregs⟩
  · have := h.mem
    rw [this]
    cases dst with
    | mem b i w =>
      simp only [addr_eq, Verif.RV.opSz]
      cases op.is32 <;> rfl
    | _ => rfl
  · intro r hr hne
    obtain ⟨u1, u5, u6, u7, u28⟩ := user_ne hr.2
    refine keep _ (by simp [u1, u5, u6, u7, u28]) ?_
    intro r' he
    by_cases h0 : r' = 0
    · exact Or.inr h0
    · refine Or.inl fun e => hne ?_
      have : UserReg r' := by
        rcases hd with hd | hd
        · rw [he] at hd; exact hd
        · rw [hd] at he; cases he; exact absurd rfl h0
      rw [user_inj r r' hr this e, he]
  · have aux : ∀ q : Reg, (q = 2#5 ∨ q = 21#5) → s'.x q = s.x q := by
      intro q hq
      refine keep _ (by rcases hq with rfl | rfl <;> decide) ?_
      intro r he
      by_cases h0 : r = 0
      · exact Or.inr h0
      · have : UserReg r := by
          rcases hd with hd | hd
          · rw [he] at hd; exact hd
          · rw [hd] at he; cases he; exact absurd rfl h0
        left
        have := user_fixed r this
        rcases hq with rfl | rfl
        · exact this.1.symm
        · exact this.2.symm
    exact ⟨aux _ (Or.inl rfl), aux _ (Or.inr rfl)⟩

theorem far_iff {w : BitVec 64} : Verif.RV.fits12 w = false ↔ far w := by
  rw [← Bool.not_eq_true, Verif.RV.fits12_iff]; exact Iff.rfl

theorem cache_ok {dst src1 src2 : Opd} (h : ¬ CacheDefect dst src1 src2) : ¬ StaleCache dst src1 src2 := by
  rintro ⟨b1, i1, w1, b2, w2, b3, w3, h1, h2, h3, h4, h5, h6, h7, h8, h9⟩
  exact h ⟨b1, i1, w1, b2, w2, b3, w3, h1, h2, h3, h4, far_iff.mp h5, h6, far_iff.mp h7, h8, h9⟩

theorem hyp32 {op : Op} {s : Core} {src1 src2 : Opd} (h1 : op.is32 = true → Src32 s src1 ∧ (Shift op.code ∨ Src32 s src2)) :
    op.is32 = true → (∀ r, src1 = .reg r → Verif.RV.Sx (s.x (regMap r))) ∧
      (∀ r, src2 = .reg r → op.code.isSh ∨ Verif.RV.Sx (s.x (regMap r))) := by
  intro hw
  obtain ⟨q1, q2⟩ := h1 hw
  refine ⟨?_, ?_⟩
  · rintro r rfl; exact q1
  · rintro r rfl
    rcases q2 with q2 | q2
    · exact Or.inl (Verif.Props.C20.sh_iff.mpr q2)
    · exact Or.inr q2

/-! ## The theorems -/

/-- **C62, partial.**  For every operation code, operand form, register assignment (including all coincidences of destination,
sources, base and index registers), constant and machine state: the code emitted by sljit_emit_op2 runs to its end, the
destination holds the documented result computed from the operand values in the state *before* the code, and nothing else the
application can see has changed.  Missing: `CacheDefect`, for which the claim is false (`c62_cache_false`), and for `AddcDefect` the
upper half of the destination register, which is wrong (`c62_addc32_false`). -/
theorem c62_result_partial (op : Op) (dst src1 src2 : Opd) (s : Core) (cin : Bool)
    (hop : Arith op.code ∨ Shift op.code) (hfl : op.flagOk) (hd : Dst dst) (h1 : Src src1) (h2 : Src src2)
    (hcin : op.code = .addc ∨ op.code = .subc → carryFlag s cin)
    (h32 : op.is32 = true → Src32 s src1 ∧ (Shift op.code ∨ Src32 s src2))
    (hno : ¬ CacheDefect dst src1 src2) :
    ∃ s' v, run (emitOp2 op dst src1 src2) s = some s' ∧ Result op.is32 dst v s s' ∧
      v.setWidth 32 = (result op (value op.is32 s src1) (value op.is32 s src2) cin).setWidth 32 ∧
      (¬ AddcDefect op (value op.is32 s src1) (value op.is32 s src2) cin →
        v = result op (value op.is32 s src1) (value op.is32 s src2) cin) := by
  obtain ⟨s', hr, v, hp, hg⟩ := emitOp2_res (cin := cin) (Verif.Props.C20.bin_of hop) hfl hd.ok.1 hd.ok.2 h1.ok h2.ok (c := s) (fun h => hcin h) (hyp32 h32)
    (cache_ok hno)
  rw [value_eq, value_eq] at hg
  exact ⟨s', v, hr, Result.of (Or.inl hd) hp, hg.1, hg.2⟩

/-- **C62, flags, partial.**  With SLJIT_SET_Z and a flag type, sljit_emit_op2 and sljit_emit_op2u (`dst = .reg 0`) set the zero
and the variable flag according to the operand values.  Missing: `CacheDefect` and `CarryDefect`, for which the claim is false,
see `c62_cache_false` and `c62_carry_false`. -/
theorem c62_flags_partial (op : Op) (dst src1 src2 : Opd) (s : Core) (cin : Bool)
    (hop : Arith op.code ∨ Shift op.code) (hfl : op.flagOk) (hd : Dst dst ∨ dst = .reg 0) (h1 : Src src1) (h2 : Src src2)
    (hcin : op.code = .addc ∨ op.code = .subc → carryFlag s cin)
    (h32 : op.is32 = true → Src32 s src1 ∧ (Shift op.code ∨ Src32 s src2))
    (hno : ¬ CacheDefect dst src1 src2) (hcy : ¬ CarryDefect op dst src1 src2) :
    ∃ s' v, run (emitOp2 op dst src1 src2) s = some s' ∧ Result op.is32 dst v s s' ∧
      v.setWidth 32 = (result op (value op.is32 s src1) (value op.is32 s src2) cin).setWidth 32 ∧
      (¬ AddcDefect op (value op.is32 s src1) (value op.is32 s src2) cin →
        v = result op (value op.is32 s src1) (value op.is32 s src2) cin) ∧
      (op.setZ = true → (zeroFlag s' ↔ result op (value op.is32 s src1) (value op.is32 s src2) cin = 0#64)) ∧
      (op.flag ≠ .none → (varFlag s' ↔ flag op (value op.is32 s src1) (value op.is32 s src2) cin = true)) ∧
      (op.flag = .carry → carryFlag s' (flag op (value op.is32 s src1) (value op.is32 s src2) cin)) := by
  have hd' : DOk dst := by
    rcases hd with hd | hd
    · exact hd.ok.1
    · rw [hd]; exact Or.inl (by decide)
  obtain ⟨s', hr, hp⟩ := emitOp2_ok (cin := cin) (Verif.Props.C20.bin_of hop) hfl hd' h1.ok h2.ok (c := s) (fun h => hcin h) (hyp32 h32)
    (Verif.Props.C20.carry_ok h1.rv h2.rv hcy) (cache_ok hno)
  rw [value_eq, value_eq] at hp
  obtain ⟨v, hv, hg⟩ := hp.done
  exact ⟨s', v, hr, Result.of hd hv, hg.1, hg.2, hp.zero, hp.flag, fun h => hp.bool (by rw [h]; decide) (Or.inl (by rw [h]; decide))⟩

/-- **C62, no memory destination.**  With a register destination (or none), every operation except SLJIT_ADD and SLJIT_ADDC with a carry
flag, and SLJIT_ADDC32, is right without any excluded case. -/
theorem c62_register (op : Op) (dst : Nat) (src1 src2 : Opd) (s : Core) (cin : Bool)
    (hop : Arith op.code ∨ Shift op.code) (hfl : op.flagOk) (hd : UserReg dst ∨ dst = 0) (h1 : Src src1) (h2 : Src src2)
    (hcin : op.code = .addc ∨ op.code = .subc → carryFlag s cin)
    (h32 : op.is32 = true → op.code ≠ .addc ∧ Src32 s src1 ∧ (Shift op.code ∨ Src32 s src2))
    (hcy : op.flag = .carry → op.code ≠ .add ∧ op.code ≠ .addc) :
    ∃ s', run (emitOp2 op (.reg dst) src1 src2) s = some s' ∧
      Result op.is32 (.reg dst) (result op (value op.is32 s src1) (value op.is32 s src2) cin) s s' ∧
      (op.setZ = true → (zeroFlag s' ↔ result op (value op.is32 s src1) (value op.is32 s src2) cin = 0#64)) ∧
      (op.flag ≠ .none → (varFlag s' ↔ flag op (value op.is32 s src1) (value op.is32 s src2) cin = true)) := by
  obtain ⟨s', v, a, b, -, c, d, e, -⟩ := c62_flags_partial op (.reg dst) src1 src2 s cin hop hfl (hd.imp id (by rintro rfl; rfl)) h1 h2 hcin
    (fun h => (h32 h).2) (by rintro ⟨_, _, _, _, _, _, _, _, _, _, _, _, h, -⟩; cases h)
    (by rintro ⟨h, h' | h', -⟩
        · exact (hcy h).1 h'
        · exact (hcy h).2 h')
  rw [c (fun h => (h32 h.2.1).1 h.1)] at b
  exact ⟨s', a, b, d, e⟩

/-- **C62, SLJIT_MULADD.**  The product of the operands is added to the destination register; nothing else the application can see
changes. -/
theorem c62_muladd (dst : Nat) (src1 src2 : Opd) (s : Core) (hd : UserReg dst) (h1 : Src src1) (h2 : Src src2) :
    ∃ s', run (emitMulAdd false dst src1 src2) s = some s' ∧
      s'.x (regMap dst) = s.x (regMap dst) + value false s src1 * value false s src2 ∧
      (∀ r, UserReg r → r ≠ dst → s'.x (regMap r) = s.x (regMap r)) ∧ s'.mem = s.mem ∧ s'.f = s.f := by
  have hop : (OpC.mul).bin := Verif.Props.C20.bin_of (o := .mul) (Or.inl (by unfold Arith; decide))
  obtain ⟨s1, hr, hp⟩ := emitOp2_ok (op := ⟨.mul, false, false, .none⟩) (dst := .reg TMP_REG2) (cin := false) (c := s) hop
    (by simp [Verif.RV.Op.flagOk]) (Or.inr rfl) h1.ok h2.ok (by rintro (h | h) <;> cases h) (fun h => by cases h) (fun h => by cases h)
    (by rintro ⟨_, _, _, _, _, _, _, _, _, _, _, _, h, -⟩; cases h)
  obtain ⟨v, hv, hg⟩ := hp.done
  have hv2 := hg.2 (fun h => by cases h.1)
  have e1 := hv.reg TMP_REG2 rfl (by decide)
  have keep : ∀ r, UserReg r → s1.x (regMap r) = s.x (regMap r) := by
    intro r hr
    obtain ⟨u1, u5, u6, u7, u28⟩ := user_ne hr.2
    refine hv.kept _ (by simp [u1, u5, u6, u7, u28]) ?_
    rintro r' ⟨⟩
    exact Or.inl u1
  have hd0 : regMap dst ≠ 0#5 := by
    intro h
    have key : ∀ a : Fin 25, a.1 ≠ 0 → regMap a.1 ≠ 0#5 := by decide +kernel
    exact key ⟨dst, by have := hd.2; omega⟩ (by have := hd.1; simp; omega) h
  have hw := (wp_ADD_D dst dst TMP_REG2 s1 (fun s' => s' = s1.wr (regMap dst) (s1.x (regMap dst) + s1.x (regMap TMP_REG2)))).mpr
    (by rw [Verif.RV.evR_add])
  obtain ⟨s2, hr2, e2⟩ := hw
  have hval : v = value false s src1 * value false s src2 := by
    rw [hv2]
    have q1 := value_eq ⟨.mul, false, false, .none⟩ s src1
    have q2 := value_eq ⟨.mul, false, false, .none⟩ s src2
    rw [q1, q2]
    generalize value _ s src1 = p1
    generalize value _ s src2 = p2
    apply BitVec.eq_of_toNat_eq
    simp [Verif.RV.resX, val, BitVec.toNat_mul]
  have hrun : run (emitMulAdd false dst src1 src2) s = some s2 := by
    have : emitMulAdd false dst src1 src2 = emitOp2 ⟨.mul, false, false, .none⟩ (.reg TMP_REG2) src1 src2 ++ ins (ADD_D ||| RD dst ||| RJ dst ||| RK TMP_REG2) := by
      rw [emitMulAdd]
    rw [this, run_append, hr, Option.bind_some, hr2]
  refine ⟨s2, hrun, ?_, ?_, ?_, ?_⟩
  · rw [e2, x_wr, if_pos ⟨rfl, hd0⟩, e1, hval, keep dst hd]
  · intro r hr hne
    rw [e2, x_wr, if_neg (fun h => hne (user_inj _ _ hr hd h.1)), keep r hr]
  · rw [e2, mem_wr']; exact hv.mem
  · rw [e2, f_wr']; exact hv.fregs

/-! ## Where the claims fail -/

/-- Registers r4, r5, r6, r7, r15 and one memory byte. -/
def demo (x4 x5 x6 x7 x15 : BitVec 64) (a : BitVec 64) (v : BitVec 8) : Core :=
  ⟨fun r => if r = 4#5 then x4 else if r = 5#5 then x5 else if r = 6#5 then x6 else if r = 7#5 then x7 else if r = 15#5 then x15 else 0#64,
   fun _ => 0#64, fun q => if q = a then v else 0#8, rfl⟩

/-- **C62 fails**: `sljit_emit_op2(SLJIT_ADD, MEM1(R1), 0x10008, MEM2(R2, R3), 2, MEM1(R0), 0x10000)`.  The constant 0x10000 is loaded into
TMP_REG3 for the second source, then TMP_REG3 is overwritten with `R3 << 2`, but the cache still says 0x10000, and the
store goes to `R1 + (R3 << 2) + 8` (sljitNativeLOONGARCH_64.c:1258-1264: an indexed access does not reset `cache_arg`). -/
theorem c62_cache_false : ∃ (op : Op) (dst src1 src2 : Opd) (s : Core), Arith op.code ∧ op.flagOk ∧ Dst dst ∧ Src src1 ∧ Src src2 ∧
    op.is32 = false ∧ value false s src1 = 0#64 ∧ value false s src2 = 7#64 ∧
    (run (emitOp2 op dst src1 src2) s).map (fun s' => (ld64 s'.mem (addr s 2 0 0x10008#64), ld64 s'.mem (s.x 5#5 + 8#64 + (s.x 7#5 <<< 2)))) =
      some (0#64, 7#64) ∧ dst = .mem 2 0 0x10008#64 := by
  refine ⟨⟨.add, false, false, .none⟩, .mem 2 0 0x10008#64, .mem 3 4 2#64, .mem 1 0 0x10000#64,
    demo 0x100000#64 0x200000#64 0x300000#64 0x10#64 0#64 0x110000#64 7#8, ?_, ?_, ?_, ?_, ?_, rfl, ?_, ?_, ?_, rfl⟩
  · unfold Arith; decide
  · simp [Verif.RV.Op.flagOk]
  · exact ⟨by decide, by decide, fun h => absurd rfl h⟩
  · exact ⟨by decide, by decide, fun _ => by decide⟩
  · exact ⟨by decide, by decide, fun h => absurd rfl h⟩
  · decide +kernel
  · decide +kernel
  · decide +kernel

/-- **C62 fails**: SLJIT_ADDC32 adds the 64 bit registers (sljitNativeLOONGARCH_64.c:1529, 1540: ADD_D): `0x7fffffff + 1` gives
`0x80000000` in the destination register, not the sign extended `0xffffffff80000000` that later 32 bit operations rely on. -/
theorem c62_addc32_false : ∃ (op : Op) (s : Core), op.flagOk ∧ op.code = .addc ∧ op.is32 = true ∧ carryFlag s false ∧ Src32 s (.reg 1) ∧ Src32 s (.reg 2) ∧
    (run (emitOp2 op (.reg 3) (.reg 1) (.reg 2)) s).map (fun s' => s'.x 6#5) = some 0x80000000#64 ∧
    result op (value true s (.reg 1)) (value true s (.reg 2)) false = 0xffffffff80000000#64 :=
  ⟨⟨.addc, true, false, .none⟩, demo 0x7fffffff#64 1#64 0#64 0#64 0#64 0#64 0#8, by simp [Verif.RV.Op.flagOk], rfl, rfl, by unfold carryFlag; decide +kernel,
    by unfold Src32; decide +kernel, by unfold Src32; decide +kernel, by decide +kernel, by decide +kernel⟩

/-- **C62 fails**: SLJIT_ADDC | SLJIT_SET_CARRY of R0 = 5, in place, with the constant 0 and carry in 1 gives 6 and must clear the carry,
but the carry stays set (`carry_src_r` becomes TMP_ZERO, which is 0, and 0 means that no carry is requested). -/
theorem c62_carry_false : ∃ (op : Op) (s : Core), op.flagOk ∧ op.code = .addc ∧ op.flag = .carry ∧ carryFlag s true ∧
    (run (emitOp2 op (.reg 1) (.reg 1) (.imm 0#64)) s).map (fun s' => (s'.x 4#5, s'.x 15#5)) = some (6#64, 1#64) ∧
    flag op (value false s (.reg 1)) (value false s (.imm 0#64)) true = false :=
  ⟨⟨.addc, false, false, .carry⟩, demo 5#64 0#64 0#64 0#64 1#64 0#64 0#8, by simp [Verif.RV.Op.flagOk], rfl, rfl, by unfold carryFlag; decide +kernel,
    by decide +kernel, by decide +kernel⟩

/-- **C62 fails**: SLJIT_MULADD32 adds 64 bit registers (sljitNativeLOONGARCH_64.c:2095): the destination is not sign extended after
`0x7fffffff + 1 * 1`. -/
theorem c62_muladd32_false : ∃ s : Core, Src32 s (.reg 1) ∧ Src32 s (.reg 2) ∧
    (run (emitMulAdd true 1 (.reg 2) (.imm 1#64)) s).map (fun s' => s'.x 4#5) = some 0x80000000#64 :=
  ⟨demo 0x7fffffff#64 1#64 0#64 0#64 0#64 0#64 0#8, by unfold Src32; decide +kernel, by unfold Src32; decide +kernel, by decide +kernel⟩

/-! ## The hypotheses can be met -/

/-- SLJIT_SUB32 | SLJIT_SET_Z | SLJIT_SET_SIG_LESS, in place, with a memory operand whose base is the destination. -/
example : ∃ s', run (emitOp2 ⟨.sub, true, true, .sigLess⟩ (.reg 1) (.reg 1) (.mem 1 0 0x12345#64))
    (demo 7#64 0#64 0#64 0#64 0#64 0#64 0#8) = some s' ∧ s'.x 4#5 = 7#64 ∧ ¬ zeroFlag s' ∧ ¬ varFlag s' := by
  obtain ⟨s', hr, h1, h2, h3⟩ := c62_register ⟨.sub, true, true, .sigLess⟩ 1 (.reg 1)
    (.mem 1 0 0x12345#64) (demo 7#64 0#64 0#64 0#64 0#64 0#64 0#8) false (Or.inl (by unfold Arith; decide)) trivial (Or.inl ⟨by decide, by decide⟩)
    ⟨by decide, by decide⟩ ⟨by decide, by decide, fun h => absurd rfl h⟩ (by rintro (h | h) <;> cases h)
    (fun _ => ⟨by decide, by unfold Src32; decide +kernel, Or.inr trivial⟩) (by intro h; cases h)
  refine ⟨s', hr, ?_, ?_, ?_⟩
  · exact (h1.reg 1 rfl ⟨by decide, by decide⟩).trans (by decide +kernel)
  · rw [h2 rfl]; decide +kernel
  · rw [h3 (by decide)]; decide +kernel

/-- Three memory operands which need TMP_REG3, the same base for the second source and the destination. -/
example : ∃ s', run (emitOp2 ⟨.add, false, false, .none⟩ (.mem 1 0 0x10008#64) (.mem 3 4 2#64) (.mem 1 0 0x10000#64))
    (demo 0x100000#64 0#64 0x300000#64 0x10#64 0#64 0x110000#64 7#8) = some s' ∧ ld64 s'.mem 0x110008#64 = 7#64 := by
  obtain ⟨s', v, hr, h1, -, h2⟩ := c62_result_partial ⟨.add, false, false, .none⟩ (.mem 1 0 0x10008#64) (.mem 3 4 2#64) (.mem 1 0 0x10000#64)
    (demo 0x100000#64 0#64 0x300000#64 0x10#64 0#64 0x110000#64 7#8) false (Or.inl (by unfold Arith; decide)) (by simp [Verif.RV.Op.flagOk])
    ⟨by decide, by decide, fun h => absurd rfl h⟩ ⟨by decide, by decide, fun _ => by decide⟩ ⟨by decide, by decide, fun h => absurd rfl h⟩
    (by rintro (h | h) <;> cases h) (fun h => by cases h)
    (by
      rintro ⟨b1, i1, w1, b2, w2, b3, w3, -, -, -, e2, -, e3, -, hne, -⟩
      cases e2; cases e3; exact hne rfl)
  refine ⟨s', hr, ?_⟩
  have hv := h2 (by rintro ⟨h, -⟩; cases h)
  have hm := h1.mem
  simp only [Bool.false_eq_true, if_false] at hm
  rw [hm, hv]
  decide +kernel

end Verif.Props.C62
