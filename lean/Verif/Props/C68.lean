import Verif.Props.C20

/-!
# C68: multiply and add (sljit_emit_op2r) on RISC-V
-/

namespace Verif.Props.C68
open Verif.RV Verif.Props.Rv Verif.Props.C20

/-- `d + a * b` of 64 or 32 bits; a 32 bit result is sign extended in its register. -/
def macc (is32 : Bool) (d a b : BitVec 64) : BitVec 64 :=
  if is32 then (BitVec.ofNat 32 (d.toNat + a.toNat * b.toNat)).signExtend 64 else BitVec.ofNat 64 (d.toNat + a.toNat * b.toNat)

theorem resX_mul (is32 : Bool) (a b : BitVec 64) (cin : Bool) :
    (resX ⟨.mul, is32, false, .none⟩ a b cin).setWidth 32 = BitVec.ofNat 32 (a.toNat * b.toNat) ∧
    (is32 = false → resX ⟨.mul, is32, false, .none⟩ a b cin = BitVec.ofNat 64 (a.toNat * b.toNat)) := by
  cases is32
  · have : resX ⟨.mul, false, false, .none⟩ a b cin = BitVec.ofNat 64 (a.toNat * b.toNat) := by
      apply BitVec.eq_of_toNat_eq
      simp [resX, val]
    refine ⟨?_, fun _ => this⟩
    rw [this]
    apply BitVec.eq_of_toNat_eq
    simp
  · refine ⟨?_, fun h => by cases h⟩
    have : resX ⟨.mul, true, false, .none⟩ a b cin = sx32 (lo32 a * lo32 b) := by
      simp only [resX, val, if_true]
      congr 1
    rw [this]
    refine (lo32_sx32 _).trans ?_
    apply BitVec.eq_of_toNat_eq
    simp [lo32, BitVec.toNat_mul, Nat.mul_mod]

/-- **C68.**  SLJIT_MULADD adds the product of the operands to the destination register, in 64 and in 32 bit form; nothing else the
application can see changes (the flags may). -/
theorem c68_muladd (cfg : Cfg) (is32 : Bool) (dst : Nat) (src1 src2 : Opd) (s : St) (hd : UserReg dst) (h1 : Src src1) (h2 : Src src2)
    (h32 : is32 = true → Src32 s src1 ∧ Src32 s src2) :
    ∃ s', run (emitMulAdd cfg is32 dst src1 src2) s = some s' ∧
      s'.rd (regMap dst) = macc is32 (s.rd (regMap dst)) (value is32 s src1) (value is32 s src2) ∧
      (∀ r, UserReg r → r ≠ dst → s'.rd (regMap r) = s.rd (regMap r)) ∧ (s'.rd 3#5 = s.rd 3#5 ∧ s'.rd 4#5 = s.rd 4#5) ∧
      s'.mem = s.mem ∧ s'.f = s.f := by
  have hop : (OpC.mul).bin := bin_of (o := .mul) (Or.inl (by unfold Arith; decide))
  have hwp := emitOp2_res (cfg := cfg) (op := ⟨.mul, is32, false, .none⟩) (dst := .reg TMP_REG2) (cin := false) (c := s.core) hop
    (by simp [Op.flagOk]) (Or.inr rfl) (by decide) h1.ok h2.ok (by rintro (h | h) <;> cases h)
    (hyp32 (op := ⟨.mul, is32, false, .none⟩) fun h => ⟨(h32 h).1, Or.inr (h32 h).2⟩) (fun h => by cases h)
  have q1 := value_eq ⟨.mul, is32, false, .none⟩ s src1
  have q2 := value_eq ⟨.mul, is32, false, .none⟩ s src2
  rw [q1, q2] at hwp
  simp only [] at hwp
  have hd0 : regMap dst ≠ 0#5 := by
    have key : ∀ a : _root_.Fin 25, a.1 ≠ 0 → regMap a.1 ≠ 0#5 := by decide +kernel
    exact key ⟨dst, by have := hd.2; omega⟩ (by have := hd.1; simp; omega)
  obtain ⟨s1, hr1, hv⟩ := hwp s rfl
  obtain ⟨s2, hr2, e2⟩ := (wp_ADDW' (w := is32) (c := s1.core) (Q := fun c' => c' = s1.core.wr (regMap dst) (addw is32 (s1.core.x (regMap dst)) (s1.core.x (regMap TMP_REG2))))
    dst dst TMP_REG2).mpr rfl s1 rfl
  have e1 := hv.reg TMP_REG2 rfl (by decide)
  have kept : ∀ q, q ∉ ([1#5, 5#5, 6#5, 7#5, 28#5] : List Reg) → s1.core.x q = s.core.x q := fun q hq =>
    hv.kept q hq (by rintro r ⟨⟩; left; intro e; apply hq; rw [e]; decide)
  have user : ∀ r, UserReg r → s1.core.x (regMap r) = s.core.x (regMap r) := by
    intro r hr
    obtain ⟨u1, u5, u6, u7, u28⟩ := user_ne hr.2
    exact kept _ (by simp [u1, u5, u6, u7, u28])
  have rd2 : ∀ q, s2.rd q = s2.core.x q := fun _ => rfl
  have rd0 : ∀ q, s.rd q = s.core.x q := fun _ => rfl
  have fix : ∀ q : Reg, q = 3#5 ∨ q = 4#5 → s2.rd q = s.rd q := by
    intro q hq
    have hne : q ≠ regMap dst := by
      have key : ∀ a : _root_.Fin 25, a.1 ≠ 0 → regMap a.1 ≠ 3#5 ∧ regMap a.1 ≠ 4#5 := by decide +kernel
      have := key ⟨dst, by have := hd.2; omega⟩ (by have := hd.1; simp; omega)
      rcases hq with rfl | rfl
      · exact fun e => this.1 e.symm
      · exact fun e => this.2 e.symm
    rw [rd2, e2, x_wr, if_neg (fun h => hne h.1), kept q (by rcases hq with rfl | rfl <;> decide)]
    rfl
  refine ⟨s2, ?_, ?_, ?_, ⟨fix _ (Or.inl rfl), fix _ (Or.inr rfl)⟩, ?_, ?_⟩
  · unfold emitMulAdd
    exact (run_append hr1).trans hr2
  · rw [rd2, e2, x_wr, if_pos ⟨rfl, hd0⟩, e1, user dst hd, rd0]
    generalize s.core.x (regMap dst) = d
    generalize value is32 s src1 = a
    generalize value is32 s src2 = b
    obtain ⟨m1, m2⟩ := resX_mul is32 a b false
    cases is32
    · rw [m2 rfl]
      apply BitVec.eq_of_toNat_eq
      simp [addw, macc]
    · simp only [addw, macc, if_true]
      show (lo32 d + lo32 _).signExtend 64 = _
      congr 1
      rw [show lo32 (resX ⟨.mul, true, false, .none⟩ a b false) = _ from m1]
      apply BitVec.eq_of_toNat_eq
      simp [lo32]
  · intro r hr hne
    rw [rd2, e2, x_wr, if_neg (fun h => hne (user_inj _ _ hr hd h.1)), user r hr]
    rfl
  · exact (congrArg Core.mem e2).trans hv.mem
  · exact (congrArg Core.f e2).trans hv.fregs

/-! ## The hypotheses can be met -/

/-- The 32 bit sum `0x7fffffff + 3 * 0x7fffffff` in place wraps to -4 and is sign extended. -/
example : ∃ s', run (emitMulAdd ⟨true, false, false⟩ true 1 (.imm 3#64) (.reg 1)) (demo 0#64 0x7fffffff#64 0#64) = some s' ∧
    s'.rd 10#5 = 0xfffffffffffffffc#64 := by
  obtain ⟨s', h, h2, -⟩ := c68_muladd ⟨true, false, false⟩ true 1 (.imm 3#64) (.reg 1) (demo 0#64 0x7fffffff#64 0#64) ⟨by decide, by decide⟩ trivial
    ⟨by decide, by decide⟩ (fun _ => ⟨trivial, by unfold Src32; decide +kernel⟩)
  exact ⟨s', h, h2.trans (by decide +kernel)⟩

end Verif.Props.C68
