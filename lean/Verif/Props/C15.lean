import Verif.RISCV.LoadImmProof

/-!
# C15: a constant operand reaches its register unchanged (RV64)
-/

namespace Verif.Props
open Verif.RV

/-- The registers `load_immediate` is used with: every sljit register except the stack pointer, and the temporaries. -/
def LoadTarget (r : Nat) : Prop := (1 ≤ r ∧ r ≤ 23) ∨ (25 ≤ r ∧ r ≤ 29)

theorem LoadTarget.phys {r : Nat} (h : LoadTarget r) : regMap r ≠ 0#5 ∧ regMap r ≠ 2#5 := by
  unfold LoadTarget at h
  have : r < 30 := by omega
  interval_cases r <;> first | (exfalso; omega) | decide

/-- Different sljit registers are different machine registers. -/
theorem regMap_inj {r q : Nat} (hr : r < 30) (hq : q < 30) (h : regMap r = regMap q) : r = q := by
  have key : ∀ a : Fin 30, ∀ b : Fin 30, regMap a.1 = regMap b.1 → a = b := by decide +kernel
  exact congrArg Fin.val (key ⟨r, hr⟩ ⟨q, hq⟩ h)

/-- **C15.** For every 64 bit constant, every destination register, every temporary different from it, every build
configuration and every machine state: executing the half words emitted by `load_immediate` runs through, leaves exactly
that constant in the destination, and changes no other register except the temporary, no memory and no float register. -/
theorem c15_load_immediate (cfg : Cfg) (dst tmp : Nat) (imm : BitVec 64) (s : St)
    (hd : LoadTarget dst) (ht : LoadTarget tmp) (hne : dst ≠ tmp) :
    ∃ s', run (loadImm cfg dst imm tmp) s = some s' ∧ s'.rd (regMap dst) = imm ∧
      (∀ r, r ≠ regMap dst → r ≠ regMap tmp → s'.rd r = s.rd r) ∧ s'.mem = s.mem ∧ s'.f = s.f ∧
      s'.pc = s.pc + BitVec.ofNat 64 (2 * (loadImm cfg dst imm tmp).length) := by
  have hne' : regMap dst ≠ regMap tmp := fun e => hne
    (regMap_inj (by unfold LoadTarget at hd; omega) (by unfold LoadTarget at ht; omega) e)
  obtain ⟨s', r, v, k⟩ := loadImm_ok cfg dst tmp imm hd.phys.1 hd.phys.2 ht.phys.1 hne' s
  exact ⟨s', r, v, fun q h1 h2 => k.reg q (by simp [h1, h2]), k.mem, k.f, run_pc r⟩

/-- For constants which fit in 32 signed bits the temporary is not used at all. -/
theorem c15_load_immediate32 (cfg : Cfg) (dst tmp : Nat) (imm : BitVec 64) (s : St)
    (hd : LoadTarget dst) (h : -2147483648 ≤ imm.toInt ∧ imm.toInt ≤ 2147483647) :
    ∃ s', run (loadImm cfg dst imm tmp) s = some s' ∧ s'.rd (regMap dst) = imm ∧
      (∀ r, r ≠ regMap dst → s'.rd r = s.rd r) ∧ s'.mem = s.mem ∧ s'.f = s.f := by
  obtain ⟨s', r, v, k⟩ := loadImmS32_ok cfg dst imm hd.phys.1 hd.phys.2 h.2 h.1 s
  refine ⟨s', ?_, v, fun q h1 => k.reg q (by simp [h1]), k.mem, k.f⟩
  rw [loadImm, if_pos (Or.inr ⟨h.2, h.1⟩)]; exact r

/-- Non-vacuity: the hypotheses hold for SLJIT_R0 / TMP_REG3 and a constant which needs the longest sequence. -/
example : ∃ s', run (loadImm ⟨true, false, false⟩ 1 0x123456789abcdef1#64 27) ⟨fun _ => 0#64, fun _ => 0#64, fun _ => 0#8, 0#64⟩ = some s' ∧
    s'.rd 10#5 = 0x123456789abcdef1#64 := by
  obtain ⟨s', r, v, _⟩ := c15_load_immediate ⟨true, false, false⟩ 1 27 0x123456789abcdef1#64 _
    (Or.inl (by decide)) (Or.inr (by decide)) (by decide)
  exact ⟨s', r, v⟩

end Verif.Props
