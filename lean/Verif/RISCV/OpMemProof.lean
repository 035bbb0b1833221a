import Verif.RISCV.EmitOpProof
import Verif.RISCV.Api2

/-!
# emit_op_mem: one load or store with any address (helper lemmas)
-/

namespace Verif.RV

/-- The register emit_op_mem computes the address in. -/
def opMemTmp (t : MT) (load : Bool) (reg : Nat) : Nat := if t.gpr = true ∧ load = true then reg else TMP_REG1

/-- The address computation of emit_op_mem is right unless the register it uses is the base register. -/
theorem opMem_addr {cfg : Cfg} {t : MT} {load : Bool} {reg b i : Nat} {w : BitVec 64} {c : Core} (hf : fastArg i w = false)
    (t0 : regMap (opMemTmp t load reg) ≠ 0#5) (t2 : regMap (opMemTmp t load reg) ≠ 2#5) (t7 : regMap (opMemTmp t load reg) ≠ 7#5)
    (b7 : regMap b ≠ 7#5)
    (hb : regMap b ≠ regMap (opMemTmp t load reg) ∨ (i ≠ 0 ∧ w &&& 3#64 = 0#64)) :
    ∃ e off, emitOpMem cfg t load reg b i w = e ++ pushMem cfg t load reg (opMemTmp t load reg) off ∧
      wp e c fun c1 => c1.x (regMap (opMemTmp t load reg)) + (off.setWidth 12).signExtend 64 = ea c b i w ∧
        Only [regMap (opMemTmp t load reg), 7#5] c c1 := by
  unfold emitOpMem
  rw [hf]
  simp only [Bool.false_eq_true, if_false]
  rw [show (if t.gpr = true ∧ load = true then reg else TMP_REG1) = opMemTmp t load reg from rfl]
  generalize opMemTmp t load reg = tmp at *
  have mt : regMap tmp ∈ [regMap tmp, 7#5] := by simp
  by_cases hi : i = 0
  · subst hi
    have hb : regMap b ≠ regMap tmp := by
      rcases hb with h | h
      · exact h
      · exact absurd rfl h.1
    simp only [ne_eq, not_true, if_false]
    refine ⟨loadImm cfg tmp (toArgwHi w) TMP_REG3 ++ (if ¬ b = 0 then w32 (ADD ||| RD tmp ||| RS1 tmp ||| RS2 b) else []), w &&& 0xfff#64,
      by rw [List.append_assoc], ?_⟩
    refine wp_append (wp_mono (wp_loadImm t0 t2 (by decide) t7) ?_)
    rintro c1 ⟨h1, h2⟩
    rw [rm27] at h2
    by_cases b0 : b = 0
    · subst b0
      simp only [not_true, if_false, wp_nil]
      refine ⟨?_, h2⟩
      rw [h1, argwHi_add]; simp [ea]
    · rw [if_pos b0]
      have h5 := h2.1 (regMap b) (by simp [hb, b7])
      wps []
      refine ⟨?_, h2.wr mt _⟩
      have h6 := argwHi_add w
      rw [show (w &&& 0xfff#64).setWidth 12 = w.setWidth 12 from by bits []] at h6
      simp only [ea, if_true, t0, if_false]
      rw [h1, h5]
      calc _ = c.x (regMap b) + (toArgwHi w + (w.setWidth 12).signExtend 64) := by ac_rfl
        _ = _ := by rw [h6]
  · simp only [ne_eq, hi, not_false_eq_true, if_true]
    refine ⟨_, 0#64, rfl, ?_⟩
    by_cases h0 : w &&& 3#64 = 0#64
    · simp only [h0, not_true, if_false]
      wps []
      refine ⟨?_, (Only.refl _ _).wr mt _⟩
      simp [ea, hi, h0, t0, ROp.eval]
    · simp only [h0, not_false_eq_true, if_true]
      have hb : regMap b ≠ regMap tmp := by
        rcases hb with h | h
        · exact h
        · exact absurd h.2 h0
      have h3 := and3_lt w
      have h4 : (w &&& 3#64).toNat < 64 := by omega
      rw [wp_SLLI_s _ _ _ h4]
      wps []
      refine ⟨?_, ((Only.refl _ _).wr mt _).wr mt _⟩
      simp [ea, hi, t0, ROp.eval, hb, ShOp.eval]
      rw [show w.toNat % 64 &&& 3 = w.toNat &&& 3 from by
        rw [show (3 : Nat) = 2 ^ 2 - 1 from rfl, Nat.and_two_pow_sub_one_eq_mod, Nat.and_two_pow_sub_one_eq_mod]; omega]
      exact BitVec.add_comm _ _

/-- emit_op_mem as an integer load. -/
theorem opMem_load {cfg : Cfg} {sz : Sz} {sg : Bool} {reg b i : Nat} {w : BitVec 64} {c : Core}
    (t0 : regMap reg ≠ 0#5) (t2 : regMap reg ≠ 2#5) (t7 : regMap reg ≠ 7#5) (b7 : regMap b ≠ 7#5)
    (hb : fastArg i w = true ∨ regMap b ≠ regMap reg ∨ (i ≠ 0 ∧ w &&& 3#64 = 0#64)) :
    wp (emitOpMem cfg (.g sz sg) true reg b i w) c fun c' =>
      c'.x (regMap reg) = (ldOp sz sg).eval c.mem (ea c b i w) ∧ Only [regMap reg, 7#5] c c' := by
  have ht : opMemTmp (.g sz sg) true reg = reg := rfl
  cases hf : fastArg i w
  · rw [hf] at hb
    obtain ⟨e, off, h1, h2⟩ := opMem_addr (cfg := cfg) (t := .g sz sg) (load := true) (reg := reg) (b := b) (i := i) (w := w) (c := c) hf
      (by rw [ht]; exact t0) (by rw [ht]; exact t2) (by rw [ht]; exact t7) b7 (by rw [ht]; simpa using hb)
    rw [h1, ht] at *
    refine wp_append (wp_mono h2 ?_)
    rintro c1 ⟨h3, h4⟩
    rw [wp_load t0, h3, h4.2.1]
    exact ⟨by simp [t0], h4.wr (by simp) _⟩
  · unfold emitOpMem
    rw [if_pos hf, wp_load t0]
    simp only [fastArg, Bool.and_eq_true, decide_eq_true_eq] at hf
    obtain ⟨rfl, hf⟩ := hf
    refine ⟨?_, (Only.refl _ _).wr (by simp) _⟩
    simp [t0, ea, sext12 (fits12_iff.mp hf)]

/-- emit_op_mem as an integer store; the address is computed in TMP_REG1. -/
theorem opMem_store {cfg : Cfg} {sz : Sz} {sg : Bool} {reg b i : Nat} {w : BitVec 64} {c : Core}
    (r6 : regMap reg ≠ 6#5) (r7 : regMap reg ≠ 7#5) (b6 : regMap b ≠ 6#5) (b7 : regMap b ≠ 7#5) :
    wp (emitOpMem cfg (.g sz sg) false reg b i w) c fun c' => ∃ c1, Only [6#5, 7#5] c c1 ∧
      c' = c1.setMem ((stOp sz).eval c.mem (ea c b i w) (c.x (regMap reg))) := by
  have ht : opMemTmp (.g sz sg) false reg = TMP_REG1 := rfl
  cases hf : fastArg i w
  · obtain ⟨e, off, h1, h2⟩ := opMem_addr (cfg := cfg) (t := .g sz sg) (load := false) (reg := reg) (b := b) (i := i) (w := w) (c := c) hf
      (by rw [ht]; decide) (by rw [ht]; decide) (by rw [ht]; decide) b7 (by rw [ht]; exact Or.inl b6)
    rw [h1, ht] at *
    refine wp_append (wp_mono h2 ?_)
    rintro c1 ⟨h3, h4⟩
    rw [rm25] at h4
    rw [wp_store, h3, h4.2.1, h4.1 _ (by simp [r6, r7])]
    exact ⟨c1, h4, rfl⟩
  · unfold emitOpMem
    rw [if_pos hf, wp_store]
    simp only [fastArg, Bool.and_eq_true, decide_eq_true_eq] at hf
    obtain ⟨rfl, hf⟩ := hf
    refine ⟨c, Only.refl _ _, ?_⟩
    simp [ea, sext12 (fits12_iff.mp hf)]

end Verif.RV
