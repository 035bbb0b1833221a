import Verif.RISCV.Atomic

/-! # Atomic operations on RV64 (helper lemmas) -/

set_option linter.all false

namespace Verif.RV

theorem Interf.refl (s : ThSt) : Interf s s := ⟨⟨s.st.mem, rfl⟩, Or.inr ⟨rfl, fun _ _ _ => rfl⟩⟩
theorem Interf.rd {s s' : ThSt} (h : Interf s s') (q : Reg) : s'.st.rd q = s.st.rd q := by obtain ⟨⟨m, e⟩, -⟩ := h; rw [e]; rfl
theorem Interf.f {s s' : ThSt} (h : Interf s s') : s'.st.f = s.st.f := by obtain ⟨⟨m, e⟩, -⟩ := h; rw [e]

/-- The opcodes in the order of the R format. -/
theorem lr_word (f : BitVec 3) (d a : Nat) : LR ||| f.setWidth 32 <<< 12 ||| RD d ||| RS1 a = F7 0x8#7 ||| F3 f ||| OPC 0x2f#7 ||| RD d ||| RS1 a ||| RS2 0 := by
  have e : RS2 0 = 0#32 := by decide
  have e3 : F3 f = f.setWidth 32 <<< 12 := rfl
  rw [e, BitVec.or_zero, e3]
  unfold LR
  rw [BitVec.or_assoc (F7 _) (OPC _), BitVec.or_comm (OPC _), ← BitVec.or_assoc (F7 _)]
theorem sc_word (f : BitVec 3) (d a b : Nat) : SC ||| f.setWidth 32 <<< 12 ||| RD d ||| RS1 a ||| RS2 b = F7 0xc#7 ||| F3 f ||| OPC 0x2f#7 ||| RD d ||| RS1 a ||| RS2 b := by
  have e3 : F3 f = f.setWidth 32 <<< 12 := rfl
  rw [e3]
  unfold SC
  rw [BitVec.or_assoc (F7 _) (OPC _), BitVec.or_comm (OPC _), ← BitVec.or_assoc (F7 _)]

/-- The size field. -/
def f3sz (sz : Sz) : BitVec 3 := if sz = .int then 2#3 else 3#3

theorem dec_lr {sz : Sz} (h : sz = .int ∨ sz = .word) (d a : Nat) : decAt (LR ||| (f3sz sz).setWidth 32 <<< 12 ||| RD d ||| RS1 a) = some (.lr sz (regMap d) (regMap a)) ∧
    isC ((LR ||| (f3sz sz).setWidth 32 <<< 12 ||| RD d ||| RS1 a).setWidth 16) = false := by
  rw [lr_word]
  constructor
  · unfold decAt
    rw [R_opc, R_f3, R_f7, R_rd, R_rs1, R_rs2]
    rcases h with rfl | rfl <;> rfl
  · have e := R_opc 0x8#7 (f3sz sz) 0x2f#7 d a 0
    generalize F7 0x8#7 ||| F3 (f3sz sz) ||| OPC 0x2f#7 ||| RD d ||| RS1 a ||| RS2 0 = w at e
    have : (w.setWidth 16).extractLsb' 0 2 = (fOpc w).extractLsb' 0 2 := by bits [fOpc]
    unfold isC
    rw [this, e]
    decide

theorem dec_sc {sz : Sz} (h : sz = .int ∨ sz = .word) (d a b : Nat) :
    decAt (SC ||| (f3sz sz).setWidth 32 <<< 12 ||| RD d ||| RS1 a ||| RS2 b) = some (.sc sz (regMap d) (regMap a) (regMap b)) ∧
    isC ((SC ||| (f3sz sz).setWidth 32 <<< 12 ||| RD d ||| RS1 a ||| RS2 b).setWidth 16) = false := by
  rw [sc_word]
  constructor
  · unfold decAt
    rw [R_opc, R_f3, R_f7, R_rd, R_rs1, R_rs2]
    rcases h with rfl | rfl <;> rfl
  · have e := R_opc 0xc#7 (f3sz sz) 0x2f#7 d a b
    generalize F7 0xc#7 ||| F3 (f3sz sz) ||| OPC 0x2f#7 ||| RD d ||| RS1 a ||| RS2 b = w at e
    have : (w.setWidth 16).extractLsb' 0 2 = (fOpc w).extractLsb' 0 2 := by bits [fOpc]
    unfold isC
    rw [this, e]
    decide

/-- Executions of a single instruction. -/
theorem exec_one {w : BitVec 32} (hc : isC (w.setWidth 16) = false) {s s' : ThSt} {l} : ExecA (w32 w) s s' l ↔ ∃ s1 s2, Interf s s1 ∧ StepA w s1 s2 l ∧ Interf s2 s' := by
  constructor
  · intro h
    unfold w32 at h
    cases h with
    | cons h1 h2 h3 h4 =>
      rw [join32] at h3
      cases h4 with
      | nil h5 => exact ⟨_, _, h1, by rw [List.append_nil]; exact h3, h5⟩
  · rintro ⟨s1, s2, h1, h2, h3⟩
    have := ExecA.cons (lo := w.setWidth 16) (hi := (w >>> 16).setWidth 16) h1 hc (by rw [join32]; exact h2) (.nil h3)
    rwa [List.append_nil] at this

end Verif.RV
