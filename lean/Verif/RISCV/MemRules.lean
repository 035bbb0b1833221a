import Verif.RISCV.Mem
import Verif.RISCV.OpsRules

/-!
# push_mem_inst is one load or store (helper lemmas)
-/

namespace Verif.RV

/-- The instruction that a transfer stands for. -/
def ldOp : Sz → Bool → LdOp
  | .word, _ => .d
  | .byte, true => .b
  | .byte, false => .bu
  | .half, true => .h
  | .half, false => .hu
  | .int, true => .w
  | .int, false => .wu
def stOp : Sz → StOp
  | .word => .d
  | .byte => .b
  | .half => .h
  | .int => .w

def memInstr (t : MT) (load : Bool) (reg base : Nat) (i : BitVec 12) : Instr :=
  match t, load with
  | .g sz s, true => .load (ldOp sz s) (regMap reg) (regMap base) i
  | .g sz _, false => .store (stOp sz) (regMap base) (regMap reg) i
  | .double, true => .fld (fregMap reg) (regMap base) i
  | .double, false => .fsd (regMap base) (fregMap reg) i
  | .single, true => .flw (fregMap reg) (regMap base) i
  | .single, false => .fsw (regMap base) (fregMap reg) i

section
variable (d a b : Nat) (i : BitVec 64) (f : BitVec 3) (o : BitVec 7)

theorem I2_opc : fOpc (F3 f ||| OPC o ||| RS1 a ||| (RD d ||| IMM_I i)) = o := by bits [fOpc, F3, OPC, RD, RS1, IMM_I]
theorem I2_f3 : fF3 (F3 f ||| OPC o ||| RS1 a ||| (RD d ||| IMM_I i)) = f := by bits [fF3, F3, OPC, RD, RS1, IMM_I]
theorem I2_rd : fRd (F3 f ||| OPC o ||| RS1 a ||| (RD d ||| IMM_I i)) = regMap d := by bits [fRd, F3, OPC, RD, RS1, IMM_I]
theorem I2_rs1 : fRs1 (F3 f ||| OPC o ||| RS1 a ||| (RD d ||| IMM_I i)) = regMap a := by bits [fRs1, F3, OPC, RD, RS1, IMM_I]
theorem I2_imm : fImmI (F3 f ||| OPC o ||| RS1 a ||| (RD d ||| IMM_I i)) = i.setWidth 12 := by bits [fImmI, F3, OPC, RD, RS1, IMM_I]
theorem FI2_opc : fOpc (F3 f ||| OPC o ||| RS1 a ||| (FRD d ||| IMM_I i)) = o := by bits [fOpc, F3, OPC, FRD, RS1, IMM_I]
theorem FI2_f3 : fF3 (F3 f ||| OPC o ||| RS1 a ||| (FRD d ||| IMM_I i)) = f := by bits [fF3, F3, OPC, FRD, RS1, IMM_I]
theorem FI2_rd : fRd (F3 f ||| OPC o ||| RS1 a ||| (FRD d ||| IMM_I i)) = fregMap d := by bits [fRd, F3, OPC, FRD, RS1, IMM_I]
theorem FI2_rs1 : fRs1 (F3 f ||| OPC o ||| RS1 a ||| (FRD d ||| IMM_I i)) = regMap a := by bits [fRs1, F3, OPC, FRD, RS1, IMM_I]
theorem FI2_imm : fImmI (F3 f ||| OPC o ||| RS1 a ||| (FRD d ||| IMM_I i)) = i.setWidth 12 := by bits [fImmI, F3, OPC, FRD, RS1, IMM_I]

theorem dec_load (sz : Sz) (s : Bool) :
    decode32 (dataTransfer (.g sz s) true ||| RS1 a ||| (RD d ||| IMM_I i)) = some (memInstr (.g sz s) true d a (i.setWidth 12)) := by
  cases sz <;> cases s <;>
    simp only [dataTransfer, LB, LH, LBU, LHU, LWU, LD, LW, decode32, I2_opc, I2_f3, I2_rd, I2_rs1, I2_imm] <;> rfl
theorem dec_store (sz : Sz) (s : Bool) :
    decode32 (dataTransfer (.g sz s) false ||| RS1 a ||| (RS2 d ||| IMM_S i)) = some (memInstr (.g sz s) false d a (i.setWidth 12)) := by
  rw [← BitVec.or_assoc]
  cases sz <;>
    simp only [dataTransfer, SB, SH, SW, SD, decode32, S_opc, S_f3, S_rs1, S_rs2, S_imm] <;> rfl
theorem dec_fload (t : MT) (h : t.gpr = false) :
    decode32 (dataTransfer t true ||| RS1 a ||| (FRD d ||| IMM_I i)) = some (memInstr t true d a (i.setWidth 12)) := by
  cases t with
  | g => simp [MT.gpr] at h
  | double => simp only [dataTransfer, FLD, decode32, FI2_opc, FI2_f3, FI2_rd, FI2_rs1, FI2_imm]; rfl
  | single => simp only [dataTransfer, FLW, decode32, FI2_opc, FI2_f3, FI2_rd, FI2_rs1, FI2_imm]; rfl
theorem dec_fstore (t : MT) (h : t.gpr = false) :
    decode32 (dataTransfer t false ||| RS1 a ||| (FRS2 d ||| IMM_S i)) = some (memInstr t false d a (i.setWidth 12)) := by
  rw [← BitVec.or_assoc]
  cases t with
  | g => simp [MT.gpr] at h
  | double => simp only [dataTransfer, FSD, decode32, FS_opc, FS_f3, FS_rs1, FS_rs2, FS_imm]; rfl
  | single => simp only [dataTransfer, FSW, decode32, FS_opc, FS_f3, FS_rs1, FS_rs2, FS_imm]; rfl
end

theorem toNat_lt_of_toInt {i : BitVec 64} {n : Nat} (h0 : 0 ≤ i.toInt) (h : i.toInt < n) : i.toNat < n := by
  have := BitVec.toInt_eq_toNat_cond i
  split at this <;> omega

theorem dec_pushMemC {t : MT} {load : Bool} {reg base : Nat} {off : BitVec 64} {h : BitVec 16} (h0 : 0 ≤ off.toInt)
    (hr : t.gpr = true → load = true → regMap reg ≠ 0#5) (he : pushMemC t load reg base off = some h) :
    decode16 h = some (memInstr t load reg base (off.setWidth 12)) := by
  unfold pushMemC at he
  by_cases hb : base = SLJIT_SP
  · subst hb
    have e2 : (2#5 : Reg) = regMap SLJIT_SP := by decide
    simp only [if_true] at he
    split at he
    · rename_i q; obtain ⟨q1, q2, rfl, rfl⟩ := q; cases he
      rw [dec_C_LWSP _ _ (hr rfl rfl) (toNat_lt_of_toInt h0 (by omega)) q1, e2]; rfl
    split at he
    · rename_i q; obtain ⟨q1, q2, q3, rfl⟩ := q; cases he
      rw [dec_C_SWSP _ _ (toNat_lt_of_toInt h0 (by omega)) q1, e2]; rcases q3 with rfl | rfl <;> rfl
    split at he
    · rename_i q; obtain ⟨q1, q2, q3, rfl⟩ := q; cases he
      rw [dec_C_LDSP _ _ (hr (by rcases q3 with rfl | rfl <;> rfl) rfl) (toNat_lt_of_toInt h0 (by omega)) q1, e2]; rcases q3 with rfl | rfl <;> rfl
    split at he
    · rename_i q; obtain ⟨q1, q2, q3, rfl⟩ := q; cases he
      rw [dec_C_SDSP _ _ (toNat_lt_of_toInt h0 (by omega)) q1, e2]; rcases q3 with rfl | rfl <;> rfl
    split at he
    · rename_i q; obtain ⟨q1, q2, rfl, rfl⟩ := q; cases he
      rw [dec_C_FLDSP _ _ (toNat_lt_of_toInt h0 (by omega)) q1, e2]; rfl
    split at he
    · rename_i q; obtain ⟨q1, q2, rfl, rfl⟩ := q; cases he
      rw [dec_C_FSDSP _ _ (toNat_lt_of_toInt h0 (by omega)) q1, e2]; rfl
    · cases he
  · rw [if_neg hb] at he
    by_cases p : C_IS_R3 base = true ∧ (if t.gpr then C_IS_R3 reg else C_IS_FR3 reg) = true
    · rw [if_pos p] at he
      obtain ⟨p1, p2⟩ := p
      split at he
      · rename_i q; obtain ⟨q1, q2, rfl⟩ := q; cases he
        simp only [MT.gpr, if_true] at p2
        cases load
        · simp only [loadBit, Bool.false_eq_true, if_false, BitVec.xor_zero]
          rw [dec_C_SW _ _ _ p1 p2 (toNat_lt_of_toInt h0 (by omega)) q1]; rfl
        · simp only [loadBit, if_true]
          rw [dec_C_LWx _ _ _ p1 p2 (toNat_lt_of_toInt h0 (by omega)) q1]; rfl
      split at he
      · rename_i q; obtain ⟨q1, q2, q3⟩ := q; cases he
        have p2 : C_IS_R3 reg = true := by rcases q3 with rfl | rfl <;> simpa only [MT.gpr, if_true] using p2
        cases load
        · simp only [loadBit, Bool.false_eq_true, if_false, BitVec.xor_zero]
          rw [dec_C_SD _ _ _ p1 p2 (toNat_lt_of_toInt h0 (by omega)) q1]; rcases q3 with rfl | rfl <;> rfl
        · simp only [loadBit, if_true]
          rw [dec_C_LDx _ _ _ p1 p2 (toNat_lt_of_toInt h0 (by omega)) q1]; rcases q3 with rfl | rfl <;> rfl
      split at he
      · rename_i q; obtain ⟨q1, q2, rfl⟩ := q; cases he
        simp only [MT.gpr, Bool.false_eq_true, if_false] at p2
        cases load
        · simp only [loadBit, Bool.false_eq_true, if_false, BitVec.xor_zero]
          rw [dec_C_FSD _ _ _ p1 p2 (toNat_lt_of_toInt h0 (by omega)) q1]; rfl
        · simp only [loadBit, if_true]
          rw [dec_C_FLDx _ _ _ p1 p2 (toNat_lt_of_toInt h0 (by omega)) q1]; rfl
      · cases he
    · rw [if_neg p] at he; cases he

/-- push_mem_inst emits exactly one instruction, the intended load or store. -/
theorem wp_pushMem {cfg : Cfg} {t : MT} {load : Bool} {reg base : Nat} {off : BitVec 64} {c c1 : Core} {Q : Core → Prop}
    (hr : t.gpr = true → load = true → regMap reg ≠ 0#5)
    (he : execC (memInstr t load reg base (off.setWidth 12)) c = some c1) :
    wp (pushMem cfg t load reg base off) c Q ↔ Q c1 := by
  have hn : (memInstr t load reg base (off.setWidth 12)).noPc = true := by cases t <;> cases load <;> rfl
  unfold pushMem
  generalize hg : (if cfg.c = true ∧ 0 ≤ off.toInt then pushMemC t load reg base off else none) = g
  cases g with
  | some h =>
    by_cases hc : cfg.c = true ∧ 0 ≤ off.toInt
    · rw [if_pos hc] at hg
      exact wp_step16' (dec_pushMemC hc.2 hr hg) hn he
    · rw [if_neg hc] at hg; cases hg
  | none =>
    cases load
    · cases ht : t.gpr
      · simp only [Bool.false_eq_true, if_false]
        exact wp_step32' (dec_fstore _ _ _ _ ht) hn he
      · simp only [Bool.false_eq_true, if_false, if_true]
        cases t with
        | g sz s => exact wp_step32' (dec_store ..) hn he
        | _ => simp [MT.gpr] at ht
    · cases ht : t.gpr
      · simp only [Bool.false_eq_true, if_false, if_true]
        exact wp_step32' (dec_fload _ _ _ _ ht) hn he
      · simp only [if_true]
        cases t with
        | g sz s => exact wp_step32' (dec_load ..) hn he
        | _ => simp [MT.gpr] at ht

theorem wp_load {cfg : Cfg} {sz : Sz} {s : Bool} {reg base : Nat} {off : BitVec 64} {c : Core} {Q : Core → Prop}
    (hr : regMap reg ≠ 0#5) :
    wp (pushMem cfg (.g sz s) true reg base off) c Q ↔
      Q (c.wr (regMap reg) ((ldOp sz s).eval c.mem (c.x (regMap base) + (off.setWidth 12).signExtend 64))) :=
  wp_pushMem (fun _ _ => hr) (by simp [memInstr, execC, execS, st_rd]; rfl)

theorem wp_store {cfg : Cfg} {sz : Sz} {s : Bool} {reg base : Nat} {off : BitVec 64} {c : Core} {Q : Core → Prop} :
    wp (pushMem cfg (.g sz s) false reg base off) c Q ↔
      Q (c.setMem ((stOp sz).eval c.mem (c.x (regMap base) + (off.setWidth 12).signExtend 64) (c.x (regMap reg)))) :=
  wp_pushMem (fun _ h => by cases h) (by simp [memInstr, execC, execS, st_rd]; exact Core.ext' (funext fun q => st_rd c q) rfl rfl)

end Verif.RV
