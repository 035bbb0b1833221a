import Verif.RISCV.Encode
import Mathlib.Tactic.IntervalCases

/-! # Decoding the words built by the macros (helper lemmas) -/

namespace Verif.RV

macro "bits" "[" ls:Lean.Parser.Tactic.simpLemma,* "]" : tactic =>
  `(tactic| (apply BitVec.eq_of_getLsbD_eq; intro k hk; interval_cases k <;> simp [-BitVec.getLsbD_eq_getElem, -BitVec.setWidth_eq, BitVec.getLsbD_append, $ls,*]))

section fields
variable (g : BitVec 7) (f : BitVec 3) (o : BitVec 7) (d a b : Nat) (i : BitVec 64) (e : BitVec 12)

theorem I_opc : fOpc (F3 f ||| OPC o ||| RD d ||| RS1 a ||| IMM_I i) = o := by bits [fOpc, F3, OPC, RD, RS1, IMM_I]
theorem I_f3 : fF3 (F3 f ||| OPC o ||| RD d ||| RS1 a ||| IMM_I i) = f := by bits [fF3, F3, OPC, RD, RS1, IMM_I]
theorem I_rd : fRd (F3 f ||| OPC o ||| RD d ||| RS1 a ||| IMM_I i) = regMap d := by bits [fRd, F3, OPC, RD, RS1, IMM_I]
theorem I_rs1 : fRs1 (F3 f ||| OPC o ||| RD d ||| RS1 a ||| IMM_I i) = regMap a := by bits [fRs1, F3, OPC, RD, RS1, IMM_I]
theorem I_imm : fImmI (F3 f ||| OPC o ||| RD d ||| RS1 a ||| IMM_I i) = i.setWidth 12 := by
  bits [fImmI, F3, OPC, RD, RS1, IMM_I]

theorem I7_opc : fOpc (F7 g ||| F3 f ||| OPC o ||| RD d ||| RS1 a ||| IMM_I i) = o := by bits [fOpc, F7, F3, OPC, RD, RS1, IMM_I]
theorem I7_f3 : fF3 (F7 g ||| F3 f ||| OPC o ||| RD d ||| RS1 a ||| IMM_I i) = f := by bits [fF3, F7, F3, OPC, RD, RS1, IMM_I]
theorem I7_rd : fRd (F7 g ||| F3 f ||| OPC o ||| RD d ||| RS1 a ||| IMM_I i) = regMap d := by bits [fRd, F7, F3, OPC, RD, RS1, IMM_I]
theorem I7_rs1 : fRs1 (F7 g ||| F3 f ||| OPC o ||| RD d ||| RS1 a ||| IMM_I i) = regMap a := by bits [fRs1, F7, F3, OPC, RD, RS1, IMM_I]
theorem I7_imm : fImmI (F7 g ||| F3 f ||| OPC o ||| RD d ||| RS1 a ||| IMM_I i) = (g.setWidth 12 <<< 5) ||| i.setWidth 12 := by
  bits [fImmI, F7, F3, OPC, RD, RS1, IMM_I]

theorem U12_opc : fOpc (F12 e ||| F3 f ||| OPC o ||| RD d ||| RS1 a) = o := by bits [fOpc, F12, F3, OPC, RD, RS1]
theorem U12_f3 : fF3 (F12 e ||| F3 f ||| OPC o ||| RD d ||| RS1 a) = f := by bits [fF3, F12, F3, OPC, RD, RS1]
theorem U12_rd : fRd (F12 e ||| F3 f ||| OPC o ||| RD d ||| RS1 a) = regMap d := by bits [fRd, F12, F3, OPC, RD, RS1]
theorem U12_rs1 : fRs1 (F12 e ||| F3 f ||| OPC o ||| RD d ||| RS1 a) = regMap a := by bits [fRs1, F12, F3, OPC, RD, RS1]
theorem U12_imm : fImmI (F12 e ||| F3 f ||| OPC o ||| RD d ||| RS1 a) = e := by bits [fImmI, F12, F3, OPC, RD, RS1]

theorem R_opc : fOpc (F7 g ||| F3 f ||| OPC o ||| RD d ||| RS1 a ||| RS2 b) = o := by bits [fOpc, F7, F3, OPC, RD, RS1, RS2]
theorem R_f3 : fF3 (F7 g ||| F3 f ||| OPC o ||| RD d ||| RS1 a ||| RS2 b) = f := by bits [fF3, F7, F3, OPC, RD, RS1, RS2]
theorem R_f7 : fF7 (F7 g ||| F3 f ||| OPC o ||| RD d ||| RS1 a ||| RS2 b) = g := by bits [fF7, F7, F3, OPC, RD, RS1, RS2]
theorem R_rd : fRd (F7 g ||| F3 f ||| OPC o ||| RD d ||| RS1 a ||| RS2 b) = regMap d := by bits [fRd, F7, F3, OPC, RD, RS1, RS2]
theorem R_rs1 : fRs1 (F7 g ||| F3 f ||| OPC o ||| RD d ||| RS1 a ||| RS2 b) = regMap a := by bits [fRs1, F7, F3, OPC, RD, RS1, RS2]
theorem R_rs2 : fRs2 (F7 g ||| F3 f ||| OPC o ||| RD d ||| RS1 a ||| RS2 b) = regMap b := by bits [fRs2, F7, F3, OPC, RD, RS1, RS2]

theorem U_low (v : BitVec 32) (h : v &&& 0xfff#32 = 0#32) : ∀ k (_ : k < 12), v.getLsbD k = false := by
  intro k hk
  have := congrArg (fun x => x.getLsbD k) h
  interval_cases k <;> simpa using this
theorem U_opc (v : BitVec 32) (h : v &&& 0xfff#32 = 0#32) : fOpc (OPC o ||| RD d ||| v) = o := by
  bits [fOpc, OPC, RD, U_low v h]
theorem U_rd (v : BitVec 32) (h : v &&& 0xfff#32 = 0#32) : fRd (OPC o ||| RD d ||| v) = regMap d := by
  bits [fRd, OPC, RD, U_low v h]
theorem U_imm (v : BitVec 32) : fImmU (OPC o ||| RD d ||| v) = v.extractLsb' 12 20 := by
  bits [fImmU, OPC, RD]

theorem S_opc : fOpc (F3 f ||| OPC o ||| RS1 a ||| RS2 b ||| IMM_S i) = o := by bits [fOpc, F3, OPC, RS1, RS2, IMM_S]
theorem S_f3 : fF3 (F3 f ||| OPC o ||| RS1 a ||| RS2 b ||| IMM_S i) = f := by bits [fF3, F3, OPC, RS1, RS2, IMM_S]
theorem S_rs1 : fRs1 (F3 f ||| OPC o ||| RS1 a ||| RS2 b ||| IMM_S i) = regMap a := by bits [fRs1, F3, OPC, RS1, RS2, IMM_S]
theorem S_rs2 : fRs2 (F3 f ||| OPC o ||| RS1 a ||| RS2 b ||| IMM_S i) = regMap b := by bits [fRs2, F3, OPC, RS1, RS2, IMM_S]
theorem S_imm : fImmS (F3 f ||| OPC o ||| RS1 a ||| RS2 b ||| IMM_S i) = i.setWidth 12 := by
  bits [fImmS, put, F3, OPC, RS1, RS2, IMM_S, BitVec.getLsbD_append]
theorem FS_opc : fOpc (F3 f ||| OPC o ||| RS1 a ||| FRS2 b ||| IMM_S i) = o := by bits [fOpc, F3, OPC, RS1, FRS2, IMM_S]
theorem FS_f3 : fF3 (F3 f ||| OPC o ||| RS1 a ||| FRS2 b ||| IMM_S i) = f := by bits [fF3, F3, OPC, RS1, FRS2, IMM_S]
theorem FS_rs1 : fRs1 (F3 f ||| OPC o ||| RS1 a ||| FRS2 b ||| IMM_S i) = regMap a := by bits [fRs1, F3, OPC, RS1, FRS2, IMM_S]
theorem FS_rs2 : fRs2 (F3 f ||| OPC o ||| RS1 a ||| FRS2 b ||| IMM_S i) = fregMap b := by bits [fRs2, F3, OPC, RS1, FRS2, IMM_S]
theorem FS_imm : fImmS (F3 f ||| OPC o ||| RS1 a ||| FRS2 b ||| IMM_S i) = i.setWidth 12 := by
  bits [fImmS, put, F3, OPC, RS1, FRS2, IMM_S, BitVec.getLsbD_append]

end fields

section decode
variable (d a b : Nat) (i : BitVec 64)

@[simp] theorem dec_ADDI : decode32 (ADDI ||| RD d ||| RS1 a ||| IMM_I i) = some (.opi .add (regMap d) (regMap a) (i.setWidth 12)) := by
  simp only [decode32, ADDI, I_opc, I_f3, I_rd, I_rs1, I_imm]; rfl
@[simp] theorem dec_ANDI : decode32 (ANDI ||| RD d ||| RS1 a ||| IMM_I i) = some (.opi .and (regMap d) (regMap a) (i.setWidth 12)) := by
  simp only [decode32, ANDI, I_opc, I_f3, I_rd, I_rs1, I_imm]; rfl
@[simp] theorem dec_ORI : decode32 (ORI ||| RD d ||| RS1 a ||| IMM_I i) = some (.opi .or (regMap d) (regMap a) (i.setWidth 12)) := by
  simp only [decode32, ORI, I_opc, I_f3, I_rd, I_rs1, I_imm]; rfl
@[simp] theorem dec_XORI : decode32 (XORI ||| RD d ||| RS1 a ||| IMM_I i) = some (.opi .xor (regMap d) (regMap a) (i.setWidth 12)) := by
  simp only [decode32, XORI, I_opc, I_f3, I_rd, I_rs1, I_imm]; rfl
@[simp] theorem dec_SLTI : decode32 (SLTI ||| RD d ||| RS1 a ||| IMM_I i) = some (.opi .slt (regMap d) (regMap a) (i.setWidth 12)) := by
  simp only [decode32, SLTI, I_opc, I_f3, I_rd, I_rs1, I_imm]; rfl
@[simp] theorem dec_SLTUI : decode32 (SLTUI ||| RD d ||| RS1 a ||| IMM_I i) = some (.opi .sltu (regMap d) (regMap a) (i.setWidth 12)) := by
  simp only [decode32, SLTUI, I_opc, I_f3, I_rd, I_rs1, I_imm]; rfl
@[simp] theorem dec_LD : decode32 (LD ||| RD d ||| RS1 a ||| IMM_I i) = some (.load .d (regMap d) (regMap a) (i.setWidth 12)) := by
  simp only [decode32, LD, I_opc, I_f3, I_rd, I_rs1, I_imm]; rfl
@[simp] theorem dec_LW : decode32 (LW ||| RD d ||| RS1 a ||| IMM_I i) = some (.load .w (regMap d) (regMap a) (i.setWidth 12)) := by
  simp only [decode32, LW, I_opc, I_f3, I_rd, I_rs1, I_imm]; rfl
@[simp] theorem dec_JALR : decode32 (JALR ||| RD d ||| RS1 a ||| IMM_I i) = some (.jalr (regMap d) (regMap a) (i.setWidth 12)) := by
  simp only [decode32, JALR, I_opc, I_f3, I_rd, I_rs1, I_imm]; rfl

theorem sh6 (h : i.toNat < 64) : (i.setWidth 12).extractLsb' 6 6 = 0#6 := by
  apply BitVec.eq_of_toNat_eq
  simp [Nat.shiftRight_eq_div_pow]
  omega
theorem sh6' (g : BitVec 7) (h : i.toNat < 64) :
    ((g.setWidth 12 <<< 5) ||| i.setWidth 12).extractLsb' 6 6 = g.extractLsb' 1 6 := by
  have hb : ∀ k, 6 ≤ k → i.getLsbD k = false := by
    intro k hk
    rw [BitVec.getLsbD]
    exact Nat.testBit_lt_two_pow (Nat.lt_of_lt_of_le h (Nat.pow_le_pow_right (n := 2) (by decide) hk))
  bits [hb]
theorem sh6s (g : BitVec 7) (hg : g.getLsbD 0 = false) :
    ((g.setWidth 12 <<< 5) ||| i.setWidth 12).setWidth 6 = i.setWidth 6 := by
  bits [hg]
theorem sh5 (h : i.toNat < 32) : (i.setWidth 12).extractLsb' 5 7 = 0#7 := by
  apply BitVec.eq_of_toNat_eq
  simp [Nat.shiftRight_eq_div_pow]
  omega
theorem sh5' (g : BitVec 7) (h : i.toNat < 32) :
    ((g.setWidth 12 <<< 5) ||| i.setWidth 12).extractLsb' 5 7 = g := by
  have hb : ∀ k, 5 ≤ k → i.getLsbD k = false := by
    intro k hk
    rw [BitVec.getLsbD]
    exact Nat.testBit_lt_two_pow (Nat.lt_of_lt_of_le h (Nat.pow_le_pow_right (n := 2) (by decide) hk))
  bits [hb]
theorem sh5s (g : BitVec 7) :
    ((g.setWidth 12 <<< 5) ||| i.setWidth 12).setWidth 5 = i.setWidth 5 := by
  bits [Nat.reduceAdd]

theorem WORD_false_or (x : BitVec 32) : x ||| WORD false = x := by simp [WORD]
theorem OPC33_W : OPC 0x33 ||| WORD true = OPC 0x3b#7 := by decide
theorem OPC13_W : OPC 0x13 ||| WORD true = OPC 0x1b#7 := by decide
@[simp] theorem dec_SLLI (h : i.toNat < 64) : decode32 (SLLI ||| RD d ||| RS1 a ||| IMM_I i) =
    some (.shi .sll (regMap d) (regMap a) (i.setWidth 6)) := by
  simp only [decode32, SLLI, I_opc, I_f3, I_rd, I_rs1, I_imm, decOpImm, sh6 i h, BitVec.setWidth_setWidth_of_le i (show 6 ≤ 12 by decide)]; rfl
@[simp] theorem decW_SLLI (w : Bool) (h : i.toNat < if w then 32 else 64) :
    decode32 (SLLI ||| WORD w ||| RD d ||| RS1 a ||| IMM_I i) =
    some (if w then .shiw .sll (regMap d) (regMap a) (i.setWidth 5) else .shi .sll (regMap d) (regMap a) (i.setWidth 6)) := by
  cases w
  · rw [WORD_false_or, dec_SLLI _ _ _ h]; rfl
  · have h' : i.toNat < 32 := h
    simp only [decode32, SLLI, BitVec.or_assoc _ _ (WORD true), OPC13_W, I_opc, I_f3, I_rd, I_rs1, I_imm, decOpImm32, sh5 i h',
      BitVec.setWidth_setWidth_of_le i (show 5 ≤ 12 by decide)]; rfl
@[simp] theorem dec_SRLI (h : i.toNat < 64) : decode32 (SRLI ||| RD d ||| RS1 a ||| IMM_I i) =
    some (.shi .srl (regMap d) (regMap a) (i.setWidth 6)) := by
  simp only [decode32, SRLI, I_opc, I_f3, I_rd, I_rs1, I_imm, decOpImm, sh6 i h, BitVec.setWidth_setWidth_of_le i (show 6 ≤ 12 by decide)]; rfl
@[simp] theorem decW_SRLI (w : Bool) (h : i.toNat < if w then 32 else 64) :
    decode32 (SRLI ||| WORD w ||| RD d ||| RS1 a ||| IMM_I i) =
    some (if w then .shiw .srl (regMap d) (regMap a) (i.setWidth 5) else .shi .srl (regMap d) (regMap a) (i.setWidth 6)) := by
  cases w
  · rw [WORD_false_or, dec_SRLI _ _ _ h]; rfl
  · have h' : i.toNat < 32 := h
    simp only [decode32, SRLI, BitVec.or_assoc _ _ (WORD true), OPC13_W, I_opc, I_f3, I_rd, I_rs1, I_imm, decOpImm32, sh5 i h',
      BitVec.setWidth_setWidth_of_le i (show 5 ≤ 12 by decide)]; rfl
@[simp] theorem dec_SRAI (h : i.toNat < 64) : decode32 (SRAI ||| RD d ||| RS1 a ||| IMM_I i) =
    some (.shi .sra (regMap d) (regMap a) (i.setWidth 6)) := by
  simp only [decode32, SRAI, I7_opc, I7_f3, I7_rd, I7_rs1, I7_imm, decOpImm, sh6' i _ h, sh6s i 0x20 (by decide)]; rfl
@[simp] theorem decW_SRAI (w : Bool) (h : i.toNat < if w then 32 else 64) :
    decode32 (SRAI ||| WORD w ||| RD d ||| RS1 a ||| IMM_I i) =
    some (if w then .shiw .sra (regMap d) (regMap a) (i.setWidth 5) else .shi .sra (regMap d) (regMap a) (i.setWidth 6)) := by
  cases w
  · rw [WORD_false_or, dec_SRAI _ _ _ h]; rfl
  · have h' : i.toNat < 32 := h
    simp only [decode32, SRAI, BitVec.or_assoc _ _ (WORD true), OPC13_W, I7_opc, I7_f3, I7_rd, I7_rs1, I7_imm, decOpImm32, sh5' i _ h', sh5s]; rfl
@[simp] theorem dec_RORI (h : i.toNat < 64) : decode32 (RORI ||| RD d ||| RS1 a ||| IMM_I i) =
    some (.shi .ror (regMap d) (regMap a) (i.setWidth 6)) := by
  simp only [decode32, RORI, I7_opc, I7_f3, I7_rd, I7_rs1, I7_imm, decOpImm, sh6' i _ h, sh6s i 0x30 (by decide)]; rfl
@[simp] theorem decW_RORI (w : Bool) (h : i.toNat < if w then 32 else 64) :
    decode32 (RORI ||| WORD w ||| RD d ||| RS1 a ||| IMM_I i) =
    some (if w then .shiw .ror (regMap d) (regMap a) (i.setWidth 5) else .shi .ror (regMap d) (regMap a) (i.setWidth 6)) := by
  cases w
  · rw [WORD_false_or, dec_RORI _ _ _ h]; rfl
  · have h' : i.toNat < 32 := h
    simp only [decode32, RORI, BitVec.or_assoc _ _ (WORD true), OPC13_W, I7_opc, I7_f3, I7_rd, I7_rs1, I7_imm, decOpImm32, sh5' i _ h', sh5s]; rfl
@[simp] theorem decW_ADDI (w : Bool) : decode32 (ADDI ||| WORD w ||| RD d ||| RS1 a ||| IMM_I i) =
    some (if w then .addiw (regMap d) (regMap a) (i.setWidth 12) else .opi .add (regMap d) (regMap a) (i.setWidth 12)) := by
  cases w
  · rw [WORD_false_or, dec_ADDI]; rfl
  · simp only [decode32, ADDI, BitVec.or_assoc _ _ (WORD true), OPC13_W, I_opc, I_f3, I_rd, I_rs1, I_imm]; rfl
@[simp] theorem dec_ADD : decode32 (ADD ||| RD d ||| RS1 a ||| RS2 b) = some (.op .add (regMap d) (regMap a) (regMap b)) := by
  simp only [decode32, ADD, R_opc, R_f3, R_f7, R_rd, R_rs1, R_rs2]; rfl
@[simp] theorem decW_ADD (w : Bool) : decode32 (ADD ||| WORD w ||| RD d ||| RS1 a ||| RS2 b) =
    some (if w then .opw .add (regMap d) (regMap a) (regMap b) else .op .add (regMap d) (regMap a) (regMap b)) := by
  cases w
  · rw [WORD_false_or, dec_ADD]; rfl
  · simp only [decode32, ADD, BitVec.or_assoc _ _ (WORD true), OPC33_W, R_opc, R_f3, R_f7, R_rd, R_rs1, R_rs2]; rfl
@[simp] theorem dec_SUB : decode32 (SUB ||| RD d ||| RS1 a ||| RS2 b) = some (.op .sub (regMap d) (regMap a) (regMap b)) := by
  simp only [decode32, SUB, R_opc, R_f3, R_f7, R_rd, R_rs1, R_rs2]; rfl
@[simp] theorem decW_SUB (w : Bool) : decode32 (SUB ||| WORD w ||| RD d ||| RS1 a ||| RS2 b) =
    some (if w then .opw .sub (regMap d) (regMap a) (regMap b) else .op .sub (regMap d) (regMap a) (regMap b)) := by
  cases w
  · rw [WORD_false_or, dec_SUB]; rfl
  · simp only [decode32, SUB, BitVec.or_assoc _ _ (WORD true), OPC33_W, R_opc, R_f3, R_f7, R_rd, R_rs1, R_rs2]; rfl
@[simp] theorem dec_SLL : decode32 (SLL ||| RD d ||| RS1 a ||| RS2 b) = some (.op .sll (regMap d) (regMap a) (regMap b)) := by
  simp only [decode32, SLL, R_opc, R_f3, R_f7, R_rd, R_rs1, R_rs2]; rfl
@[simp] theorem decW_SLL (w : Bool) : decode32 (SLL ||| WORD w ||| RD d ||| RS1 a ||| RS2 b) =
    some (if w then .opw .sll (regMap d) (regMap a) (regMap b) else .op .sll (regMap d) (regMap a) (regMap b)) := by
  cases w
  · rw [WORD_false_or, dec_SLL]; rfl
  · simp only [decode32, SLL, BitVec.or_assoc _ _ (WORD true), OPC33_W, R_opc, R_f3, R_f7, R_rd, R_rs1, R_rs2]; rfl
@[simp] theorem dec_SLT : decode32 (SLT ||| RD d ||| RS1 a ||| RS2 b) = some (.op .slt (regMap d) (regMap a) (regMap b)) := by
  simp only [decode32, SLT, R_opc, R_f3, R_f7, R_rd, R_rs1, R_rs2]; rfl
@[simp] theorem dec_SLTU : decode32 (SLTU ||| RD d ||| RS1 a ||| RS2 b) = some (.op .sltu (regMap d) (regMap a) (regMap b)) := by
  simp only [decode32, SLTU, R_opc, R_f3, R_f7, R_rd, R_rs1, R_rs2]; rfl
@[simp] theorem dec_XOR : decode32 (XOR ||| RD d ||| RS1 a ||| RS2 b) = some (.op .xor (regMap d) (regMap a) (regMap b)) := by
  simp only [decode32, XOR, R_opc, R_f3, R_f7, R_rd, R_rs1, R_rs2]; rfl
@[simp] theorem dec_SRL : decode32 (SRL ||| RD d ||| RS1 a ||| RS2 b) = some (.op .srl (regMap d) (regMap a) (regMap b)) := by
  simp only [decode32, SRL, R_opc, R_f3, R_f7, R_rd, R_rs1, R_rs2]; rfl
@[simp] theorem decW_SRL (w : Bool) : decode32 (SRL ||| WORD w ||| RD d ||| RS1 a ||| RS2 b) =
    some (if w then .opw .srl (regMap d) (regMap a) (regMap b) else .op .srl (regMap d) (regMap a) (regMap b)) := by
  cases w
  · rw [WORD_false_or, dec_SRL]; rfl
  · simp only [decode32, SRL, BitVec.or_assoc _ _ (WORD true), OPC33_W, R_opc, R_f3, R_f7, R_rd, R_rs1, R_rs2]; rfl
@[simp] theorem dec_SRA : decode32 (SRA ||| RD d ||| RS1 a ||| RS2 b) = some (.op .sra (regMap d) (regMap a) (regMap b)) := by
  simp only [decode32, SRA, R_opc, R_f3, R_f7, R_rd, R_rs1, R_rs2]; rfl
@[simp] theorem decW_SRA (w : Bool) : decode32 (SRA ||| WORD w ||| RD d ||| RS1 a ||| RS2 b) =
    some (if w then .opw .sra (regMap d) (regMap a) (regMap b) else .op .sra (regMap d) (regMap a) (regMap b)) := by
  cases w
  · rw [WORD_false_or, dec_SRA]; rfl
  · simp only [decode32, SRA, BitVec.or_assoc _ _ (WORD true), OPC33_W, R_opc, R_f3, R_f7, R_rd, R_rs1, R_rs2]; rfl
@[simp] theorem dec_OR : decode32 (OR ||| RD d ||| RS1 a ||| RS2 b) = some (.op .or (regMap d) (regMap a) (regMap b)) := by
  simp only [decode32, OR, R_opc, R_f3, R_f7, R_rd, R_rs1, R_rs2]; rfl
@[simp] theorem dec_AND : decode32 (AND ||| RD d ||| RS1 a ||| RS2 b) = some (.op .and (regMap d) (regMap a) (regMap b)) := by
  simp only [decode32, AND, R_opc, R_f3, R_f7, R_rd, R_rs1, R_rs2]; rfl
@[simp] theorem dec_MUL : decode32 (MUL ||| RD d ||| RS1 a ||| RS2 b) = some (.op .mul (regMap d) (regMap a) (regMap b)) := by
  simp only [decode32, MUL, R_opc, R_f3, R_f7, R_rd, R_rs1, R_rs2]; rfl
@[simp] theorem decW_MUL (w : Bool) : decode32 (MUL ||| WORD w ||| RD d ||| RS1 a ||| RS2 b) =
    some (if w then .opw .mul (regMap d) (regMap a) (regMap b) else .op .mul (regMap d) (regMap a) (regMap b)) := by
  cases w
  · rw [WORD_false_or, dec_MUL]; rfl
  · simp only [decode32, MUL, BitVec.or_assoc _ _ (WORD true), OPC33_W, R_opc, R_f3, R_f7, R_rd, R_rs1, R_rs2]; rfl
@[simp] theorem dec_MULH : decode32 (MULH ||| RD d ||| RS1 a ||| RS2 b) = some (.op .mulh (regMap d) (regMap a) (regMap b)) := by
  simp only [decode32, MULH, R_opc, R_f3, R_f7, R_rd, R_rs1, R_rs2]; rfl
@[simp] theorem dec_MULHU : decode32 (MULHU ||| RD d ||| RS1 a ||| RS2 b) = some (.op .mulhu (regMap d) (regMap a) (regMap b)) := by
  simp only [decode32, MULHU, R_opc, R_f3, R_f7, R_rd, R_rs1, R_rs2]; rfl
@[simp] theorem dec_DIV : decode32 (DIV ||| RD d ||| RS1 a ||| RS2 b) = some (.op .div (regMap d) (regMap a) (regMap b)) := by
  simp only [decode32, DIV, R_opc, R_f3, R_f7, R_rd, R_rs1, R_rs2]; rfl
@[simp] theorem decW_DIV (w : Bool) : decode32 (DIV ||| WORD w ||| RD d ||| RS1 a ||| RS2 b) =
    some (if w then .opw .div (regMap d) (regMap a) (regMap b) else .op .div (regMap d) (regMap a) (regMap b)) := by
  cases w
  · rw [WORD_false_or, dec_DIV]; rfl
  · simp only [decode32, DIV, BitVec.or_assoc _ _ (WORD true), OPC33_W, R_opc, R_f3, R_f7, R_rd, R_rs1, R_rs2]; rfl
@[simp] theorem dec_DIVU : decode32 (DIVU ||| RD d ||| RS1 a ||| RS2 b) = some (.op .divu (regMap d) (regMap a) (regMap b)) := by
  simp only [decode32, DIVU, R_opc, R_f3, R_f7, R_rd, R_rs1, R_rs2]; rfl
@[simp] theorem decW_DIVU (w : Bool) : decode32 (DIVU ||| WORD w ||| RD d ||| RS1 a ||| RS2 b) =
    some (if w then .opw .divu (regMap d) (regMap a) (regMap b) else .op .divu (regMap d) (regMap a) (regMap b)) := by
  cases w
  · rw [WORD_false_or, dec_DIVU]; rfl
  · simp only [decode32, DIVU, BitVec.or_assoc _ _ (WORD true), OPC33_W, R_opc, R_f3, R_f7, R_rd, R_rs1, R_rs2]; rfl
@[simp] theorem dec_REM : decode32 (REM ||| RD d ||| RS1 a ||| RS2 b) = some (.op .rem (regMap d) (regMap a) (regMap b)) := by
  simp only [decode32, REM, R_opc, R_f3, R_f7, R_rd, R_rs1, R_rs2]; rfl
@[simp] theorem decW_REM (w : Bool) : decode32 (REM ||| WORD w ||| RD d ||| RS1 a ||| RS2 b) =
    some (if w then .opw .rem (regMap d) (regMap a) (regMap b) else .op .rem (regMap d) (regMap a) (regMap b)) := by
  cases w
  · rw [WORD_false_or, dec_REM]; rfl
  · simp only [decode32, REM, BitVec.or_assoc _ _ (WORD true), OPC33_W, R_opc, R_f3, R_f7, R_rd, R_rs1, R_rs2]; rfl
@[simp] theorem dec_REMU : decode32 (REMU ||| RD d ||| RS1 a ||| RS2 b) = some (.op .remu (regMap d) (regMap a) (regMap b)) := by
  simp only [decode32, REMU, R_opc, R_f3, R_f7, R_rd, R_rs1, R_rs2]; rfl
@[simp] theorem decW_REMU (w : Bool) : decode32 (REMU ||| WORD w ||| RD d ||| RS1 a ||| RS2 b) =
    some (if w then .opw .remu (regMap d) (regMap a) (regMap b) else .op .remu (regMap d) (regMap a) (regMap b)) := by
  cases w
  · rw [WORD_false_or, dec_REMU]; rfl
  · simp only [decode32, REMU, BitVec.or_assoc _ _ (WORD true), OPC33_W, R_opc, R_f3, R_f7, R_rd, R_rs1, R_rs2]; rfl
@[simp] theorem dec_SH1ADD : decode32 (SH1ADD ||| RD d ||| RS1 a ||| RS2 b) = some (.op .sh1add (regMap d) (regMap a) (regMap b)) := by
  simp only [decode32, SH1ADD, R_opc, R_f3, R_f7, R_rd, R_rs1, R_rs2]; rfl
@[simp] theorem dec_SH2ADD : decode32 (SH2ADD ||| RD d ||| RS1 a ||| RS2 b) = some (.op .sh2add (regMap d) (regMap a) (regMap b)) := by
  simp only [decode32, SH2ADD, R_opc, R_f3, R_f7, R_rd, R_rs1, R_rs2]; rfl
@[simp] theorem dec_SH3ADD : decode32 (SH3ADD ||| RD d ||| RS1 a ||| RS2 b) = some (.op .sh3add (regMap d) (regMap a) (regMap b)) := by
  simp only [decode32, SH3ADD, R_opc, R_f3, R_f7, R_rd, R_rs1, R_rs2]; rfl
@[simp] theorem dec_ROL : decode32 (ROL ||| RD d ||| RS1 a ||| RS2 b) = some (.op .rol (regMap d) (regMap a) (regMap b)) := by
  simp only [decode32, ROL, R_opc, R_f3, R_f7, R_rd, R_rs1, R_rs2]; rfl
@[simp] theorem decW_ROL (w : Bool) : decode32 (ROL ||| WORD w ||| RD d ||| RS1 a ||| RS2 b) =
    some (if w then .opw .rol (regMap d) (regMap a) (regMap b) else .op .rol (regMap d) (regMap a) (regMap b)) := by
  cases w
  · rw [WORD_false_or, dec_ROL]; rfl
  · simp only [decode32, ROL, BitVec.or_assoc _ _ (WORD true), OPC33_W, R_opc, R_f3, R_f7, R_rd, R_rs1, R_rs2]; rfl
@[simp] theorem dec_ROR : decode32 (ROR ||| RD d ||| RS1 a ||| RS2 b) = some (.op .ror (regMap d) (regMap a) (regMap b)) := by
  simp only [decode32, ROR, R_opc, R_f3, R_f7, R_rd, R_rs1, R_rs2]; rfl
@[simp] theorem decW_ROR (w : Bool) : decode32 (ROR ||| WORD w ||| RD d ||| RS1 a ||| RS2 b) =
    some (if w then .opw .ror (regMap d) (regMap a) (regMap b) else .op .ror (regMap d) (regMap a) (regMap b)) := by
  cases w
  · rw [WORD_false_or, dec_ROR]; rfl
  · simp only [decode32, ROR, BitVec.or_assoc _ _ (WORD true), OPC33_W, R_opc, R_f3, R_f7, R_rd, R_rs1, R_rs2]; rfl
theorem CLZ_eq : CLZ = F12 0x600#12 ||| F3 0x1#3 ||| OPC 0x13 := by decide
@[simp] theorem dec_CLZ : decode32 (CLZ ||| RD d ||| RS1 a) = some (.un .clz (regMap d) (regMap a)) := by
  simp only [decode32, CLZ_eq, U12_opc, U12_f3, U12_rd, U12_rs1, U12_imm]; rfl
@[simp] theorem decW_CLZ (w : Bool) : decode32 (CLZ ||| WORD w ||| RD d ||| RS1 a) =
    some (.un (if w then .clzw else .clz) (regMap d) (regMap a)) := by
  cases w
  · rw [WORD_false_or, dec_CLZ]; rfl
  · simp only [decode32, CLZ_eq, BitVec.or_assoc _ _ (WORD true), OPC13_W, U12_opc, U12_f3, U12_rd, U12_rs1, U12_imm]; rfl
theorem CTZ_eq : CTZ = F12 0x601#12 ||| F3 0x1#3 ||| OPC 0x13 := by decide
@[simp] theorem dec_CTZ : decode32 (CTZ ||| RD d ||| RS1 a) = some (.un .ctz (regMap d) (regMap a)) := by
  simp only [decode32, CTZ_eq, U12_opc, U12_f3, U12_rd, U12_rs1, U12_imm]; rfl
@[simp] theorem decW_CTZ (w : Bool) : decode32 (CTZ ||| WORD w ||| RD d ||| RS1 a) =
    some (.un (if w then .ctzw else .ctz) (regMap d) (regMap a)) := by
  cases w
  · rw [WORD_false_or, dec_CTZ]; rfl
  · simp only [decode32, CTZ_eq, BitVec.or_assoc _ _ (WORD true), OPC13_W, U12_opc, U12_f3, U12_rd, U12_rs1, U12_imm]; rfl
theorem SEXTB_eq : SEXTB = F12 0x604#12 ||| F3 0x1#3 ||| OPC 0x13 := by decide
@[simp] theorem dec_SEXTB : decode32 (SEXTB ||| RD d ||| RS1 a) = some (.un .sextb (regMap d) (regMap a)) := by
  simp only [decode32, SEXTB_eq, U12_opc, U12_f3, U12_rd, U12_rs1, U12_imm]; rfl
theorem SEXTH_eq : SEXTH = F12 0x605#12 ||| F3 0x1#3 ||| OPC 0x13 := by decide
@[simp] theorem dec_SEXTH : decode32 (SEXTH ||| RD d ||| RS1 a) = some (.un .sexth (regMap d) (regMap a)) := by
  simp only [decode32, SEXTH_eq, U12_opc, U12_f3, U12_rd, U12_rs1, U12_imm]; rfl
theorem REV8_eq : REV8 = F12 0x6b8#12 ||| F3 0x5#3 ||| OPC 0x13 := by decide
@[simp] theorem dec_REV8 : decode32 (REV8 ||| RD d ||| RS1 a) = some (.un .rev8 (regMap d) (regMap a)) := by
  simp only [decode32, REV8_eq, U12_opc, U12_f3, U12_rd, U12_rs1, U12_imm]; rfl
theorem ZEXTH_eq : ZEXTH ||| RD d ||| RS1 a = F7 0x4#7 ||| F3 0x4#3 ||| OPC 0x3b#7 ||| RD d ||| RS1 a ||| RS2 0 := by
  have : RS2 0 = 0#32 := by decide
  simp [this, ZEXTH]
@[simp] theorem dec_ZEXTH : decode32 (ZEXTH ||| RD d ||| RS1 a) = some (.un .zexth (regMap d) (regMap a)) := by
  simp only [decode32, ZEXTH_eq, R_opc, R_f3, R_f7, R_rd, R_rs1, R_rs2]; rfl

theorem dec_LUI_of (v : BitVec 32) (h : v &&& 0xfff#32 = 0#32) :
    decode32 (LUI ||| RD d ||| v) = some (.lui (regMap d) (v.extractLsb' 12 20)) := by
  simp only [decode32, LUI, U_opc _ _ v h, U_rd _ _ v h, U_imm]; rfl
theorem dec_AUIPC_of (v : BitVec 32) (h : v &&& 0xfff#32 = 0#32) :
    decode32 (AUIPC ||| RD d ||| v) = some (.auipc (regMap d) (v.extractLsb' 12 20)) := by
  simp only [decode32, AUIPC, U_opc _ _ v h, U_rd _ _ v h, U_imm]; rfl
@[simp] theorem dec_LUI_hi : decode32 (LUI ||| RD d ||| 0x80000000#32) = some (.lui (regMap d) 0x80000#20) := by
  rw [dec_LUI_of _ _ (by decide)]; rfl
@[simp] theorem dec_LUI_mask : decode32 (LUI ||| RD d ||| (i &&& ~~~0xfff#64).setWidth 32) =
    some (.lui (regMap d) (i.extractLsb' 12 20)) := by
  rw [dec_LUI_of _ _ (by bits [Nat.reduceAdd])]
  congr 2
  bits [Nat.reduceAdd]
@[simp] theorem dec_LUI_shl : decode32 (LUI ||| RD d ||| (i <<< 12).setWidth 32) =
    some (.lui (regMap d) (i.setWidth 20)) := by
  rw [dec_LUI_of _ _ (by bits [Nat.reduceAdd])]
  congr 2
  bits [Nat.reduceAdd]
@[simp] theorem dec_SD : decode32 (SD ||| RS1 a ||| RS2 b ||| IMM_S i) =
    some (.store .d (regMap a) (regMap b) (i.setWidth 12)) := by
  simp only [decode32, SD, S_opc, S_f3, S_rs1, S_rs2, S_imm]; rfl
@[simp] theorem dec_SW : decode32 (SW ||| RS1 a ||| RS2 b ||| IMM_S i) =
    some (.store .w (regMap a) (regMap b) (i.setWidth 12)) := by
  simp only [decode32, SW, S_opc, S_f3, S_rs1, S_rs2, S_imm]; rfl
@[simp] theorem dec_FSD : decode32 (FSD ||| RS1 a ||| FRS2 b ||| IMM_S i) =
    some (.fsd (regMap a) (fregMap b) (i.setWidth 12)) := by
  simp only [decode32, FSD, FS_opc, FS_f3, FS_rs1, FS_rs2, FS_imm]; rfl
end decode

section decodeC
variable (d a b : Nat) (i : BitVec 64)

macro "cdec" "[" ls:Lean.Parser.Tactic.simpLemma,* "]" : tactic =>
  `(tactic| bits [$ls,*, C_OPC, C_RD, C_RS2, C_IMM_I, C_FRD, C_FRS2, C_RS1_R3, C_RS2_R3, C_FRS2_R3,
     BitVec.getLsbD_append, put, cImm6, cReg, cImmLdsp, cImmLwsp, cImmSwsp, cImmSdsp, cImmW, cImmD, C_LD32_SP, C_ST32_SP, C_LD64_SP,
     C_ST64_SP, C_MEM32, C_MEM64])
@[simp] theorem dec_C_LI : decode16 (C_LI ||| C_RD d ||| C_IMM_I i) = some (.opi .add (regMap d) 0#5 ((i.setWidth 6).signExtend 12)) := by
  have h1 : (C_LI ||| C_RD d ||| C_IMM_I i).extractLsb' 0 2 = 1#2 := by cdec [C_LI]
  have h2 : (C_LI ||| C_RD d ||| C_IMM_I i).extractLsb' 13 3 = 2#3 := by cdec [C_LI]
  have h3 : (C_LI ||| C_RD d ||| C_IMM_I i).extractLsb' 7 5 = regMap d := by cdec [C_LI]
  have h4 : cImm6 (C_LI ||| C_RD d ||| C_IMM_I i) = i.setWidth 6 := by cdec [C_LI]
  simp only [decode16, h1, h2, h3, h4]
  rfl
@[simp] theorem dec_C_ADDI : decode16 (C_ADDI ||| C_RD d ||| C_IMM_I i) = some (.opi .add (regMap d) (regMap d) ((i.setWidth 6).signExtend 12)) := by
  have h1 : (C_ADDI ||| C_RD d ||| C_IMM_I i).extractLsb' 0 2 = 1#2 := by cdec [C_ADDI]
  have h2 : (C_ADDI ||| C_RD d ||| C_IMM_I i).extractLsb' 13 3 = 0#3 := by cdec [C_ADDI]
  have h3 : (C_ADDI ||| C_RD d ||| C_IMM_I i).extractLsb' 7 5 = regMap d := by cdec [C_ADDI]
  have h4 : cImm6 (C_ADDI ||| C_RD d ||| C_IMM_I i) = i.setWidth 6 := by cdec [C_ADDI]
  simp only [decode16, h1, h2, h3, h4]
  rfl
@[simp] theorem dec_C_ADDIW (h : regMap d ≠ 0#5) : decode16 (C_ADDIW ||| C_RD d ||| C_IMM_I i) = some (.addiw (regMap d) (regMap d) ((i.setWidth 6).signExtend 12)) := by
  have h1 : (C_ADDIW ||| C_RD d ||| C_IMM_I i).extractLsb' 0 2 = 1#2 := by cdec [C_ADDIW]
  have h2 : (C_ADDIW ||| C_RD d ||| C_IMM_I i).extractLsb' 13 3 = 1#3 := by cdec [C_ADDIW]
  have h3 : (C_ADDIW ||| C_RD d ||| C_IMM_I i).extractLsb' 7 5 = regMap d := by cdec [C_ADDIW]
  have h4 : cImm6 (C_ADDIW ||| C_RD d ||| C_IMM_I i) = i.setWidth 6 := by cdec [C_ADDIW]
  simp only [decode16, h1, h2, h3, h4]
  simp [h]
@[simp] theorem dec_C_SLLI : decode16 (C_SLLI ||| C_RD d ||| C_IMM_I i) = some (.shi .sll (regMap d) (regMap d) (i.setWidth 6)) := by
  have h1 : (C_SLLI ||| C_RD d ||| C_IMM_I i).extractLsb' 0 2 = 2#2 := by cdec [C_SLLI]
  have h2 : (C_SLLI ||| C_RD d ||| C_IMM_I i).extractLsb' 13 3 = 0#3 := by cdec [C_SLLI]
  have h3 : (C_SLLI ||| C_RD d ||| C_IMM_I i).extractLsb' 7 5 = regMap d := by cdec [C_SLLI]
  have h4 : cImm6 (C_SLLI ||| C_RD d ||| C_IMM_I i) = i.setWidth 6 := by cdec [C_SLLI]
  simp only [decode16, h1, h2, h3, h4]
  rfl
@[simp] theorem dec_C_LUI (hd : regMap d ≠ 2#5) (hi : i.extractLsb' 12 6 ≠ 0#6) : decode16 (C_LUI ||| C_RD d ||| (((i &&& 0x1f000#64) >>> 10) ||| ((i &&& 0x20000#64) >>> 5)).setWidth 16) = some (.lui (regMap d) ((i.extractLsb' 12 6).signExtend 20)) := by
  have h1 : (C_LUI ||| C_RD d ||| (((i &&& 0x1f000#64) >>> 10) ||| ((i &&& 0x20000#64) >>> 5)).setWidth 16).extractLsb' 0 2 = 1#2 := by cdec [C_LUI]
  have h2 : (C_LUI ||| C_RD d ||| (((i &&& 0x1f000#64) >>> 10) ||| ((i &&& 0x20000#64) >>> 5)).setWidth 16).extractLsb' 13 3 = 3#3 := by cdec [C_LUI]
  have h3 : (C_LUI ||| C_RD d ||| (((i &&& 0x1f000#64) >>> 10) ||| ((i &&& 0x20000#64) >>> 5)).setWidth 16).extractLsb' 7 5 = regMap d := by cdec [C_LUI]
  have h4 : cImm6 (C_LUI ||| C_RD d ||| (((i &&& 0x1f000#64) >>> 10) ||| ((i &&& 0x20000#64) >>> 5)).setWidth 16) = i.extractLsb' 12 6 := by cdec [C_LUI]
  simp only [decode16, h1, h2, h3, h4]
  simp [hd, hi]
@[simp] theorem dec_C_LUI_hi (hd : regMap d ≠ 2#5) : decode16 (C_LUI ||| C_RD d ||| 0x1000#16) = some (.lui (regMap d) 0xfffe0#20) := by
  have h1 : (C_LUI ||| C_RD d ||| 0x1000#16).extractLsb' 0 2 = 1#2 := by cdec [C_LUI]
  have h2 : (C_LUI ||| C_RD d ||| 0x1000#16).extractLsb' 13 3 = 3#3 := by cdec [C_LUI]
  have h3 : (C_LUI ||| C_RD d ||| 0x1000#16).extractLsb' 7 5 = regMap d := by cdec [C_LUI]
  have h4 : cImm6 (C_LUI ||| C_RD d ||| 0x1000#16) = 0x20#6 := by cdec [C_LUI]
  simp only [decode16, h1, h2, h3, h4]
  simp [hd]
@[simp] theorem dec_C_MV (hb : regMap b ≠ 0#5) : decode16 (C_MV ||| C_RD d ||| C_RS2 b) = some (.op .add (regMap d) 0#5 (regMap b)) := by
  have h1 : (C_MV ||| C_RD d ||| C_RS2 b).extractLsb' 0 2 = 2#2 := by cdec [C_MV]
  have h2 : (C_MV ||| C_RD d ||| C_RS2 b).extractLsb' 13 3 = 4#3 := by cdec [C_MV]
  have h3 : (C_MV ||| C_RD d ||| C_RS2 b).extractLsb' 7 5 = regMap d := by cdec [C_MV]
  have h4 : (C_MV ||| C_RD d ||| C_RS2 b).extractLsb' 2 5 = regMap b := by cdec [C_MV]
  have h5 : (C_MV ||| C_RD d ||| C_RS2 b).extractLsb' 12 1 = 0#1 := by cdec [C_MV]
  simp only [decode16, h1, h2, h3, h4, h5]
  simp [hb]
@[simp] theorem dec_C_ADD (hb : regMap b ≠ 0#5) : decode16 (C_ADD ||| C_RD d ||| C_RS2 b) = some (.op .add (regMap d) (regMap d) (regMap b)) := by
  have h1 : (C_ADD ||| C_RD d ||| C_RS2 b).extractLsb' 0 2 = 2#2 := by cdec [C_ADD]
  have h2 : (C_ADD ||| C_RD d ||| C_RS2 b).extractLsb' 13 3 = 4#3 := by cdec [C_ADD]
  have h3 : (C_ADD ||| C_RD d ||| C_RS2 b).extractLsb' 7 5 = regMap d := by cdec [C_ADD]
  have h4 : (C_ADD ||| C_RD d ||| C_RS2 b).extractLsb' 2 5 = regMap b := by cdec [C_ADD]
  have h5 : (C_ADD ||| C_RD d ||| C_RS2 b).extractLsb' 12 1 = 1#1 := by cdec [C_ADD]
  simp only [decode16, h1, h2, h3, h4, h5]
  simp [hb]
theorem isR3 {r : Nat} (h : C_IS_R3 r = true) : regMap r = 8#5 ||| ((regMap r).extractLsb' 0 3).setWidth 5 := by
  simp only [C_IS_R3, beq_iff_eq] at h
  generalize regMap r = q at *
  revert q; decide
theorem isFR3 {r : Nat} (h : C_IS_FR3 r = true) : fregMap r = 8#5 ||| ((fregMap r).extractLsb' 0 3).setWidth 5 := by
  simp only [C_IS_FR3, beq_iff_eq] at h
  generalize fregMap r = q at *
  revert q; decide
theorem isR3_3 {r : Nat} (h : C_IS_R3 r = true) : (regMap r).getLsbD 3 = true ∧ (regMap r).getLsbD 4 = false := by
  simp only [C_IS_R3, beq_iff_eq] at h
  generalize regMap r = q at *
  revert q; decide
theorem isFR3_3 {r : Nat} (h : C_IS_FR3 r = true) : (fregMap r).getLsbD 3 = true ∧ (fregMap r).getLsbD 4 = false := by
  simp only [C_IS_FR3, beq_iff_eq] at h
  generalize fregMap r = q at *
  revert q; decide
@[simp] theorem dec_C_SUB (hd : C_IS_R3 d = true) (hb : C_IS_R3 b = true) : decode16 (C_SUB ||| C_RS1_R3 d ||| C_RS2_R3 b) = some (.op .sub (regMap d) (regMap d) (regMap b)) := by
  have h1 : (C_SUB ||| C_RS1_R3 d ||| C_RS2_R3 b).extractLsb' 0 2 = 1#2 := by cdec [C_SUB, isR3_3 hd, isR3_3 hb]
  have h2 : (C_SUB ||| C_RS1_R3 d ||| C_RS2_R3 b).extractLsb' 13 3 = 4#3 := by cdec [C_SUB, isR3_3 hd, isR3_3 hb]
  have h3 : cReg ((C_SUB ||| C_RS1_R3 d ||| C_RS2_R3 b).extractLsb' 7 3) = regMap d := by cdec [C_SUB, isR3_3 hd, isR3_3 hb]
  have h4 : cReg ((C_SUB ||| C_RS1_R3 d ||| C_RS2_R3 b).extractLsb' 2 3) = regMap b := by cdec [C_SUB, isR3_3 hd, isR3_3 hb]
  have h5 : (C_SUB ||| C_RS1_R3 d ||| C_RS2_R3 b).extractLsb' 12 1 = 0#1 := by cdec [C_SUB, isR3_3 hd, isR3_3 hb]
  have h6 : (C_SUB ||| C_RS1_R3 d ||| C_RS2_R3 b).extractLsb' 10 2 = 3#2 := by cdec [C_SUB, isR3_3 hd, isR3_3 hb]
  have h7 : (C_SUB ||| C_RS1_R3 d ||| C_RS2_R3 b).extractLsb' 5 2 = 0#2 := by cdec [C_SUB, isR3_3 hd, isR3_3 hb]
  simp only [decode16, h1, h2, h3, h4, h5, h6, h7]
  rfl
@[simp] theorem dec_C_XOR (hd : C_IS_R3 d = true) (hb : C_IS_R3 b = true) : decode16 (C_XOR ||| C_RS1_R3 d ||| C_RS2_R3 b) = some (.op .xor (regMap d) (regMap d) (regMap b)) := by
  have h1 : (C_XOR ||| C_RS1_R3 d ||| C_RS2_R3 b).extractLsb' 0 2 = 1#2 := by cdec [C_XOR, isR3_3 hd, isR3_3 hb]
  have h2 : (C_XOR ||| C_RS1_R3 d ||| C_RS2_R3 b).extractLsb' 13 3 = 4#3 := by cdec [C_XOR, isR3_3 hd, isR3_3 hb]
  have h3 : cReg ((C_XOR ||| C_RS1_R3 d ||| C_RS2_R3 b).extractLsb' 7 3) = regMap d := by cdec [C_XOR, isR3_3 hd, isR3_3 hb]
  have h4 : cReg ((C_XOR ||| C_RS1_R3 d ||| C_RS2_R3 b).extractLsb' 2 3) = regMap b := by cdec [C_XOR, isR3_3 hd, isR3_3 hb]
  have h5 : (C_XOR ||| C_RS1_R3 d ||| C_RS2_R3 b).extractLsb' 12 1 = 0#1 := by cdec [C_XOR, isR3_3 hd, isR3_3 hb]
  have h6 : (C_XOR ||| C_RS1_R3 d ||| C_RS2_R3 b).extractLsb' 10 2 = 3#2 := by cdec [C_XOR, isR3_3 hd, isR3_3 hb]
  have h7 : (C_XOR ||| C_RS1_R3 d ||| C_RS2_R3 b).extractLsb' 5 2 = 1#2 := by cdec [C_XOR, isR3_3 hd, isR3_3 hb]
  simp only [decode16, h1, h2, h3, h4, h5, h6, h7]
  rfl
@[simp] theorem dec_C_OR (hd : C_IS_R3 d = true) (hb : C_IS_R3 b = true) : decode16 (C_OR ||| C_RS1_R3 d ||| C_RS2_R3 b) = some (.op .or (regMap d) (regMap d) (regMap b)) := by
  have h1 : (C_OR ||| C_RS1_R3 d ||| C_RS2_R3 b).extractLsb' 0 2 = 1#2 := by cdec [C_OR, isR3_3 hd, isR3_3 hb]
  have h2 : (C_OR ||| C_RS1_R3 d ||| C_RS2_R3 b).extractLsb' 13 3 = 4#3 := by cdec [C_OR, isR3_3 hd, isR3_3 hb]
  have h3 : cReg ((C_OR ||| C_RS1_R3 d ||| C_RS2_R3 b).extractLsb' 7 3) = regMap d := by cdec [C_OR, isR3_3 hd, isR3_3 hb]
  have h4 : cReg ((C_OR ||| C_RS1_R3 d ||| C_RS2_R3 b).extractLsb' 2 3) = regMap b := by cdec [C_OR, isR3_3 hd, isR3_3 hb]
  have h5 : (C_OR ||| C_RS1_R3 d ||| C_RS2_R3 b).extractLsb' 12 1 = 0#1 := by cdec [C_OR, isR3_3 hd, isR3_3 hb]
  have h6 : (C_OR ||| C_RS1_R3 d ||| C_RS2_R3 b).extractLsb' 10 2 = 3#2 := by cdec [C_OR, isR3_3 hd, isR3_3 hb]
  have h7 : (C_OR ||| C_RS1_R3 d ||| C_RS2_R3 b).extractLsb' 5 2 = 2#2 := by cdec [C_OR, isR3_3 hd, isR3_3 hb]
  simp only [decode16, h1, h2, h3, h4, h5, h6, h7]
  rfl
@[simp] theorem dec_C_AND (hd : C_IS_R3 d = true) (hb : C_IS_R3 b = true) : decode16 (C_AND ||| C_RS1_R3 d ||| C_RS2_R3 b) = some (.op .and (regMap d) (regMap d) (regMap b)) := by
  have h1 : (C_AND ||| C_RS1_R3 d ||| C_RS2_R3 b).extractLsb' 0 2 = 1#2 := by cdec [C_AND, isR3_3 hd, isR3_3 hb]
  have h2 : (C_AND ||| C_RS1_R3 d ||| C_RS2_R3 b).extractLsb' 13 3 = 4#3 := by cdec [C_AND, isR3_3 hd, isR3_3 hb]
  have h3 : cReg ((C_AND ||| C_RS1_R3 d ||| C_RS2_R3 b).extractLsb' 7 3) = regMap d := by cdec [C_AND, isR3_3 hd, isR3_3 hb]
  have h4 : cReg ((C_AND ||| C_RS1_R3 d ||| C_RS2_R3 b).extractLsb' 2 3) = regMap b := by cdec [C_AND, isR3_3 hd, isR3_3 hb]
  have h5 : (C_AND ||| C_RS1_R3 d ||| C_RS2_R3 b).extractLsb' 12 1 = 0#1 := by cdec [C_AND, isR3_3 hd, isR3_3 hb]
  have h6 : (C_AND ||| C_RS1_R3 d ||| C_RS2_R3 b).extractLsb' 10 2 = 3#2 := by cdec [C_AND, isR3_3 hd, isR3_3 hb]
  have h7 : (C_AND ||| C_RS1_R3 d ||| C_RS2_R3 b).extractLsb' 5 2 = 3#2 := by cdec [C_AND, isR3_3 hd, isR3_3 hb]
  simp only [decode16, h1, h2, h3, h4, h5, h6, h7]
  rfl
@[simp] theorem dec_C_ADDW (hd : C_IS_R3 d = true) (hb : C_IS_R3 b = true) : decode16 (C_ADDW ||| C_RS1_R3 d ||| C_RS2_R3 b) = some (.opw .add (regMap d) (regMap d) (regMap b)) := by
  have h1 : (C_ADDW ||| C_RS1_R3 d ||| C_RS2_R3 b).extractLsb' 0 2 = 1#2 := by cdec [C_ADDW, isR3_3 hd, isR3_3 hb]
  have h2 : (C_ADDW ||| C_RS1_R3 d ||| C_RS2_R3 b).extractLsb' 13 3 = 4#3 := by cdec [C_ADDW, isR3_3 hd, isR3_3 hb]
  have h3 : cReg ((C_ADDW ||| C_RS1_R3 d ||| C_RS2_R3 b).extractLsb' 7 3) = regMap d := by cdec [C_ADDW, isR3_3 hd, isR3_3 hb]
  have h4 : cReg ((C_ADDW ||| C_RS1_R3 d ||| C_RS2_R3 b).extractLsb' 2 3) = regMap b := by cdec [C_ADDW, isR3_3 hd, isR3_3 hb]
  have h5 : (C_ADDW ||| C_RS1_R3 d ||| C_RS2_R3 b).extractLsb' 12 1 = 1#1 := by cdec [C_ADDW, isR3_3 hd, isR3_3 hb]
  have h6 : (C_ADDW ||| C_RS1_R3 d ||| C_RS2_R3 b).extractLsb' 10 2 = 3#2 := by cdec [C_ADDW, isR3_3 hd, isR3_3 hb]
  have h7 : (C_ADDW ||| C_RS1_R3 d ||| C_RS2_R3 b).extractLsb' 5 2 = 1#2 := by cdec [C_ADDW, isR3_3 hd, isR3_3 hb]
  simp only [decode16, h1, h2, h3, h4, h5, h6, h7]
  rfl
theorem C_SUBW_eq : C_SUB_W true = C_OPC 0x1 0x4 ||| (7#16 <<< 10) := by decide
theorem C_SUB_eq : C_SUB_W false = C_SUB := by decide
theorem C_ADDIW_eq : C_ADDI_W true = C_ADDIW := by decide
theorem C_ADDI_eq : C_ADDI_W false = C_ADDI := by decide
@[simp] theorem dec_C_SUBW (hd : C_IS_R3 d = true) (hb : C_IS_R3 b = true) : decode16 (C_OPC 0x1 0x4 ||| (7#16 <<< 10) ||| C_RS1_R3 d ||| C_RS2_R3 b) = some (.opw .sub (regMap d) (regMap d) (regMap b)) := by
  have h1 : (C_OPC 0x1 0x4 ||| (7#16 <<< 10) ||| C_RS1_R3 d ||| C_RS2_R3 b).extractLsb' 0 2 = 1#2 := by cdec [isR3_3 hd, isR3_3 hb]
  have h2 : (C_OPC 0x1 0x4 ||| (7#16 <<< 10) ||| C_RS1_R3 d ||| C_RS2_R3 b).extractLsb' 13 3 = 4#3 := by cdec [isR3_3 hd, isR3_3 hb]
  have h3 : cReg ((C_OPC 0x1 0x4 ||| (7#16 <<< 10) ||| C_RS1_R3 d ||| C_RS2_R3 b).extractLsb' 7 3) = regMap d := by cdec [isR3_3 hd, isR3_3 hb]
  have h4 : cReg ((C_OPC 0x1 0x4 ||| (7#16 <<< 10) ||| C_RS1_R3 d ||| C_RS2_R3 b).extractLsb' 2 3) = regMap b := by cdec [isR3_3 hd, isR3_3 hb]
  have h5 : (C_OPC 0x1 0x4 ||| (7#16 <<< 10) ||| C_RS1_R3 d ||| C_RS2_R3 b).extractLsb' 12 1 = 1#1 := by cdec [isR3_3 hd, isR3_3 hb]
  have h6 : (C_OPC 0x1 0x4 ||| (7#16 <<< 10) ||| C_RS1_R3 d ||| C_RS2_R3 b).extractLsb' 10 2 = 3#2 := by cdec [isR3_3 hd, isR3_3 hb]
  have h7 : (C_OPC 0x1 0x4 ||| (7#16 <<< 10) ||| C_RS1_R3 d ||| C_RS2_R3 b).extractLsb' 5 2 = 0#2 := by cdec [isR3_3 hd, isR3_3 hb]
  simp only [decode16, h1, h2, h3, h4, h5, h6, h7]
  rfl
@[simp] theorem dec_C_SUB_W (w : Bool) (hd : C_IS_R3 d = true) (hb : C_IS_R3 b = true) :
    decode16 (C_SUB_W w ||| C_RS1_R3 d ||| C_RS2_R3 b) =
    some (if w then .opw .sub (regMap d) (regMap d) (regMap b) else .op .sub (regMap d) (regMap d) (regMap b)) := by
  cases w
  · rw [C_SUB_eq, dec_C_SUB _ _ hd hb]; rfl
  · rw [C_SUBW_eq, dec_C_SUBW _ _ hd hb]; rfl
@[simp] theorem dec_C_ADDI_W (w : Bool) (h : regMap d ≠ 0#5) :
    decode16 (C_ADDI_W w ||| C_RD d ||| C_IMM_I i) =
    some (if w then .addiw (regMap d) (regMap d) ((i.setWidth 6).signExtend 12)
      else .opi .add (regMap d) (regMap d) ((i.setWidth 6).signExtend 12)) := by
  cases w
  · rw [C_ADDI_eq, dec_C_ADDI]; rfl
  · rw [C_ADDIW_eq, dec_C_ADDIW _ _ h]; rfl
@[simp] theorem dec_C_SRLI (hd : C_IS_R3 d = true) : decode16 (C_SRLI ||| C_RS1_R3 d ||| C_IMM_I i) = some (.shi .srl (regMap d) (regMap d) (i.setWidth 6)) := by
  have h1 : (C_SRLI ||| C_RS1_R3 d ||| C_IMM_I i).extractLsb' 0 2 = 1#2 := by cdec [C_SRLI, isR3_3 hd]
  have h2 : (C_SRLI ||| C_RS1_R3 d ||| C_IMM_I i).extractLsb' 13 3 = 4#3 := by cdec [C_SRLI, isR3_3 hd]
  have h3 : cReg ((C_SRLI ||| C_RS1_R3 d ||| C_IMM_I i).extractLsb' 7 3) = regMap d := by cdec [C_SRLI, isR3_3 hd]
  have h4 : cImm6 (C_SRLI ||| C_RS1_R3 d ||| C_IMM_I i) = i.setWidth 6 := by cdec [C_SRLI, isR3_3 hd]
  have h5 : (C_SRLI ||| C_RS1_R3 d ||| C_IMM_I i).extractLsb' 10 2 = 0#2 := by cdec [C_SRLI, isR3_3 hd]
  simp only [decode16, h1, h2, h3, h4, h5]
  rfl
@[simp] theorem dec_C_SRAI (hd : C_IS_R3 d = true) : decode16 (C_SRAI ||| C_RS1_R3 d ||| C_IMM_I i) = some (.shi .sra (regMap d) (regMap d) (i.setWidth 6)) := by
  have h1 : (C_SRAI ||| C_RS1_R3 d ||| C_IMM_I i).extractLsb' 0 2 = 1#2 := by cdec [C_SRAI, isR3_3 hd]
  have h2 : (C_SRAI ||| C_RS1_R3 d ||| C_IMM_I i).extractLsb' 13 3 = 4#3 := by cdec [C_SRAI, isR3_3 hd]
  have h3 : cReg ((C_SRAI ||| C_RS1_R3 d ||| C_IMM_I i).extractLsb' 7 3) = regMap d := by cdec [C_SRAI, isR3_3 hd]
  have h4 : cImm6 (C_SRAI ||| C_RS1_R3 d ||| C_IMM_I i) = i.setWidth 6 := by cdec [C_SRAI, isR3_3 hd]
  have h5 : (C_SRAI ||| C_RS1_R3 d ||| C_IMM_I i).extractLsb' 10 2 = 1#2 := by cdec [C_SRAI, isR3_3 hd]
  simp only [decode16, h1, h2, h3, h4, h5]
  rfl
@[simp] theorem dec_C_ANDI (hd : C_IS_R3 d = true) : decode16 (C_ANDI ||| C_RS1_R3 d ||| C_IMM_I i) = some (.opi .and (regMap d) (regMap d) ((i.setWidth 6).signExtend 12)) := by
  have h1 : (C_ANDI ||| C_RS1_R3 d ||| C_IMM_I i).extractLsb' 0 2 = 1#2 := by cdec [C_ANDI, isR3_3 hd]
  have h2 : (C_ANDI ||| C_RS1_R3 d ||| C_IMM_I i).extractLsb' 13 3 = 4#3 := by cdec [C_ANDI, isR3_3 hd]
  have h3 : cReg ((C_ANDI ||| C_RS1_R3 d ||| C_IMM_I i).extractLsb' 7 3) = regMap d := by cdec [C_ANDI, isR3_3 hd]
  have h4 : cImm6 (C_ANDI ||| C_RS1_R3 d ||| C_IMM_I i) = i.setWidth 6 := by cdec [C_ANDI, isR3_3 hd]
  have h5 : (C_ANDI ||| C_RS1_R3 d ||| C_IMM_I i).extractLsb' 10 2 = 2#2 := by cdec [C_ANDI, isR3_3 hd]
  simp only [decode16, h1, h2, h3, h4, h5]
  rfl
theorem low2 {i : BitVec 64} (h : i &&& 3#64 = 0#64) : i.getLsbD 0 = false ∧ i.getLsbD 1 = false := by
  have h0 := congrArg (fun x => x.getLsbD 0) h
  have h1 := congrArg (fun x => x.getLsbD 1) h
  constructor
  · simpa [-BitVec.getLsbD_eq_getElem] using h0
  · simpa [-BitVec.getLsbD_eq_getElem] using h1
theorem low3 {i : BitVec 64} (h : i &&& 7#64 = 0#64) :
    i.getLsbD 0 = false ∧ i.getLsbD 1 = false ∧ i.getLsbD 2 = false := by
  have h0 := congrArg (fun x => x.getLsbD 0) h
  have h1 := congrArg (fun x => x.getLsbD 1) h
  have h2 := congrArg (fun x => x.getLsbD 2) h
  refine ⟨?_, ?_, ?_⟩
  · simpa [-BitVec.getLsbD_eq_getElem] using h0
  · simpa [-BitVec.getLsbD_eq_getElem] using h1
  · simpa [-BitVec.getLsbD_eq_getElem] using h2
theorem high {i : BitVec 64} (n : Nat) (h : i.toNat < 2 ^ n) : ∀ k, n ≤ k → i.getLsbD k = false := by
  intro k hk
  rw [BitVec.getLsbD]
  exact Nat.testBit_lt_two_pow (Nat.lt_of_lt_of_le h (Nat.pow_le_pow_right (n := 2) (by decide) hk))
@[simp] theorem dec_C_LWSP (hd : regMap d ≠ 0#5) (hi : i.toNat < 2 ^ 8) (ha : i &&& 3#64 = 0#64) : decode16 (C_LWSP ||| C_RD d ||| C_LD32_SP i) = some (.load .w (regMap d) 2#5 (i.setWidth 12)) := by
  have h1 : (C_LWSP ||| C_RD d ||| C_LD32_SP i).extractLsb' 0 2 = 2#2 := by cdec [C_LWSP, low2 ha, high 8 hi]
  have h2 : (C_LWSP ||| C_RD d ||| C_LD32_SP i).extractLsb' 13 3 = 2#3 := by cdec [C_LWSP, low2 ha, high 8 hi]
  have h3 : (C_LWSP ||| C_RD d ||| C_LD32_SP i).extractLsb' 7 5 = regMap d := by cdec [C_LWSP, low2 ha, high 8 hi]
  have h4 : (cImmLwsp (C_LWSP ||| C_RD d ||| C_LD32_SP i)).setWidth 12 = i.setWidth 12 := by cdec [C_LWSP, low2 ha, high 8 hi]
  simp only [decode16, h1, h2, h3, h4]
  simp [hd]
@[simp] theorem dec_C_LDSP (hd : regMap d ≠ 0#5) (hi : i.toNat < 2 ^ 9) (ha : i &&& 7#64 = 0#64) : decode16 (C_LDSP ||| C_RD d ||| C_LD64_SP i) = some (.load .d (regMap d) 2#5 (i.setWidth 12)) := by
  have h1 : (C_LDSP ||| C_RD d ||| C_LD64_SP i).extractLsb' 0 2 = 2#2 := by cdec [C_LDSP, low3 ha, high 9 hi]
  have h2 : (C_LDSP ||| C_RD d ||| C_LD64_SP i).extractLsb' 13 3 = 3#3 := by cdec [C_LDSP, low3 ha, high 9 hi]
  have h3 : (C_LDSP ||| C_RD d ||| C_LD64_SP i).extractLsb' 7 5 = regMap d := by cdec [C_LDSP, low3 ha, high 9 hi]
  have h4 : (cImmLdsp (C_LDSP ||| C_RD d ||| C_LD64_SP i)).setWidth 12 = i.setWidth 12 := by cdec [C_LDSP, low3 ha, high 9 hi]
  simp only [decode16, h1, h2, h3, h4]
  simp [hd]
@[simp] theorem dec_C_SWSP (hi : i.toNat < 2 ^ 8) (ha : i &&& 3#64 = 0#64) : decode16 (C_SWSP ||| C_RS2 b ||| C_ST32_SP i) = some (.store .w 2#5 (regMap b) (i.setWidth 12)) := by
  have h1 : (C_SWSP ||| C_RS2 b ||| C_ST32_SP i).extractLsb' 0 2 = 2#2 := by cdec [C_SWSP, low2 ha, high 8 hi]
  have h2 : (C_SWSP ||| C_RS2 b ||| C_ST32_SP i).extractLsb' 13 3 = 6#3 := by cdec [C_SWSP, low2 ha, high 8 hi]
  have h3 : (C_SWSP ||| C_RS2 b ||| C_ST32_SP i).extractLsb' 2 5 = regMap b := by cdec [C_SWSP, low2 ha, high 8 hi]
  have h4 : (cImmSwsp (C_SWSP ||| C_RS2 b ||| C_ST32_SP i)).setWidth 12 = i.setWidth 12 := by cdec [C_SWSP, low2 ha, high 8 hi]
  simp only [decode16, h1, h2, h3, h4]
  rfl
@[simp] theorem dec_C_SDSP (hi : i.toNat < 2 ^ 9) (ha : i &&& 7#64 = 0#64) : decode16 (C_SDSP ||| C_RS2 b ||| C_ST64_SP i) = some (.store .d 2#5 (regMap b) (i.setWidth 12)) := by
  have h1 : (C_SDSP ||| C_RS2 b ||| C_ST64_SP i).extractLsb' 0 2 = 2#2 := by cdec [C_SDSP, low3 ha, high 9 hi]
  have h2 : (C_SDSP ||| C_RS2 b ||| C_ST64_SP i).extractLsb' 13 3 = 7#3 := by cdec [C_SDSP, low3 ha, high 9 hi]
  have h3 : (C_SDSP ||| C_RS2 b ||| C_ST64_SP i).extractLsb' 2 5 = regMap b := by cdec [C_SDSP, low3 ha, high 9 hi]
  have h4 : (cImmSdsp (C_SDSP ||| C_RS2 b ||| C_ST64_SP i)).setWidth 12 = i.setWidth 12 := by cdec [C_SDSP, low3 ha, high 9 hi]
  simp only [decode16, h1, h2, h3, h4]
  rfl
@[simp] theorem dec_C_FLDSP (hi : i.toNat < 2 ^ 9) (ha : i &&& 7#64 = 0#64) : decode16 (C_FLDSP ||| C_FRD d ||| C_LD64_SP i) = some (.fld (fregMap d) 2#5 (i.setWidth 12)) := by
  have h1 : (C_FLDSP ||| C_FRD d ||| C_LD64_SP i).extractLsb' 0 2 = 2#2 := by cdec [C_FLDSP, low3 ha, high 9 hi]
  have h2 : (C_FLDSP ||| C_FRD d ||| C_LD64_SP i).extractLsb' 13 3 = 1#3 := by cdec [C_FLDSP, low3 ha, high 9 hi]
  have h3 : (C_FLDSP ||| C_FRD d ||| C_LD64_SP i).extractLsb' 7 5 = fregMap d := by cdec [C_FLDSP, low3 ha, high 9 hi]
  have h4 : (cImmLdsp (C_FLDSP ||| C_FRD d ||| C_LD64_SP i)).setWidth 12 = i.setWidth 12 := by cdec [C_FLDSP, low3 ha, high 9 hi]
  simp only [decode16, h1, h2, h3, h4]
  rfl
@[simp] theorem dec_C_FSDSP (hi : i.toNat < 2 ^ 9) (ha : i &&& 7#64 = 0#64) : decode16 (C_FSDSP ||| C_FRS2 b ||| C_ST64_SP i) = some (.fsd 2#5 (fregMap b) (i.setWidth 12)) := by
  have h1 : (C_FSDSP ||| C_FRS2 b ||| C_ST64_SP i).extractLsb' 0 2 = 2#2 := by cdec [C_FSDSP, low3 ha, high 9 hi]
  have h2 : (C_FSDSP ||| C_FRS2 b ||| C_ST64_SP i).extractLsb' 13 3 = 5#3 := by cdec [C_FSDSP, low3 ha, high 9 hi]
  have h3 : (C_FSDSP ||| C_FRS2 b ||| C_ST64_SP i).extractLsb' 2 5 = fregMap b := by cdec [C_FSDSP, low3 ha, high 9 hi]
  have h4 : (cImmSdsp (C_FSDSP ||| C_FRS2 b ||| C_ST64_SP i)).setWidth 12 = i.setWidth 12 := by cdec [C_FSDSP, low3 ha, high 9 hi]
  simp only [decode16, h1, h2, h3, h4]
  rfl
@[simp] theorem dec_C_SW (hd : C_IS_R3 d = true) (hb : C_IS_R3 b = true) (hi : i.toNat < 2 ^ 7) (ha : i &&& 3#64 = 0#64) : decode16 (C_SW ||| C_RS1_R3 d ||| C_RS2_R3 b ||| C_MEM32 i) = some (.store .w (regMap d) (regMap b) (i.setWidth 12)) := by
  have h1 : (C_SW ||| C_RS1_R3 d ||| C_RS2_R3 b ||| C_MEM32 i).extractLsb' 0 2 = 0#2 := by cdec [C_SW, low2 ha, high 7 hi, isR3_3 hd, isR3_3 hb]
  have h2 : (C_SW ||| C_RS1_R3 d ||| C_RS2_R3 b ||| C_MEM32 i).extractLsb' 13 3 = 6#3 := by cdec [C_SW, low2 ha, high 7 hi, isR3_3 hd, isR3_3 hb]
  have h3 : cReg ((C_SW ||| C_RS1_R3 d ||| C_RS2_R3 b ||| C_MEM32 i).extractLsb' 7 3) = regMap d := by cdec [C_SW, low2 ha, high 7 hi, isR3_3 hd, isR3_3 hb]
  have h4 : cReg ((C_SW ||| C_RS1_R3 d ||| C_RS2_R3 b ||| C_MEM32 i).extractLsb' 2 3) = regMap b := by cdec [C_SW, low2 ha, high 7 hi, isR3_3 hd, isR3_3 hb]
  have h5 : (cImmW (C_SW ||| C_RS1_R3 d ||| C_RS2_R3 b ||| C_MEM32 i)).setWidth 12 = i.setWidth 12 := by cdec [C_SW, low2 ha, high 7 hi, isR3_3 hd, isR3_3 hb]
  simp only [decode16, h1, h2, h3, h4, h5]
  rfl
@[simp] theorem dec_C_SD (hd : C_IS_R3 d = true) (hb : C_IS_R3 b = true) (hi : i.toNat < 2 ^ 8) (ha : i &&& 7#64 = 0#64) : decode16 (C_SD ||| C_RS1_R3 d ||| C_RS2_R3 b ||| C_MEM64 i) = some (.store .d (regMap d) (regMap b) (i.setWidth 12)) := by
  have h1 : (C_SD ||| C_RS1_R3 d ||| C_RS2_R3 b ||| C_MEM64 i).extractLsb' 0 2 = 0#2 := by cdec [C_SD, low3 ha, high 8 hi, isR3_3 hd, isR3_3 hb]
  have h2 : (C_SD ||| C_RS1_R3 d ||| C_RS2_R3 b ||| C_MEM64 i).extractLsb' 13 3 = 7#3 := by cdec [C_SD, low3 ha, high 8 hi, isR3_3 hd, isR3_3 hb]
  have h3 : cReg ((C_SD ||| C_RS1_R3 d ||| C_RS2_R3 b ||| C_MEM64 i).extractLsb' 7 3) = regMap d := by cdec [C_SD, low3 ha, high 8 hi, isR3_3 hd, isR3_3 hb]
  have h4 : cReg ((C_SD ||| C_RS1_R3 d ||| C_RS2_R3 b ||| C_MEM64 i).extractLsb' 2 3) = regMap b := by cdec [C_SD, low3 ha, high 8 hi, isR3_3 hd, isR3_3 hb]
  have h5 : (cImmD (C_SD ||| C_RS1_R3 d ||| C_RS2_R3 b ||| C_MEM64 i)).setWidth 12 = i.setWidth 12 := by cdec [C_SD, low3 ha, high 8 hi, isR3_3 hd, isR3_3 hb]
  simp only [decode16, h1, h2, h3, h4, h5]
  rfl
@[simp] theorem dec_C_FSD (hd : C_IS_R3 d = true) (hb : C_IS_FR3 b = true) (hi : i.toNat < 2 ^ 8) (ha : i &&& 7#64 = 0#64) : decode16 (C_FSD ||| C_RS1_R3 d ||| C_FRS2_R3 b ||| C_MEM64 i) = some (.fsd (regMap d) (fregMap b) (i.setWidth 12)) := by
  have h1 : (C_FSD ||| C_RS1_R3 d ||| C_FRS2_R3 b ||| C_MEM64 i).extractLsb' 0 2 = 0#2 := by cdec [C_FSD, low3 ha, high 8 hi, isR3_3 hd, isFR3_3 hb]
  have h2 : (C_FSD ||| C_RS1_R3 d ||| C_FRS2_R3 b ||| C_MEM64 i).extractLsb' 13 3 = 5#3 := by cdec [C_FSD, low3 ha, high 8 hi, isR3_3 hd, isFR3_3 hb]
  have h3 : cReg ((C_FSD ||| C_RS1_R3 d ||| C_FRS2_R3 b ||| C_MEM64 i).extractLsb' 7 3) = regMap d := by cdec [C_FSD, low3 ha, high 8 hi, isR3_3 hd, isFR3_3 hb]
  have h4 : cReg ((C_FSD ||| C_RS1_R3 d ||| C_FRS2_R3 b ||| C_MEM64 i).extractLsb' 2 3) = fregMap b := by cdec [C_FSD, low3 ha, high 8 hi, isR3_3 hd, isFR3_3 hb]
  have h5 : (cImmD (C_FSD ||| C_RS1_R3 d ||| C_FRS2_R3 b ||| C_MEM64 i)).setWidth 12 = i.setWidth 12 := by cdec [C_FSD, low3 ha, high 8 hi, isR3_3 hd, isFR3_3 hb]
  simp only [decode16, h1, h2, h3, h4, h5]
  rfl
@[simp] theorem dec_C_LWx (hd : C_IS_R3 d = true) (hb : C_IS_R3 b = true) (hi : i.toNat < 2 ^ 7) (ha : i &&& 3#64 = 0#64) : decode16 ((C_SW ^^^ 0x8000#16) ||| C_RS1_R3 d ||| C_RS2_R3 b ||| C_MEM32 i) = some (.load .w (regMap b) (regMap d) (i.setWidth 12)) := by
  have h1 : ((C_SW ^^^ 0x8000#16) ||| C_RS1_R3 d ||| C_RS2_R3 b ||| C_MEM32 i).extractLsb' 0 2 = 0#2 := by cdec [C_SW, low2 ha, high 7 hi, isR3_3 hd, isR3_3 hb]
  have h2 : ((C_SW ^^^ 0x8000#16) ||| C_RS1_R3 d ||| C_RS2_R3 b ||| C_MEM32 i).extractLsb' 13 3 = 2#3 := by cdec [C_SW, low2 ha, high 7 hi, isR3_3 hd, isR3_3 hb]
  have h3 : cReg (((C_SW ^^^ 0x8000#16) ||| C_RS1_R3 d ||| C_RS2_R3 b ||| C_MEM32 i).extractLsb' 7 3) = regMap d := by cdec [C_SW, low2 ha, high 7 hi, isR3_3 hd, isR3_3 hb]
  have h4 : cReg (((C_SW ^^^ 0x8000#16) ||| C_RS1_R3 d ||| C_RS2_R3 b ||| C_MEM32 i).extractLsb' 2 3) = regMap b := by cdec [C_SW, low2 ha, high 7 hi, isR3_3 hd, isR3_3 hb]
  have h5 : (cImmW ((C_SW ^^^ 0x8000#16) ||| C_RS1_R3 d ||| C_RS2_R3 b ||| C_MEM32 i)).setWidth 12 = i.setWidth 12 := by cdec [C_SW, low2 ha, high 7 hi, isR3_3 hd, isR3_3 hb]
  simp only [decode16, h1, h2, h3, h4, h5]
  rfl
@[simp] theorem dec_C_LDx (hd : C_IS_R3 d = true) (hb : C_IS_R3 b = true) (hi : i.toNat < 2 ^ 8) (ha : i &&& 7#64 = 0#64) : decode16 ((C_SD ^^^ 0x8000#16) ||| C_RS1_R3 d ||| C_RS2_R3 b ||| C_MEM64 i) = some (.load .d (regMap b) (regMap d) (i.setWidth 12)) := by
  have h1 : ((C_SD ^^^ 0x8000#16) ||| C_RS1_R3 d ||| C_RS2_R3 b ||| C_MEM64 i).extractLsb' 0 2 = 0#2 := by cdec [C_SD, low3 ha, high 8 hi, isR3_3 hd, isR3_3 hb]
  have h2 : ((C_SD ^^^ 0x8000#16) ||| C_RS1_R3 d ||| C_RS2_R3 b ||| C_MEM64 i).extractLsb' 13 3 = 3#3 := by cdec [C_SD, low3 ha, high 8 hi, isR3_3 hd, isR3_3 hb]
  have h3 : cReg (((C_SD ^^^ 0x8000#16) ||| C_RS1_R3 d ||| C_RS2_R3 b ||| C_MEM64 i).extractLsb' 7 3) = regMap d := by cdec [C_SD, low3 ha, high 8 hi, isR3_3 hd, isR3_3 hb]
  have h4 : cReg (((C_SD ^^^ 0x8000#16) ||| C_RS1_R3 d ||| C_RS2_R3 b ||| C_MEM64 i).extractLsb' 2 3) = regMap b := by cdec [C_SD, low3 ha, high 8 hi, isR3_3 hd, isR3_3 hb]
  have h5 : (cImmD ((C_SD ^^^ 0x8000#16) ||| C_RS1_R3 d ||| C_RS2_R3 b ||| C_MEM64 i)).setWidth 12 = i.setWidth 12 := by cdec [C_SD, low3 ha, high 8 hi, isR3_3 hd, isR3_3 hb]
  simp only [decode16, h1, h2, h3, h4, h5]
  rfl
@[simp] theorem dec_C_FLDx (hd : C_IS_R3 d = true) (hb : C_IS_FR3 b = true) (hi : i.toNat < 2 ^ 8) (ha : i &&& 7#64 = 0#64) : decode16 ((C_FSD ^^^ 0x8000#16) ||| C_RS1_R3 d ||| C_FRS2_R3 b ||| C_MEM64 i) = some (.fld (fregMap b) (regMap d) (i.setWidth 12)) := by
  have h1 : ((C_FSD ^^^ 0x8000#16) ||| C_RS1_R3 d ||| C_FRS2_R3 b ||| C_MEM64 i).extractLsb' 0 2 = 0#2 := by cdec [C_FSD, low3 ha, high 8 hi, isR3_3 hd, isFR3_3 hb]
  have h2 : ((C_FSD ^^^ 0x8000#16) ||| C_RS1_R3 d ||| C_FRS2_R3 b ||| C_MEM64 i).extractLsb' 13 3 = 1#3 := by cdec [C_FSD, low3 ha, high 8 hi, isR3_3 hd, isFR3_3 hb]
  have h3 : cReg (((C_FSD ^^^ 0x8000#16) ||| C_RS1_R3 d ||| C_FRS2_R3 b ||| C_MEM64 i).extractLsb' 7 3) = regMap d := by cdec [C_FSD, low3 ha, high 8 hi, isR3_3 hd, isFR3_3 hb]
  have h4 : cReg (((C_FSD ^^^ 0x8000#16) ||| C_RS1_R3 d ||| C_FRS2_R3 b ||| C_MEM64 i).extractLsb' 2 3) = fregMap b := by cdec [C_FSD, low3 ha, high 8 hi, isR3_3 hd, isFR3_3 hb]
  have h5 : (cImmD ((C_FSD ^^^ 0x8000#16) ||| C_RS1_R3 d ||| C_FRS2_R3 b ||| C_MEM64 i)).setWidth 12 = i.setWidth 12 := by cdec [C_FSD, low3 ha, high 8 hi, isR3_3 hd, isFR3_3 hb]
  simp only [decode16, h1, h2, h3, h4, h5]
  rfl
end decodeC
end Verif.RV
