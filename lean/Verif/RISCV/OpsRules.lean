import Verif.RISCV.Wp
import Verif.RISCV.OpSpec

/-! # Rules for the building blocks of emit_single_op (helper lemmas) -/

namespace Verif.RV

@[simp] theorem rm0 : regMap 0 = 0#5 := by decide
@[simp] theorem rm24 : regMap 24 = 2#5 := by decide
@[simp] theorem rm25 : regMap 25 = 6#5 := by decide
@[simp] theorem rm26 : regMap 26 = 1#5 := by decide
@[simp] theorem rm27 : regMap 27 = 7#5 := by decide
@[simp] theorem rm28 : regMap 28 = 5#5 := by decide
@[simp] theorem rm29 : regMap 29 = 28#5 := by decide

theorem rm_inj : ∀ a ≤ 29, ∀ b ≤ 29, regMap a = regMap b → a = b := by decide +kernel
theorem rm_ne0 {a : Nat} (h : a ≤ 29) (h0 : a ≠ 0) : regMap a ≠ 0#5 := fun he => h0 (rm_inj a h 0 (by decide) he)
theorem rm_ne {a b : Nat} (ha : a ≤ 29) (hb : b ≤ 29) (h : a ≠ b) : regMap a ≠ regMap b := fun he => h (rm_inj a ha b hb he)

/-- `-2048 ≤ i ≤ 2047`. -/
def Fits12 (i : BitVec 64) : Prop := SIMM_MIN ≤ i.toInt ∧ i.toInt ≤ SIMM_MAX

theorem sext12 {i : BitVec 64} (h : Fits12 i) : (i.setWidth 12).signExtend 64 = i := by
  apply BitVec.eq_of_toInt_eq
  obtain ⟨h1, h2⟩ := h
  rw [BitVec.toInt_signExtend_of_le (by decide), BitVec.toInt_setWidth]
  rw [BitVec.toInt_eq_toNat_bmod] at h1 h2 ⊢
  have := i.isLt
  simp only [Int.bmod_def] at *
  omega

theorem sext12_32 {i : BitVec 64} (h : Fits12 i) : (i.setWidth 12).signExtend 32 = lo32 i := by
  have h1 := sext12 h
  have h2 : (i.setWidth 12).signExtend 32 = lo32 ((i.setWidth 12).signExtend 64) := by
    simp only [lo32]
    bits [BitVec.getLsbD_signExtend]
  rw [h2, h1]

theorem sext6 {i : BitVec 64} (h : fits6 i = true) : (i.setWidth 6).signExtend 12 = i.setWidth 12 := by
  simp only [fits6, Bool.and_eq_true, decide_eq_true_eq] at h
  obtain ⟨h2, h1⟩ := h
  apply BitVec.eq_of_toInt_eq
  rw [BitVec.toInt_signExtend_of_le (by decide), BitVec.toInt_setWidth, BitVec.toInt_setWidth]
  rw [BitVec.toInt_eq_toNat_bmod] at h1 h2
  have := i.isLt
  simp only [Int.bmod_def] at *
  omega

theorem fits12_of_6 {i : BitVec 64} (h : fits6 i = true) : Fits12 i := by
  simp only [fits6, Bool.and_eq_true, decide_eq_true_eq] at h
  constructor <;> omega

theorem fits12_neg {i : BitVec 64} (h : Fits12 i) (hm : i.toInt ≠ SIMM_MIN) : Fits12 (-i) := by
  obtain ⟨h1, h2⟩ := h
  have : (-i).toInt = -i.toInt := by
    rw [BitVec.toInt_neg]
    simp only [Int.bmod_def]; omega
  constructor <;> rw [this] <;> omega

/-! Operations of the ISA model (proved so that `simp` does not treat them as definitional). -/
@[simp] theorem evR_add (a b : BitVec 64) : ROp.add.eval a b = a + b := by unfold ROp.eval; exact rfl
@[simp] theorem evR_sub (a b : BitVec 64) : ROp.sub.eval a b = a - b := by unfold ROp.eval; exact rfl
@[simp] theorem evR_slt (a b : BitVec 64) : ROp.slt.eval a b = bool64 (a.slt b) := by unfold ROp.eval; exact rfl
@[simp] theorem evR_sltu (a b : BitVec 64) : ROp.sltu.eval a b = bool64 (a.ult b) := by unfold ROp.eval; exact rfl
@[simp] theorem evR_xor (a b : BitVec 64) : ROp.xor.eval a b = a ^^^ b := by unfold ROp.eval; exact rfl
@[simp] theorem evR_or (a b : BitVec 64) : ROp.or.eval a b = a ||| b := by unfold ROp.eval; exact rfl
@[simp] theorem evR_and (a b : BitVec 64) : ROp.and.eval a b = a &&& b := by unfold ROp.eval; exact rfl
@[simp] theorem evR_mul (a b : BitVec 64) : ROp.mul.eval a b = a * b := by unfold ROp.eval; exact rfl
@[simp] theorem evR_sll (a b : BitVec 64) : ROp.sll.eval a b = a <<< (b.setWidth 6).toNat := by unfold ROp.eval; exact rfl
@[simp] theorem evR_srl (a b : BitVec 64) : ROp.srl.eval a b = a >>> (b.setWidth 6).toNat := by unfold ROp.eval; exact rfl
@[simp] theorem evR_sra (a b : BitVec 64) : ROp.sra.eval a b = a.sshiftRight (b.setWidth 6).toNat := by unfold ROp.eval; exact rfl
@[simp] theorem evR_mulh (a b : BitVec 64) : ROp.mulh.eval a b = (a.signExtend 128 * b.signExtend 128).extractLsb' 64 64 := by unfold ROp.eval; exact rfl
@[simp] theorem evR_mulhu (a b : BitVec 64) : ROp.mulhu.eval a b = (a.setWidth 128 * b.setWidth 128).extractLsb' 64 64 := by unfold ROp.eval; exact rfl
@[simp] theorem evR_sh1add (a b : BitVec 64) : ROp.sh1add.eval a b = (a <<< 1) + b := by unfold ROp.eval; exact rfl
@[simp] theorem evR_sh2add (a b : BitVec 64) : ROp.sh2add.eval a b = (a <<< 2) + b := by unfold ROp.eval; exact rfl
@[simp] theorem evR_sh3add (a b : BitVec 64) : ROp.sh3add.eval a b = (a <<< 3) + b := by unfold ROp.eval; exact rfl
@[simp] theorem evR_rol (a b : BitVec 64) : ROp.rol.eval a b = rol64 a (b.setWidth 6).toNat := by unfold ROp.eval; exact rfl
@[simp] theorem evR_ror (a b : BitVec 64) : ROp.ror.eval a b = ror64 a (b.setWidth 6).toNat := by unfold ROp.eval; exact rfl
@[simp] theorem evW_add (a b : BitVec 32) : WOp.add.eval32 a b = a + b := by unfold WOp.eval32; exact rfl
@[simp] theorem evW_sub (a b : BitVec 32) : WOp.sub.eval32 a b = a - b := by unfold WOp.eval32; exact rfl
@[simp] theorem evW_mul (a b : BitVec 32) : WOp.mul.eval32 a b = a * b := by unfold WOp.eval32; exact rfl
@[simp] theorem evW_sll (a b : BitVec 32) : WOp.sll.eval32 a b = a <<< (b.setWidth 5).toNat := by unfold WOp.eval32; exact rfl
@[simp] theorem evW_srl (a b : BitVec 32) : WOp.srl.eval32 a b = a >>> (b.setWidth 5).toNat := by unfold WOp.eval32; exact rfl
@[simp] theorem evW_sra (a b : BitVec 32) : WOp.sra.eval32 a b = a.sshiftRight (b.setWidth 5).toNat := by unfold WOp.eval32; exact rfl
@[simp] theorem evW_rol (a b : BitVec 32) : WOp.rol.eval32 a b = rol32 a (b.setWidth 5).toNat := by unfold WOp.eval32; exact rfl
@[simp] theorem evW_ror (a b : BitVec 32) : WOp.ror.eval32 a b = ror32 a (b.setWidth 5).toNat := by unfold WOp.eval32; exact rfl
@[simp] theorem evI_add (a : BitVec 64) {i : BitVec 64} (h : Fits12 i) : IOp.add.eval a (i.setWidth 12) = a + i := by
  simp only [IOp.eval, sext12 h]
@[simp] theorem evI_slt (a : BitVec 64) {i : BitVec 64} (h : Fits12 i) : IOp.slt.eval a (i.setWidth 12) = bool64 (a.slt i) := by
  simp only [IOp.eval, sext12 h]
@[simp] theorem evI_sltu (a : BitVec 64) {i : BitVec 64} (h : Fits12 i) : IOp.sltu.eval a (i.setWidth 12) = bool64 (a.ult i) := by
  simp only [IOp.eval, sext12 h]
@[simp] theorem evI_xor (a : BitVec 64) {i : BitVec 64} (h : Fits12 i) : IOp.xor.eval a (i.setWidth 12) = a ^^^ i := by
  simp only [IOp.eval, sext12 h]
@[simp] theorem evI_or (a : BitVec 64) {i : BitVec 64} (h : Fits12 i) : IOp.or.eval a (i.setWidth 12) = a ||| i := by
  simp only [IOp.eval, sext12 h]
@[simp] theorem evI_and (a : BitVec 64) {i : BitVec 64} (h : Fits12 i) : IOp.and.eval a (i.setWidth 12) = a &&& i := by
  simp only [IOp.eval, sext12 h]
@[simp] theorem evS64_sll (a : BitVec 64) (n : Nat) : ShOp.sll.eval a n = a <<< n := by unfold ShOp.eval; exact rfl
@[simp] theorem evS64_srl (a : BitVec 64) (n : Nat) : ShOp.srl.eval a n = a >>> n := by unfold ShOp.eval; exact rfl
@[simp] theorem evS64_sra (a : BitVec 64) (n : Nat) : ShOp.sra.eval a n = a.sshiftRight n := by unfold ShOp.eval; exact rfl
@[simp] theorem evS64_ror (a : BitVec 64) (n : Nat) : ShOp.ror.eval a n = ror64 a n := by unfold ShOp.eval; exact rfl
@[simp] theorem evS32_sll (a : BitVec 32) (n : Nat) : ShOp.sll.eval32 a n = a <<< n := by unfold ShOp.eval32; exact rfl
@[simp] theorem evS32_srl (a : BitVec 32) (n : Nat) : ShOp.srl.eval32 a n = a >>> n := by unfold ShOp.eval32; exact rfl
@[simp] theorem evS32_sra (a : BitVec 32) (n : Nat) : ShOp.sra.eval32 a n = a.sshiftRight n := by unfold ShOp.eval32; exact rfl
@[simp] theorem evS32_ror (a : BitVec 32) (n : Nat) : ShOp.ror.eval32 a n = ror32 a n := by unfold ShOp.eval32; exact rfl

@[simp] theorem evI_add0 (a : BitVec 64) : IOp.add.eval a 0#12 = a := by simp [IOp.eval]

/-- 32 or 64 bit addition and subtraction of registers. -/
def addw (w : Bool) (a b : BitVec 64) : BitVec 64 := if w then sx32 (lo32 a + lo32 b) else a + b
def subw (w : Bool) (a b : BitVec 64) : BitVec 64 := if w then sx32 (lo32 a - lo32 b) else a - b

theorem addw_comm (w : Bool) (a b : BitVec 64) : addw w a b = addw w b a := by
  simp only [addw, BitVec.add_comm]

theorem lo32_neg (i : BitVec 64) : lo32 (-i) = -lo32 i := by
  apply BitVec.eq_of_toNat_eq
  simp only [lo32, BitVec.toNat_setWidth, BitVec.toNat_neg]
  have := i.isLt
  omega

theorem addw_neg (w : Bool) (a i : BitVec 64) : addw w a (-i) = subw w a i := by
  simp only [addw, subw, lo32_neg, BitVec.sub_eq_add_neg]

/-- `simp` on weakest preconditions. -/
macro "wps" "[" ts:Lean.Parser.Tactic.simpLemma,* "]" : tactic => `(tactic| simp [-List.nil_append, -List.nil_append_fun, $ts,*])

section
variable {c : Core} {Q : Core → Prop} {cfg : Cfg} {w : Bool} {dst a b : Nat} {i : BitVec 64}

@[simp] theorem wp_ADDW (d a b : Nat) (r : Emit) : wp (w32 (ADD ||| WORD w ||| RD d ||| RS1 a ||| RS2 b) ++ r) c Q ↔
    wp r (c.wr (regMap d) (addw w (c.x (regMap a)) (c.x (regMap b)))) Q := by rw [wp_ADD_W_s]; rfl
@[simp] theorem wp_ADDW' (d a b : Nat) : wp (w32 (ADD ||| WORD w ||| RD d ||| RS1 a ||| RS2 b)) c Q ↔
    Q (c.wr (regMap d) (addw w (c.x (regMap a)) (c.x (regMap b)))) := by rw [wp_ADD_W]; rfl
@[simp] theorem wp_SUBW (d a b : Nat) (r : Emit) : wp (w32 (SUB ||| WORD w ||| RD d ||| RS1 a ||| RS2 b) ++ r) c Q ↔
    wp r (c.wr (regMap d) (subw w (c.x (regMap a)) (c.x (regMap b)))) Q := by rw [wp_SUB_W_s]; rfl
@[simp] theorem wp_SUBW' (d a b : Nat) : wp (w32 (SUB ||| WORD w ||| RD d ||| RS1 a ||| RS2 b)) c Q ↔
    Q (c.wr (regMap d) (subw w (c.x (regMap a)) (c.x (regMap b)))) := by rw [wp_SUB_W]; rfl
@[simp] theorem wp_ADDIW (d a : Nat) (r : Emit) (h : Fits12 i) : wp (w32 (ADDI ||| WORD w ||| RD d ||| RS1 a ||| IMM_I i) ++ r) c Q ↔
    wp r (c.wr (regMap d) (addw w (c.x (regMap a)) i)) Q := by
  rw [wp_ADDI_W_s, sext12_32 h, IOp.eval, sext12 h]; rfl
@[simp] theorem wp_ADDIW' (d a : Nat) (h : Fits12 i) : wp (w32 (ADDI ||| WORD w ||| RD d ||| RS1 a ||| IMM_I i)) c Q ↔
    Q (c.wr (regMap d) (addw w (c.x (regMap a)) i)) := by
  rw [wp_ADDI_W, sext12_32 h, IOp.eval, sext12 h]; rfl

theorem wp_nilapp {e : Emit} {P : Core → (Core → Prop) → Prop}
    (h : ∀ r c Q, wp (e ++ r) c Q ↔ P c fun c' => wp r c' Q) (c : Core) (Q : Core → Prop) : wp e c Q ↔ P c Q := by
  have := h [] c Q
  simpa using this

/-- `List.nil_append` as a definitional step makes the kernel unfold the emitted code; use this rule instead. -/
@[simp] theorem wp_nil_append (r : Emit) : wp ([] ++ r) c Q ↔ wp r c Q := by rw [List.nil_append]

@[simp] theorem wp_emitCopy (hb : regMap b ≠ 0#5) (r : Emit) :
    wp (emitCopy cfg dst b ++ r) c Q ↔ wp r (c.wr (regMap dst) (c.x (regMap b))) Q := by
  unfold emitCopy
  split
  · rw [wp_C_MV_s _ _ hb]; simp
  · simp [IOp.eval]
@[simp] theorem wp_emitCopy' (hb : regMap b ≠ 0#5) :
    wp (emitCopy cfg dst b) c Q ↔ Q (c.wr (regMap dst) (c.x (regMap b))) := by
  have := wp_emitCopy (c := c) (Q := Q) (cfg := cfg) (dst := dst) hb []
  simpa using this

@[simp] theorem wp_emitAdd (ha : a ≤ 29) (hb : b ≤ 29) (r : Emit) :
    wp (emitAdd cfg w dst a b ++ r) c Q ↔ wp r (c.wr (regMap dst) (addw w (c.x (regMap a)) (c.x (regMap b)))) Q := by
  have key : ∀ p q : Nat, q ≤ 29 →
      (wp ((if cfg.c = true ∧ dst = p ∧ w = false ∧ q ≠ 0 then w16 (C_ADD ||| C_RD dst ||| C_RS2 q)
        else if cfg.c = true ∧ dst = p ∧ w = true ∧ C_IS_R3 dst = true ∧ C_IS_R3 q = true then
          w16 (C_ADDW ||| C_RS1_R3 dst ||| C_RS2_R3 q)
        else w32 (ADD ||| WORD w ||| RD dst ||| RS1 p ||| RS2 q)) ++ r) c Q ↔
        wp r (c.wr (regMap dst) (addw w (c.x (regMap p)) (c.x (regMap q)))) Q) := by
    intro p q hq
    split
    · next h =>
      obtain ⟨_, h1, h2, h3⟩ := h
      subst h1; subst h2
      rw [wp_C_ADD_s _ _ (rm_ne0 hq h3)]; rfl
    · split
      · next h =>
        obtain ⟨_, h1, h2, h3, h4⟩ := h
        subst h1; subst h2
        rw [wp_C_ADDW_s _ _ h3 h4]; rfl
      · rw [wp_ADDW]
  unfold emitAdd
  by_cases h : dst = b
  · subst h
    rw [if_pos rfl, addw_comm]
    exact key dst a ha
  · simp only [if_neg h]
    exact key a b hb
@[simp] theorem wp_emitAdd' (ha : a ≤ 29) (hb : b ≤ 29) :
    wp (emitAdd cfg w dst a b) c Q ↔ Q (c.wr (regMap dst) (addw w (c.x (regMap a)) (c.x (regMap b)))) := by
  have := wp_emitAdd (c := c) (Q := Q) (cfg := cfg) (w := w) (dst := dst) ha hb []
  simpa using this

@[simp] theorem wp_emitAddImm (hd : regMap dst ≠ 0#5) (hi : Fits12 i) (r : Emit) :
    wp (emitAddImm cfg w dst a i ++ r) c Q ↔ wp r (c.wr (regMap dst) (addw w (c.x (regMap a)) i)) Q := by
  unfold emitAddImm
  split
  · next h =>
    obtain ⟨_, h1, h2⟩ := h
    subst h1
    rw [wp_C_ADDI_W_s _ _ _ hd, sext6 h2, sext12_32 hi, IOp.eval, sext12 hi]; rfl
  · rw [wp_ADDIW _ _ _ hi]
@[simp] theorem wp_emitAddImm' (hd : regMap dst ≠ 0#5) (hi : Fits12 i) :
    wp (emitAddImm cfg w dst a i) c Q ↔ Q (c.wr (regMap dst) (addw w (c.x (regMap a)) i)) := by
  have := wp_emitAddImm (c := c) (Q := Q) (cfg := cfg) (w := w) (dst := dst) (a := a) hd hi []
  simpa using this

@[simp] theorem wp_emitSubReg (r : Emit) :
    wp (emitSubReg cfg w dst a b ++ r) c Q ↔ wp r (c.wr (regMap dst) (subw w (c.x (regMap a)) (c.x (regMap b)))) Q := by
  unfold emitSubReg
  split
  · next h =>
    obtain ⟨_, h1, h2, h3⟩ := h
    subst h1
    rw [wp_C_SUB_W_s _ _ _ h2 h3]; rfl
  · rw [wp_SUBW]
@[simp] theorem wp_emitSubReg' :
    wp (emitSubReg cfg w dst a b) c Q ↔ Q (c.wr (regMap dst) (subw w (c.x (regMap a)) (c.x (regMap b)))) := by
  have := wp_emitSubReg (c := c) (Q := Q) (cfg := cfg) (w := w) (dst := dst) (a := a) (b := b) []
  simpa using this

/-- What emitOvImm leaves in EQUAL_FLAG: a value whose sign is the sign of `src1 ^ src2`. -/
def ovImm (a i : BitVec 64) : BitVec 64 := if 0 ≤ i.toInt then a else a ^^^ BitVec.allOnes 64

@[simp] theorem wp_emitOvImm (ha : regMap a ≠ 0#5) (r : Emit) :
    wp (emitOvImm cfg a i ++ r) c Q ↔ wp r (c.wr 5#5 (ovImm (c.x (regMap a)) i)) Q := by
  unfold emitOvImm ovImm
  split
  · rw [wp_emitCopy ha]; simp
  · rw [wp_XORI_s]; simp [IOp.eval]

end

end Verif.RV
