import Verif.Loong.OpsRules
import Mathlib.Tactic.SplitIfs

/-! # emit_single_op computes the specified result and flags: ADD, ADDC, SUB, SUBC (helper lemmas) -/

set_option linter.all false

namespace Verif.LA
open Verif.RV

/-- Registers that emit_single_op may change besides the destination: EQUAL_FLAG, OTHER_FLAG, TMP_REG1, TMP_REG2. -/
def Kept (d : Reg) (c c' : Core) : Prop :=
  (∀ q, q ≠ d → q ≠ 12#5 → q ≠ 15#5 → q ≠ 13#5 → q ≠ 1#5 → c'.x q = c.x q) ∧ c'.mem = c.mem ∧ c'.f = c.f

/-- Register image of the result: SLJIT_ADDC adds 64 bit registers even for SLJIT_32. -/
def resL (op : Op) (a b : BitVec 64) (cin : Bool) : BitVec 64 :=
  if op.code = .addc then a + b + bool64 cin else resX op a b cin

/-- Result and flags of a binary operation on the register values `a`, `b`. -/
structure Post2 (op : Op) (fl : SF) (d : Reg) (a b : BitVec 64) (cin : Bool) (c c' : Core) : Prop where
  res : fl.unused = false → c'.x d = resL op a b cin
  zero : op.setZ = true → (c'.x 12#5 = 0#64 ↔ resX op a b cin = 0#64)
  flag : op.flag ≠ .none → (c'.x 15#5 ≠ 0#64 ↔ flagX op a b cin = true)
  bool : op.flag ≠ .none → op.flag ≠ .overflow ∨ op.code ≠ .mul → c'.x 15#5 = bool64 (flagX op a b cin)
  kept : Kept d c c'

/-- Destination of emit_single_op: a user register or TMP_REG2. -/
structure DstOk (dst : Nat) : Prop where
  le : dst ≤ 29
  n0 : regMap dst ≠ 0#5
  n5 : regMap dst ≠ 12#5
  n28 : regMap dst ≠ 15#5
  n6 : regMap dst ≠ 13#5

/-- First or second source register of emit_single_op: a user register, TMP_ZERO, TMP_REG1 or TMP_REG2. -/
structure SrcOk (src : Nat) : Prop where
  le : src ≤ 29
  n5 : regMap src ≠ 12#5
  n28 : regMap src ≠ 15#5

theorem resL_of {op : Op} (h : op.code ≠ .addc) (a b cin) : resL op a b cin = resX op a b cin := if_neg h

theorem Sx_resX {op : Op} (a b cin) : op.is32 = true → Sx (resX op a b cin) := by
  intro h; simp only [resX, h, if_true]; exact Sx_sx32 _

section
variable {c : Core} {Q : Core → Prop} {w : Bool} {d a b : Nat} {i : BitVec 64} {op : Op}

theorem wp_SRLI_msb (r : Emit) :
    wp (ins (SRLIx w ||| RD TMP_REG1 ||| RJ TMP_REG1 ||| IMM_I12 (immExt w 31#64)) ++ r) c Q ↔
    wp r (c.wr 13#5 (bool64 (msbw w (c.x 13#5)))) Q := by
  cases w
  · unfold SRLIx INST immExt msbw
    rw [if_neg (by decide), if_neg (by decide), if_neg (by decide), wp_SRLI_D_s _ _ (by decide), evS64_srl,
      show (32#64 + 31#64).toNat = 63 by decide, msb64]
    exact Iff.rfl
  · unfold SRLIx INST immExt msbw
    rw [if_pos rfl, if_pos rfl, if_pos rfl, wp_SRLI_W_s _ _ (by decide), evS32_srl, show (31#64).toNat = 31 by decide, msb32]
    exact Iff.rfl

def ovTail (op : Op) (d : Reg) (c : Core) : Core :=
  ((if op.setZ then (c.wr 13#5 (c.x d ^^^ c.x 12#5)).wr 12#5 (addw op.is32 (c.x d) 0#64) else c.wr 13#5 (c.x d ^^^ c.x 12#5)).wr 13#5
    (bool64 (msbw op.is32 (c.x d ^^^ c.x 12#5)))).wr 15#5 (bool64 (msbw op.is32 (c.x d ^^^ c.x 12#5)) ^^^ c.x 15#5)

@[simp] theorem wp_emitAddOvTail (hd : DstOk d) : wp (emitAddOvTail op d) c Q ↔ Q (ovTail op (regMap d) c) := by
  have h0 := hd.n0
  have h6 := hd.n6
  unfold emitAddOvTail ovTail
  rw [wp_XOR_s]
  by_cases hz : op.setZ = true
  · rw [if_pos hz, if_pos hz, wp_ADDxz_s, wp_SRLI_msb, wp_XOR]
    simp only [x_wr, ROp.eval, rm25, rm28, rm29]
    simp [h6]
  · rw [if_neg hz, if_neg hz, List.nil_append, wp_SRLI_msb, wp_XOR]
    simp only [x_wr, ROp.eval, rm25, rm28, rm29]
    simp

@[simp] theorem wp_emitSubOvTail (hd : DstOk d) : wp (emitSubOvTail op d) c Q ↔ Q (ovTail op (regMap d) c) := by
  have h0 := hd.n0
  have h6 := hd.n6
  unfold emitSubOvTail ovTail
  rw [wp_XOR_s]
  by_cases hz : op.setZ = true
  · rw [if_pos hz, if_pos hz, wp_ADDIxz_s, wp_SRLI_msb, wp_XOR]
    simp only [x_wr, ROp.eval, rm25, rm28, rm29]
    simp [h6]
  · rw [if_neg hz, if_neg hz, List.nil_append, wp_SRLI_msb, wp_XOR]
    simp only [x_wr, ROp.eval, rm25, rm28, rm29]
    simp

theorem addw_m1 (w : Bool) : addw w 0#64 (-1#64) = BitVec.allOnes 64 := by cases w <;> decide

theorem wp_emitOvImm (h : w = true → Sx (c.x (regMap a))) (ha : regMap a ≠ 12#5) (r : Emit) :
    wp (emitOvImm w a i ++ r) c Q ↔ wp r (c.wr 12#5 (ovImm (c.x (regMap a)) i)) Q := by
  unfold emitOvImm ovImm
  by_cases h0 : 0 ≤ i.toInt
  · rw [if_pos h0, if_pos h0, wp_ADDIxz_s, addw_zero w _ h]; simp
  · rw [if_neg h0, if_neg h0, List.append_assoc, wp_ADDIx_s _ _ _ fitsM1, wp_XOR_s, rm0, x_zero, addw_m1]
    have : ∀ (c : Core) u v, (c.wr 12#5 u).wr 12#5 v = c.wr 12#5 v := by
      intro c u v
      apply Core.ext'
      · funext q; simp only [x_wr]; split <;> rfl
      · rfl
      · rfl
    simp only [rm28, this, evR_xor, x_wr, ha, false_and, if_false, ne_eq, not_false_eq_true, and_true, if_true,
      show (12#5 = 0#5) = False by decide]

end

theorem Post2.plain {op : Op} {fl : SF} {d : Reg} {a b : BitVec 64} {cin : Bool} {c c' : Core} (hf : op.flag ≠ .overflow)
    (h1 : fl.unused = false → c'.x d = resL op a b cin)
    (h2 : op.setZ = true → c'.x 12#5 = resX op a b cin)
    (h3 : op.flag ≠ .none → c'.x 15#5 = bool64 (flagX op a b cin)) (h4 : Kept d c c') : Post2 op fl d a b cin c c' where
  res := h1
  zero h := by rw [h2 h]
  flag h := by rw [h3 h]; exact bool64_ne0 _
  bool h _ := h3 h
  kept := h4

/-- The end of the overflow computation, applied to the contents `c1` reached before it. -/
theorem Post2.ov {op : Op} {fl : SF} {d : Reg} {a b : BitVec 64} {cin : Bool} {c c1 : Core} (E : BitVec 64) (cy : Bool)
    (hn : op.code ≠ .addc) (hf : op.flag = .overflow) (h0 : d ≠ 0#5) (h5 : d ≠ 12#5) (h6 : d ≠ 13#5) (h28 : d ≠ 15#5) (h1 : c1.x d = resX op a b cin)
    (h2 : c1.x 12#5 = E) (h3 : c1.x 15#5 = bool64 cy)
    (h4 : (msbw op.is32 (resX op a b cin ^^^ E) ^^ cy) = flagX op a b cin) (h7 : Kept d c c1) :
    Post2 op fl d a b cin c (ovTail op d c1) := by
  obtain ⟨h7, h8, h9⟩ := h7
  constructor
  · intro _
    rw [resL_of hn]
    simp only [ovTail]
    split <;> simp [h0, h5, h6, h28, h1]
  · intro hz
    simp [ovTail, hz, h1, addw_zero _ _ (Sx_resX (op := op) a b cin)]
  · intro _
    have : (ovTail op d c1).x 15#5 = bool64 (flagX op a b cin) := by
      rw [← h4, ← bool64_xor, ← h1, ← h2, ← h3]
      simp [ovTail]
    rw [this]; exact bool64_ne0 _
  · intro _ _
    rw [← h4, ← bool64_xor, ← h1, ← h2, ← h3]
    simp [ovTail]
  · refine ⟨fun q g1 g2 g3 g4 g5 => ?_, ?_, ?_⟩
    · rw [← h7 q g1 g2 g3 g4 g5]
      simp only [ovTail]
      split <;> simp [g2, g3, g4]
    · simp only [ovTail]; split <;> simp [h8]
    · simp only [ovTail]; split <;> simp [h9]

theorem add_reg {op : Op} {fl : SF} {dst a b : Nat} {c : Core} {cin : Bool} {A B : BitVec 64} (hc : op.code = .add)
    (hf : op.flagOk) (hd : DstOk dst) (ha : SrcOk a) (hb : SrcOk b) (hA : c.x (regMap a) = A) (hB : c.x (regMap b) = B)
    (h32 : op.is32 = true → Sx A ∧ Sx B) (hcy : op.flag = .carry → carrySrc dst a b OTHER_FLAG ≠ 0) :
    wp (emitAddOp op fl dst a (.reg b)) c (Post2 op fl (regMap dst) A B cin c) := by
  simp only [Op.flagOk, hc] at hf
  obtain ⟨hal, ha5, ha28⟩ := ha
  obtain ⟨hbl, hb5, hb28⟩ := hb
  have hd' := hd
  obtain ⟨hdl, hd0, hd5, hd28, hd6⟩ := hd
  have hs0 := hd0.symm
  have hs5 := hd5.symm
  have hs28 := hd28.symm
  have hs6 := hd6.symm
  have hn : op.code ≠ .addc := by rw [hc]; decide
  have hl := resL_of hn (op := op)
  have hr := resX_add hc A B cin
  have hz0 := addw_zero op.is32 A fun h => (h32 h).1
  have hcm := addw_ult_comm op.is32 A B h32
  rcases hf with hf | hf | hf
  · rcases hz : op.setZ with _ | _ <;> rcases hu : fl.unused with _ | _ <;>
      wps [emitAddOp, hf, hz, hu, hal, hbl] <;> apply Post2.plain <;> simp +contextual [hf, hz, hu, hr, Kept, *]
  · have key : ∀ c1 : Core, c1.x (regMap dst) = addw op.is32 A B → c1.x 12#5 = A ^^^ B →
        c1.x 15#5 = bool64 ((addw op.is32 A B).ult A) → Kept (regMap dst) c c1 →
        Post2 op fl (regMap dst) A B cin c (ovTail op (regMap dst) c1) :=
      fun c1 g1 g2 g3 g4 => Post2.ov _ _ hn hf hd0 hd5 hd6 hd28 (g1.trans hr.symm) g2 g3
        (ovX_add hc hf _ _ _ fun h => (h32 h).1) g4
    wps [emitAddOp, hf, hal, hbl, hd', carrySrc]
    by_cases h1 : a = dst
    · subst h1
      by_cases h2 : b = a
      · subst h2
        obtain rfl : A = B := hA.symm.trans hB
        wps []
        apply key <;> simp +contextual [Kept, *]
      · have h3 := rm_ne hbl hdl h2
        wps [h2]
        apply key <;> simp +contextual [Kept, *]
    · have h3 := rm_ne hal hdl h1
      wps [h1]
      apply key <;> simp +contextual [Kept, *]
  · have hcf := carry_addw hc hf A B cin fun h => (h32 h).1
    have hcy := hcy hf
    wps [emitAddOp, hf, hal, hbl, hd', hcy]
    simp only [carrySrc]
    by_cases h1 : a = dst
    · subst h1
      by_cases h2 : b = a
      · subst h2
        obtain rfl : A = B := hA.symm.trans hB
        rcases hz : op.setZ with _ | _ <;> wps [] <;> apply Post2.plain <;> simp +contextual [Kept, *]
      · have h3 := rm_ne hbl hdl h2
        rcases hz : op.setZ with _ | _ <;> wps [h2] <;> apply Post2.plain <;> simp +contextual [Kept, *]
    · have h3 := rm_ne hal hdl h1
      rcases hz : op.setZ with _ | _ <;> wps [h1] <;> apply Post2.plain <;> simp +contextual [Kept, *]

theorem add_imm {op : Op} {fl : SF} {dst a : Nat} {i : BitVec 64} {c : Core} {cin : Bool} {A : BitVec 64} (hc : op.code = .add)
    (hf : op.flagOk) (hd : DstOk dst) (ha : SrcOk a) (hi : Fits12 i) (hA : c.x (regMap a) = A)
    (h32 : op.is32 = true → Sx A) :
    wp (emitAddOp op fl dst a (.imm i)) c (Post2 op fl (regMap dst) A i cin c) := by
  simp only [Op.flagOk, hc] at hf
  obtain ⟨hal, ha5, ha28⟩ := ha
  have hd' := hd
  obtain ⟨hdl, hd0, hd5, hd28, hd6⟩ := hd
  have hs0 := hd0.symm
  have hs5 := hd5.symm
  have hs28 := hd28.symm
  have hs6 := hd6.symm
  have hn : op.code ≠ .addc := by rw [hc]; decide
  have hl := resL_of hn (op := op)
  have hr := resX_add hc A i cin
  have hcm := addw_ult_comm op.is32 A i fun h => ⟨h32 h, Sx_fits12 hi⟩
  rcases hf with hf | hf | hf
  · rcases hz : op.setZ with _ | _ <;> rcases hu : fl.unused with _ | _ <;>
      wps [emitAddOp, hf, hz, hu, hal, hi, hd0] <;> apply Post2.plain <;> simp +contextual [hf, hz, hu, hr, Kept, *]
  · have key : ∀ c1 : Core, c1.x (regMap dst) = addw op.is32 A i → c1.x 12#5 = ovImm A i →
        c1.x 15#5 = bool64 ((addw op.is32 A i).ult A) → Kept (regMap dst) c c1 →
        Post2 op fl (regMap dst) A i cin c (ovTail op (regMap dst) c1) :=
      fun c1 g1 g2 g3 g4 => Post2.ov _ _ hn hf hd0 hd5 hd6 hd28 (g1.trans hr.symm) g2 g3
        (by rw [msbw_xor, ovImm_msb _ _ _ hi, ← msbw_xor]; exact ovX_add hc hf _ _ _ fun h => h32 h) g4
    have hov : ∀ r Q, wp (emitOvImm op.is32 a i ++ r) c Q ↔ wp r (c.wr 12#5 (ovImm A i)) Q :=
      fun r Q => by rw [wp_emitOvImm (by rw [hA]; exact h32) ha5, hA]
    wps [emitAddOp, hf, hal, hd', hi, hov, hd0]
    apply key <;> simp +contextual [Kept, *]
  · have hcf := carry_addw hc hf A i cin fun h => h32 h
    rcases hz : op.setZ with _ | _ <;> wps [emitAddOp, hf, hal, hd', hi, hz, hd0] <;> apply Post2.plain <;> simp +contextual [Kept, *]

theorem sub_rest_reg {op : Op} {fl : SF} {dst a b : Nat} {c : Core} {cin : Bool} {A B : BitVec 64} (hc : op.code = .sub)
    (hf : op.flag.isCmp = false) (hd : DstOk dst) (ha : SrcOk a) (hb : SrcOk b) (hA : c.x (regMap a) = A) (hB : c.x (regMap b) = B)
    (h32 : op.is32 = true → Sx A ∧ Sx B) :
    wp (subRest op fl dst a (.reg b)) c (Post2 op fl (regMap dst) A B cin c) := by
  obtain ⟨hal, ha5, ha28⟩ := ha
  obtain ⟨hbl, hb5, hb28⟩ := hb
  have hd' := hd
  obtain ⟨hdl, hd0, hd5, hd28, hd6⟩ := hd
  have hs0 := hd0.symm
  have hs5 := hd5.symm
  have hs28 := hd28.symm
  have hs6 := hd6.symm
  have hn : op.code ≠ .addc := by rw [hc]; decide
  have hl := resL_of hn (op := op)
  have hr := resX_sub hc A B cin
  obtain ⟨hcm, -⟩ := cmpX hc A B cin h32
  rcases hff : op.flag with _ | _ | _ | _ | _ | _ | _ <;> simp only [hff, Flag.isCmp, reduceCtorEq] at hf
  · rcases hz : op.setZ with _ | _ <;> rcases hu : fl.unused with _ | _ <;>
      wps [subRest, hff, hz, hu, hal, hbl] <;> apply Post2.plain <;> simp +contextual [hff, hz, hu, hr, Kept, *]
  · have key : ∀ c1 : Core, c1.x (regMap dst) = subw op.is32 A B → c1.x 12#5 = A ^^^ B →
        c1.x 15#5 = bool64 (A.ult B) → Kept (regMap dst) c c1 →
        Post2 op fl (regMap dst) A B cin c (ovTail op (regMap dst) c1) :=
      fun c1 g1 g2 g3 g4 => Post2.ov _ _ hn hff hd0 hd5 hd6 hd28 (g1.trans hr.symm) g2 g3
        (ovX_sub hc hff _ _ _ h32) g4
    wps [subRest, hff, hal, hbl, hd']
    apply key <;> simp +contextual [Kept, *]
  · have hcm := hcm (.inr hff)
    rcases hz : op.setZ with _ | _ <;> 
      wps [subRest, hff, hz, hal, hbl] <;> apply Post2.plain <;> simp +contextual [hff, hz, hr, Kept, *]

theorem sub_rest_imm {op : Op} {fl : SF} {dst a : Nat} {c : Core} {cin : Bool} {A i : BitVec 64} (hc : op.code = .sub)
    (hf : op.flag.isCmp = false) (hd : DstOk dst) (ha : SrcOk a) (hA : c.x (regMap a) = A) (hi : Fits12 i) (hng : Fits12 (-i))
    (h32 : op.is32 = true → Sx A) :
    wp (subRest op fl dst a (.imm i)) c (Post2 op fl (regMap dst) A i cin c) := by
  obtain ⟨hal, ha5, ha28⟩ := ha
  have hd' := hd
  obtain ⟨hdl, hd0, hd5, hd28, hd6⟩ := hd
  have hs0 := hd0.symm
  have hs5 := hd5.symm
  have hs28 := hd28.symm
  have hs6 := hd6.symm
  have hn : op.code ≠ .addc := by rw [hc]; decide
  have hl := resL_of hn (op := op)
  have hr := resX_sub hc A i cin
  have h32' : op.is32 = true → Sx A ∧ Sx i := fun h => ⟨h32 h, Sx_fits12 hi⟩
  obtain ⟨hcm, -⟩ := cmpX hc A i cin h32'
  rcases hff : op.flag with _ | _ | _ | _ | _ | _ | _ <;> simp only [hff, Flag.isCmp, reduceCtorEq] at hf
  · rcases hz : op.setZ with _ | _ <;> rcases hu : fl.unused with _ | _ <;>
      wps [subRest, hff, hz, hu, hal, hi, hng, hd0, addw_neg] <;> apply Post2.plain <;> simp +contextual [hff, hz, hu, hr, Kept, *]
  · have key : ∀ c1 : Core, c1.x (regMap dst) = subw op.is32 A i → c1.x 12#5 = ovImm A i →
        c1.x 15#5 = bool64 (A.ult i) → Kept (regMap dst) c c1 →
        Post2 op fl (regMap dst) A i cin c (ovTail op (regMap dst) c1) :=
      fun c1 g1 g2 g3 g4 => Post2.ov _ _ hn hff hd0 hd5 hd6 hd28 (g1.trans hr.symm) g2 g3
        (by rw [msbw_xor, ovImm_msb _ _ _ hi, ← msbw_xor]; exact ovX_sub hc hff _ _ _ h32') g4
    have hov : ∀ r Q, wp (emitOvImm op.is32 a i ++ r) c Q ↔ wp r (c.wr 12#5 (ovImm A i)) Q :=
      fun r Q => by rw [wp_emitOvImm (by rw [hA]; exact h32) ha5, hA]
    wps [subRest, hff, hal, hd', hi, hng, hov, hd0, addw_neg]
    apply key <;> simp +contextual [Kept, *]
  · have hcm := hcm (.inr hff)
    rcases hz : op.setZ with _ | _ <;> 
      wps [subRest, hff, hz, hal, hi, hng, hd0, addw_neg] <;> apply Post2.plain <;> simp +contextual [hff, hz, hr, Kept, *]

theorem sub_cmp_reg {op : Op} {fl : SF} {dst a b : Nat} {c : Core} {cin : Bool} {A B : BitVec 64} (hc : op.code = .sub)
    (hf : op.flag.isCmp = true) (hd : DstOk dst) (ha : SrcOk a) (hb : SrcOk b) (hA : c.x (regMap a) = A) (hB : c.x (regMap b) = B)
    (h32 : op.is32 = true → Sx A ∧ Sx B) :
    wp (subCmp op a (.reg b) ++ subHandled op fl dst a (.reg b)) c (Post2 op fl (regMap dst) A B cin c) := by
  obtain ⟨hal, ha5, ha28⟩ := ha
  obtain ⟨hbl, hb5, hb28⟩ := hb
  have hd' := hd
  obtain ⟨hdl, hd0, hd5, hd28, hd6⟩ := hd
  have hs0 := hd0.symm
  have hs5 := hd5.symm
  have hs28 := hd28.symm
  have hs6 := hd6.symm
  have hn : op.code ≠ .addc := by rw [hc]; decide
  have hl := resL_of hn (op := op)
  have hr := resX_sub hc A B cin
  obtain ⟨h1, h2, h3, h4⟩ := cmpX hc A B cin h32
  rcases hff : op.flag with _ | _ | _ | _ | _ | _ | _ <;> simp only [hff, Flag.isCmp, Bool.false_eq_true] at hf <;>
    simp only [hff, true_or, or_true, true_implies, reduceCtorEq, false_or, or_false, false_implies] at h1 h2 h3 h4 <;>
    rcases hz : op.setZ with _ | _ <;> rcases hu : fl.unused with _ | _ <;>
    wps [subCmp, subHandled, hff, hz, hu] <;> apply Post2.plain <;> simp +contextual [hff, hz, hu, hr, Kept, *]

theorem sub_cmp_imm {op : Op} {fl : SF} {dst a : Nat} {c : Core} {cin : Bool} {A i : BitVec 64} (hc : op.code = .sub)
    (hf : op.flag = .less ∨ op.flag = .sigLess) (hd : DstOk dst) (ha : SrcOk a) (hA : c.x (regMap a) = A) (hi : Fits12 i)
    (hng : Fits12 (-i)) (h32 : op.is32 = true → Sx A) :
    wp (subCmp op a (.imm i) ++ subHandled op fl dst a (.imm i)) c (Post2 op fl (regMap dst) A i cin c) := by
  obtain ⟨hal, ha5, ha28⟩ := ha
  have hd' := hd
  obtain ⟨hdl, hd0, hd5, hd28, hd6⟩ := hd
  have hs0 := hd0.symm
  have hs5 := hd5.symm
  have hs28 := hd28.symm
  have hs6 := hd6.symm
  have hn : op.code ≠ .addc := by rw [hc]; decide
  have hl := resL_of hn (op := op)
  have hr := resX_sub hc A i cin
  obtain ⟨h1, h2, h3, h4⟩ := cmpX hc A i cin fun h => ⟨h32 h, Sx_fits12 hi⟩
  rcases hf with hff | hff <;>
    simp only [hff, true_or, or_true, true_implies, reduceCtorEq, false_or, or_false, false_implies] at h1 h2 h3 h4 <;>
    rcases hz : op.setZ with _ | _ <;> rcases hu : fl.unused with _ | _ <;>
    wps [subCmp, subHandled, hff, hz, hu, hi, hng, hd0, addw_neg] <;> apply Post2.plain <;> simp +contextual [hff, hz, hu, hr, Kept, *]

theorem Post2.from {op : Op} {fl : SF} {d : Reg} {a b : BitVec 64} {cin : Bool} {c c1 c' : Core} (h : Post2 op fl d a b cin c1 c')
    (hk : Kept d c c1) : Post2 op fl d a b cin c c' :=
  { h with kept := ⟨fun q h1 h2 h3 h4 h5 => (h.kept.1 q h1 h2 h3 h4 h5).trans (hk.1 q h1 h2 h3 h4 h5),
      h.kept.2.1.trans hk.2.1, h.kept.2.2.trans hk.2.2⟩ }

theorem srcOk25 : SrcOk 25 := ⟨by decide, by decide, by decide⟩
theorem srcOk26 : SrcOk 26 := ⟨by decide, by decide, by decide⟩

theorem sub_reg {op : Op} {fl : SF} {dst a b : Nat} {c : Core} {cin : Bool} {A B : BitVec 64} (hc : op.code = .sub)
    (hd : DstOk dst) (ha : SrcOk a) (hb : SrcOk b) (hA : c.x (regMap a) = A) (hB : c.x (regMap b) = B)
    (h32 : op.is32 = true → Sx A ∧ Sx B) :
    wp (emitSubOp op fl dst a (.reg b)) c (Post2 op fl (regMap dst) A B cin c) := by
  simp only [emitSubOp, subMin, wp_nil_append]
  by_cases hf : op.flag.isCmp = true
  · rw [if_pos hf]
    simp only [subCmpLoad, wp_nil_append]
    exact sub_cmp_reg hc hf hd ha hb hA hB h32
  · rw [if_neg hf]
    exact sub_rest_reg hc (by simpa using hf) hd ha hb hA hB h32

theorem Kept.wr1 (d : Reg) (c : Core) (v : BitVec 64) : Kept d c (c.wr 1#5 v) := by
  simp +contextual [Kept]
theorem Kept.wr13 (d : Reg) (c : Core) (v : BitVec 64) : Kept d c (c.wr 13#5 v) := by
  simp +contextual [Kept]

theorem sub_imm {op : Op} {fl : SF} {dst a : Nat} {c : Core} {cin : Bool} {A i : BitVec 64} (hc : op.code = .sub)
    (hd : DstOk dst) (ha : SrcOk a) (ha1 : regMap a ≠ 1#5) (hA : c.x (regMap a) = A) (hi : Fits12 i)
    (h32 : op.is32 = true → Sx A) :
    wp (emitSubOp op fl dst a (.imm i)) c (Post2 op fl (regMap dst) A i cin c) := by
  have h32' : op.is32 = true → Sx A ∧ Sx i := fun h => ⟨h32 h, Sx_fits12 hi⟩
  by_cases hm : i.toInt = I12_MIN
  · have key := sub_reg (fl := fl) (cin := cin) (c := c.wr 1#5 i) (A := A) (B := i) hc hd ha srcOk26 (by simp [ha1, hA]) (by simp) h32'
    have key := wp_mono key fun c' h => h.from (Kept.wr1 _ _ _)
    simp only [emitSubOp, subMin, if_pos hm]
    simp only [emitSubOp, subMin, wp_nil_append] at key
    rw [wp_LI _ hi]
    exact key
  · have hn := fits12_neg hi hm
    simp only [emitSubOp, subMin, if_neg hm, wp_nil_append]
    by_cases hf : op.flag.isCmp = true
    · rw [if_pos hf]
      by_cases hl : op.flag = .less ∨ op.flag = .sigLess
      · simp only [subCmpLoad, if_pos hl, wp_nil_append]
        exact sub_cmp_imm hc hl hd ha hA hi hn h32
      · simp only [subCmpLoad, if_neg hl]
        rw [wp_LI _ hi]
        by_cases h25 : a = 25
        · subst h25
          simp only [if_true]
          exact wp_mono (sub_cmp_reg hc hf hd ha srcOk26 (by simpa using hA) (by simp) h32') fun c' h => h.from (Kept.wr1 _ _ _)
        · simp only [if_neg h25]
          have := rm_ne ha.le (show 25 ≤ 29 by decide) h25
          exact wp_mono (sub_cmp_reg hc hf hd ha srcOk25 (by simp [hA, show regMap a ≠ 13#5 from this]) (by simp) h32') fun c' h => h.from (Kept.wr13 _ _ _)
    · rw [if_neg hf]
      exact sub_rest_imm hc (by simpa using hf) hd ha hA hi hn h32

theorem subc_rest_reg {op : Op} {fl : SF} {dst a b : Nat} {c : Core} {cin : Bool} {A B : BitVec 64} (hc : op.code = .subc)
    (hf : op.flagOk) (hd : DstOk dst) (ha : SrcOk a) (hb : SrcOk b) (hA : c.x (regMap a) = A) (hB : c.x (regMap b) = B)
    (hcin : c.x 15#5 = bool64 cin) (h32 : op.is32 = true → Sx A ∧ Sx B) :
    wp (subcRest op dst a (.reg b)) c (Post2 op fl (regMap dst) A B cin c) := by
  simp only [Op.flagOk, hc] at hf
  obtain ⟨hf, hz⟩ := hf
  obtain ⟨hal, ha5, ha28⟩ := ha
  obtain ⟨hbl, hb5, hb28⟩ := hb
  obtain ⟨hdl, hd0, hd5, hd28, hd6⟩ := hd
  have hs0 := hd0.symm
  have hs5 := hd5.symm
  have hs28 := hd28.symm
  have hs6 := hd6.symm
  have hn' : op.code ≠ .addc := by rw [hc]; decide
  have hl := resL_of hn' (op := op)
  have hr := resX_subc hc A B cin
  rcases hf with hf | hf
  · wps [subcRest, hf, hz] <;> apply Post2.plain <;> simp +contextual [hf, hz, hr, Kept, *]
  · have hcf := carryX_subc hc hf A B cin h32
    wps [subcRest, hf]
    apply Post2.plain <;> simp +contextual [Kept, bool64_or, *]

theorem subc_rest_imm {op : Op} {fl : SF} {dst a : Nat} {c : Core} {cin : Bool} {A i : BitVec 64} (hc : op.code = .subc)
    (hf : op.flagOk) (hd : DstOk dst) (ha : SrcOk a) (hA : c.x (regMap a) = A) (hi : Fits12 i) (hn : Fits12 (-i))
    (hcin : c.x 15#5 = bool64 cin) (h32 : op.is32 = true → Sx A) :
    wp (subcRest op dst a (.imm i)) c (Post2 op fl (regMap dst) A i cin c) := by
  simp only [Op.flagOk, hc] at hf
  obtain ⟨hf, hz⟩ := hf
  obtain ⟨hal, ha5, ha28⟩ := ha
  obtain ⟨hdl, hd0, hd5, hd28, hd6⟩ := hd
  have hs0 := hd0.symm
  have hs5 := hd5.symm
  have hs28 := hd28.symm
  have hs6 := hd6.symm
  have hn' : op.code ≠ .addc := by rw [hc]; decide
  have hl := resL_of hn' (op := op)
  have hr := resX_subc hc A i cin
  rcases hf with hf | hf
  · wps [subcRest, hf, hz, hi, hn, hd0, addw_neg] <;> apply Post2.plain <;> simp +contextual [hf, hz, hr, Kept, *]
  · have hcf := carryX_subc hc hf A i cin fun h => ⟨h32 h, Sx_fits12 hi⟩
    wps [subcRest, hf, hi, hn, hd0, addw_neg]
    apply Post2.plain <;> simp +contextual [Kept, bool64_or, *]

theorem subc_reg {op : Op} {fl : SF} {dst a b : Nat} {c : Core} {cin : Bool} {A B : BitVec 64} (hc : op.code = .subc)
    (hf : op.flagOk) (hd : DstOk dst) (ha : SrcOk a) (hb : SrcOk b) (hA : c.x (regMap a) = A) (hB : c.x (regMap b) = B)
    (hcin : c.x 15#5 = bool64 cin) (h32 : op.is32 = true → Sx A ∧ Sx B) :
    wp (emitSubcOp op dst a (.reg b)) c (Post2 op fl (regMap dst) A B cin c) := by
  simp only [emitSubcOp, subcMin, wp_nil_append]
  exact subc_rest_reg hc hf hd ha hb hA hB hcin h32

theorem subc_imm {op : Op} {fl : SF} {dst a : Nat} {c : Core} {cin : Bool} {A i : BitVec 64} (hc : op.code = .subc)
    (hf : op.flagOk) (hd : DstOk dst) (ha : SrcOk a) (ha1 : regMap a ≠ 1#5) (hA : c.x (regMap a) = A) (hi : Fits12 i)
    (hcin : c.x 15#5 = bool64 cin) (h32 : op.is32 = true → Sx A) :
    wp (emitSubcOp op dst a (.imm i)) c (Post2 op fl (regMap dst) A i cin c) := by
  by_cases hm : i.toInt = I12_MIN
  · simp only [emitSubcOp, subcMin, if_pos hm]
    rw [wp_ADDIx_s _ _ _ hi, rm0, x_zero, show addw op.is32 0#64 i = i by rw [addw_comm]; exact addw_zero _ _ fun _ => Sx_fits12 hi]
    exact wp_mono (subc_rest_reg hc hf hd ha srcOk26 (by simp [ha1, hA]) (by simp) (by simp [hcin])
      fun h => ⟨h32 h, Sx_fits12 hi⟩) fun c' h => h.from (Kept.wr1 _ _ _)
  · simp only [emitSubcOp, subcMin, if_neg hm, wp_nil_append]
    exact subc_rest_imm hc hf hd ha hA hi (fits12_neg hi hm) hcin h32

end Verif.LA
