import Verif.A32.Op2

/-! # sljit_emit_op2r and sljit_emit_shift_into of ARM32 (helper lemmas) -/

namespace Verif.A32
open Verif.Imm.A32 (fld expand)
open Verif.Imm.Arm32 (regMap RM RD RN TMP_REG1 TMP_REG2 SRC2_IMM getImm computeImm Item loadImmediate IsImm getImm_sound computeImm_sound Pair)
open Verif.Imm.Arm32 (ADC ADD AND BIC EOR MOV MVN ORR RSB RSC SBC SUB MOVW MOVT)
open Verif (RV.OpC RV.Op RV.Flag RV.val RV.flagVal RV.Op.flagOk)

/-! ## Multiply and add -/

theorem step_mla {d n m : Nat} (hd : regMap d ≠ 15#4) (hn : regMap n ≠ 15#4) (hm : regMap m ≠ 15#4) (s : St) :
    step (MLA ||| RN d ||| RD d ||| RM8 m ||| RM n) s = some (s.set (regMap d) (s.r (regMap n) * s.r (regMap m) + s.r (regMap d))) := by
  have e := step_of (dec_mul (b := MLA) (Or.inr (Or.inl rfl)) (regMap d) (regMap d) (regMap n) (regMap m) (fun h => absurd h (by decide)) (MLA ||| RN d ||| RD d ||| RM8 m ||| RM n) rfl) s
  refine e.trans (?_ : exec (.mla _ _ _ _) s = _)
  rw [exec, if_neg (by rintro (h | h | h | h); exacts [hd h, hn h, hm h, hd h])]

theorem runs_cat {a b : List Item} {s : St} {P Q : St → Prop} (h : Runs (some a) s P) (g : ∀ s1, P s1 → Runs (some b) s1 Q) : Runs (some (a ++ b)) s Q := by
  exact Runs.cat (b := some b) h g

theorem run_muladd {v6 : Bool} {d : Nat} (hd : 1 ≤ d ∧ d ≤ 13) {src1 src2 : Opd} (h1 : Usr src1) (h2 : Usr src2) (s : St) :
    Runs (some (emitMulAdd v6 d src1 src2)) s (fun s' => Fin s s' (.reg d) (s.r (regMap d) + ov s src1 * ov s src2) false (fun _ _ _ _ => True)) := by
  obtain ⟨d12, d14, d15⟩ := usr_reg hd.2
  have hlast : ∀ s1 r1 r2, Pre s s1 → regMap r1 ≠ 15#4 → regMap r2 ≠ 15#4 → s1.r (regMap r1) = ov s src1 → s1.r (regMap r2) = ov s src2 →
      Runs (some [.ins (MLA ||| RN d ||| RD d ||| RM8 r2 ||| RM r1)]) s1 (fun s' => Fin s s' (.reg d) (s.r (regMap d) + ov s src1 * ov s src2) false (fun _ _ _ _ => True)) := by
    intro s1 r1 r2 hp hr1 hr2 e1 e2
    refine Runs.of ((runs_one _ _).trans (step_mla d15 hr1 hr2 s1)) ?_
    rw [e1, e2, hp.r _ d12 d14, BitVec.add_comm]
    refine ⟨fun q g1 g2 g3 => ?_, fun d' e _ => ?_, fun _ _ _ e => (by cases e), fun _ => hp.m, fun h => by cases h⟩
    · rw [set_ne _ (g3 d rfl), hp.r q g1 g2]
    · cases e; rw [set_r]
  have t1 : regMap TMP_REG1 ≠ 15#4 := by decide
  have t2 : regMap TMP_REG2 ≠ 15#4 := by decide
  cases src1 with
  | reg r1 =>
    have k1 := usr_reg h1.2
    cases src2 with
    | reg r2 => exact hlast s r1 r2 (Pre.refl s) k1.2.2 (usr_reg h2.2).2.2 rfl rfl
    | imm w2 => exact runs_cat (load_imm (Or.inl rfl) w2 (Pre.refl s)) (fun s1 ⟨p1, p2, p3⟩ => hlast s1 r1 TMP_REG1 p1 k1.2.2 t1 (p1.ov h1) p2)
    | mem b2 f2 w2 =>
      show Runs (some ((emitOpMem v6 (wordTy true) TMP_REG1 b2 f2 w2 TMP_REG1 ++ []) ++ _)) s _
      rw [List.append_nil]
      exact runs_cat (load_mem (Or.inl rfl) h2 (Pre.refl s)) (fun s1 ⟨p1, p2, p3⟩ => hlast s1 r1 TMP_REG1 p1 k1.2.2 t1 (p1.ov h1) p2)
  | imm w1 =>
    cases src2 with
    | reg r2 =>
      show Runs (some ((loadImmediate v6 TMP_REG1 w1 ++ []) ++ _)) s _
      rw [List.append_nil]
      exact runs_cat (load_imm (Or.inl rfl) w1 (Pre.refl s)) (fun s1 ⟨p1, p2, p3⟩ => hlast s1 TMP_REG1 r2 p1 t1 (usr_reg h2.2).2.2 p2 (p1.ov h2))
    | imm w2 =>
      refine runs_cat (P := fun s2 => Pre s s2 ∧ s2.r (regMap TMP_REG1) = ov s _ ∧ s2.r (regMap TMP_REG2) = ov s _) (runs_cat (load_imm (Or.inl rfl) w1 (Pre.refl s)) (fun s1 ⟨p1, p2, p3⟩ => (load_imm (Or.inr rfl) w2 p1).mono (fun s2 ⟨q1, q2, q3⟩ => ?_)))
        (fun s2 h => hlast s2 TMP_REG1 TMP_REG2 h.1 t1 t2 h.2.1 h.2.2)
      exact ⟨q1, (q3 _ (by decide)).trans p2, q2⟩
    | mem b2 f2 w2 =>
      refine runs_cat (P := fun s2 => Pre s s2 ∧ s2.r (regMap TMP_REG1) = ov s _ ∧ s2.r (regMap TMP_REG2) = ov s _) (runs_cat (load_mem (Or.inr rfl) h2 (Pre.refl s)) (fun s1 ⟨p1, p2, p3⟩ => (load_imm (Or.inl rfl) w1 p1).mono (fun s2 ⟨q1, q2, q3⟩ => ?_)))
        (fun s2 h => hlast s2 TMP_REG1 TMP_REG2 h.1 t1 t2 h.2.1 h.2.2)
      exact ⟨q1, q2, (q3 _ (by decide)).trans p2⟩
  | mem b1 f1 w1 =>
    cases src2 with
    | reg r2 =>
      show Runs (some ((emitOpMem v6 (wordTy true) TMP_REG1 b1 f1 w1 TMP_REG1 ++ []) ++ _)) s _
      rw [List.append_nil]
      exact runs_cat (load_mem (Or.inl rfl) h1 (Pre.refl s)) (fun s1 ⟨p1, p2, p3⟩ => hlast s1 TMP_REG1 r2 p1 t1 (usr_reg h2.2).2.2 p2 (p1.ov h2))
    | imm w2 =>
      refine runs_cat (P := fun s2 => Pre s s2 ∧ s2.r (regMap TMP_REG1) = ov s _ ∧ s2.r (regMap TMP_REG2) = ov s _) (runs_cat (load_mem (Or.inl rfl) h1 (Pre.refl s)) (fun s1 ⟨p1, p2, p3⟩ => (load_imm (Or.inr rfl) w2 p1).mono (fun s2 ⟨q1, q2, q3⟩ => ?_)))
        (fun s2 h => hlast s2 TMP_REG1 TMP_REG2 h.1 t1 t2 h.2.1 h.2.2)
      exact ⟨q1, (q3 _ (by decide)).trans p2, q2⟩
    | mem b2 f2 w2 =>
      refine runs_cat (P := fun s2 => Pre s s2 ∧ s2.r (regMap TMP_REG1) = ov s _ ∧ s2.r (regMap TMP_REG2) = ov s _) (runs_cat (load_mem (Or.inr rfl) h2 (Pre.refl s)) (fun s1 ⟨p1, p2, p3⟩ => (load_mem (Or.inl rfl) h1 p1).mono (fun s2 ⟨q1, q2, q3⟩ => ?_)))
        (fun s2 h => hlast s2 TMP_REG1 TMP_REG2 h.1 t1 t2 h.2.1 h.2.2)
      exact ⟨q1, q2, (q3 rfl).trans p2⟩

/-! ## Shift into -/

/-- The result of sljit_emit_shift_into for n < 32 (sljitLir.h:1430-1443). -/
def funnel (left : Bool) (x y : BitVec 32) (n : Nat) : BitVec 32 :=
  if left then (x <<< n) ||| ((y >>> 1) >>> (31 - n)) else (x >>> n) ||| ((y <<< 1) <<< (31 - n))

theorem rot_funnel (left : Bool) (x : BitVec 32) {n : Nat} (hn : n < 32) : (if left then x.rotateLeft n else x.rotateRight n) = funnel left x x n := by
  apply BitVec.eq_of_getLsbD_eq
  intro i hi
  cases left
  · simp only [Bool.false_eq_true, if_false, funnel, BitVec.getLsbD_rotateRight, BitVec.getLsbD_or, BitVec.getLsbD_ushiftRight, BitVec.getLsbD_shiftLeft, Nat.mod_eq_of_lt hn]
    by_cases h : i < 32 - n
    · have : (decide (i < 31 - n) || decide (i - (31 - n) < 1)) = true := by simp; omega
      simp only [h, decide_true, cond_true]
      rw [show (decide (i < 32) && !decide (i < 31 - n) && (decide (i - (31 - n) < 32) && !decide (i - (31 - n) < 1) && x.getLsbD (i - (31 - n) - 1))) = false by
        by_cases h1 : i < 31 - n <;> by_cases h2 : i - (31 - n) < 1 <;> simp [-BitVec.getLsbD_eq_getElem, h1, h2] at this ⊢, Bool.or_false]
    · have e : i - (31 - n) - 1 = i - (32 - n) := by omega
      simp only [h, decide_false, cond_false, hi, decide_true, Bool.true_and]
      rw [BitVec.getLsbD_of_ge x (n + i) (by omega), e, decide_eq_false (show ¬ i < 31 - n by omega), decide_eq_false (show ¬ i - (31 - n) < 1 by omega), decide_eq_true (show i - (31 - n) < 32 by omega)]
      simp [-BitVec.getLsbD_eq_getElem]
  · simp only [if_true, funnel, BitVec.getLsbD_rotateLeft, BitVec.getLsbD_or, BitVec.getLsbD_ushiftRight, BitVec.getLsbD_shiftLeft, Nat.mod_eq_of_lt hn]
    by_cases h : i < n
    · have e : 1 + (31 - n + i) = 32 - n + i := by omega
      simp [-BitVec.getLsbD_eq_getElem, h, e]
    · simp only [h, hi, decide_true, decide_false, Bool.true_and, cond_false, Bool.not_false]
      rw [BitVec.getLsbD_of_ge x (1 + (31 - n + i)) (by omega), Bool.or_false]

/-- MOV without flags, in any order of the fields. -/
theorem mov_plain {d : Nat} (hd : regMap d ≠ 15#4) {q : BitVec 12} {s : St} {b : BitVec 32 × Bool} (hb : op2 false q s = some b) (h2 : q.getLsbD 4 = false ∨ q.getLsbD 7 = false)
    {w : BitVec 32} (hw : MOV ||| RD d ||| q.setWidth 32 = w) : step w s = some (s.set (regMap d) b.1) := by
  have e := step_dp (b := MOV) (by decide) false (regMap d) 0#4 false q s (Or.inl (by decide)) (Or.inr h2)
  rw [exec_dp (by decide) hd (fun _ => rfl) (fun h => absurd h (by decide)) hb] at e
  have hq : dpState (fld MOV 21 4) false (regMap d) (s.r 0#4) b s = s.set (regMap d) b.1 := rfl
  rw [← hq, ← e, ← hw]
  congr 1
  simp [iBit, sBit, RD]

/-- ORR of the destination without flags. -/
theorem orr_plain {d : Nat} (hd : regMap d ≠ 15#4) {q : BitVec 12} {s : St} {b : BitVec 32 × Bool} (hb : op2 false q s = some b) (h2 : q.getLsbD 4 = false ∨ q.getLsbD 7 = false)
    {w : BitVec 32} (hw : ORR ||| RD d ||| RN d ||| q.setWidth 32 = w) : step w s = some (s.set (regMap d) (s.r (regMap d) ||| b.1)) := by
  have e := step_dp (b := ORR) (by decide) false (regMap d) (regMap d) false q s (Or.inl (by decide)) (Or.inr h2)
  rw [exec_dp hd hd (fun h => absurd h (by decide)) (fun h => absurd h (by decide)) hb] at e
  have hq : dpState (fld ORR 21 4) false (regMap d) (s.r (regMap d)) b s = s.set (regMap d) (s.r (regMap d) ||| b.1) := rfl
  rw [← hq, ← e, ← hw]
  congr 1
  simp [iBit, sBit, RD, RN]

/-- A field for a shift by a constant. -/
def shK (k : BitVec 5) (ty : BitVec 2) (m : BitVec 4) : BitVec 12 := k.setWidth 12 <<< 7 ||| ty.setWidth 12 <<< 5 ||| m.setWidth 12
/-- A field for a shift by a register. -/
def shR (r : BitVec 4) (ty : BitVec 2) (m : BitVec 4) : BitVec 12 := r.setWidth 12 <<< 8 ||| ty.setWidth 12 <<< 5 ||| 0x10#12 ||| m.setWidth 12

theorem shK_w (k : BitVec 5) (ty : BitVec 2) (m : BitVec 4) : (shK k ty m).setWidth 32 = k.setWidth 32 <<< 7 ||| ty.setWidth 32 <<< 5 ||| m.setWidth 32 := by
  unfold shK; bits []
theorem shR_w (r : BitVec 4) (ty : BitVec 2) (m : BitVec 4) : (shR r ty m).setWidth 32 = r.setWidth 32 <<< 8 ||| ty.setWidth 32 <<< 5 ||| 0x10#32 ||| m.setWidth 32 := by
  unfold shR; bits []
theorem shK_b (k : BitVec 5) (ty : BitVec 2) (m : BitVec 4) : (shK k ty m).getLsbD 4 = false := by simp [-BitVec.getLsbD_eq_getElem, shK]
theorem shR_b (r : BitVec 4) (ty : BitVec 2) (m : BitVec 4) : (shR r ty m).getLsbD 7 = false := by simp [-BitVec.getLsbD_eq_getElem, shR]

theorem regMap_inj {a b : Nat} (ha : 1 ≤ a ∧ a ≤ 15) (hb : 1 ≤ b ∧ b ≤ 15) (h : a ≠ b) : regMap a ≠ regMap b := by
  have : ∀ a b : _root_.Fin 15, a ≠ b → regMap (a.val + 1) ≠ regMap (b.val + 1) := by decide
  have := this ⟨a - 1, by omega⟩ ⟨b - 1, by omega⟩ (by intro e; simp only [_root_.Fin.mk.injEq] at e; omega)
  simpa only [Nat.sub_add_cancel ha.1, Nat.sub_add_cancel hb.1] using this

/-- The first and the second shift type. -/
def ty1 (left : Bool) : BitVec 2 := if left then 0#2 else 1#2
@[inherit_doc ty1] def ty2 (left : Bool) : BitVec 2 := if left then 1#2 else 0#2

theorem step_eor31 {src : Nat} (hs : regMap src ≠ 15#4) (s : St) {w : BitVec 32} (hw : w = EOR ||| RD TMP_REG2 ||| RN src ||| (SRC2_IMM ||| 0x1f#32)) :
    step w s = some (s.set 14#4 (s.r (regMap src) ^^^ 0x1f#32)) := by
  obtain ⟨c, e⟩ := step_tmp (b := EOR) (x := SRC2_IMM ||| 0x1f#32) (show _ = _ by decide) (by decide) (by decide) (by decide) (by decide) hs s (w := w) hw.symm
  rw [e]
  rfl

theorem into_imm {left : Bool} {dst src1 src2 : Nat} (hd : 1 ≤ dst ∧ dst ≤ 13) (h1 : 1 ≤ src1 ∧ src1 ≤ 13) (h2 : 1 ≤ src2 ∧ src2 ≤ 13) (h12 : dst ≠ src2) {k : BitVec 5} (hk : k ≠ 0#5) (s : St) :
    runs [.ins (MOV ||| RD dst ||| RM src1 ||| ((if left then 0#32 else 1#32) <<< 5) ||| (k.setWidth 32 <<< 7)),
        .ins (ORR ||| RD dst ||| RN dst ||| RM src2 ||| ((if left then 1#32 else 0#32) <<< 5) ||| (((k.setWidth 32 ^^^ 0x1f#32) + 1#32) <<< 7))] s =
      some ((s.set (regMap dst) (if left then s.r (regMap src1) <<< k.toNat else s.r (regMap src1) >>> k.toNat)).set (regMap dst) (funnel left (s.r (regMap src1)) (s.r (regMap src2)) k.toNat)) := by
  have d15 := (usr_reg hd.2).2.2
  have hk2 : -k ≠ 0#5 := by revert k; decide
  have ek : (k.setWidth 32 ^^^ 0x1f#32) + 1#32 = (-k).setWidth 32 := by revert k; decide
  have en : (-k).toNat = 32 - k.toNat := by revert k; decide
  have lt : k.toNat < 32 := k.isLt
  have k0 : k.toNat ≠ 0 := by intro h; exact hk (BitVec.eq_of_toNat_eq h)
  have e1 := mov_plain (d := dst) d15 (op2_sh (usr_reg h1.2).2.2 (ty1 left) hk s) (Or.inl (shK_b k (ty1 left) (regMap src1)))
    (w := MOV ||| RD dst ||| RM src1 ||| ((if left then 0#32 else 1#32) <<< 5) ||| (k.setWidth 32 <<< 7)) (by
      have := shK_w k (ty1 left) (regMap src1)
      unfold shK at this
      rw [this]
      cases left <;> (unfold ty1 RM; simp only [Bool.false_eq_true, if_false, if_true]; generalize RD dst = a, (regMap src1).setWidth 32 = b, k.setWidth 32 <<< 7 = c, MOV = e; simp; try ac_rfl))
  rw [show ∀ a b : Item, [a, b] = [a] ++ [b] from fun _ _ => rfl, runs_append, runs_one, e1]
  simp only [Option.bind_some]
  generalize hs1 : s.set (regMap dst) (shiftC (ty1 left) (s.r (regMap src1)) k.toNat s.c).1 = s1
  have e2 := orr_plain (d := dst) d15 (op2_sh (usr_reg h2.2).2.2 (ty2 left) hk2 s1) (Or.inl (shK_b (-k) (ty2 left) (regMap src2)))
    (w := ORR ||| RD dst ||| RN dst ||| RM src2 ||| ((if left then 1#32 else 0#32) <<< 5) ||| (((k.setWidth 32 ^^^ 0x1f#32) + 1#32) <<< 7)) (by
      have := shK_w (-k) (ty2 left) (regMap src2)
      unfold shK at this
      rw [this, ek]
      cases left <;> (unfold ty2 RM; simp only [Bool.false_eq_true, if_false, if_true]; generalize RD dst = a, RN dst = a', (regMap src2).setWidth 32 = b, (-k).setWidth 32 <<< 7 = c, ORR = e; simp; try ac_rfl))
  rw [runs_one, e2]
  subst hs1
  rw [set_r, set_ne _ (regMap_inj ⟨h2.1, by omega⟩ ⟨hd.1, by omega⟩ (Ne.symm h12)), shiftC_val, shiftC_val, en]
  cases left
  · have e3 : s.r (regMap src2) <<< (32 - k.toNat) = s.r (regMap src2) <<< 1 <<< (31 - k.toNat) := by rw [← BitVec.shiftLeft_add]; congr 1; omega
    simp [ty1, ty2, funnel, e3]
  · have e3 : s.r (regMap src2) >>> (32 - k.toNat) = s.r (regMap src2) >>> 1 >>> (31 - k.toNat) := by rw [← BitVec.shiftRight_add]; congr 1; omega
    simp [ty1, ty2, funnel, e3]

/-- The sequence for a count in a register. -/
theorem into_reg {left : Bool} {dst src1 src2 r3 : Nat} (hd : 1 ≤ dst ∧ dst ≤ 13) (h1 : 1 ≤ src1 ∧ src1 ≤ 13) (h2 : 1 ≤ src2 ∧ src2 ≤ 13) (h12 : dst ≠ src2)
    (h3 : (1 ≤ r3 ∧ r3 ≤ 13 ∧ r3 ≠ dst) ∨ r3 = TMP_REG2) {s : St} (hn : (s.r (regMap r3)).toNat < 32) :
    ∃ x y z, runs [.ins (MOV ||| RD dst ||| RM8 r3 ||| ((if left then 0#32 else 1#32) <<< 5) ||| 0x10#32 ||| RM src1),
        .ins (MOV ||| RD TMP_REG1 ||| RM src2 ||| ((if left then 1#32 else 0#32) <<< 5) ||| (1#32 <<< 7)),
        .ins (EOR ||| SRC2_IMM ||| RD TMP_REG2 ||| RN r3 ||| 0x1f#32),
        .ins (ORR ||| RD dst ||| RN dst ||| RM8 TMP_REG2 ||| ((if left then 1#32 else 0#32) <<< 5) ||| 0x10#32 ||| RM TMP_REG1)] s =
      some ((((s.set (regMap dst) x).set 12#4 y).set 14#4 z).set (regMap dst) (funnel left (s.r (regMap src1)) (s.r (regMap src2)) (s.r (regMap r3)).toNat)) := by
  obtain ⟨d12, d14, d15⟩ := usr_reg hd.2
  have r15 : regMap r3 ≠ 15#4 := by
    rcases h3 with h3 | rfl
    · exact (usr_reg h3.2.1).2.2
    · decide
  have rd : regMap r3 ≠ regMap dst := by
    rcases h3 with h3 | rfl
    · exact regMap_inj ⟨h3.1, by omega⟩ ⟨hd.1, by omega⟩ h3.2.2
    · exact Ne.symm d14
  have r12' : regMap r3 ≠ 12#4 := by
    rcases h3 with h3 | rfl
    · exact (usr_reg h3.2.1).1
    · decide
  have sd : regMap src2 ≠ regMap dst := regMap_inj ⟨h2.1, by omega⟩ ⟨hd.1, by omega⟩ (Ne.symm h12)
  have e1 := mov_plain (d := dst) d15 (op2_rsr (usr_reg h1.2).2.2 r15 (ty1 left) s) (Or.inr (shR_b (regMap r3) (ty1 left) (regMap src1)))
    (w := MOV ||| RD dst ||| RM8 r3 ||| ((if left then 0#32 else 1#32) <<< 5) ||| 0x10#32 ||| RM src1) (by
      have := shR_w (regMap r3) (ty1 left) (regMap src1)
      unfold shR at this
      rw [this]
      cases left <;> (unfold ty1 RM RM8; simp only [Bool.false_eq_true, if_false, if_true]; generalize RD dst = a, (regMap src1).setWidth 32 = b, (regMap r3).setWidth 32 <<< 8 = c, MOV = e; simp; try ac_rfl))
  rw [show ∀ a b c d : Item, [a, b, c, d] = [a] ++ ([b] ++ ([c] ++ [d])) from fun _ _ _ _ => rfl, runs_append, runs_one, e1]
  simp only [Option.bind_some]
  generalize hx : (shiftC (ty1 left) (s.r (regMap src1)) ((s.r (regMap r3)).setWidth 8).toNat s.c).1 = x
  generalize hs1 : s.set (regMap dst) x = s1
  have e2 := mov_plain (d := TMP_REG1) (by decide) (op2_sh (usr_reg h2.2).2.2 (ty2 left) (k := 1#5) (by decide) s1) (Or.inl (shK_b 1#5 (ty2 left) (regMap src2)))
    (w := MOV ||| RD TMP_REG1 ||| RM src2 ||| ((if left then 1#32 else 0#32) <<< 5) ||| (1#32 <<< 7)) (by
      have := shK_w 1#5 (ty2 left) (regMap src2)
      unfold shK at this
      rw [this]
      cases left <;> (unfold ty2 RM; simp only [Bool.false_eq_true, if_false, if_true]; generalize RD TMP_REG1 = a, (regMap src2).setWidth 32 = b, MOV = e; simp; try ac_rfl))
  rw [runs_append, runs_one, e2]
  simp only [Option.bind_some]
  generalize hy : (shiftC (ty2 left) (s1.r (regMap src2)) (1#5).toNat s1.c).1 = y
  rw [r12]
  generalize hs2 : s1.set 12#4 y = s2
  rw [runs_append, runs_one, step_eor31 r15 s2 (by rw [show ∀ a b c d e : BitVec 32, a ||| b ||| c ||| d ||| e = a ||| c ||| d ||| (b ||| e) from fun a b c d e => by ac_rfl])]
  simp only [Option.bind_some]
  have hr3 : s2.r (regMap r3) = s.r (regMap r3) := by subst hs2 hs1; rw [set_ne _ r12', set_ne _ rd]
  generalize hz : s2.r (regMap r3) ^^^ 0x1f#32 = z
  generalize hs3 : s2.set 14#4 z = s3
  have e4 := orr_plain (d := dst) d15 (op2_rsr (m := regMap TMP_REG1) (r := regMap TMP_REG2) (by decide) (by decide) (ty2 left) s3) (Or.inr (shR_b (regMap TMP_REG2) (ty2 left) (regMap TMP_REG1)))
    (w := ORR ||| RD dst ||| RN dst ||| RM8 TMP_REG2 ||| ((if left then 1#32 else 0#32) <<< 5) ||| 0x10#32 ||| RM TMP_REG1) (by
      have := shR_w (regMap TMP_REG2) (ty2 left) (regMap TMP_REG1)
      unfold shR at this
      rw [this]
      cases left <;> (unfold ty2 RM RM8; simp only [Bool.false_eq_true, if_false, if_true]; generalize RD dst = a, RN dst = a', (regMap TMP_REG1).setWidth 32 = b, (regMap TMP_REG2).setWidth 32 <<< 8 = c, ORR = e; simp; try ac_rfl))
  rw [runs_one, e4]
  refine ⟨x, y, z, ?_⟩
  subst hs3 hs2 hs1
  congr 2
  rw [r12, r14, set_ne _ d14, set_ne _ d12, set_r, set_ne _ (by decide), set_r, set_r]
  rw [set_ne _ sd] at hy
  rw [hr3] at hz
  subst hx hy hz
  generalize s.r (regMap r3) = n at hn ⊢
  have n1 : (n.setWidth 8).toNat = n.toNat := by rw [BitVec.toNat_setWidth]; omega
  have n2 : ((n ^^^ 0x1f#32).setWidth 8).toNat = 31 - n.toNat := by
    obtain ⟨k, rfl⟩ : ∃ k : BitVec 5, n = k.setWidth 32 := ⟨n.setWidth 5, by apply BitVec.eq_of_toNat_eq; simp only [BitVec.toNat_setWidth]; omega⟩
    revert k; decide
  rw [n1, n2, shiftC_val, shiftC_val, shiftC_val]
  cases left <;> simp [ty1, ty2, funnel]

theorem fin_into {s s1 s' : St} {dst : Nat} {x a b c : BitVec 32} (d12 : regMap dst ≠ 12#4) (d14 : regMap dst ≠ 14#4) (hp : Pre s s1)
    (he : s' = (((s1.set (regMap dst) a).set 12#4 b).set 14#4 c).set (regMap dst) x) : Fin s s' (.reg dst) x false (fun _ _ _ _ => True) := by
  subst he
  refine ⟨fun q g1 g2 g3 => ?_, fun d' e _ => ?_, fun _ _ _ e => (by cases e), fun _ => hp.m, fun h => by cases h⟩
  · rw [set_ne _ (g3 dst rfl), set_ne _ g2, set_ne _ g1, set_ne _ (g3 dst rfl), hp.r q g1 g2]
  · cases e; rw [set_r]

theorem toNat_and31 (n : BitVec 32) : (n &&& 0x1f#32).toNat = n.toNat % 32 := by
  rw [BitVec.toNat_and]; exact Nat.and_two_pow_sub_one_eq_mod n.toNat 5

theorem run_into {v6 left masked : Bool} {dst src1 src2 : Nat} {src3 : Opd} (hd : 1 ≤ dst ∧ dst ≤ 13) (h1 : 1 ≤ src1 ∧ src1 ≤ 13) (h2 : 1 ≤ src2 ∧ src2 ≤ 13) (h3 : Usr src3) (h12 : dst ≠ src2)
    {s : St} (hc : masked = false → (∀ w, src3 ≠ .imm w) → (ov s src3).toNat < 32) (h0 : ∀ w, src3 = .imm w → w &&& 0x1f#32 = 0#32 → dst = src1 ∨ src1 = src2) :
    Runs (emitShiftInto v6 left masked dst src1 src2 src3) s
      (fun s' => Fin s s' (.reg dst) (funnel left (s.r (regMap src1)) (s.r (regMap src2)) ((ov s src3).toNat % 32)) false (fun _ _ _ _ => True)) := by
  obtain ⟨d12, d14, d15⟩ := usr_reg hd.2
  unfold emitShiftInto
  by_cases e12 : src1 = src2
  · rw [if_pos e12]
    subst e12
    have hg := emit_op2 (v6 := v6) (op := ⟨if left then .rotl else .rotr, false, false, .none⟩) (dst := .reg dst) (src1 := .reg src1) (src2 := src3) (s := s) (cin := false)
      (by cases left <;> rfl) (by cases left <;> simp [RV.Op.flagOk]) ⟨hd.1, by omega⟩ h1 h3 (by cases left <;> exact ⟨(by simp), (by simp), (by simp), (by simp)⟩) (by cases left <;> exact ⟨(by simp), (by simp)⟩)
      (fun _ => by cases left <;> simp [CountOk])
    refine hg.mono (fun s' hf => ?_)
    have hlt : (ov s src3).toNat % 32 < 32 := Nat.mod_lt _ (by decide)
    refine ⟨hf.keep, fun d e1 e2 => (hf.reg d e1 e2).trans ?_, fun _ _ _ e => (by cases e), hf.same, fun h => by cases h⟩
    rw [← rot_funnel _ _ hlt]
    cases left <;> rfl
  · rw [if_neg e12]
    have tail : ∀ s1 r, Pre s s1 → s1.r (regMap r) = ov s src3 → regMap r ≠ 15#4 → ((1 ≤ r ∧ r ≤ 13 ∧ r ≠ dst) ∨ r = TMP_REG2) ∨ (masked || decide (dst = r)) = true → (hi : ∀ w, src3 ≠ .imm w := by intro _ e; cases e) →
        Runs (some ((if masked || decide (dst = r) then [.ins (AND ||| SRC2_IMM ||| RD TMP_REG2 ||| RN r ||| 0x1f#32)] else []) ++
          [.ins (MOV ||| RD dst ||| RM8 (if masked || decide (dst = r) then TMP_REG2 else r) ||| ((if left then 0#32 else 1#32) <<< 5) ||| 0x10#32 ||| RM src1),
          .ins (MOV ||| RD TMP_REG1 ||| RM src2 ||| ((if left then 1#32 else 0#32) <<< 5) ||| (1#32 <<< 7)),
          .ins (EOR ||| SRC2_IMM ||| RD TMP_REG2 ||| RN (if masked || decide (dst = r) then TMP_REG2 else r) ||| 0x1f#32),
          .ins (ORR ||| RD dst ||| RN dst ||| RM8 TMP_REG2 ||| ((if left then 1#32 else 0#32) <<< 5) ||| 0x10#32 ||| RM TMP_REG1)])) s1
          (fun s' => Fin s s' (.reg dst) (funnel left (s.r (regMap src1)) (s.r (regMap src2)) ((ov s src3).toNat % 32)) false (fun _ _ _ _ => True)) := by
      intro s1 r hp hv r15 hr hi
      by_cases hm : (masked || decide (dst = r)) = true
      · simp only [hm, if_true]
        have e1 := step_and31 (src := r) r15 s1 (w := AND ||| SRC2_IMM ||| RD TMP_REG2 ||| RN r ||| 0x1f#32)
          (by rw [show ∀ a b c d e : BitVec 32, a ||| b ||| c ||| d ||| e = a ||| c ||| d ||| (b ||| e) from fun a b c d e => by ac_rfl])
        refine runs_cat (P := fun s2 => Pre s s2 ∧ s2.r (regMap TMP_REG2) = ov s src3 &&& 0x1f#32) (Runs.of ((runs_one _ _).trans e1) ⟨hp.set (Or.inr rfl) _, by rw [← hv]; exact set_r _ _ _⟩) (fun s1 ⟨hp, hv⟩ => ?_)
        obtain ⟨x, y, z, e⟩ := into_reg (left := left) hd h1 h2 h12 (Or.inr rfl) (s := s1) (by rw [hv, toNat_and31]; omega)
        refine Runs.of e (fin_into (a := x) (b := y) (c := z) d12 d14 hp ?_)
        rw [hv, toNat_and31, hp.r _ (usr_reg h1.2).1 (usr_reg h1.2).2.1, hp.r _ (usr_reg h2.2).1 (usr_reg h2.2).2.1]
      · have hr' := hr.resolve_right hm
        simp only [hm, Bool.false_eq_true, if_false, List.nil_append]
        have hmf : masked = false := by cases masked <;> simp at hm ⊢
        have hn : (ov s src3).toNat < 32 := hc hmf hi
        obtain ⟨x, y, z, e⟩ := into_reg (left := left) hd h1 h2 h12 hr' (s := s1) (by rw [hv]; exact hn)
        refine Runs.of e (fin_into (a := x) (b := y) (c := z) d12 d14 hp ?_)
        rw [hv, Nat.mod_eq_of_lt hn, hp.r _ (usr_reg h1.2).1 (usr_reg h1.2).2.1, hp.r _ (usr_reg h2.2).1 (usr_reg h2.2).2.1]
    cases src3 with
    | imm w =>
      obtain ⟨k, hk⟩ : ∃ k : BitVec 5, w &&& 0x1f#32 = k.setWidth 32 := ⟨w.setWidth 5, by
        apply BitVec.eq_of_toNat_eq; rw [toNat_and31]; simp only [BitVec.toNat_setWidth]; omega⟩
      have hkn : k.toNat = w.toNat % 32 := by
        rw [← toNat_and31, hk, BitVec.toNat_setWidth]; omega
      show Runs (if w &&& 0x1f#32 = 0#32 then _ else _) s _
      by_cases hz : w &&& 0x1f#32 = 0#32
      · rw [if_pos hz]
        rcases h0 w rfl hz with e | e
        · subst e
          refine Runs.of (s' := s) rfl ?_
          have : w.toNat % 32 = 0 := by rw [← toNat_and31, hz]; rfl
          refine ⟨fun _ _ _ _ => rfl, fun d' e _ => ?_, fun _ _ _ e => (by cases e), fun _ => rfl, fun h => by cases h⟩
          cases e
          show _ = funnel left _ _ (w.toNat % 32)
          rw [this]
          cases left
          · simp only [funnel, Bool.false_eq_true, if_false, ← BitVec.shiftLeft_add]; simp
          · simp only [funnel, if_true, ← BitVec.shiftRight_add]; rw [BitVec.ushiftRight_eq_zero (by omega)]; simp
        · exact absurd e e12
      · rw [if_neg hz]
        have hk0 : k ≠ 0#5 := by rintro rfl; exact hz hk
        simp only [hk]
        refine Runs.of (into_imm hd h1 h2 h12 hk0 s) ?_
        rw [hkn]
        refine ⟨fun q g1 g2 g3 => ?_, fun d' e _ => ?_, fun _ _ _ e => (by cases e), fun _ => rfl, fun h => by cases h⟩
        · rw [set_ne _ (g3 dst rfl), set_ne _ (g3 dst rfl)]
        · cases e; rw [set_r]; rfl
    | reg r =>
      refine tail s r (Pre.refl s) rfl (usr_reg h3.2).2.2 ?_
      by_cases e : r = dst
      · exact Or.inr (by rw [e, decide_eq_true rfl, Bool.or_true])
      · exact Or.inl (Or.inl ⟨h3.1, h3.2, e⟩)
    | mem b f w =>
      show Runs (some ((emitOpMem v6 (wordTy true) TMP_REG2 b f w TMP_REG2 ++ _) ++ _)) s _
      rw [List.append_assoc]
      obtain ⟨s2, ⟨q1, q2, q3, q4, q5, q6⟩, e⟩ := runs_mem (v6 := v6) (t := wordTy true) (reg := TMP_REG2) (tmp := TMP_REG2) (base := b) (offs := f) (w := w) (by decide) (usr_reg h3.1).2.2 (usr_reg h3.2.1).2.2 (by decide)
        (fun _ => (usr_reg h3.1).2.1) h3.2.2 s
      have hx : xfer (wordTy true) (regMap TMP_REG2) (ea s b f w) s2 = s2.set 14#4 (rd s2.m (ea s b f w) 4) := rfl
      refine runs_cat (P := fun s1 => Pre s s1 ∧ s1.r (regMap TMP_REG2) = ov s (.mem b f w)) (Runs.of e ?_) (fun s1 ⟨p, v⟩ => tail s1 TMP_REG2 p v (by decide) (Or.inl (Or.inr rfl)))
      rw [hx, q2]
      refine ⟨⟨fun q g1 g2 => ?_, q2, q5⟩, set_r _ _ _⟩
      rw [set_ne _ g2, q1 q g2]

end Verif.A32
