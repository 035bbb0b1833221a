import Verif.A32.Single
import Verif.RISCV.OpSpec

/-! # Effect of the shifts of emit_single_op of ARM32 (helper lemmas) -/

namespace Verif.A32
open Verif.Imm.A32 (fld expand)
open Verif.Imm.Arm32 (regMap RM RD RN TMP_REG1 TMP_REG2 SRC2_IMM getImm computeImm Item loadImmediate IsImm zero_bits getImm_sound computeImm_sound)
open Verif.Imm.Arm32 (ADC ADD AND BIC EOR MOV MVN ORR RSB RSC SBC SUB MOVW MOVT)
open Verif (RV.OpC RV.Op RV.Flag)

/-- The state after an operation which sets Z only by its result. -/
def DoneZ (s s' : St) (dr : BitVec 4) (un set : Bool) (x : BitVec 32) : Prop := Done s s' dr un set x (fun _ z _ _ => z = decide (x = 0#32))

/-- MOV with a shifted register. -/
theorem mov_sh {f : Fl} {dr : Nat} (hd : regMap dr ≠ 15#4) {q : BitVec 12} {s : St} {b : BitVec 32 × Bool} (hb : op2 false q s = some b) (h2 : q.getLsbD 4 = false ∨ q.getLsbD 7 = false)
    {w : BitVec 32} (hw : MOV ||| f.s ||| RD dr ||| q.setWidth 32 = w) : Runs (some [.ins w]) s (fun s' => DoneZ s s' (regMap dr) f.unused f.set b.1) := by
  have e := step_dp (b := MOV) (by decide) f.set (regMap dr) 0#4 false q s (Or.inl (by decide)) (Or.inr h2)
  rw [exec_dp (by decide) hd (fun _ => rfl) (fun h => absurd h (by decide)) hb] at e
  refine Runs.of (s' := dpState (fld MOV 21 4) f.set (regMap dr) (s.r 0#4) b s) ((runs_one _ _).trans ?_) ?_
  · rw [← e, ← hw]
    congr 1
    simp [iBit, Fl.s, sBit, RD]
  · have := done_dp (opc := fld MOV 21 4) (S := f.set) (d := regMap dr) (a := s.r 0#4) (b := b) (s := s) (un := f.unused) (fun h => absurd h (by decide)) (dr := regMap dr) (fun _ => rfl)
    exact ⟨this.keep, this.val, this.mem, fun h => (this.flags h).2.1⟩

/-- Two preparing instructions. -/
theorem step_tmp {b : BitVec 32} {src : Nat} {x w : BitVec 32} (hx : IsImm x) (hb : Base b) (h1 : fld b 23 2 ≠ 2#2) (h3 : fld b 21 4 ≠ 13#4 ∧ fld b 21 4 ≠ 15#4) (h2 : isTest (fld b 21 4) = false)
    (hs : regMap src ≠ 15#4) (s : St) (hw : b ||| RD TMP_REG2 ||| RN src ||| x = w) :
    ∃ c, step w s = some (s.set 14#4 (dpRes (fld b 21 4) (s.r (regMap src)) (expand (x.extractLsb' 0 12), c) s).1) := by
  subst hw
  exact step_set (d := TMP_REG2) hb (x := .imm x) hx s h1 hs (by decide) h3 h2

theorem step_rsb0 {src : Nat} (hs : regMap src ≠ 15#4) (s : St) :
    step (RSB ||| SRC2_IMM ||| RD TMP_REG2 ||| RN src ||| 0#32) s = some (s.set 14#4 (- s.r (regMap src))) := by
  obtain ⟨c, e⟩ := step_tmp (b := RSB) (x := SRC2_IMM) (show _ = _ by decide) (by decide) (by decide) (by decide) (by decide) hs s
    (w := RSB ||| SRC2_IMM ||| RD TMP_REG2 ||| RN src ||| 0#32) (by rw [BitVec.or_zero]; generalize RD TMP_REG2 = x, RN src = y, RSB = z, SRC2_IMM = u; ac_rfl)
  rw [e]
  congr 2
  show (awc (~~~ s.r (regMap src)) (expand 0#12) true).1 = _
  generalize s.r (regMap src) = a
  apply BitVec.eq_of_toNat_eq
  have := a.isLt
  show ((~~~ a).toNat + 0 + 1) % 2 ^ 32 = _
  rw [BitVec.toNat_not, BitVec.toNat_neg]; congr 1; omega

theorem step_and31 {src : Nat} (hs : regMap src ≠ 15#4) (s : St) {w : BitVec 32} (hw : w = AND ||| RD TMP_REG2 ||| RN src ||| (SRC2_IMM ||| 0x1f#32)) :
    step w s = some (s.set 14#4 (s.r (regMap src) &&& 0x1f#32)) := by
  obtain ⟨c, e⟩ := step_tmp (b := AND) (x := SRC2_IMM ||| 0x1f#32) (show _ = _ by decide) (by decide) (by decide) (by decide) (by decide) hs s (w := w) hw.symm
  rw [e]
  rfl

/-- The shift types. -/
theorem shiftC_val (ty : BitVec 2) (x : BitVec 32) (n : Nat) (c : Bool) : (shiftC ty x n c).1 =
    if ty = 0#2 then x <<< n else if ty = 1#2 then x >>> n else if ty = 2#2 then x.sshiftRight n else x.rotateRight n := by
  have hty : ty = 0#2 ∨ ty = 1#2 ∨ ty = 2#2 ∨ ty = 3#2 := by revert ty; decide
  unfold shiftC
  by_cases hn : n = 0
  · subst hn
    rcases hty with rfl | rfl | rfl | rfl <;> simp [BitVec.rotateRight, BitVec.rotateRightAux]
  · rw [if_neg hn]; rcases hty with rfl | rfl | rfl | rfl <;> rfl

/-- shift_type. -/
def shTy : RV.OpC → BitVec 2
  | .shl | .mshl => 0#2
  | .lshr | .mlshr => 1#2
  | .ashr | .mashr => 2#2
  | _ => 3#2

def shMasked : RV.OpC → Bool
  | .mshl | .mlshr | .mashr => true
  | _ => false

def isShift : RV.OpC → Bool
  | .shl | .mshl | .lshr | .mlshr | .ashr | .mashr | .rotl | .rotr => true
  | _ => false

theorem shiftKind_eq {op : RV.OpC} (h : isShift op = true) : shiftKind op = some ((shTy op).setWidth 32, shMasked op) := by
  cases op <;> first | exact absurd h (by decide) | rfl

/-- Counts which the operations with an unmasked count accept. -/
def CountOk (op : RV.OpC) (b : BitVec 32) : Prop := op = .shl ∨ op = .lshr ∨ op = .ashr → b.toNat < 32

theorem rotl_rotr (a : BitVec 32) {n : Nat} (hn : n < 32) : a.rotateLeft n = a.rotateRight ((32 - n) % 32) := by
  by_cases h : n = 0
  · subst h
    apply BitVec.eq_of_getLsbD_eq
    intro i hi
    rw [BitVec.getLsbD_rotateLeft, BitVec.getLsbD_rotateRight]
    simp [-BitVec.getLsbD_eq_getElem, hi]
  · have e : (32 - n) % 32 = 32 - n := Nat.mod_eq_of_lt (by omega)
    rw [e]
    apply BitVec.eq_of_getLsbD_eq
    intro i hi
    rw [BitVec.getLsbD_rotateLeft, BitVec.getLsbD_rotateRight]
    simp only [Nat.mod_eq_of_lt hn, Nat.mod_eq_of_lt (show 32 - n < 32 by omega), hi, decide_true, Bool.true_and]
    by_cases hc : i < n
    · rw [decide_eq_true hc, decide_eq_true (by omega)]; rfl
    · rw [decide_eq_false hc, decide_eq_false (by omega)]; simp only [cond_false]; congr 1; omega

theorem rotr_mod (a : BitVec 32) (n : Nat) : a.rotateRight (n % 32) = a.rotateRight n := by
  unfold BitVec.rotateRight; rw [Nat.mod_mod]

/-- What the shifter computes, with the prepared count. -/
def prepared (op : RV.OpC) (b : BitVec 32) : BitVec 32 := if op = .rotl then -b else if shMasked op then b &&& 0x1f#32 else b

theorem shift_val {op : RV.OpC} (h : isShift op = true) (a b : BitVec 32) (hb : CountOk op b) (cin : Bool) (c : Bool) :
    (shiftC (shTy op) a ((prepared op b).setWidth 8).toNat c).1 = RV.val op a b cin := by
  rw [shiftC_val]
  have e8 : ∀ x : BitVec 32, (x.setWidth 8).toNat = x.toNat % 256 := fun x => by rw [BitVec.toNat_setWidth]
  have em : ((b &&& 0x1f#32).setWidth 8).toNat = b.toNat % 32 := by
    rw [e8, BitVec.toNat_and, show (0x1f#32).toNat = 2 ^ 5 - 1 from rfl, Nat.and_two_pow_sub_one_eq_mod]; omega
  have eu : b.toNat < 32 → (b.setWidth 8).toNat = b.toNat % 32 := fun h => by rw [e8]; omega
  cases op <;> first | exact absurd h (by decide) | skip
  case shl => show a <<< (b.setWidth 8).toNat = _; rw [eu (hb (by simp))]; rfl
  case lshr => show a >>> (b.setWidth 8).toNat = _; rw [eu (hb (by simp))]; rfl
  case ashr => show a.sshiftRight (b.setWidth 8).toNat = _; rw [eu (hb (by simp))]; rfl
  case mshl => show a <<< ((b &&& 0x1f#32).setWidth 8).toNat = _; rw [em]; rfl
  case mlshr => show a >>> ((b &&& 0x1f#32).setWidth 8).toNat = _; rw [em]; rfl
  case mashr => show a.sshiftRight ((b &&& 0x1f#32).setWidth 8).toNat = _; rw [em]; rfl
  case rotr =>
    show a.rotateRight _ = a.rotateRight (b.toNat % 32)
    rw [show prepared .rotr b = b from rfl, e8, ← rotr_mod]; congr 1; omega
  case rotl =>
    show a.rotateRight _ = a.rotateLeft (b.toNat % 32)
    rw [show prepared .rotl b = -b from rfl, e8, rotl_rotr _ (Nat.mod_lt _ (by decide)), ← rotr_mod]; congr 1
    rw [BitVec.toNat_neg]
    have := b.isLt
    omega

/-- Register counts. -/
theorem single_shift {op : RV.OpC} (ho : isShift op = true) {f : Fl} {dr src1 src2 : Nat} (hd : regMap dr ≠ 15#4) (hn : regMap src1 ≠ 15#4) (hn' : regMap src1 ≠ 14#4) (hx : regMap src2 ≠ 15#4)
    (s : St) (hc : CountOk op (s.r (regMap src2))) (cin : Bool) :
    Runs (emitSingle op f 0x20#32 dr src1 (.reg src2)) s (fun s' => DoneZ s s' (regMap dr) f.unused f.set (RV.val op (s.r (regMap src1)) (s.r (regMap src2)) cin)) := by
  have he : emitSingle op f 0x20#32 dr src1 (.reg src2) = emitShift op f 0x20#32 dr src1 src2 := by
    cases op <;> first | exact absurd ho (by decide) | rfl
  rw [he, emitShift, shiftKind_eq ho]
  have h14 : regMap TMP_REG2 = 14#4 := by decide
  -- the last instruction
  have last : ∀ (r : Nat) (s1 : St), regMap r ≠ 15#4 → s1.r (regMap src1) = s.r (regMap src1) → s1.r (regMap r) = prepared op (s.r (regMap src2)) →
      Runs (some [.ins (MOV ||| f.s ||| RD dr ||| RM8 r ||| ((shTy op).setWidth 32 <<< 5) ||| 0x10#32 ||| RM src1)]) s1
        (fun s' => DoneZ s1 s' (regMap dr) f.unused f.set (RV.val op (s.r (regMap src1)) (s.r (regMap src2)) cin)) := by
    intro r s1 hr h1 h2
    have := mov_sh (f := f) hd (op2_rsr hn hr (shTy op) s1) ?_ (w := MOV ||| f.s ||| RD dr ||| RM8 r ||| ((shTy op).setWidth 32 <<< 5) ||| 0x10#32 ||| RM src1) ?_
    · rw [h1, h2, shift_val ho _ _ hc cin] at this
      exact this
    · right; simp [-BitVec.getLsbD_eq_getElem]
    · rw [RM, RM8]
      generalize regMap r = q
      generalize regMap src1 = q1
      generalize shTy op = ty
      generalize MOV ||| f.s ||| RD dr = base
      have : (q.setWidth 12 <<< 8 ||| ty.setWidth 12 <<< 5 ||| 0x10#12 ||| q1.setWidth 12).setWidth 32 = q.setWidth 32 <<< 8 ||| ty.setWidth 32 <<< 5 ||| 0x10#32 ||| q1.setWidth 32 := by
        bits []
      rw [this]; ac_rfl
  have after : ∀ (v : BitVec 32) (s' : St), DoneZ (s.set 14#4 v) s' (regMap dr) f.unused f.set (RV.val op (s.r (regMap src1)) (s.r (regMap src2)) cin) →
      DoneZ s s' (regMap dr) f.unused f.set (RV.val op (s.r (regMap src1)) (s.r (regMap src2)) cin) := by
    intro v s' h
    exact ⟨fun q h1 h2 h3 => (h.keep q h1 h2 h3).trans (set_ne s h3 v), h.val, h.mem, h.flags⟩
  by_cases hl : op = .rotl
  · subst hl
    simp only [Option.map_some, shMasked, and_self, ne_eq, not_true_eq_false, if_false, if_true, Bool.false_eq_true, List.append_nil, and_false]
    obtain ⟨is, s', e1, e2, e3⟩ := last TMP_REG2 (s.set 14#4 (- s.r (regMap src2))) (by decide) (set_ne s hn' _) (by rw [h14, set_r]; rfl)
    refine ⟨_, s', rfl, ?_, after _ s' e3⟩
    simp only [Option.some.injEq] at e1
    rw [← e1] at e2
    simp only [List.cons_append, List.nil_append, runs, step_rsb0 hx, Option.bind_some]
    simpa [runs] using e2
  · simp only [Option.map_some, hl, false_and, if_false, ne_eq, not_true_eq_false, List.nil_append]
    cases hm : shMasked op
    · simp only [Bool.false_eq_true, if_false, List.nil_append]
      exact last src2 s hx rfl (by simp only [prepared, hl, hm, if_false, Bool.false_eq_true])
    · simp only [if_true]
      obtain ⟨is, s', e1, e2, e3⟩ := last TMP_REG2 (s.set 14#4 (s.r (regMap src2) &&& 0x1f#32)) (by decide) (set_ne s hn' _)
        (by rw [h14, set_r]; simp only [prepared, hl, hm, if_false, if_true])
      refine ⟨_, s', rfl, ?_, after _ s' e3⟩
      simp only [Option.some.injEq] at e1
      rw [← e1] at e2
      simp only [List.cons_append, List.nil_append, runs, step_and31 hx s (w := AND ||| RD TMP_REG2 ||| RN src2 ||| SRC2_IMM ||| 31#32) (by rw [BitVec.or_assoc]), Option.bind_some]
      simpa [runs] using e2

/-- Constant counts. -/
theorem single_shift_imm {op : RV.OpC} (ho : isShift op = true) {f : Fl} {dr src1 src2 : Nat} (hd : regMap dr ≠ 15#4) (hx : regMap src2 ≠ 15#4)
    (s : St) (w : BitVec 32) (cin : Bool) :
    Runs (emitSingle op f (w &&& 0x1f#32) dr src1 (.reg src2)) s (fun s' => DoneZ s s' (regMap dr) f.unused f.set (RV.val op (s.r (regMap src2)) w cin)) := by
  have he : emitSingle op f (w &&& 0x1f#32) dr src1 (.reg src2) = emitShift op f (w &&& 0x1f#32) dr src1 src2 := by
    cases op <;> first | exact absurd ho (by decide) | rfl
  rw [he, emitShift, shiftKind_eq ho]
  have em : (w &&& 0x1f#32).toNat = w.toNat % 32 := by
    rw [BitVec.toNat_and, show (0x1f#32).toNat = 2 ^ 5 - 1 from rfl, Nat.and_two_pow_sub_one_eq_mod]
  have hk : w &&& 0x1f#32 ≠ 0x20#32 := fun h => by
    have := congrArg BitVec.toNat h
    rw [em] at this
    have h2 := Nat.mod_lt w.toNat (show 0 < 32 by decide)
    simp at this; omega
  generalize hj : (if op = .rotl then (-(w &&& 0x1f#32)) &&& 0x1f#32 else w &&& 0x1f#32) = j
  have hjn : j.toNat = if op = .rotl then (32 - w.toNat % 32) % 32 else w.toNat % 32 := by
    subst hj
    split
    · rw [BitVec.toNat_and, show (0x1f#32).toNat = 2 ^ 5 - 1 from rfl, Nat.and_two_pow_sub_one_eq_mod, BitVec.toNat_neg, em]
      have := Nat.mod_lt w.toNat (show 0 < 32 by decide)
      omega
    · exact em
  have hj32 : j.toNat < 32 := by rw [hjn]; split <;> exact Nat.mod_lt _ (by decide)
  have hj20 : j ≠ 0x20#32 := fun h => by rw [h] at hj32; exact absurd hj32 (by decide)
  have hv : ∀ c, (shiftC (shTy op) (s.r (regMap src2)) j.toNat c).1 = RV.val op (s.r (regMap src2)) w cin := by
    intro c
    rw [shiftC_val, hjn]
    cases op <;> first | exact absurd ho (by decide) | rfl | skip
    show (s.r (regMap src2)).rotateRight _ = (s.r (regMap src2)).rotateLeft (w.toNat % 32)
    rw [rotl_rotr _ (Nat.mod_lt _ (by decide))]; rfl
  simp only [Option.map_some, hk, not_false_eq_true, and_true, and_false, ne_eq, if_false, List.nil_append, hj, hj20, if_true]
  by_cases h0 : j = 0#32
  · simp only [h0, not_true_eq_false, if_false]
    have := mov_sh (f := f) hd (op2_reg hx s) (by left; simp [-BitVec.getLsbD_eq_getElem]) (w := MOV ||| f.s ||| RD dr ||| RM src2) (by rw [RM]; congr 1)
    rw [← hv s.c, h0]
    exact this
  · simp only [h0, not_false_eq_true, if_true]
    have h5 : j.setWidth 5 ≠ 0#5 := fun h => h0 (by
      have := congrArg BitVec.toNat h
      rw [BitVec.toNat_setWidth, Nat.mod_eq_of_lt hj32] at this
      exact BitVec.eq_of_toNat_eq this)
    have := mov_sh (f := f) hd (op2_sh hx (shTy op) h5 s) (by left; simp [-BitVec.getLsbD_eq_getElem])
      (w := MOV ||| f.s ||| RD dr ||| (j <<< 7) ||| ((shTy op).setWidth 32 <<< 5) ||| RM src2) ?_
    · rw [BitVec.toNat_setWidth, Nat.mod_eq_of_lt hj32, hv] at this
      exact this
    · rw [RM]
      have e5 : (j.setWidth 5).setWidth 32 = j := BitVec.eq_of_toNat_eq (by rw [BitVec.toNat_setWidth, BitVec.toNat_setWidth]; omega)
      generalize j.setWidth 5 = j5 at e5
      subst e5
      generalize regMap src2 = q
      generalize shTy op = ty
      have : (j5.setWidth 12 <<< 7 ||| ty.setWidth 12 <<< 5 ||| q.setWidth 12).setWidth 32 = j5.setWidth 32 <<< 7 ||| ty.setWidth 32 <<< 5 ||| q.setWidth 32 := by
        bits []
      rw [this]; ac_rfl

end Verif.A32
