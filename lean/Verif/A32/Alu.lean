import Verif.A32.Rest

/-! # emit_op of ARM32 for the data processing operations (helper lemmas) -/

namespace Verif.A32
open Verif.Imm.A32 (fld expand)
open Verif.Imm.Arm32 (regMap RM RD RN TMP_REG1 TMP_REG2 SRC2_IMM getImm computeImm Item loadImmediate IsImm getImm_sound computeImm_sound Pair)
open Verif (RV.OpC RV.Op RV.Flag RV.val RV.flagVal RV.Op.flagOk)

theorem sing_alu {op : RV.Op} {o : RV.OpC} (ho : isAlu o = true) {set inv swap : Bool} {k : BitVec 32} {dst : Opd} (hd : DstOk dst) {s : St} {A P} {a b b' : BitVec 32} {cin : Bool}
    (h : ∀ cc s1 x, s1.c = s.c → A x → PostT op a b cin (tri o swap inv x b' cc s1)) :
    Sing s o (flOf set inv swap dst) k dst A P b' (RV.val op.code a b cin) (FlagsOk op a b cin) := by
  intro s1 r1 x hp h14 h15 ha hx _ hb
  obtain ⟨cc, e⟩ := single_alu ho (f := flOf set inv swap dst) (k := k) (dr := dstReg dst) (src1 := r1) (x := x) (dstReg_ok hd) h15 hx s1
  refine e.mono (fun s' d => ?_)
  rw [hb] at d
  obtain ⟨p1, p2⟩ := h cc s1 _ hp.c ha
  exact ⟨d.keep, fun hu => (d.val hu).trans p1, d.mem, fun hs => p2 _ _ _ _ (d.flags hs)⟩

/-- The carry before the operation. -/
def CarryIn (op : RV.Op) (s : St) (cin : Bool) : Prop := (op.code = .addc → s.c = cin) ∧ (op.code = .subc → s.c = !cin)

theorem log_flag {op : RV.Op} (hf : op.flagOk) (h : op.code = .and ∨ op.code = .or ∨ op.code = .xor) : op.flag = .none := by
  rcases h with h | h | h <;> (rw [RV.Op.flagOk, h] at hf; exact hf)

theorem core {op : RV.Op} (ho : isAlu op.code = true) (hf : op.flagOk) {s s1 : St} {cin : Bool} (hc : CarryIn op s cin) (h1 : s1.c = s.c) (a b : BitVec 32) (cc : Bool) :
    PostT op a b cin (tri op.code false false a b cc s1) := by
  cases h : op.code <;> rw [h] at ho <;> first | exact absurd ho (by decide) | skip
  case add => exact post_add h hf a b cin
  case addc => rw [tri, h1, hc.1 h]; exact post_addc h hf a b cin
  case sub => exact post_sub h a b cin
  case subc => simp only [tri, Bool.false_eq_true, if_false]; rw [h1, hc.2 h]; exact post_subc h hf a b cin
  case and => exact post_z (log_flag hf (by simp [h])) a b cin (by rw [h]; rfl)
  case or => exact post_z (log_flag hf (by simp [h])) a b cin (by rw [h]; rfl)
  case xor => exact post_z (log_flag hf (by simp [h])) a b cin (by rw [h]; rfl)

theorem core_swap {op : RV.Op} (ho : isAlu op.code = true) (hf : op.flagOk) {s s1 : St} {cin : Bool} (hc : CarryIn op s cin) (h1 : s1.c = s.c) (a b : BitVec 32) (cc : Bool) :
    PostT op a b cin (tri op.code true false b a cc s1) := by
  cases h : op.code <;> rw [h] at ho <;> first | exact absurd ho (by decide) | skip
  case add => rw [tri, awc_comm]; exact post_add h hf a b cin
  case addc => rw [tri, h1, hc.1 h, awc_comm]; exact post_addc h hf a b cin
  case sub => simp only [tri, if_true]; rw [awc_comm]; exact post_sub h a b cin
  case subc => simp only [tri, if_true]; rw [h1, hc.2 h, awc_comm]; exact post_subc h hf a b cin
  case and => exact post_z (log_flag hf (by simp [h])) a b cin (by rw [h]; exact BitVec.and_comm b a)
  case or => exact post_z (log_flag hf (by simp [h])) a b cin (by rw [h]; exact BitVec.or_comm b a)
  case xor => exact post_z (log_flag hf (by simp [h])) a b cin (by rw [h]; exact BitVec.xor_comm b a)

theorem getImm_ne {w : BitVec 32} (h : getImm w = 0#32) : w ≠ 0#32 ∧ w ≠ 0x80000000#32 :=
  ⟨fun e => by rw [e] at h; revert h; decide, fun e => by rw [e] at h; revert h; decide⟩

/-- The operations with a negated constant. -/
theorem core_neg {op : RV.Op} {no : RV.OpC} (hn : negOp op.code = some no) (hf : op.flagOk) {s s1 : St} {cin : Bool} (hc : CarryIn op s cin) (h1 : s1.c = s.c) (a w : BitVec 32) (cc : Bool)
    (hw : getImm w = 0#32) : PostT op a w cin (tri no false false a (if no = .add ∨ no = .sub then -w else ~~~ w) cc s1) := by
  obtain ⟨w0, wm⟩ := getImm_ne hw
  cases h : op.code <;> rw [h] at hn <;> simp only [negOp, Option.some.injEq, reduceCtorEq] at hn <;> subst hn
  case add => simp only [tri, Bool.false_eq_true, if_false, reduceCtorEq, or_true, if_true]; rw [awc_neg_sub a w0 wm]; exact post_add h hf a w cin
  case addc => simp only [tri, Bool.false_eq_true, if_false, reduceCtorEq, or_self, BitVec.not_not]; rw [h1, hc.1 h]; exact post_addc h hf a w cin
  case sub => simp only [tri, true_or, if_true]; rw [awc_neg_add a w0 wm]; exact post_sub h a w cin
  case subc => simp only [tri, reduceCtorEq, or_self, if_false]; rw [h1, hc.2 h]; exact post_subc h hf a w cin

/-- The constants with which emit_op goes wrong are excluded. -/
structure Safe (op : RV.Op) (set : Bool) (src1 src2 : Opd) : Prop where
  dbl2 : op.code = .addc ∨ op.code = .subc → set = false → ∀ w, src2 = .imm w → getImm w = 0#32 → getImm (~~~ w) = 0#32 → computeImm (-w) = none
  neg1 : op.code = .addc → ∀ w, src1 = .imm w → getImm w = 0#32 → getImm (-w) = 0#32
  dbl1 : op.code = .addc → set = false → ∀ w, src1 = .imm w → getImm w = 0#32 → computeImm (-w) = none
  xor : op.code = .xor → src1 = .imm (-1#32) → ∀ w, src2 = .imm w → getImm w = 0#32 → getImm (~~~ w) ≠ 0#32 → w = -1#32

/-! ## Two immediates -/

theorem awc_val (x y : BitVec 32) (c : Bool) : (awc x y c).1 = x + y + BitVec.ofNat 32 c.toNat := by
  show BitVec.ofNat 32 (x.toNat + y.toNat + c.toNat) = _
  rw [BitVec.ofNat_add, BitVec.ofNat_add, BitVec.ofNat_toNat, BitVec.ofNat_toNat, BitVec.setWidth_eq, BitVec.setWidth_eq]

theorem not_neg (x : BitVec 32) : ~~~ x = -x - 1#32 := by
  have := BitVec.neg_eq_not_add x
  rw [this, BitVec.add_sub_cancel]

theorem xor_or {x y : BitVec 32} (h : x &&& y = 0#32) : x ^^^ y = x ||| y := by
  apply BitVec.eq_of_getLsbD_eq
  intro i hi
  have := congrArg (fun v => v.getLsbD i) h
  simp only [BitVec.getLsbD_and, BitVec.getLsbD_zero] at this
  rw [BitVec.getLsbD_xor, BitVec.getLsbD_or]
  cases h1 : x.getLsbD i <;> cases h2 : y.getLsbD i <;> rw [h1, h2] at this <;> first | rfl | cases this

/-- compute_imm of the constant itself. -/
theorem dbl_same {op : RV.Op} {nx : RV.OpC → RV.OpC} {w i1 i2 : BitVec 32} (ho : isAlu op.code = true) (hand : op.code ≠ .and) (hP : Pair w i1 i2) {s : St} {cin : Bool} (hc : CarryIn op s cin) (hf : op.flagOk)
    (hnx : nx = next2 ∨ nx = next1 ∧ op.code ≠ .subc) (a : BitVec 32) : Dbl s nx op.code i1 i2 (· = a) (RV.val op.code a w cin) := by
  obtain ⟨p1, p2, p3, p4⟩ := hP
  have hadd : expand (i1.extractLsb' 0 12) + expand (i2.extractLsb' 0 12) = w := by rw [← p3, BitVec.add_eq_or_of_and_eq_zero _ _ p4]
  have hxor := (xor_or p4).trans p3
  generalize hx1 : expand (i1.extractLsb' 0 12) = x1 at *
  generalize hx2 : expand (i2.extractLsb' 0 12) = x2 at *
  have hval : ∀ cc s1, s1.c = s.c → RV.val op.code a w cin = (tri op.code false false a w cc s1).1 := fun cc s1 h => (core ho hf hc h a w cc).1.symm
  have nxo : nx op.code = next2 op.code := by
    rcases hnx with rfl | ⟨rfl, h⟩
    · rfl
    · simp [next1, next2, h]
  refine ⟨p1, p2, ho, ?_, ?_⟩
  · rw [nxo]; cases h : op.code <;> rw [h] at ho <;> first | exact absurd ho (by decide) | rfl
  · rintro x cc cc' s1 s2 h1 rfl
    rw [nxo, hval cc s1 h1, hx1, hx2]
    cases h : op.code <;> rw [h] at ho <;> first | exact absurd ho (by decide) | skip
    case add => simp only [next2, tri, reduceCtorEq, if_false, awc_val, ← hadd]; simp; ac_rfl
    case addc => simp only [next2, tri, if_true, awc_val, ← hadd]; simp; ac_rfl
    case sub => simp only [next2, tri, reduceCtorEq, Bool.false_eq_true, if_false, sub_val, ← hadd]; simp only [BitVec.sub_eq_add_neg, BitVec.neg_add]; ac_rfl
    case subc =>
      show (awc (awc x (~~~ x1) s1.c).1 (~~~ x2) true).1 = (awc x (~~~ w) s1.c).1
      rw [sub_val, awc_val, awc_val, ← hadd, not_neg x1, not_neg (x1 + x2)]
      generalize BitVec.ofNat 32 s1.c.toNat = u
      simp only [BitVec.sub_eq_add_neg, BitVec.neg_add]
      generalize -x1 = y1, -x2 = y2, -1#32 = y3
      ac_rfl
    case and => exact absurd h hand
    case or => show x ||| x1 ||| x2 = x ||| w; rw [← p3, BitVec.or_assoc]
    case xor => show x ^^^ x1 ^^^ x2 = x ^^^ w; rw [← hxor, BitVec.xor_assoc]

/-- compute_imm of the negated constant. -/
theorem dbl_neg {op : RV.Op} {nx : RV.OpC → RV.OpC} {w i1 i2 : BitVec 32} {no : RV.OpC} (hn : op.code = .add ∧ no = .sub ∨ op.code = .sub ∧ no = .add) (hP : Pair (-w) i1 i2) {s : St} {cin : Bool}
    (hnx : nx = next2 ∨ nx = next1) (a : BitVec 32) : Dbl s nx no i1 i2 (· = a) (RV.val op.code a w cin) := by
  obtain ⟨p1, p2, p3, p4⟩ := hP
  have hadd : expand (i1.extractLsb' 0 12) + expand (i2.extractLsb' 0 12) = -w := by rw [← p3, BitVec.add_eq_or_of_and_eq_zero _ _ p4]
  generalize hx1 : expand (i1.extractLsb' 0 12) = x1 at *
  generalize hx2 : expand (i2.extractLsb' 0 12) = x2 at *
  have nxo : nx no = no := by
    rcases hn with ⟨-, rfl⟩ | ⟨-, rfl⟩ <;> rcases hnx with rfl | rfl <;> rfl
  have hal : isAlu no = true := by rcases hn with ⟨-, rfl⟩ | ⟨-, rfl⟩ <;> rfl
  refine ⟨p1, p2, hal, by rw [nxo]; exact hal, ?_⟩
  rintro x cc cc' s1 s2 h1 rfl
  rw [nxo, hx1, hx2]
  rcases hn with ⟨h, rfl⟩ | ⟨h, rfl⟩
  · rw [h, show RV.val .add x w cin = (awc x w false).1 from rfl, awc_add]
    simp only [tri, Bool.false_eq_true, if_false, sub_val]
    have : w = -(x1 + x2) := by rw [hadd, BitVec.neg_neg]
    rw [this]; simp only [BitVec.sub_eq_add_neg, BitVec.neg_add]; ac_rfl
  · have e : RV.val .sub x w cin = x - w := by
      rw [← sub_val]; exact ((post_sub (op := ⟨.sub, false, false, .none⟩) rfl x w cin).1).symm
    rw [h, e]
    simp only [tri, awc_add]
    have : w = -(x1 + x2) := by rw [hadd, BitVec.neg_neg]
    rw [this]; simp only [BitVec.sub_eq_add_neg, BitVec.neg_neg]; ac_rfl

end Verif.A32
