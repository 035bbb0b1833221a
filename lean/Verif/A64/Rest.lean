import Verif.A64.Op1
import Verif.RISCV.Api2

/-! # sljit_emit_op0, sljit_emit_op_flags and sljit_emit_select (helper lemmas) -/

namespace Verif.A64
open Verif.Imm.Arm64 (regMap RD RN TMP_ZERO W_OP ORRI loadImmediate)
open Verif (RV.OpC RV.Op RV.Flag RV.val RV.flagVal RV.Op.flagOk RV.Op0)

variable {s : St}

/-! ## op_flags -/

/-- CSINC of the zero register. -/
theorem s_cset (cc : BitVec 4) {d : Nat} (hd : regMap d ≠ 31#5) : step (CSINC ||| ccBits cc ||| RD d ||| RN TMP_ZERO ||| RM TMP_ZERO) s =
    some (s.set (regMap d) (if cond cc s.f then 0#64 else 1#64)) := by
  rw [s_csinc, exec, setX_ne _ _ hd, show s.x (regMap TMP_ZERO) = 0#64 from rfl]
  cases cond cc s.f <;> rfl

theorem flagsMov_run (mov32 : Bool) {dst : Opd} (hd : Dst1 dst) (cc : BitVec 4) (s : St) :
    ∃ is s', emitFlagsMov mov32 dst cc = some is ∧ runs is s = some s' ∧ Fin1 s s' dst true (2 ^ szOf mov32) (if cond cc s.f then 0#64 else 1#64) := by
  have hdr : regMap (dreg dst) ≠ 31#5 ∧ regMap (dreg dst) ≠ 10#5 := by
    cases dst with
    | reg d => exact ⟨(ur_map hd).2.2.2, (ur_map hd).2.1⟩
    | imm _ => exact absurd hd id
    | mem _ _ _ => exact ⟨show regMap TMP_REG1 ≠ 31#5 by decide, show regMap TMP_REG1 ≠ 10#5 by decide⟩
  have e := s_cset (s := s) cc hdr.1
  cases dst with
  | imm _ => exact absurd hd id
  | reg d =>
    refine ⟨_, _, rfl, runs_one e, fun q _ _ q3 => set_ne _ _ (q3 d rfl), fun d' h => ?_, fun _ _ _ h => (by cases h), fun _ => rfl, rfl⟩
    cases h
    show lo true ((s.set (regMap d) _).r (regMap d)) = _
    rw [set_self]
  | mem base offs w =>
    obtain ⟨is, s', e1, e2, e3, e4, e5⟩ := store_run (t := ⟨szOf mov32, false, true⟩) (sz_ok mov32) (fun _ => rfl) rfl hd (r := TMP_REG1) (by decide) (s.set (regMap TMP_REG1) (if cond cc s.f then 0#64 else 1#64))
    refine ⟨(CSINC ||| ccBits cc ||| RD TMP_REG1 ||| RN TMP_ZERO ||| RM TMP_ZERO) :: is, s', ?_, ?_, fun q q1 q2 _ => (e4 q q2).trans (set_ne _ _ (show q ≠ regMap TMP_REG1 from q1)), fun _ h => (by cases h), fun b o w' h => ?_, fun h => absurd rfl (h base offs w), e3⟩
    · simp only [emitFlagsMov, e1]; rfl
    · rw [runs_cons]
      exact (congrArg (fun o : Option St => o.bind (runs is)) e).trans e2
    · cases h
      rw [e5, x_ne (show regMap TMP_REG1 ≠ 31#5 by decide), set_self, ea_eq hd (fun q q1 _ _ => set_ne _ _ (show q ≠ regMap TMP_REG1 from q1))]; rfl

/-- The operations of op_flags. -/
theorem flagsOp_run {op : RV.Op} (hk : known op.code = true) (hf : op.flagOk) (ho : op.code ≠ .addc ∧ op.code ≠ .subc) {dst : Opd} (hd : Dst1 dst) (cc : BitVec 4) (s : St) :
    ∃ is s' x, emitFlagsOp op dst cc = some is ∧ runs is s = some s' ∧ Fin s s' dst x ∧
      Post op (ov (!op.is32) s dst) (if cond cc s.f then 0#_ else 1#_) false x s'.f := by
  have hu : Usr dst := by
    cases dst with
    | imm _ => exact absurd hd id
    | reg d => exact hd
    | mem _ _ _ => exact hd
  have hdr : regMap (dreg dst) ≠ 31#5 ∧ regMap (dreg dst) ≠ 30#5 := by
    cases dst with
    | reg d => exact ⟨(ur_map hd).2.2.2, (ur_map hd).2.2.1⟩
    | imm _ => exact absurd hd id
    | mem _ _ _ => exact ⟨show regMap TMP_REG1 ≠ 31#5 by decide, show regMap TMP_REG1 ≠ 30#5 by decide⟩
  obtain ⟨i1, s1, a1, a2, a3, a4, a5, a6⟩ := loadArg_run op.is32 (tmp := TMP_REG1) (.inl rfl) hu s
  have e := s_cset (s := s1) cc (d := TMP_REG2) (by decide)
  let s2 := s1.set (regMap TMP_REG2) (if cond cc s1.f then 0#64 else 1#64)
  have hv : argV s2 (loadArg (szOf op.is32) TMP_REG1 dst).2 = argV s1 (loadArg (szOf op.is32) TMP_REG1 dst).2 := a6 s2 ⟨rfl, rfl, fun q hq => set_ne _ _ hq⟩
  obtain ⟨i2, s3, x, b1, b2, b3, b4⟩ := emitOpImm_eff (op := op) (s := s2) (cin := false) (f := ⟨op.is32, hasFlags op, false⟩) (dst := dreg dst) (arg2 := .reg TMP_REG2) hk hf rfl hdr.1 hdr.2
    (a5 10#5 (by decide) (.inr rfl)) ⟨by decide, by decide, by decide⟩ ⟨fun h => absurd h ho.1, fun h => absurd h ho.2⟩
  have hp : Post op (ov (!op.is32) s dst) (if cond cc s.f then 0#_ else 1#_) false x s3.f := by
    rw [← a4, ← hv]
    have : lo (!op.is32) (argV s2 (.reg TMP_REG2)) = if cond cc s.f then 0#_ else 1#_ := by
      show lo _ (s2.x (regMap TMP_REG2)) = _
      rw [x_ne (by decide), show s2.r (regMap TMP_REG2) = _ from set_self _ _ _, a3.f]
      split
      · exact lo_zero _
      · cases op.is32 <;> rfl
    rw [← this]; exact b4
  have hm3 : s3.m = s.m := b3.m.trans a3.m
  have hk3 : ∀ q, q ≠ regMap (dreg dst) → q ≠ 9#5 → q ≠ 10#5 → q ≠ 30#5 → s3.r q = s.r q := fun q q0 q1 q2 q3 => (b3.keep q q0 q1 q2 q3).trans ((set_ne _ _ (show q ≠ regMap TMP_REG2 from q2)).trans (a3.keep q q1))
  have r12 : ∀ rest, runs (i1 ++ ((CSINC ||| ccBits cc ||| RD TMP_REG2 ||| RN TMP_ZERO ||| RM TMP_ZERO) :: (i2 ++ rest))) s = runs rest s3 := by
    intro rest
    rw [runs_app a2, runs_cons, e, Option.bind_some]
    exact runs_app b2
  cases dst with
  | imm _ => exact absurd hd id
  | reg d =>
    refine ⟨i1 ++ ((CSINC ||| ccBits cc ||| RD TMP_REG2 ||| RN TMP_ZERO ||| RM TMP_ZERO) :: (i2 ++ [])), s3, x, ?_, r12 [], ⟨fun q q1 q2 q3 q4 => hk3 q (q4 d rfl) q1 q2 q3, fun d' h _ => ?_, fun _ _ _ h => (by cases h), fun _ => hm3⟩, hp⟩
    · simp only [emitFlagsOp, a1]
      change (some i1 +> some _ +> emitOpImm (.op op.code) ⟨op.is32, hasFlags op, false⟩ (dreg (.reg d)) (loadArg (szOf op.is32) TMP_REG1 (.reg d)).2 (.reg TMP_REG2) +> some []) = _
      rw [b1]; rfl
    · cases h; exact b3.val rfl
  | mem base offs w =>
    obtain ⟨i4, s4, c1, c2, c3, c4, c5⟩ := store_run (t := ⟨szOf op.is32, false, true⟩) (sz_ok op.is32) (fun _ => rfl) rfl hd (r := TMP_REG1) (by decide) s3
    refine ⟨i1 ++ ((CSINC ||| ccBits cc ||| RD TMP_REG2 ||| RN TMP_ZERO ||| RM TMP_ZERO) :: (i2 ++ i4)), s4, x, ?_, (r12 i4).trans c2, ⟨fun q q1 q2 q3 _ => (c4 q q2).trans (hk3 q q1 q1 q2 q3), fun _ h => (by cases h), fun b o w' h => ?_, fun h => absurd rfl (h base offs w)⟩, by rw [c3]; exact hp⟩
    · simp only [emitFlagsOp, a1, c1]
      change (some i1 +> some _ +> emitOpImm (.op op.code) ⟨op.is32, hasFlags op, false⟩ (dreg (.mem base offs w)) (loadArg (szOf op.is32) TMP_REG1 (.mem base offs w)).2 (.reg TMP_REG2) +> some i4) = _
      rw [b1]; rfl
    · cases h
      rw [c5, hm3, ea_eq hd (fun q q1 q2 q3 => hk3 q q1 q1 q2 q3), sz_div, x_ne (show regMap TMP_REG1 ≠ 31#5 by decide)]
      exact wr_lo (b3.val rfl) _ _

/-! ## select -/

theorem rd_lo (m : BitVec 64 → BitVec 8) : ∀ (k j : Nat) (a : BitVec 64) (i : Nat), i < 8 * k → (rd m a (k + j)).getLsbD i = (rd m a k).getLsbD i := by
  intro k
  induction k with
  | zero => intro j a i hi; omega
  | succ k ih =>
    intro j a i hi
    rw [show k + 1 + j = (k + j) + 1 by omega, rd, rd, BitVec.getLsbD_or, BitVec.getLsbD_or, BitVec.getLsbD_shiftLeft, BitVec.getLsbD_shiftLeft]
    rcases Nat.lt_or_ge i 8 with h | h
    · simp [h]
    · rw [ih j _ _ (by omega)]

theorem select_run (int : Bool) {dst src2 : Nat} (hd : Ur dst) (h2 : Ur src2) {src1 : Opd} (h1 : Usr src1) (cc : BitVec 4) (s : St) :
    ∃ is s', emitSelect int dst src1 src2 cc = some is ∧ runs is s = some s' ∧ Fin s s' (.reg dst) (if cond cc s.f then ov (!int) s (.reg src2) else ov (!int) s src1) ∧ s'.f = s.f := by
  obtain ⟨d1, d2, d3, d4⟩ := ur_map hd
  obtain ⟨y1, y2, y3, y4⟩ := ur_map h2
  have tail : ∀ {a : Code} {ia : List (BitVec 32)} {s1 : St} {r : Nat}, a = some ia → runs ia s = some s1 → Near 10#5 s s1 → regMap r ≠ 31#5 → lo (!int) (s1.r (regMap r)) = ov (!int) s src1 →
      ∃ is s', (a +> some [(CSEL ^^^ iv int) ||| ccBits cc ||| RD dst ||| RN src2 ||| RM r]) = some is ∧ runs is s = some s' ∧ Fin s s' (.reg dst) (if cond cc s.f then ov (!int) s (.reg src2) else ov (!int) s src1) ∧ s'.f = s.f := by
    intro a ia s1 r h1 h2 h3 h4 h5
    subst h1
    have e := s_csel (s := s1) (d := dst) (n := src2) (m := r) int cc
    rw [exec, setX_ne _ _ d4] at e
    refine ⟨_, _, rfl, by rw [runs_app h2, runs_cons, e, Option.bind_some, runs], ⟨fun q q1 q2 q3 q4 => (set_ne _ _ (q4 dst rfl)).trans (h3.keep q q2), fun d h _ => ?_, fun _ _ _ h => (by cases h), fun _ => h3.m⟩, h3.f⟩
    cases h
    rw [set_self, lo_up, h3.f, x_ne y4, h3.keep _ y2, x_ne h4, h5]
    simp only [Bool.false_eq_true, if_false]; rfl
  unfold emitSelect
  cases src1 with
  | reg r => exact tail (a := some []) rfl rfl ⟨rfl, rfl, fun _ _ => rfl⟩ (ur_map h1).2.2.2 rfl
  | imm v =>
    obtain ⟨ws, e1, e2⟩ := li_run TMP_REG2 (by decide) (if int then (v.setWidth 32).signExtend 64 else v) s
    refine tail (r := TMP_REG2) e1 e2 ⟨rfl, rfl, fun q hq => set_ne _ _ hq⟩ (by decide) ?_
    rw [set_self]
    show _ = lo (!int) v
    cases int
    · rfl
    · apply BitVec.eq_of_getLsbD_eq; intro i hi
      have hi : i < 32 := hi
      simp only [if_true]
      rw [lo_bit _ _ _ hi, lo_bit _ _ _ hi, BitVec.getLsbD_signExtend, BitVec.getLsbD_setWidth]; simp [hi, show i < 64 by omega]
  | mem base offs w =>
    obtain ⟨is, s1, e1, e2, e3, e4⟩ := load_run (t := ⟨3, false, false⟩) (by decide) (fun _ => rfl) rfl h1 (.inr rfl) s
    refine tail (r := TMP_REG2) e1 e2 e3 (by decide) ?_
    rw [e4]
    show lo (!int) (rd s.m (ea s base offs w) 8) = lo (!int) (rd s.m (ea s base offs w) (W (!int) / 8))
    cases int
    · rfl
    · apply BitVec.eq_of_getLsbD_eq; intro i hi
      have hi : i < 32 := hi
      rw [lo_bit _ _ _ hi, lo_bit _ _ _ hi]
      exact rd_lo s.m 4 4 _ i hi

/-! ## op0 -/

theorem set_set (s : St) (d : BitVec 5) (u v : BitVec 64) : (s.set d u).set d v = s.set d v := by
  simp only [St.set]; congr 1; funext q; split <;> rfl

/-- LMUL. -/
theorem lmul_run (sg : Bool) (s : St) :
    runs [MOV ||| RD TMP_REG1 ||| RM 1, MADD ||| RD 1 ||| RN 1 ||| RM 2 ||| RT2 TMP_ZERO, (if sg then SMULH else UMULH) ||| RD 2 ||| RN TMP_REG1 ||| RM 2] s =
      some (((s.set 9#5 (s.r 0#5)).set 0#5 (s.r 0#5 * s.r 1#5)).set 1#5
        (if sg then BitVec.ofInt 64 ((s.r 0#5).toInt * (s.r 1#5).toInt / 2 ^ 64) else BitVec.ofNat 64 ((s.r 0#5).toNat * (s.r 1#5).toNat / 2 ^ 64))) := by
  have e1 := s_mov (s := s) (d := TMP_REG1) (m := 1) false
  rw [show iv false = 0#32 from rfl, BitVec.xor_zero, setX_ne _ _ (by decide), x_ne (by decide)] at e1
  have z : ∀ x : BitVec 64, up (lo (!false) x) = x := fun x => by show (x.setWidth 64).setWidth 64 = x; simp
  rw [z, show regMap TMP_REG1 = 9#5 from rfl, show regMap 1 = 0#5 from rfl] at e1
  have e2 := s_madd (s := s.set 9#5 (s.r 0#5)) (d := 1) (n := 1) (m := 2) (a := TMP_ZERO) false
  rw [show iv false = 0#32 from rfl, BitVec.xor_zero, exec, setX_ne _ _ (by decide), x_ne (show regMap 1 ≠ 31#5 by decide), x_ne (show regMap 2 ≠ 31#5 by decide)] at e2
  have e2' : step (MADD ||| RD 1 ||| RN 1 ||| RM 2 ||| RT2 TMP_ZERO) (s.set 9#5 (s.r 0#5)) = some ((s.set 9#5 (s.r 0#5)).set 0#5 (s.r 0#5 * s.r 1#5)) := by
    rw [e2]
    congr 2
    show BitVec.setWidth 64 ((0#64).setWidth 64 + (s.r 0#5).setWidth 64 * (s.r 1#5).setWidth 64) = _
    simp
  rw [runs_cons, e1, Option.bind_some, runs_cons, e2', Option.bind_some]
  cases sg
  · refine runs_one ?_
    rw [if_neg (by decide), s_umulh]
    rfl
  · refine runs_one ?_
    rw [if_pos rfl, s_smulh]
    rfl

/-- The quotient. -/
def quot (sg sf : Bool) (a b : BitVec (W sf)) : BitVec (W sf) := if sg then BitVec.ofInt _ (a.toInt.tdiv b.toInt) else BitVec.ofNat _ (a.toNat / b.toNat)

theorem s_div (sg i : Bool) {d n m : Nat} : step (((if sg then SDIV else UDIV) ^^^ iv i) ||| RD d ||| RN n ||| RM m) s =
    some (s.setX (regMap d) (up (quot sg (!i) (lo (!i) (s.x (regMap n))) (lo (!i) (s.x (regMap m)))))) := by
  cases sg
  · rw [if_neg (by decide), s_udiv, exec_two rfl]; rfl
  · rw [if_pos rfl, s_sdiv, exec_two rfl]; rfl

/-- DIVMOD. -/
theorem divmod_run (sg i : Bool) (s : St) :
    ∃ s', runs [(MOV ^^^ iv i) ||| RD TMP_REG1 ||| RM 1, ((if sg then SDIV else UDIV) ^^^ iv i) ||| RD 1 ||| RN 1 ||| RM 2,
      (MADD ^^^ iv i) ||| RD 2 ||| RN 1 ||| RM 2 ||| RT2 TMP_ZERO, (SUB ^^^ iv i) ||| RD 2 ||| RN TMP_REG1 ||| RM 2] s = some s' ∧ s'.m = s.m ∧ s'.f = s.f ∧
      (∀ q, q ≠ 9#5 → q ≠ 0#5 → q ≠ 1#5 → s'.r q = s.r q) ∧
      lo (!i) (s'.r 0#5) = quot sg (!i) (lo (!i) (s.r 0#5)) (lo (!i) (s.r 1#5)) ∧
      lo (!i) (s'.r 1#5) = lo (!i) (s.r 0#5) - quot sg (!i) (lo (!i) (s.r 0#5)) (lo (!i) (s.r 1#5)) * lo (!i) (s.r 1#5) := by
  have r9 : regMap TMP_REG1 = 9#5 := rfl
  have r0 : regMap 1 = 0#5 := rfl
  have r1 : regMap 2 = 1#5 := rfl
  have e1 := s_mov (s := s) (d := TMP_REG1) (m := 1) i
  rw [setX_ne _ _ (by decide), x_ne (by decide), r9, r0] at e1
  generalize ha : lo (!i) (s.r 0#5) = a at e1
  generalize hb : lo (!i) (s.r 1#5) = b
  have e2 := s_div (s := s.set 9#5 (up a)) sg i (d := 1) (n := 1) (m := 2)
  rw [setX_ne _ _ (by decide), x_ne (by decide), x_ne (by decide), r0, r1, set_ne _ _ (by decide), set_ne _ _ (by decide), ha, hb] at e2
  generalize hq : quot sg (!i) a b = c at e2
  have e3 := s_madd (s := (s.set 9#5 (up a)).set 0#5 (up c)) (d := 2) (n := 1) (m := 2) (a := TMP_ZERO) i
  rw [exec, setX_ne _ _ (by decide), x_ne (show regMap 1 ≠ 31#5 by decide), x_ne (show regMap 2 ≠ 31#5 by decide), r0, r1, set_self, lo_up, set_ne _ _ (by decide), set_ne _ _ (by decide), hb,
    show ((s.set 9#5 (up a)).set 0#5 (up c)).x (regMap TMP_ZERO) = 0#64 from rfl, lo_zero, BitVec.zero_add] at e3
  have e4 := s_sub' (s := ((s.set 9#5 (up a)).set 0#5 (up c)).set 1#5 (up (c * b))) (d := 2) (n := TMP_REG1) (m := 2) i
  simp only [exec, sh0, if_true, Bool.false_eq_true, if_false] at e4
  rw [awc_sub _ _ (W_pos _), setX_ne _ _ (by decide), x_ne (show regMap TMP_REG1 ≠ 31#5 by decide), x_ne (show regMap 2 ≠ 31#5 by decide), r1, r9, set_self, lo_up, set_ne _ _ (by decide), set_ne _ _ (by decide), set_self, lo_up, set_set] at e4
  refine ⟨((s.set 9#5 (up a)).set 0#5 (up c)).set 1#5 (up (a - c * b)), by rw [runs_cons, e1, Option.bind_some, runs_cons, e2, Option.bind_some, runs_cons, e3, Option.bind_some]; exact runs_one e4, rfl, rfl, fun q q1 q2 q3 => ?_, ?_, ?_⟩
  · rw [set_ne _ _ q3, set_ne _ _ q2, set_ne _ _ q1]
  · rw [set_ne _ _ (by decide), set_self, lo_up]
  · rw [set_self, lo_up]

end Verif.A64
