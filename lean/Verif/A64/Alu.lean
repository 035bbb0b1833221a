import Verif.A64.Num

/-! # emit_op_imm with two registers (helper lemmas) -/

namespace Verif.A64
open Verif.Imm.Arm64 (regMap RD RN TMP_ZERO W_OP ORRI logicalImm loadImmediate)
open Verif (RV.OpC RV.Op RV.Flag RV.val RV.flagVal RV.Op.flagOk)

theorem W_pos (sf : Bool) : 0 < W sf := by cases sf <;> decide

theorem lo_up {sf : Bool} (x : BitVec (W sf)) : lo sf (up x) = x := by
  cases sf
  · exact BitVec.setWidth_setWidth_of_le (show BitVec 32 from x) (by decide : 32 ≤ 64)
  · exact BitVec.setWidth_setWidth_of_le (show BitVec 64 from x) (by decide : 64 ≤ 64)

theorem lo_zero (sf : Bool) : lo sf 0#64 = 0#_ := by cases sf <;> rfl

/-- What an operation may change and where its result is. -/
structure Res (sf : Bool) (s s' : St) (dst : Nat) (unused : Bool) (x : BitVec (W sf)) : Prop where
  m : s'.m = s.m
  keep : ∀ q, q ≠ regMap dst → q ≠ 9#5 → q ≠ 10#5 → q ≠ 30#5 → s'.r q = s.r q
  val : unused = false → lo sf (s'.r (regMap dst)) = x

/-- The code runs and computes the operation. -/
def Eff {sf : Bool} (op : RV.Op) (unused : Bool) (s : St) (c : Code) (dst : Nat) (a b : BitVec (W sf)) (cin : Bool) : Prop :=
  ∃ is s' x, c = some is ∧ runs is s = some s' ∧ Res sf s s' dst unused x ∧ Post op a b cin x s'.f

variable {sf : Bool} {op : RV.Op} {f : Fl} {s : St} {dst : Nat} {a b : BitVec (W sf)} {cin : Bool}

theorem set_get (s : St) (d : BitVec 5) (v : BitVec 64) : (s.set d v).r d = v := by simp [St.set]

theorem res_set (hd : regMap dst ≠ 31#5) (un : Bool) (x : BitVec (W sf)) (g : Flags) : Res sf s { s.setX (regMap dst) (up x) with f := g } dst un x := by
  refine ⟨?_, fun q h _ _ _ => ?_, fun _ => ?_⟩
  · simp [St.setX, hd, St.set]
  · simp [St.setX, hd, St.set, h]
  · simp [St.setX, hd, St.set, lo_up]

theorem res_set' (hd : regMap dst ≠ 31#5) (un : Bool) (x : BitVec (W sf)) : Res sf s (s.setX (regMap dst) (up x)) dst un x := by
  refine ⟨?_, fun q h _ _ _ => ?_, fun _ => ?_⟩
  · simp [St.setX, hd, St.set]
  · simp [St.setX, hd, St.set, h]
  · simp [St.setX, hd, St.set, lo_up]

theorem exec_addS (sub : Bool) (ty : BitVec 2) (n : Nat) (rm rn : BitVec 5) (s : St) : exec (.addReg sf sub true ty n rm rn (regMap TMP_ZERO)) s =
    some { s with f := flT (awc (lo sf (s.x rn)) (if sub then ~~~ shiftReg ty (lo sf (s.x rm)) n else shiftReg ty (lo sf (s.x rm)) n) sub) } := rfl

/-- The state after an addition with or without flags. -/
def aft (st : Bool) (s : St) (d : BitVec 5) (t : BitVec (W sf) × Bool × Bool) : St :=
  if st then { s.setX d (up t.1) with f := flT t } else s.setX d (up t.1)

theorem eff_triple {w : BitVec 32} (t : BitVec (W sf) × Bool × Bool) (hset : f.set = hasFlags op) (hd : regMap dst ≠ 31#5)
    (hs : step w s = some (aft f.set s (regMap (f.dst dst)) t)) (hp : Post op a b cin t.1 (flT t)) : Eff op f.unused s (some [w]) dst a b cin := by
  refine ⟨_, _, t.1, rfl, by rw [runs_one]; exact hs, ?_, ?_⟩
  · cases h : f.set
    · have e : f.dst dst = dst := by simp [Fl.dst, h]
      rw [e]; exact res_set' hd _ _
    · cases hu : f.unused
      · have e : f.dst dst = dst := by simp [Fl.dst, hu]
        rw [e]; exact res_set hd _ _ _
      · have e : f.dst dst = TMP_ZERO := by simp [Fl.dst, h, hu]
        rw [e]; exact ⟨rfl, fun _ _ _ _ _ => rfl, fun h => absurd h (by decide)⟩
  · cases h : f.set
    · rw [h] at hset; exact post_plain hset.symm hp.val
    · exact hp

/-- The SUBS of set_flags. -/
theorem setFlags_run {inv : BitVec 32} {sub : Bool} {ty : BitVec 2} (hty : ty = 0#2 ∨ ty = 1#2)
    (hi : ∀ s, step ((SUBS ^^^ inv) ||| RD TMP_ZERO ||| RN dst ||| RM TMP_ZERO) s = exec (.addReg sf sub true ty 0 (regMap TMP_ZERO) (regMap dst) (regMap TMP_ZERO)) s) (s : St) :
    ∃ g : Flags, runs (setFlags f inv dst) s = some { s with f := g } ∧ (f.set = true → g.z = decide (lo sf (s.x (regMap dst)) = 0#_)) := by
  unfold setFlags
  cases h : f.set
  · exact ⟨s.f, rfl, fun h => absurd h (by decide)⟩
  · refine ⟨_, runs_one ((hi s).trans (exec_addS ..)), fun _ => ?_⟩
    have ez : shiftReg ty (lo sf (s.x (regMap TMP_ZERO))) 0 = 0#_ := by
      rw [show s.x (regMap TMP_ZERO) = 0#64 from rfl, lo_zero]
      rcases hty with h | h <;> subst h
      · exact BitVec.zero_shiftLeft ..
      · exact BitVec.zero_ushiftRight ..
    simp only [ez, flT, nzcv]
    congr 1
    congr 1
    cases sub
    · simp [awc]
    · rw [if_pos rfl, awc_sub _ _ (W_pos sf)]; simp

theorem runs_cons (w : BitVec 32) (ws : List (BitVec 32)) (s : St) : runs (w :: ws) s = (step w s).bind (runs ws) := rfl

/-- A result in dst, then set_flags. -/
theorem eff_set {w : BitVec 32} {x : BitVec (W sf)} {inv : BitVec 32} {sub : Bool} {ty : BitVec 2} (hset : f.set = hasFlags op) (hd : regMap dst ≠ 31#5)
    (hs : step w s = some (s.setX (regMap dst) (up x))) (hf : op.flag = .none) (hx : x = RV.val op.code a b cin) (hty : ty = 0#2 ∨ ty = 1#2)
    (hi : ∀ s, step ((SUBS ^^^ inv) ||| RD TMP_ZERO ||| RN dst ||| RM TMP_ZERO) s = exec (.addReg sf sub true ty 0 (regMap TMP_ZERO) (regMap dst) (regMap TMP_ZERO)) s) :
    Eff op f.unused s (some (w :: setFlags f inv dst)) dst a b cin := by
  obtain ⟨g, h1, h2⟩ := setFlags_run (f := f) hty hi (s.setX (regMap dst) (up x))
  refine ⟨_, _, x, rfl, by rw [runs_cons, hs]; exact h1, res_set hd _ _ g, ?_⟩
  cases h : f.set
  · rw [h] at hset; exact post_plain hset.symm hx
  · refine post_z hf hx ?_
    rw [show ({ s.setX (regMap dst) (up x) with f := g } : St).f.z = g.z from rfl, h2 h]
    simp [St.x, hd, St.setX, set_get, lo_up]

/-- A result in dst, no flags. -/
theorem eff_plain {w : BitVec 32} {x : BitVec (W sf)} (hset : hasFlags op = false) (hd : regMap dst ≠ 31#5) (un : Bool)
    (hs : step w s = some (s.setX (regMap dst) (up x))) (hx : x = RV.val op.code a b cin) : Eff op un s (some [w]) dst a b cin :=
  ⟨_, _, x, rfl, by rw [runs_one]; exact hs, res_set' hd _ _, post_plain hset hx⟩

theorem sh0 {w : Nat} (x : BitVec w) : shiftReg 0#2 x 0 = x := BitVec.shiftLeft_zero ..

/-- The carry as the operation finds it. -/
def CarryOk (op : RV.Op) (cin : Bool) (g : Flags) : Prop := (op.code = .addc → g.c = cin) ∧ (op.code = .subc → g.c = !cin)

/-- The operations of emit_op_imm. -/
def known (o : RV.OpC) : Bool :=
  match o with
  | .add | .addc | .sub | .subc | .mul | .and | .or | .xor | .shl | .mshl | .lshr | .mlshr | .ashr | .mashr | .rotl | .rotr => true
  | _ => false

theorem setf (i : Bool) (dst : Nat) (s : St) : step ((SUBS ^^^ iv i) ||| RD TMP_ZERO ||| RN dst ||| RM TMP_ZERO) s = exec (.addReg (!i) true true 0#2 0 (regMap TMP_ZERO) (regMap dst) (regMap TMP_ZERO)) s := s_setFlags i

/-- Multiplication with the overflow flag. -/
theorem post_mul {a b : BitVec (W sf)} {g : Flags} (hc : op.code = .mul) (hf : op.flag = .none ∨ op.flag = .overflow) (hz : op.setZ = false)
    (h : g.z = decide (¬ (a.toInt * b.toInt < -2 ^ (W sf - 1) ∨ 2 ^ (W sf - 1) ≤ a.toInt * b.toInt))) {x : BitVec (W sf)} (hx : x = a * b) : Post op a b cin x g := by
  refine ⟨by rw [hc, val_mul, hx], fun h => (by rw [hz] at h; cases h), fun h' => ?_⟩
  rcases hf with hf | hf
  · exact absurd hf h'
  · rw [hf, hc]; simp only [ccOf, if_pos, h, decide_not, Bool.not_not, RV.flagVal]

theorem neg_mod (n : Nat) {w : Nat} (h : w = 32 ∨ w = 64) (b : BitVec w) (hn : n = (-b).toNat % w) : (b.toNat % w + n) % w = 0 := by
  subst hn
  have hb := b.isLt
  rw [BitVec.toNat_neg]
  rcases h with h | h <;> subst h <;> omega

theorem W_or (sf : Bool) : W sf = 32 ∨ W sf = 64 := by cases sf <;> simp [W]

theorem exec_two {o : BitVec 6} {rm rn : BitVec 5} {x : BitVec (W sf)} {d : BitVec 5} (h : twoF sf o (lo sf (s.x rn)) (lo sf (s.x rm)) = some x) :
    exec (.two sf o rm rn d) s = some (s.setX d (up x)) := by
  simp only [exec, h, Option.map_some]

theorem x_set {s : St} {d q : BitVec 5} {v : BitVec 64} (h : q ≠ d) : (s.set d v).x q = s.x q := by
  simp [St.x, St.set, h]

/-- emit_op_imm with two registers, :1077-1153. -/
theorem regOp_eff {f : Fl} {a1 a2 : Nat} (hk : known op.code = true) (hf : op.flagOk) (hset : f.set = hasFlags op) (hd : regMap dst ≠ 31#5) (hd' : regMap dst ≠ 30#5)
    (h1 : regMap a1 ≠ 10#5) (h1' : regMap a1 ≠ 30#5) (h2' : regMap a2 ≠ 30#5) (hc : CarryOk op cin s.f) :
    Eff op f.unused s (regOp (.op op.code) f dst a1 a2) dst (lo (!f.int) (s.x (regMap a1))) (lo (!f.int) (s.x (regMap a2))) cin := by
  cases ho : op.code <;> first | (exfalso; rw [ho] at hk; exact absurd hk (by decide)) | skip
  case add =>
    refine eff_triple (awc _ _ false) hset hd ?_ (post_add ho hf _ _ _)
    rw [s_add]; simp only [exec, sh0, Bool.false_eq_true, if_false]; unfold aft; split <;> rfl
  case addc =>
    refine eff_triple (awc _ _ s.f.c) hset hd ?_ (by rw [hc.1 ho]; exact post_addc ho hf _ _ _)
    rw [s_adc]; simp only [exec, Bool.false_eq_true, if_false]; unfold aft; split <;> rfl
  case sub =>
    refine eff_triple (awc _ (~~~ _) true) hset hd ?_ (post_sub ho (W_pos _) _ _ _)
    rw [s_sub]; simp only [exec, sh0, if_true]; unfold aft; split <;> rfl
  case subc =>
    refine eff_triple (awc _ (~~~ _) s.f.c) hset hd ?_ (by rw [hc.2 ho]; exact post_subc ho hf _ _ _)
    rw [s_sbc]; simp only [exec, if_true]; unfold aft; split <;> rfl
  case mul =>
    simp only [RV.Op.flagOk, ho] at hf
    simp only [regOp]
    cases hfs : f.set
    · rw [if_pos rfl]
      refine eff_plain (x := lo _ (s.x (regMap a1)) * lo _ (s.x (regMap a2))) (by rw [← hset, hfs]) hd _ ?_ (by rw [ho, val_mul])
      rw [show f.inv = iv f.int from rfl, s_madd]
      simp only [exec]
      rw [show s.x (regMap TMP_ZERO) = 0#64 from rfl, lo_zero, BitVec.zero_add]
    · rw [if_neg (by decide)]
      cases hi : f.int
      · rw [if_neg (by decide)]
        let s1 := s.set 30#5 (BitVec.ofInt 64 ((s.x (regMap a1)).toInt * (s.x (regMap a2)).toInt / 2 ^ 64))
        let s2 := s1.set (regMap dst) (s.x (regMap a1) * s.x (regMap a2))
        have e1 : step (SMULH ||| RD TMP_LR ||| RN a1 ||| RM a2) s = some s1 := by rw [s_smulh]; rfl
        have x1 : s1.x (regMap a1) = s.x (regMap a1) := x_set h1'
        have x2 : s1.x (regMap a2) = s.x (regMap a2) := x_set h2'
        have e2 : step (MADD ||| RD dst ||| RN a1 ||| RM a2 ||| RT2 TMP_ZERO) s1 = some s2 := by
          have := s_madd (s := s1) (d := dst) (n := a1) (m := a2) (a := TMP_ZERO) false
          rw [show iv false = 0#32 from rfl, BitVec.xor_zero] at this
          rw [this]; simp only [exec, x1, x2, Bool.not_false]
          rw [show s1.x (regMap TMP_ZERO) = 0#64 from rfl]
          simp only [St.setX, hd, if_false]
          show some (s1.set (regMap dst) ((((0#64).setWidth 64 + (s.x (regMap a1)).setWidth 64 * (s.x (regMap a2)).setWidth 64 : BitVec 64)).setWidth 64)) = _
          simp only [BitVec.setWidth_eq, BitVec.zero_add]; rfl
        have y1 : s2.x 30#5 = BitVec.ofInt 64 ((s.x (regMap a1)).toInt * (s.x (regMap a2)).toInt / 2 ^ 64) := by
          rw [show s2.x 30#5 = s1.x 30#5 from x_set hd'.symm]; rfl
        have y2 : s2.x (regMap dst) = s.x (regMap a1) * s.x (regMap a2) := by simp [s2, St.x, hd, set_get]
        have e3 := (s_subsAsr (s := s2) (d := TMP_ZERO) (n := TMP_LR) (m := dst)).trans (exec_addS ..)
        refine ⟨_, { s2 with f := _ }, (s.x (regMap a1) * s.x (regMap a2)), rfl, by rw [runs_cons, e1, Option.bind_some, runs_cons, e2, Option.bind_some]; exact runs_one e3, ⟨rfl, fun q q1 _ _ q2 => ?_, fun _ => ?_⟩, ?_⟩
        · show s2.r q = s.r q
          simp [s2, s1, St.set, q1, q2]
        · show (s2.r (regMap dst)).setWidth 64 = _
          simp [s2, set_get]
        · have key := mul_ov64 (s.x (regMap a1)) (s.x (regMap a2))
          refine post_mul ho hf.1 hf.2 ?_ (by show _ = BitVec.setWidth 64 _ * BitVec.setWidth 64 _; rw [BitVec.setWidth_eq, BitVec.setWidth_eq])
          have ea : (lo (!false) (s.x (regMap a1))).toInt = (s.x (regMap a1)).toInt := by show (BitVec.setWidth 64 _).toInt = _; rw [BitVec.setWidth_eq]
          have eb : (lo (!false) (s.x (regMap a2))).toInt = (s.x (regMap a2)).toInt := by show (BitVec.setWidth 64 _).toInt = _; rw [BitVec.setWidth_eq]
          rw [ea, eb]
          show decide ((awc ((s2.x 30#5).setWidth 64) (~~~ ((s2.x (regMap dst)).setWidth 64).sshiftRight 63) true).1 = 0#64) = _
          rw [awc_sub _ _ (by decide), y1, y2, BitVec.setWidth_eq, BitVec.setWidth_eq]
          exact decide_eq_decide.2 key
      · rw [if_pos rfl]
        let p := ((s.x (regMap a1)).setWidth 32).signExtend 64 * ((s.x (regMap a2)).setWidth 32).signExtend 64
        let s1 := s.set (regMap dst) p
        let s2 := s1.set 30#5 (p.sshiftRight 31)
        have e1 : step (SMADDL ||| RD dst ||| RN a1 ||| RM a2 ||| (31#32 <<< 10)) s = some s1 := by
          rw [s_smaddl]; simp only [exec, St.setX, hd, if_false]; rw [show s.x 31#5 = 0#64 from rfl, BitVec.zero_add]
        have x1 : s1.x (regMap dst) = p := by simp [s1, St.x, hd, set_get]
        have e2 : step (ADD ||| RD TMP_LR ||| RN TMP_ZERO ||| RM dst ||| (2#32 <<< 22) ||| (31#32 <<< 10)) s1 = some s2 := by
          rw [s_addAsr]; simp only [exec, Bool.false_eq_true, if_false, x1]
          have : (awc (lo true (s1.x (regMap TMP_ZERO))) (shiftReg 2#2 (lo true p) 31) false).1 = p.sshiftRight 31 := by
            rw [show s1.x (regMap TMP_ZERO) = 0#64 from rfl]
            show BitVec.ofNat 64 (0 + ((p.setWidth 64).sshiftRight 31).toNat + 0) = _
            rw [BitVec.setWidth_eq]; simp
          rw [this]
          show some (s1.set 30#5 ((p.sshiftRight 31).setWidth 64)) = _
          rw [BitVec.setWidth_eq]
        have y1 : s2.x 30#5 = p.sshiftRight 31 := rfl
        have y2 : s2.x (regMap dst) = p := by rw [show s2.x (regMap dst) = s1.x (regMap dst) from x_set hd']; exact x1
        have hlo := mul_lo32 ((s.x (regMap a1)).setWidth 32) ((s.x (regMap a2)).setWidth 32)
        have e3 := (s_subsAsr (s := s2) (d := TMP_ZERO) (n := TMP_LR) (m := dst)).trans (exec_addS ..)
        refine ⟨_, { s2 with f := _ }, p.setWidth 32, rfl, by rw [runs_cons, e1, Option.bind_some, runs_cons, e2, Option.bind_some]; exact runs_one e3, ⟨rfl, fun q q1 _ _ q2 => ?_, fun _ => ?_⟩, ?_⟩
        · show s2.r q = s.r q
          simp [s2, s1, St.set, q1, q2]
        · show (s2.r (regMap dst)).setWidth 32 = _
          have : s2.r (regMap dst) = p := by simp [s2, s1, St.set, hd']
          rw [this]
        · have key := mul_ov32 ((s.x (regMap a1)).setWidth 32) ((s.x (regMap a2)).setWidth 32)
          refine post_mul ho hf.1 hf.2 ?_ hlo
          show decide ((awc ((s2.x 30#5).setWidth 64) (~~~ ((s2.x (regMap dst)).setWidth 64).sshiftRight 63) true).1 = 0#64) = _
          rw [awc_sub _ _ (by decide), y1, y2, BitVec.setWidth_eq, BitVec.setWidth_eq]
          exact decide_eq_decide.2 key
  case and =>
    simp only [RV.Op.flagOk, ho] at hf
    simp only [regOp]
    refine eff_triple (lo _ (s.x (regMap a1)) &&& lo _ (s.x (regMap a2)), false, false) hset hd ?_ (post_z hf (by rw [ho]; rfl) rfl)
    rw [s_and]; simp only [exec, sh0]; unfold aft
    cases f.set <;> rfl
  case or =>
    simp only [RV.Op.flagOk, ho] at hf
    exact eff_set hset hd (x := lo _ (s.x (regMap a1)) ||| lo _ (s.x (regMap a2))) (by rw [show f.inv = iv f.int from rfl, s_orr]; simp only [exec, sh0]; rfl) hf (by rw [ho]; rfl) (.inl rfl) (setf f.int dst)
  case xor =>
    simp only [RV.Op.flagOk, ho] at hf
    exact eff_set hset hd (x := lo _ (s.x (regMap a1)) ^^^ lo _ (s.x (regMap a2))) (by rw [show f.inv = iv f.int from rfl, s_eor]; simp only [exec, sh0]; rfl) hf (by rw [ho]; rfl) (.inl rfl) (setf f.int dst)
  case shl | mshl =>
    simp only [RV.Op.flagOk, ho] at hf
    exact eff_set hset hd (x := lo _ (s.x (regMap a1)) <<< ((lo _ (s.x (regMap a2))).toNat % _)) (by rw [show f.inv = iv f.int from rfl, s_lslv, exec_two (x := lo _ (s.x (regMap a1)) <<< ((lo _ (s.x (regMap a2))).toNat % _)) rfl]) hf (by rw [ho]; rfl) (.inl rfl) (setf f.int dst)
  case lshr | mlshr =>
    simp only [RV.Op.flagOk, ho] at hf
    exact eff_set hset hd (x := lo _ (s.x (regMap a1)) >>> ((lo _ (s.x (regMap a2))).toNat % _)) (by rw [show f.inv = iv f.int from rfl, s_lsrv, exec_two (x := lo _ (s.x (regMap a1)) >>> ((lo _ (s.x (regMap a2))).toNat % _)) rfl]) hf (by rw [ho]; rfl) (.inl rfl) (setf f.int dst)
  case ashr | mashr =>
    simp only [RV.Op.flagOk, ho] at hf
    exact eff_set hset hd (x := (lo _ (s.x (regMap a1))).sshiftRight ((lo _ (s.x (regMap a2))).toNat % _)) (by rw [show f.inv = iv f.int from rfl, s_asrv, exec_two (x := (lo _ (s.x (regMap a1))).sshiftRight ((lo _ (s.x (regMap a2))).toNat % _)) rfl]) hf (by rw [ho]; rfl) (.inl rfl) (setf f.int dst)
  case rotr =>
    simp only [RV.Op.flagOk, ho] at hf
    exact eff_plain (by simp [hasFlags, hf.1, hf.2]) hd _ (x := (lo _ (s.x (regMap a1))).rotateRight ((lo _ (s.x (regMap a2))).toNat % _)) (by rw [show f.inv = iv f.int from rfl, s_rorv, exec_two (x := (lo _ (s.x (regMap a1))).rotateRight ((lo _ (s.x (regMap a2))).toNat % _)) rfl]) (by rw [ho]; rfl)
  case rotl =>
    simp only [RV.Op.flagOk, ho] at hf
    let v : BitVec 64 := up (-(lo (!f.int) (s.x (regMap a2))))
    let s1 := s.set 10#5 v
    have e1 : step ((SUB ^^^ f.inv) ||| RD TMP_REG2 ||| RN TMP_ZERO ||| RM a2) s = some s1 := by
      rw [show f.inv = iv f.int from rfl, s_sub']
      simp only [exec, sh0, if_true, Bool.false_eq_true, if_false]
      rw [awc_sub _ _ (W_pos _), show s.x (regMap TMP_ZERO) = 0#64 from rfl, lo_zero, BitVec.zero_sub]; rfl
    have x1 : s1.x (regMap a1) = s.x (regMap a1) := x_set h1
    have x2 : s1.x 10#5 = v := rfl
    let x := (lo (!f.int) (s.x (regMap a1))).rotateRight ((lo (!f.int) v).toNat % W (!f.int))
    have e2 : step ((RORV ^^^ f.inv) ||| RD dst ||| RN a1 ||| RM TMP_REG2) s1 = some (s1.setX (regMap dst) (up x)) := by
      rw [show f.inv = iv f.int from rfl, s_rorv, exec_two (x := x) (by rw [x1, show s1.x (regMap TMP_REG2) = v from rfl]; rfl)]
    have r := res_set' (s := s1) hd f.unused x
    refine ⟨_, _, x, rfl, by rw [runs_cons, e1, Option.bind_some, runs_one]; exact e2, ⟨r.m, fun q q1 q2 q3 q4 => ?_, r.val⟩, post_plain (by simp [hasFlags, hf.1, hf.2]) ?_⟩
    · rw [← show s1.r q = s.r q by simp [s1, St.set, q3]]; exact r.keep q q1 q2 q3 q4
    · rw [ho]
      show (lo (!f.int) (s.x (regMap a1))).rotateRight ((lo (!f.int) v).toNat % W (!f.int)) = (lo (!f.int) (s.x (regMap a1))).rotateLeft ((lo (!f.int) (s.x (regMap a2))).toNat % W (!f.int))
      refine (rotl_rotr _ _ _ ?_).symm
      exact neg_mod _ (W_or _) _ (by rw [lo_up])

end Verif.A64
