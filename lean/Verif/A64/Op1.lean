import Verif.A64.Into
import Verif.RISCV.Op1Spec

/-! # sljit_emit_op1 (helper lemmas) -/

namespace Verif.A64
open Verif.Imm.Arm64 (regMap RD RN TMP_ZERO W_OP ORRI loadImmediate)
open Verif (RV.Op1C RV.IsClz RV.IsCtz RV.IsRev RV.byte)

/-! ## Values -/

theorem bfm_ext {w k : Nat} (x : BitVec w) (h : k ≤ w) (h0 : 0 < k) : bfm false x 0 (k - 1) = (x.setWidth k).setWidth w := by
  rw [bfm, if_pos (Nat.zero_le _)]
  simp only [Bool.false_eq_true, if_false]
  rw [BitVec.ushiftRight_zero]
  apply BitVec.eq_of_getLsbD_eq; intro i hi
  rw [BitVec.getLsbD_ushiftRight, BitVec.getLsbD_shiftLeft, BitVec.getLsbD_setWidth, BitVec.getLsbD_setWidth]
  rcases Nat.lt_or_ge i k with hk | hk
  · simp [hi, hk, show w - 1 - (k - 1) + i < w by omega]
  · simp [show ¬ i < k by omega, show ¬ w - 1 - (k - 1) + i < w by omega]

theorem bfm_sext {w k : Nat} (x : BitVec w) (h : k ≤ w) (h0 : 0 < k) : bfm true x 0 (k - 1) = (x.setWidth k).signExtend w := by
  rw [bfm, if_pos (Nat.zero_le _)]
  simp only [if_true]
  rw [BitVec.sshiftRight_zero]
  apply BitVec.eq_of_getLsbD_eq; intro i hi
  rw [BitVec.getLsbD_sshiftRight, BitVec.getLsbD_signExtend]
  rcases Nat.lt_or_ge i k with hk | hk
  · simp [hi, hk, show ¬ w ≤ i by omega, show w - 1 - (k - 1) + i < w by omega, -BitVec.getLsbD_eq_getElem]
  · simp only [show ¬ w ≤ i by omega, show ¬ i < k by omega, show ¬ w - 1 - (k - 1) + i < w by omega, hi, decide_true, decide_false, Bool.not_false, Bool.true_and, if_false]
    rw [BitVec.msb_eq_getLsbD_last, BitVec.msb_eq_getLsbD_last, BitVec.getLsbD_shiftLeft, BitVec.getLsbD_setWidth]
    simp [show w - 1 < w by omega, show k - 1 < k by omega, -BitVec.getLsbD_eq_getElem, show ¬ w - 1 < w - 1 - (k - 1) by omega]
    congr 1; omega

theorem clz_is {w : Nat} (x : BitVec w) : ∃ n, n ≤ w ∧ clz x = BitVec.ofNat w n ∧ RV.IsClz x n := by
  unfold clz
  by_cases hx : x = 0#w
  · refine ⟨w, Nat.le_refl _, by rw [if_pos hx], Nat.le_refl _, fun i _ => by simp [hx], fun h => absurd h (Nat.lt_irrefl _)⟩
  · have h0 : x.toNat ≠ 0 := fun h => hx (BitVec.eq_of_toNat_eq h)
    have hl : Nat.log2 x.toNat < w := by
      rw [Nat.log2_lt h0]; exact x.isLt
    have hlt : x.toNat < 2 ^ (Nat.log2 x.toNat + 1) := Nat.lt_log2_self
    refine ⟨w - 1 - Nat.log2 x.toNat, by omega, by rw [if_neg hx], by omega, fun i hi => ?_, fun _ => ?_⟩
    · rw [BitVec.getMsbD_eq_getLsbD, BitVec.getLsbD]
      rw [Nat.testBit_lt_two_pow (Nat.lt_of_lt_of_le hlt (Nat.pow_le_pow_right (by decide) (by omega)))]; simp
    · rw [BitVec.getMsbD_eq_getLsbD, BitVec.getLsbD, show w - 1 - (w - 1 - Nat.log2 x.toNat) = Nat.log2 x.toNat by omega, Nat.testBit_log2 h0]
      simp; omega

theorem ctz_is {w : Nat} (x : BitVec w) : ∃ n, n ≤ w ∧ clz x.reverse = BitVec.ofNat w n ∧ RV.IsCtz x n := by
  obtain ⟨n, h1, h2, h3, h4, h5⟩ := clz_is x.reverse
  refine ⟨n, h1, h2, h3, fun i hi => ?_, fun hn => ?_⟩
  · have := h4 i hi; rwa [BitVec.getMsbD_reverse] at this
  · have := h5 hn; rwa [BitVec.getMsbD_reverse] at this

theorem up_num {w n : Nat} (h : n ≤ w) (hw : w = 32 ∨ w = 64) : up (BitVec.ofNat w n) = BitVec.ofNat 64 n := by
  apply BitVec.eq_of_toNat_eq
  rw [up, BitVec.toNat_setWidth, BitVec.toNat_ofNat, BitVec.toNat_ofNat]
  rcases hw with rfl | rfl <;> omega

theorem revB_bit {w : Nat} (k : Nat) (x : BitVec w) {i : Nat} (h : i < w) : (revB k x).getLsbD i = x.getLsbD (i / (8 * k) * (8 * k) + (k - 1 - i % (8 * k) / 8) * 8 + i % 8) := by
  simp [revB, h]

theorem up_bit {w : Nat} (x : BitVec w) {i : Nat} (h : i < 64) : (up x).getLsbD i = x.getLsbD i := by
  rw [up, BitVec.getLsbD_setWidth]; simp [h]

theorem revB_is (sf : Bool) (a : BitVec 64) {k : Nat} (hk : k = 2 ∨ k = 4 ∨ k = 8) (hw : 8 * k ≤ W sf) : RV.IsRev k a (up (revB k (lo sf a))) := by
  intro i hi
  have h64 : W sf ≤ 64 := W_le sf
  apply BitVec.eq_of_getLsbD_eq; intro j hj
  have hlt : 8 * i + j < W sf := by omega
  rw [RV.byte, RV.byte, BitVec.getLsbD_extractLsb', BitVec.getLsbD_extractLsb', up_bit _ (by omega), revB_bit _ _ hlt,
    show (8 * i + j) / (8 * k) = 0 from Nat.div_eq_of_lt (by omega), show (8 * i + j) % (8 * k) = 8 * i + j from Nat.mod_eq_of_lt (by omega)]
  have e : 0 * (8 * k) + (k - 1 - (8 * i + j) / 8) * 8 + (8 * i + j) % 8 = 8 * (k - 1 - i) + j := by omega
  rw [e, lo_bit _ _ _ (by omega)]

theorem rev_congr {k : Nat} {a x y : BitVec 64} (h : ∀ i, i < 8 * k → x.getLsbD i = y.getLsbD i) (hr : RV.IsRev k a x) : RV.IsRev k a y := by
  intro i hi
  rw [← hr i hi]
  apply BitVec.eq_of_getLsbD_eq; intro j hj
  rw [RV.byte, RV.byte, BitVec.getLsbD_extractLsb', BitVec.getLsbD_extractLsb', h _ (by omega)]

/-! ## Specification of the operations, as used here -/

/-- The value a move transfers. -/
def moved (o : RV.Op1C) (a : BitVec 64) : BitVec 64 := castImm o a

/-- Result r of the other operations on the operand a, where the low 32 bits matter if the operation is a 32 bit one. -/
def Comp (o : RV.Op1C) (is32 : Bool) (a r : BitVec 64) : Prop :=
  match o with
  | .clz => ∃ n, r = BitVec.ofNat 64 n ∧ if is32 then RV.IsClz (a.setWidth 32) n else RV.IsClz a n
  | .ctz => ∃ n, r = BitVec.ofNat 64 n ∧ if is32 then RV.IsCtz (a.setWidth 32) n else RV.IsCtz a n
  | .rev => RV.IsRev (if is32 then 4 else 8) a r
  | .revU16 => RV.IsRev 2 a r ∧ r = (r.setWidth 16).setWidth 64
  | .revS16 => RV.IsRev 2 a r ∧ r = (r.setWidth 16).signExtend 64
  | .revU32 => RV.IsRev 4 a r ∧ r = (r.setWidth 32).setWidth 64
  | .revS32 => RV.IsRev 4 a r ∧ r = (r.setWidth 32).signExtend 64
  | _ => False

/-- The data size of the result register. -/
def sf1 (o : RV.Op1C) (int : Bool) : Bool :=
  match o with
  | .mov | .movP | .movU32 | .movS32 | .revU32 | .revS32 => true
  | .mov32 => false
  | _ => !int

/-- The low n bits are the same. -/
def Agree (n : Nat) (x y : BitVec 64) : Prop := ∀ i, i < n → x.getLsbD i = y.getLsbD i

theorem Agree.rfl' (n : Nat) (x : BitVec 64) : Agree n x x := fun _ _ => rfl
theorem Agree.mono {n m : Nat} {x y : BitVec 64} (h : Agree n x y) (hm : m ≤ n) : Agree m x y := fun i hi => h i (by omega)
theorem Agree.lo {sf : Bool} {x y : BitVec 64} (h : Agree (W sf) x y) : lo sf x = lo sf y := by
  apply BitVec.eq_of_getLsbD_eq; intro i hi
  rw [lo_bit _ _ _ hi, lo_bit _ _ _ hi, h i hi]
theorem agree_lo {sf : Bool} {x y : BitVec 64} (h : A64.lo sf x = A64.lo sf y) : Agree (W sf) x y := by
  intro i hi
  rw [← lo_bit _ _ _ hi, h, lo_bit _ _ _ hi]

variable {s : St}

theorem exec_one {sf : Bool} {o : BitVec 6} {rn d : BitVec 5} {x : BitVec (W sf)} (h : oneF sf o (lo sf (s.x rn)) = some x) :
    exec (.one sf o rn d) s = some (s.setX d (up x)) := by
  simp only [exec, h, Option.map_some]

theorem s_mov {d m : Nat} (i : Bool) : step ((MOV ^^^ iv i) ||| RD d ||| RM m) s = some (s.setX (regMap d) (up (lo (!i) (s.x (regMap m))))) := by
  have := s_orr (s := s) (d := d) (n := TMP_ZERO) (m := m) i
  rw [show (MOV ^^^ iv i) ||| RD d ||| RM m = (ORR ^^^ iv i) ||| RD d ||| RN TMP_ZERO ||| RM m by
    rw [show MOV ^^^ iv i = (ORR ^^^ iv i) ||| RN TMP_ZERO by cases i <;> decide]
    simp only [BitVec.or_assoc]; congr 1; rw [← BitVec.or_assoc, BitVec.or_comm (RN TMP_ZERO), BitVec.or_assoc], this]
  simp only [exec, sh0]
  rw [show s.x (regMap TMP_ZERO) = 0#64 from rfl, lo_zero]
  have : ∀ {w} (y : BitVec w), logF 1#2 (0#w) y = y := fun y => BitVec.zero_or
  simp [this]

/-- The extensions. -/
theorem s_extU (i : Bool) {d n : Nat} {k : BitVec 32} {imms : BitVec 6} (hk : k = imms.setWidth 32 <<< 10) (h : imms.getLsbD 5 = false) : step ((UBFM ^^^ (iv i ||| (iv i >>> 9))) ||| RD d ||| RN n ||| k) s =
    some (s.setX (regMap d) (up (((lo (!i) (s.x (regMap n))).setWidth (imms.toNat + 1)).setWidth (W !i)))) := by
  subst hk
  refine (s_ext i false imms h).trans ?_
  have hb : imms.toNat + 1 ≤ W (!i) := by
    have : imms.toNat < 32 := by revert h; revert imms; decide
    cases i
    · show _ ≤ 64; omega
    · show _ ≤ 32; omega
  simp only [exec]
  rw [← bfm_ext _ hb (by omega)]; rfl

theorem s_extS (i : Bool) {d n : Nat} {k : BitVec 32} {imms : BitVec 6} (hk : k = imms.setWidth 32 <<< 10) (h : imms.getLsbD 5 = false) : step ((SBFM ^^^ (iv i ||| (iv i >>> 9))) ||| RD d ||| RN n ||| k) s =
    some (s.setX (regMap d) (up (((lo (!i) (s.x (regMap n))).setWidth (imms.toNat + 1)).signExtend (W !i)))) := by
  subst hk
  refine (s_ext i true imms h).trans ?_
  have hb : imms.toNat + 1 ≤ W (!i) := by
    have : imms.toNat < 32 := by revert h; revert imms; decide
    cases i
    · show _ ≤ 64; omega
    · show _ ≤ 32; omega
  simp only [exec]
  rw [← bfm_sext _ hb (by omega)]; rfl

/-- Low bits of an extension. -/
theorem ext_lo (i : Bool) (x : BitVec 64) {k : Nat} (hk : k ≤ 32) : Agree (W !i) (up (((lo (!i) x).setWidth k).setWidth (W !i))) ((x.setWidth k).setWidth 64) := by
  intro j hj
  have hw : 32 ≤ W (!i) := by cases i <;> decide
  have h64 := W_le (!i)
  rw [up_bit _ (by omega), BitVec.getLsbD_setWidth, BitVec.getLsbD_setWidth, BitVec.getLsbD_setWidth, BitVec.getLsbD_setWidth, lo_bit _ _ _ hj]
  simp [hj, show j < 64 by omega]

theorem sext_lo (i : Bool) (x : BitVec 64) {k : Nat} (hk : k ≤ 32) (h0 : 0 < k) : Agree (W !i) (up (((lo (!i) x).setWidth k).signExtend (W !i))) ((x.setWidth k).signExtend 64) := by
  intro j hj
  have hw : 32 ≤ W (!i) := by cases i <;> decide
  have h64 := W_le (!i)
  have e : (lo (!i) x).setWidth k = x.setWidth k := by
    apply BitVec.eq_of_getLsbD_eq; intro q hq
    rw [BitVec.getLsbD_setWidth, BitVec.getLsbD_setWidth, lo_bit _ _ _ (by omega)]
  rw [e, up_bit _ (by omega), BitVec.getLsbD_signExtend, BitVec.getLsbD_signExtend]
  simp [hj, show j < 64 by omega]

/-- After the register form. -/
def Y (s s' : St) (d : Nat) (n : Nat) (v : BitVec 64) : Prop := Near (regMap d) s s' ∧ Agree n (s'.r (regMap d)) v

theorem y_set {d : Nat} {x v : BitVec 64} {n : Nat} (h : Agree n x v) : Y s (s.set (regMap d) x) d n v :=
  ⟨⟨rfl, rfl, fun q hq => set_ne _ _ hq⟩, by rw [set_self]; exact h⟩

/-- The moves between registers. -/
theorem mov_reg {op : RV.Op1C} (hm : isMov op = true) (int : Bool) {d a : Nat} (hd : regMap d ≠ 31#5) (ha : regMap a ≠ 31#5) (s : St) :
    ∃ s', runs (regOp1 op int d a) s = some s' ∧ Y s s' d (W (sf1 op int)) (moved op (s.r (regMap a))) := by
  have one : ∀ {w : BitVec 32} {x v : BitVec 64} {n : Nat}, step w s = some (s.setX (regMap d) x) → Agree n x v → ∃ s', runs [w] s = some s' ∧ Y s s' d n v := by
    intro w x v n h1 h2
    rw [setX_ne _ _ hd] at h1
    exact ⟨_, runs_one h1, y_set h2⟩
  have same : ∀ {n : Nat} {v : BitVec 64}, d = a → Agree n (s.r (regMap a)) v → ∃ s', runs [] s = some s' ∧ Y s s' d n v := by
    intro n v e h; subst e
    exact ⟨s, rfl, ⟨rfl, rfl, fun _ _ => rfl⟩, h⟩
  have m64 := s_mov (s := s) (d := d) (m := a) false
  have m32 := s_mov (s := s) (d := d) (m := a) true
  rw [show iv false = 0#32 from rfl, BitVec.xor_zero] at m64
  rw [show iv true = W_OP from rfl] at m32
  rw [x_ne ha] at m64 m32
  have a64 : Agree 64 (up (lo (!false) (s.r (regMap a)))) (s.r (regMap a)) := fun i hi => by rw [up_bit _ hi]; exact lo_bit (!false) _ _ hi
  have a32 : Agree 32 (up (lo (!true) (s.r (regMap a)))) (((s.r (regMap a)).setWidth 32).signExtend 64) := fun i hi => by
    rw [up_bit _ (by omega), lo_bit _ _ _ (show i < W (!true) from hi), BitVec.getLsbD_signExtend, BitVec.getLsbD_setWidth]; simp [hi, show i < 64 by omega]
  have sx := s_extS (s := s) (d := d) (n := a) false (k := 31#32 <<< 10) (imms := 31#6) rfl rfl
  rw [show SBFM ^^^ (iv false ||| (iv false >>> 9)) = SBFM ||| (1#32 <<< 22) by decide] at sx
  have ux8 := s_extU (s := s) (d := d) (n := a) int (k := 7#32 <<< 10) (imms := 7#6) rfl rfl
  have sx8 := s_extS (s := s) (d := d) (n := a) int (k := 7#32 <<< 10) (imms := 7#6) rfl rfl
  have ux16 := s_extU (s := s) (d := d) (n := a) int (k := 15#32 <<< 10) (imms := 15#6) rfl rfl
  have sx16 := s_extS (s := s) (d := d) (n := a) int (k := 15#32 <<< 10) (imms := 15#6) rfl rfl
  rw [x_ne ha] at sx ux8 sx8 ux16 sx16
  cases op <;> first | (cases hm; done) | skip
  case mov =>
    simp only [regOp1]; split
    · next h => exact same h (Agree.rfl' _ _)
    · exact one m64 a64
  case movP =>
    simp only [regOp1]; split
    · next h => exact same h (Agree.rfl' _ _)
    · exact one m64 a64
  case mov32 =>
    simp only [regOp1]; split
    · next h => exact same h (fun i hi => by
        have hi : i < 32 := hi
        simp only [moved, castImm]
        rw [BitVec.getLsbD_signExtend, BitVec.getLsbD_setWidth]; simp [hi, show i < 64 by omega])
    · exact one m32 a32
  case movU8 => exact one ux8 (ext_lo int _ (by decide))
  case movS8 => exact one sx8 (sext_lo int _ (by decide) (by decide))
  case movU16 => exact one ux16 (ext_lo int _ (by decide))
  case movS16 => exact one sx16 (sext_lo int _ (by decide) (by decide))
  case movU32 => exact one m32 (fun i hi => by rw [show up (lo (!true) (s.r (regMap a))) = moved .movU32 (s.r (regMap a)) from rfl])
  case movS32 => exact one sx (sext_lo false _ (by decide) (by decide))

/-- The other operations. -/
theorem fun_reg {op : RV.Op1C} (hm : isMov op = false) (int : Bool) {d a : Nat} (hd : regMap d ≠ 31#5) (ha : regMap a ≠ 31#5) (s : St)
    (hz : a = TMP_REG2 → op = .revU16 → (s.r (regMap a)).toNat < 2 ^ 16) :
    ∃ s' v, runs (regOp1 op int d a) s = some s' ∧ Comp op int (s.r (regMap a)) v ∧ Y s s' d (if d = TMP_REG1 then 8 * 2 ^ (memTy op int).1 else W (sf1 op int)) v := by
  have two : ∀ {w u : BitVec 32} {x y v : BitVec 64} {n : Nat}, step w s = some (s.setX (regMap d) x) → step u (s.set (regMap d) x) = some ((s.set (regMap d) x).setX (regMap d) y) → Agree n y v → ∃ s', runs [w, u] s = some s' ∧ Y s s' d n v := by
    intro w u x y v n h1 h2 h3
    rw [setX_ne _ _ hd] at h1 h2
    refine ⟨_, runs_two h1 h2, ⟨rfl, rfl, fun q hq => by rw [set_ne _ _ hq, set_ne _ _ hq]⟩, by rw [set_self]; exact h3⟩
  have one : ∀ {w : BitVec 32} {x v : BitVec 64} {n : Nat}, step w s = some (s.setX (regMap d) x) → Agree n x v → ∃ s', runs [w] s = some s' ∧ Y s s' d n v := by
    intro w x v n h1 h2
    rw [setX_ne _ _ hd] at h1
    exact ⟨_, runs_one h1, y_set h2⟩
  have hw64 : W (!int) = 32 ∨ W (!int) = 64 := by cases int; exact .inr rfl; exact .inl rfl
  have a16 : ∀ x : BitVec 64, Agree 16 x ((x.setWidth 16).setWidth 64) := fun x i hi => by
    rw [BitVec.getLsbD_setWidth, BitVec.getLsbD_setWidth]; simp [hi, show i < 64 by omega]
  have a16s : ∀ x : BitVec 64, Agree 16 x ((x.setWidth 16).signExtend 64) := fun x i hi => by
    rw [BitVec.getLsbD_signExtend, BitVec.getLsbD_setWidth]; simp [hi, show i < 64 by omega]
  have a32 : ∀ x : BitVec 64, Agree 32 x ((x.setWidth 32).setWidth 64) := fun x i hi => by
    rw [BitVec.getLsbD_setWidth, BitVec.getLsbD_setWidth]; simp [hi, show i < 64 by omega]
  have a32s : ∀ x : BitVec 64, Agree 32 x ((x.setWidth 32).signExtend 64) := fun x i hi => by
    rw [BitVec.getLsbD_signExtend, BitVec.getLsbD_setWidth]; simp [hi, show i < 64 by omega]
  have i16 : ∀ x : BitVec 64, (x.setWidth 16).setWidth 64 = ((((x.setWidth 16).setWidth 64).setWidth 16).setWidth 64 : BitVec 64) := fun x => by simp
  have i16s : ∀ x : BitVec 64, (x.setWidth 16).signExtend 64 = ((((x.setWidth 16).signExtend 64).setWidth 16).signExtend 64 : BitVec 64) := fun x => by
    congr 1; apply BitVec.eq_of_getLsbD_eq; intro i hi; rw [BitVec.getLsbD_setWidth, BitVec.getLsbD_setWidth, BitVec.getLsbD_signExtend, BitVec.getLsbD_setWidth]; simp [hi, show i < 64 by omega]
  have i32 : ∀ x : BitVec 64, (x.setWidth 32).setWidth 64 = ((((x.setWidth 32).setWidth 64).setWidth 32).setWidth 64 : BitVec 64) := fun x => by simp
  have i32s : ∀ x : BitVec 64, (x.setWidth 32).signExtend 64 = ((((x.setWidth 32).signExtend 64).setWidth 32).signExtend 64 : BitVec 64) := fun x => by
    congr 1; apply BitVec.eq_of_getLsbD_eq; intro i hi; rw [BitVec.getLsbD_setWidth, BitVec.getLsbD_setWidth, BitVec.getLsbD_signExtend, BitVec.getLsbD_setWidth]; simp [hi, show i < 64 by omega]
  have r16 := (s_rev16 (s := s) (d := d) (n := a)).trans (exec_one rfl)
  have r32 := (s_rev32 (s := s) (d := d) (n := a)).trans (exec_one rfl)
  rw [x_ne ha] at r16 r32
  have is16 := revB_is false (s.r (regMap a)) (k := 2) (.inl rfl) (by decide)
  have is32 := revB_is false (s.r (regMap a)) (k := 4) (.inr (.inl rfl)) (by decide)
  cases op <;> first | (cases hm; done) | skip
  case clz =>
    obtain ⟨n, h1, h2, h3⟩ := clz_is (lo (!int) (s.r (regMap a)))
    have e := (s_clz (s := s) (d := d) (n := a) int).trans (exec_one (x := clz (lo (!int) (s.x (regMap a)))) rfl)
    rw [x_ne ha, h2, up_num h1 hw64] at e
    obtain ⟨s', q1, q2⟩ := one e (Agree.rfl' _ _)
    exact ⟨s', _, q1, ⟨n, rfl, by cases int <;> exact h3⟩, q2⟩
  case ctz =>
    obtain ⟨n, h1, h2, h3⟩ := ctz_is (lo (!int) (s.r (regMap a)))
    have e1 := (s_rbit (s := s) (d := d) (n := a) int).trans (exec_one rfl)
    rw [x_ne ha] at e1
    have e2 := (s_clz (s := s.set (regMap d) (up (lo (!int) (s.r (regMap a))).reverse)) (d := d) (n := d) int).trans (exec_one (x := clz _) rfl)
    rw [x_ne hd, set_self, lo_up, h2, up_num h1 hw64] at e2
    obtain ⟨s', q1, q2⟩ := two e1 e2 (Agree.rfl' _ _)
    exact ⟨s', _, q1, ⟨n, rfl, by cases int <;> exact h3⟩, q2⟩
  case rev =>
    have e := s_rev (s := s) (d := d) (n := a) int
    cases int
    · have e := e.trans (exec_one rfl)
      rw [x_ne ha] at e
      obtain ⟨s', q1, q2⟩ := one e (Agree.rfl' _ _)
      exact ⟨s', _, q1, revB_is true _ (.inr (.inr rfl)) (by decide), q2⟩
    · have e := e.trans (exec_one rfl)
      rw [x_ne ha] at e
      obtain ⟨s', q1, q2⟩ := one e (Agree.rfl' _ _)
      exact ⟨s', _, q1, is32, q2⟩
  case revU16 =>
    have ex := s_extU (s := s.set (regMap d) (up (revB 2 (lo false (s.r (regMap a)))))) (d := d) (n := d) int (k := 15#32 <<< 10) (imms := 15#6) rfl rfl
    rw [x_ne hd, set_self] at ex
    simp only [regOp1]
    split
    · next h =>
      by_cases h1 : d = TMP_REG1
      · obtain ⟨s', q1, q2⟩ := one r16 (a16 _)
        exact ⟨s', _, q1, ⟨rev_congr (a16 _) is16, i16 _⟩, by rw [if_pos h1]; exact q2⟩
      · have h2 := (h.resolve_left h1).1
        have hs := hz h2 rfl
        have e : (up (revB 2 (lo false (s.r (regMap a)))) : BitVec 64) = ((up (revB 2 (lo false (s.r (regMap a)))) : BitVec 64).setWidth 16).setWidth 64 := by
          apply BitVec.eq_of_getLsbD_eq; intro i hi
          rcases Nat.lt_or_ge i 16 with h | h
          · exact a16 _ i h
          · rw [BitVec.getLsbD_setWidth, BitVec.getLsbD_setWidth, up_bit _ hi]
            simp only [show ¬ i < 16 by omega, decide_false, Bool.false_and, Bool.and_false]
            rcases Nat.lt_or_ge i 32 with h' | h'
            · rw [revB_bit _ _ (show i < W false from h'), lo_bit _ _ _ (show _ < 32 by omega), BitVec.getLsbD]
              exact Nat.testBit_lt_two_pow (Nat.lt_of_lt_of_le hs (Nat.pow_le_pow_right (by decide) (by omega)))
            · exact BitVec.getLsbD_of_ge _ _ h'
        obtain ⟨s', q1, q2⟩ := one r16 (Agree.rfl' (W (sf1 .revU16 int)) _)
        exact ⟨s', _, q1, ⟨is16, e⟩, by rw [if_neg h1]; exact q2⟩
    · next h =>
      obtain ⟨s', q1, q2⟩ := two r16 ex (ext_lo int _ (by decide))
      exact ⟨s', _, q1, ⟨rev_congr (a16 _) is16, i16 _⟩, by rw [if_neg (fun h' => h (.inl h'))]; exact q2⟩
  case revS16 =>
    have ex := s_extS (s := s.set (regMap d) (up (revB 2 (lo false (s.r (regMap a)))))) (d := d) (n := d) int (k := 15#32 <<< 10) (imms := 15#6) rfl rfl
    rw [x_ne hd, set_self] at ex
    simp only [regOp1]
    split
    · next h =>
      have h1 : d = TMP_REG1 := h.resolve_right (fun h => by cases h.2)
      obtain ⟨s', q1, q2⟩ := one r16 (a16s _)
      exact ⟨s', _, q1, ⟨rev_congr (a16s _) is16, i16s _⟩, by rw [if_pos h1]; exact q2⟩
    · next h =>
      obtain ⟨s', q1, q2⟩ := two r16 ex (sext_lo int _ (by decide) (by decide))
      exact ⟨s', _, q1, ⟨rev_congr (a16s _) is16, i16s _⟩, by rw [if_neg (fun h' => h (.inl h'))]; exact q2⟩
  case revU32 =>
    simp only [regOp1, true_or, if_true]
    obtain ⟨s', q1, q2⟩ := one r32 (Agree.rfl' 64 _)
    have e : (up (revB 4 (lo false (s.r (regMap a)))) : BitVec 64) = ((up (revB 4 (lo false (s.r (regMap a)))) : BitVec 64).setWidth 32).setWidth 64 := by
      show BitVec.setWidth 64 (revB 4 (lo false (s.r (regMap a))) : BitVec 32) = ((BitVec.setWidth 64 (revB 4 (lo false (s.r (regMap a))) : BitVec 32)).setWidth 32).setWidth 64
      simp
    refine ⟨s', _, q1, ⟨is32, e⟩, q2.1, ?_⟩
    split
    · exact q2.2.mono (show 8 * 2 ^ 2 ≤ 64 by decide)
    · exact q2.2
  case revS32 =>
    have ex := s_extS (s := s.set (regMap d) (up (revB 4 (lo false (s.r (regMap a)))))) (d := d) (n := d) false (k := 31#32 <<< 10) (imms := 31#6) rfl rfl
    rw [show SBFM ^^^ (iv false ||| (iv false >>> 9)) = SBFM ||| (1#32 <<< 22) by decide, x_ne hd, set_self] at ex
    simp only [regOp1]
    split
    · next h =>
      have h1 : d = TMP_REG1 := h.resolve_left (fun h => by cases h)
      obtain ⟨s', q1, q2⟩ := one r32 (a32s _)
      exact ⟨s', _, q1, ⟨rev_congr (a32s _) is32, i32s _⟩, by rw [if_pos h1]; exact q2⟩
    · next h =>
      obtain ⟨s', q1, q2⟩ := two r32 ex (sext_lo false _ (by decide) (by decide))
      exact ⟨s', _, q1, ⟨rev_congr (a32s _) is32, i32s _⟩, by rw [if_neg (fun h' => h (.inr h'))]; exact q2⟩

/-! ## The whole -/

/-- After sljit_emit_op1. -/
structure Fin1 (s s' : St) (dst : Opd) (sf : Bool) (k : Nat) (v : BitVec 64) : Prop where
  keep : ∀ q, q ≠ 9#5 → q ≠ 10#5 → (∀ d, dst = .reg d → q ≠ regMap d) → s'.r q = s.r q
  reg : ∀ d, dst = .reg d → lo sf (s'.r (regMap d)) = lo sf v
  mem : ∀ base offs w, dst = .mem base offs w → s'.m = wr s.m (ea s base offs w) v k
  same : (∀ base offs w, dst ≠ .mem base offs w) → s'.m = s.m
  f : s'.f = s.f

/-- Destinations. -/
def Dst1 : Opd → Prop
  | .imm _ => False
  | o => Usr o

/-- The value of a source of k bytes. -/
def val1 (k : Nat) (s : St) : Opd → BitVec 64
  | .reg r => s.r (regMap r)
  | .imm v => v
  | .mem base offs w => rd s.m (ea s base offs w) k

theorem ty_ok (op : RV.Op1C) (int : Bool) : (memTy op int).1 < 4 ∧ ((memTy op int).1 = 3 → (memTy op int).2 = false) := by
  cases op <;> cases int <;> decide

/-- The store at the end. -/
theorem store1_run {op : RV.Op1C} {int : Bool} {dst : Opd} (hd : Dst1 dst) {r : Nat} (hr : regMap r ≠ 10#5 ∧ regMap r ≠ 31#5) {s s1 : St} {v : BitVec 64} {sf : Bool}
    (hm : s1.m = s.m) (hf : s1.f = s.f) (hk : ∀ q, q ≠ 9#5 → q ≠ 10#5 → (∀ d, dst = .reg d → q ≠ regMap d) → s1.r q = s.r q)
    (hreg : ∀ d, dst = .reg d → lo sf (s1.r (regMap d)) = lo sf v) (hmem : ∀ base offs w, dst = .mem base offs w → Agree (8 * 2 ^ (memTy op int).1) (s1.r (regMap r)) v) :
    ∃ is s', store1 op int r dst = some is ∧ runs is s1 = some s' ∧ Fin1 s s' dst sf (2 ^ (memTy op int).1) v := by
  cases dst with
  | imm _ => exact absurd hd id
  | reg d => exact ⟨[], s1, rfl, rfl, hk, hreg, fun _ _ _ e => (by cases e), fun _ => hm, hf⟩
  | mem base offs w =>
    obtain ⟨is, s', e1, e2, e3, e4, e5⟩ := store_run (t := ⟨(memTy op int).1, (memTy op int).2, true⟩) (ty_ok op int).1 (ty_ok op int).2 rfl hd hr.1 s1
    refine ⟨is, s', e1, e2, fun q q1 q2 q3 => (e4 q q2).trans (hk q q1 q2 q3), fun _ e => (by cases e), fun b o w' e => ?_, fun h => absurd rfl (h base offs w), e3.trans hf⟩
    cases e
    rw [e5, hm, x_ne hr.2, ea_eq hd (fun q q1 q2 q3 => hk q q1 q2 (fun _ e => by cases e))]
    exact wr_congr _ _ _ _ (hmem _ _ _ rfl)

theorem load_any {t : Ty} (ht : t.size < 4) (hs : t.size = 3 → t.sg = false) (hst : t.store = false) {base offs : Nat} {w : BitVec 64} (h : Usr (.mem base offs w)) {r : Nat} (hr : regMap r ≠ 31#5) (s : St) :
    ∃ is s1, emitOpMem t r base offs w TMP_REG2 = some is ∧ runs is s = some s1 ∧ s1.m = s.m ∧ s1.f = s.f ∧ (∀ q, q ≠ 10#5 → q ≠ regMap r → s1.r q = s.r q) ∧ s1.r (regMap r) = t.load s.m (ea s base offs w) := by
  obtain ⟨is, s1, e1, e2, e3⟩ := opMem_run ht hs (r := r) (usr_mem h (.inr rfl)) s
  have n := upto_near e2
  refine ⟨is, _, e1, e3, ?_⟩
  simp only [Ty.eff, hst, Bool.false_eq_true, if_false, setX_ne _ _ hr]
  exact ⟨n.m, n.f, fun q h1 h2 => (set_ne _ _ h2).trans (n.keep q h1), by rw [set_self, n.m]⟩

theorem rd_lt (m : BitVec 64 → BitVec 8) : ∀ (k : Nat) (a : BitVec 64), (rd m a k).toNat < 2 ^ (8 * k) ∨ 8 < k := by
  intro k
  induction k with
  | zero => intro a; left; exact Nat.one_pos
  | succ k ih =>
    intro a
    rcases ih (a + 1#64) with h | h
    · by_cases hk : 8 < k + 1
      · exact .inr hk
      · left
        rw [rd, BitVec.toNat_or, BitVec.toNat_shiftLeft, BitVec.toNat_setWidth]
        have hb := (m a).isLt
        have : 2 ^ (8 * (k + 1)) = 2 ^ (8 * k) * 256 := by rw [show 8 * (k + 1) = 8 * k + 8 by omega, Nat.pow_add]
        refine Nat.or_lt_two_pow (Nat.lt_of_le_of_lt (Nat.mod_le _ _) ?_) (Nat.lt_of_le_of_lt (Nat.mod_le _ _) ?_)
        · rw [Nat.shiftLeft_eq, this]; omega
        · have := Nat.two_pow_pos (8 * k); omega
    · exact .inr (by omega)

/-- What the moves load. -/
theorem moved_load (op : RV.Op1C) (int : Bool) (hm : isMov op = true) (m : BitVec 64 → BitVec 8) (a : BitVec 64) :
    Ty.load ⟨(memTy op int).1, (memTy op int).2, false⟩ m a = moved op (rd m a (2 ^ (memTy op int).1)) := by
  have e : ∀ k n, n = 8 * k → k ≤ 8 → ((rd m a k).setWidth n).setWidth 64 = rd m a k := by
    intro k n hn hk; subst hn
    apply BitVec.eq_of_toNat_eq
    have := (rd_lt m k a).resolve_right (by omega)
    rw [BitVec.toNat_setWidth, BitVec.toNat_setWidth, Nat.mod_eq_of_lt this, Nat.mod_eq_of_lt]
    exact Nat.lt_of_lt_of_le this (Nat.pow_le_pow_right (by decide) (by omega))
  cases op <;> first | (cases hm; done) | skip
  case mov => rfl
  case movP => rfl
  case movU8 => exact (e 1 8 rfl (by decide)).symm
  case movU16 => exact (e 2 16 rfl (by decide)).symm
  case movU32 => exact (e 4 32 rfl (by decide)).symm
  all_goals rfl

/-- The bits which the moves store are the bits of the source. -/
theorem moved_low (op : RV.Op1C) (int : Bool) (hm : isMov op = true) (x : BitVec 64) : Agree (8 * 2 ^ (memTy op int).1) x (moved op x) := by
  have z : ∀ k, k ≤ 64 → Agree k x ((x.setWidth k).setWidth 64) := fun k hk i hi => by
    rw [BitVec.getLsbD_setWidth, BitVec.getLsbD_setWidth]; simp [hi, show i < 64 by omega]
  have g : ∀ k, k ≤ 64 → Agree k x ((x.setWidth k).signExtend 64) := fun k hk i hi => by
    rw [BitVec.getLsbD_signExtend, BitVec.getLsbD_setWidth]; simp [hi, show i < 64 by omega]
  cases op <;> first | (cases hm; done) | skip
  case mov => exact Agree.rfl' _ _
  case movP => exact Agree.rfl' _ _
  case movU8 => exact z 8 (by decide)
  case movS8 => exact g 8 (by decide)
  case movU16 => exact z 16 (by decide)
  case movS16 => exact g 16 (by decide)
  case movU32 => exact z 32 (by decide)
  case movS32 => exact g 32 (by decide)
  case mov32 => exact g 32 (by decide)

/-- The moves. -/
theorem move_run {op : RV.Op1C} (hm : isMov op = true) (int : Bool) {dst src : Opd} (hd : Dst1 dst) (hs : Usr src) (s : St) :
    ∃ is s', emitOp1 op int dst src = some is ∧ runs is s = some s' ∧ Fin1 s s' dst (sf1 op int) (2 ^ (memTy op int).1) (moved op (val1 (2 ^ (memTy op int).1) s src)) := by
  have hdr : regMap (dreg dst) ≠ 31#5 ∧ regMap (dreg dst) ≠ 10#5 := by
    cases dst with
    | reg d => exact ⟨(ur_map hd).2.2.2, (ur_map hd).2.1⟩
    | imm _ => exact absurd hd id
    | mem _ _ _ => exact ⟨show regMap TMP_REG1 ≠ 31#5 by decide, show regMap TMP_REG1 ≠ 10#5 by decide⟩
  have tail : ∀ {a : Code} {ia : List (BitVec 32)} {s1 : St} {v : BitVec 64}, a = some ia → runs ia s = some s1 → s1.m = s.m → s1.f = s.f → (∀ q, q ≠ 10#5 → q ≠ regMap (dreg dst) → s1.r q = s.r q) → s1.r (regMap (dreg dst)) = v →
      ∃ is s', (a +> store1 op int (dreg dst) dst) = some is ∧ runs is s = some s' ∧ Fin1 s s' dst (sf1 op int) (2 ^ (memTy op int).1) v := by
    intro a ia s1 v h1 h2 h3 h4 h5 h6
    obtain ⟨is, s', e1, e2, e3⟩ := store1_run (op := op) (int := int) (r := dreg dst) (sf := sf1 op int) (v := v) hd ⟨hdr.2, hdr.1⟩ h3 h4
      (fun q q1 q2 q3 => h5 q q2 (by
        cases dst with
        | reg d => exact q3 d rfl
        | imm _ => exact absurd hd id
        | mem _ _ _ => exact q1))
      (fun d e => by subst e; rw [show regMap d = regMap (dreg (.reg d)) from rfl, h6]) (fun _ _ _ _ => by rw [h6]; exact Agree.rfl' _ _)
    subst h1
    refine ⟨ia ++ is, s', by rw [e1]; rfl, by rw [runs_app h2]; exact e2, e3⟩
  have himm : ∀ v, ∃ is s', (loadImmediate (dreg dst) (castImm op v) +> store1 op int (dreg dst) dst) = some is ∧ runs is s = some s' ∧ Fin1 s s' dst (sf1 op int) (2 ^ (memTy op int).1) (moved op v) := by
    intro v
    obtain ⟨ws, e1, e2⟩ := li_run (dreg dst) hdr.1 (castImm op v) s
    exact tail e1 e2 rfl rfl (fun q _ q2 => set_ne _ _ q2) (set_self _ _ _)
  have hmem : ∀ base offs w, Usr (.mem base offs w) → ∃ is s', (emitOpMem ⟨(memTy op int).1, (memTy op int).2, false⟩ (dreg dst) base offs w TMP_REG2 +> store1 op int (dreg dst) dst) = some is ∧ runs is s = some s' ∧
      Fin1 s s' dst (sf1 op int) (2 ^ (memTy op int).1) (moved op (rd s.m (ea s base offs w) (2 ^ (memTy op int).1))) := by
    intro base offs w h
    obtain ⟨is, s1, e1, e2, e3, e4, e5, e6⟩ := load_any (t := ⟨(memTy op int).1, (memTy op int).2, false⟩) (ty_ok op int).1 (ty_ok op int).2 rfl h hdr.1 s
    exact tail e1 e2 e3 e4 e5 (e6.trans (moved_load op int hm _ _))
  unfold emitOp1
  rw [if_pos hm]
  cases src with
  | imm v =>
    cases dst with
    | imm _ => exact absurd hd id
    | reg d => exact himm v
    | mem _ _ _ => exact himm v
  | mem base offs w =>
    cases dst with
    | imm _ => exact absurd hd id
    | reg d => exact hmem base offs w hs
    | mem _ _ _ => exact hmem base offs w hs
  | reg r =>
    cases dst with
    | imm _ => exact absurd hd id
    | reg d =>
      obtain ⟨s', e1, e2, e3⟩ := mov_reg hm int (d := d) (a := r) hdr.1 (ur_map hs).2.2.2 s
      refine ⟨_, s', rfl, e1, fun q _ _ q3 => e2.keep q (q3 d rfl), fun d' e => ?_, fun _ _ _ e => (by cases e), fun _ => e2.m, e2.f⟩
      cases e; exact e3.lo
    | mem base offs w =>
      exact store1_run (op := op) (int := int) (r := r) (s := s) (s1 := s) hd ⟨(ur_map hs).2.1, (ur_map hs).2.2.2⟩ rfl rfl (fun _ _ _ _ => rfl) (fun _ e => by cases e) (fun _ _ _ _ => moved_low op int hm _)

/-- The other operations; their sources are not constants (sljitLir.h:1273-1310). -/
theorem fun_run {op : RV.Op1C} (hm : isMov op = false) (int : Bool) {dst src : Opd} (hd : Dst1 dst) (hs : Usr src) (hi : ∀ v, src ≠ .imm v) (s : St) :
    ∃ is s' v, emitOp1 op int dst src = some is ∧ runs is s = some s' ∧ Comp op int (val1 (2 ^ (memTy op int).1) s src) v ∧ Fin1 s s' dst (sf1 op int) (2 ^ (memTy op int).1) v := by
  have hdr : regMap (dreg dst) ≠ 31#5 ∧ regMap (dreg dst) ≠ 10#5 := by
    cases dst with
    | reg d => exact ⟨(ur_map hd).2.2.2, (ur_map hd).2.1⟩
    | imm _ => exact absurd hd id
    | mem _ _ _ => exact ⟨show regMap TMP_REG1 ≠ 31#5 by decide, show regMap TMP_REG1 ≠ 10#5 by decide⟩
  have tail : ∀ {a : Code} {ia : List (BitVec 32)} {s1 : St} {r : Nat}, a = some ia → runs ia s = some s1 → s1.m = s.m → s1.f = s.f → (∀ q, q ≠ 10#5 → s1.r q = s.r q) → regMap r ≠ 31#5 →
      (r = TMP_REG2 → op = .revU16 → (s1.r (regMap r)).toNat < 2 ^ 16) →
      ∃ is s' v, (a +> some (regOp1 op int (dreg dst) r) +> store1 op int (dreg dst) dst) = some is ∧ runs is s = some s' ∧ Comp op int (s1.r (regMap r)) v ∧ Fin1 s s' dst (sf1 op int) (2 ^ (memTy op int).1) v := by
    intro a ia s1 r h1 h2 h3 h4 h5 h6 h7
    obtain ⟨s2, v, f1, f2, f3, f4⟩ := fun_reg hm int (d := dreg dst) hdr.1 h6 s1 h7
    obtain ⟨is, s', e1, e2, e3⟩ := store1_run (op := op) (int := int) (r := dreg dst) (sf := sf1 op int) (v := v) (s := s) (s1 := s2) hd ⟨hdr.2, hdr.1⟩ (f3.m.trans h3) (f3.f.trans h4)
      (fun q q1 q2 q3 => (f3.keep q (by
        cases dst with
        | reg d => exact q3 d rfl
        | imm _ => exact absurd hd id
        | mem _ _ _ => exact q1)).trans (h5 q q2))
      (fun d e => by
        subst e
        have hne : dreg (.reg d) ≠ TMP_REG1 := by have := hd.2; show d ≠ 28; omega
        rw [if_neg hne] at f4
        exact f4.lo) (fun _ _ _ e => by
        subst e
        exact f4)
    subst h1
    refine ⟨ia ++ (regOp1 op int (dreg dst) r ++ is), s', v, by rw [e1]; rfl, by rw [runs_app h2, runs_app f1]; exact e2, f2, e3⟩
  unfold emitOp1
  rw [if_neg (by simp [hm])]
  cases src with
  | imm v => exact absurd rfl (hi v)
  | reg r =>
    have e : ∀ x y : Code, (some [] +> x +> y) = (x +> y) := fun x y => by cases x <;> cases y <;> rfl
    have := tail (a := some []) (r := r) rfl rfl rfl rfl (fun _ _ => rfl) (ur_map hs).2.2.2 (fun h => by have := hs.2; subst h; exact absurd this (by decide))
    rw [e] at this
    exact this
  | mem base offs w =>
    have hsg : (memTy op int).2 = false := by cases op <;> first | (cases hm; done) | rfl
    obtain ⟨is, s1, e1, e2, e3, e4⟩ := load_run (t := ⟨(memTy op int).1, (memTy op int).2, false⟩) (ty_ok op int).1 (ty_ok op int).2 rfl hs (.inr rfl) s
    have hl : s1.r (regMap TMP_REG2) = rd s.m (ea s base offs w) (2 ^ (memTy op int).1) := by
      rw [e4]; simp [Ty.load, hsg]
    have := tail (r := TMP_REG2) e1 e2 e3.m e3.f e3.keep (by decide) (fun _ h => by
      rw [hl, h]
      exact (rd_lt s.m 2 _).resolve_right (by decide))
    rw [hl] at this
    exact this

end Verif.A64
