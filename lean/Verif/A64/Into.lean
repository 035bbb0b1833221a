import Verif.A64.Op2

/-! # sljit_emit_shift_into (helper lemmas) -/

namespace Verif.A64
open Verif.Imm.Arm64 (regMap RD RN TMP_ZERO W_OP ORRI loadImmediate)
open Verif.Imm.A64 (bitMask)
open Verif (RV.OpC RV.Op RV.Flag RV.val RV.flagVal RV.Op.flagOk)

/-- The result (sljitLir.h:1430-1443) for the count n < w. -/
def intoV {w : Nat} (left : Bool) (x y : BitVec w) (n : Nat) : BitVec w :=
  if left then (x <<< n) ||| ((y >>> 1) >>> (w - 1 - n)) else (x >>> n) ||| ((y <<< 1) <<< (w - 1 - n))

theorem into_left {w : Nat} (x y : BitVec w) {n : Nat} (h : n < w) : intoV true x y n = (x <<< n) ||| (y >>> (w - n)) := by
  rw [intoV, if_pos rfl, ← BitVec.shiftRight_add, show 1 + (w - 1 - n) = w - n by omega]
theorem into_right {w : Nat} (x y : BitVec w) {n : Nat} (h : n < w) : intoV false x y n = (x >>> n) ||| (y <<< (w - n)) := by
  rw [intoV, if_neg (by decide), ← BitVec.shiftLeft_add, show 1 + (w - 1 - n) = w - n by omega]

theorem into_rotl {w : Nat} (x : BitVec w) {n : Nat} (h : n < w) : intoV true x x n = x.rotateLeft n := by
  rw [into_left _ _ h]
  apply BitVec.eq_of_getLsbD_eq; intro i hi
  rw [rotl_bit _ _ _ hi, BitVec.getLsbD_or, BitVec.getLsbD_shiftLeft, BitVec.getLsbD_ushiftRight, Nat.mod_eq_of_lt h]
  simp only [hi, decide_true, Bool.true_and]
  by_cases hin : i < n
  · rw [Nat.mod_eq_of_lt (by omega)]; simp [hin]; congr 1; omega
  · rw [Nat.mod_eq_sub_mod (by omega), Nat.mod_eq_of_lt (by omega)]
    rw [BitVec.getLsbD_of_ge x (w - n + i) (by omega)]
    simp [hin, -BitVec.getLsbD_eq_getElem]; congr 1; omega

theorem into_rotr {w : Nat} (x : BitVec w) {n : Nat} (h : n < w) : intoV false x x n = x.rotateRight n := by
  rw [into_right _ _ h]
  apply BitVec.eq_of_getLsbD_eq; intro i hi
  rw [rotr_bit _ _ _ hi, BitVec.getLsbD_or, BitVec.getLsbD_shiftLeft, BitVec.getLsbD_ushiftRight]
  simp only [hi, decide_true, Bool.true_and]
  by_cases hin : i < w - n
  · rw [Nat.mod_eq_of_lt (by omega)]; simp [hin, -BitVec.getLsbD_eq_getElem]; congr 1; omega
  · rw [Nat.mod_eq_sub_mod (by omega), Nat.mod_eq_of_lt (by omega)]
    rw [BitVec.getLsbD_of_ge x (n + i) (by omega)]
    simp [hin, -BitVec.getLsbD_eq_getElem]; congr 1; omega

/-- EXTR of two registers. -/
theorem into_extr {w : Nat} (left : Bool) (x y : BitVec w) {n : Nat} (h : n < w) (h0 : 0 < n) :
    ((if left then x else y) ++ (if left then y else x)).extractLsb' (if left then w - n else n) w = intoV left x y n := by
  cases left
  · simp only [Bool.false_eq_true, if_false]
    rw [into_right _ _ h]
    apply BitVec.eq_of_getLsbD_eq; intro i hi
    rw [extr_bit _ _ _ _ hi, BitVec.getLsbD_or, BitVec.getLsbD_shiftLeft, BitVec.getLsbD_ushiftRight]
    by_cases hin : n + i < w
    · rw [if_pos hin]; simp [show i < w - n by omega]
    · rw [if_neg hin, BitVec.getLsbD_of_ge x (n + i) (by omega)]
      simp [hi, show ¬ i < w - n by omega, -BitVec.getLsbD_eq_getElem]; congr 1; omega
  · simp only [if_true]
    rw [into_left _ _ h]
    apply BitVec.eq_of_getLsbD_eq; intro i hi
    rw [extr_bit _ _ _ _ hi, BitVec.getLsbD_or, BitVec.getLsbD_shiftLeft, BitVec.getLsbD_ushiftRight]
    by_cases hin : w - n + i < w
    · rw [if_pos hin]; simp [show i < n by omega]
    · rw [if_neg hin, BitVec.getLsbD_of_ge y (w - n + i) (by omega)]
      simp [hi, show ¬ i < n by omega, -BitVec.getLsbD_eq_getElem]; congr 1; omega

/-! ## Counts -/

theorem xor_mask (int : Bool) {k : BitVec 32} (hk : k.toNat < W (!int)) (h0 : 0 < k.toNat) : ((k ^^^ cm int) + 1#32).toNat = W (!int) - k.toNat := by
  have key : ∀ j : _root_.Fin 64, (((BitVec.ofNat 32 j.val) ^^^ cm int).toNat + 1 = W (!int) - j.val ∨ W (!int) ≤ j.val) := by
    cases int <;> decide
  have e : k = BitVec.ofNat 32 k.toNat := by apply BitVec.eq_of_toNat_eq; simp
  have hw := W_le (!int)
  rcases key ⟨k.toNat, by omega⟩ with h | h
  · rw [BitVec.toNat_add]
    rw [← e] at h
    simp only at h
    rw [show (1#32).toNat = 1 from rfl, Nat.mod_eq_of_lt (by omega)]; exact h
  · simp only at h; omega

/-- The count complemented by EORI. -/
theorem eor_cnt (sf : Bool) (c : BitVec (W sf)) : (c ^^^ BitVec.ofNat _ (W sf - 1)).toNat % W sf = W sf - 1 - c.toNat % W sf := by
  have hm : (c ^^^ BitVec.ofNat _ (W sf - 1)).toNat % W sf = (c.toNat % W sf) ^^^ (W sf - 1) := by
    cases sf
    · show ((show BitVec 32 from c) ^^^ BitVec.ofNat 32 31).toNat % 32 = (c.toNat % 32) ^^^ 31
      rw [BitVec.toNat_xor]
      show (c.toNat ^^^ 31) % 2 ^ 5 = _
      rw [Nat.xor_mod_two_pow]
    · show ((show BitVec 64 from c) ^^^ BitVec.ofNat 64 63).toNat % 64 = (c.toNat % 64) ^^^ 63
      rw [BitVec.toNat_xor]
      show (c.toNat ^^^ 63) % 2 ^ 6 = _
      rw [Nat.xor_mod_two_pow]
  rw [hm]
  have hl : c.toNat % W sf < W sf := Nat.mod_lt _ (W_pos _)
  generalize c.toNat % W sf = n at hl
  have key : ∀ j : _root_.Fin 64, j.val ^^^ 63 = 63 - j.val := by decide
  have key' : ∀ j : _root_.Fin 32, j.val ^^^ 31 = 31 - j.val := by decide
  cases sf
  · exact key' ⟨n, hl⟩
  · exact key ⟨n, hl⟩

/-! ## Instructions -/

variable {s : St}

theorem s_sh (left i : Bool) {d n m : Nat} : step (((if left then LSLV else LSRV) ^^^ iv i) ||| RD d ||| RN n ||| RM m) s =
    some (s.setX (regMap d) (up (if left then lo (!i) (s.x (regMap n)) <<< ((lo (!i) (s.x (regMap m))).toNat % W (!i)) else lo (!i) (s.x (regMap n)) >>> ((lo (!i) (s.x (regMap m))).toNat % W (!i))))) := by
  cases left
  · exact (s_lsrv i).trans (exec_two rfl)
  · exact (s_lslv i).trans (exec_two rfl)

theorem s_or (i : Bool) {d n m : Nat} : step ((ORR ^^^ iv i) ||| RD d ||| RN n ||| RM m) s = some (s.setX (regMap d) (up (lo (!i) (s.x (regMap n)) ||| lo (!i) (s.x (regMap m))))) := by
  rw [s_orr]; simp only [exec, sh0]; rfl

theorem s_neg (i : Bool) {d m : Nat} : step ((SUB ^^^ iv i) ||| RD d ||| RN TMP_ZERO ||| RM m) s = some (s.setX (regMap d) (up (-(lo (!i) (s.x (regMap m)))))) := by
  rw [s_sub']
  simp only [exec, sh0, if_true, Bool.false_eq_true, if_false]
  rw [awc_sub _ _ (W_pos _), show s.x (regMap TMP_ZERO) = 0#64 from rfl, lo_zero, BitVec.zero_sub]

/-- One bit in the other direction. -/
theorem s_one (left i : Bool) {d n : Nat} : step ((UBFM ^^^ (iv i ||| (iv i >>> 9))) ||| RD d ||| RN n ||| (if left then (if i then bfBits true 1#32 31#32 else bfBits false 1#32 63#32) else (if i then bfBits true 31#32 30#32 else bfBits false 63#32 62#32))) s =
    some (s.setX (regMap d) (up (if left then lo (!i) (s.x (regMap n)) >>> 1 else lo (!i) (s.x (regMap n)) <<< 1))) := by
  cases left <;> cases i
  · refine (s_bf false false (immr := 63#32) (imms := 62#32) (by decide) (by decide)).trans ?_
    rw [show (63#32).toNat = (W (!false) - 1) % W (!false) from rfl, show (62#32).toNat = W (!false) - 1 - 1 from rfl, bfm_shl _ (show 1 < W (!false) by decide)]; rfl
  · refine (s_bf true false (immr := 31#32) (imms := 30#32) (by decide) (by decide)).trans ?_
    rw [show (31#32).toNat = (W (!true) - 1) % W (!true) from rfl, show (30#32).toNat = W (!true) - 1 - 1 from rfl, bfm_shl _ (show 1 < W (!true) by decide)]; rfl
  · refine (s_bf false false (immr := 1#32) (imms := 63#32) (by decide) (by decide)).trans ?_
    rw [show (1#32).toNat = 1 from rfl, show (63#32).toNat = W (!false) - 1 from rfl, bfm_shr _ (show 1 < W (!false) by decide)]; rfl
  · refine (s_bf true false (immr := 1#32) (imms := 31#32) (by decide) (by decide)).trans ?_
    rw [show (1#32).toNat = 1 from rfl, show (31#32).toNat = W (!true) - 1 from rfl, bfm_shr _ (show 1 < W (!true) by decide)]; rfl

theorem s_eorMask (i : Bool) {d n : Nat} (hd : regMap d ≠ 31#5) : step ((EORI ^^^ iv i) ||| RD d ||| RN n ||| (if i then 4#32 <<< 10 else (5#32 <<< 10) ||| (1#32 <<< 22))) s =
    some (s.setX (regMap d) (up (lo (!i) (s.x (regMap n)) ^^^ BitVec.ofNat _ (W (!i) - 1)))) := by
  have eg : (if i then 4#32 <<< 10 else (5#32 <<< 10) ||| (1#32 <<< 22)) = (if i then 4#13 else 0x1005#13).setWidth 32 <<< 10 := by cases i <;> decide
  have hm : bitMask (sfb !i) (if i then 4#13 else 0x1005#13) = some (if i then 0x1f0000001f#64 else 0x3f#64) := by cases i <;> decide +kernel
  rw [eg, s_logi (b := EORI ^^^ iv i) (i := i) (st := false) (opc := 2#2) rfl rfl (by decide) hm, setX_ne _ _ hd]
  cases i <;> rfl

/-- The last two instructions: x9 = r shifted by x10, dst |= x9. -/
theorem tail_run (left i : Bool) {dst r : Nat} (hd : Ur dst) (s : St) :
    ∃ s', runs [((if left then LSRV else LSLV) ^^^ iv i) ||| RD TMP_REG1 ||| RN r ||| RM TMP_REG2, (ORR ^^^ iv i) ||| RD dst ||| RN dst ||| RM TMP_REG1] s = some s' ∧ s'.m = s.m ∧
      (∀ q, q ≠ 9#5 → q ≠ regMap dst → s'.r q = s.r q) ∧
      lo (!i) (s'.r (regMap dst)) = lo (!i) (s.r (regMap dst)) ||| (if left then lo (!i) (s.x (regMap r)) >>> ((lo (!i) (s.r 10#5)).toNat % W (!i)) else lo (!i) (s.x (regMap r)) <<< ((lo (!i) (s.r 10#5)).toNat % W (!i))) := by
  obtain ⟨d1, d2, d3, d4⟩ := ur_map hd
  have e1 := s_sh (s := s) (!left) i (d := TMP_REG1) (n := r) (m := TMP_REG2)
  rw [show (if (!left) = true then LSLV else LSRV) = (if left = true then LSRV else LSLV) by cases left <;> rfl] at e1
  rw [setX_ne _ _ (show regMap TMP_REG1 ≠ 31#5 by decide), x_ne (show regMap TMP_REG2 ≠ 31#5 by decide)] at e1
  refine ⟨_, runs_two e1 (s_or i), ?_, fun q h1 h2 => ?_, ?_⟩
  · rw [setX_ne _ _ d4]; rfl
  · rw [setX_ne _ _ d4, set_ne _ _ h2, set_ne _ _ (show q ≠ regMap TMP_REG1 from h1)]
  · rw [setX_ne _ _ d4, set_self, lo_up, x_ne d4, x_ne (show regMap TMP_REG1 ≠ 31#5 by decide), set_self, lo_up, set_ne _ _ (show regMap dst ≠ regMap TMP_REG1 from d1)]
    cases left <;> rfl

/-- The register of the count. -/
theorem count_run (int : Bool) {dst : Nat} {src3 : Opd} (h3 : Usr src3) (hi : ∀ v, src3 ≠ .imm v) (s : St) :
    ∃ is s1 r3, intoCount int dst src3 = (some is, r3) ∧ runs is s = some s1 ∧ Near 10#5 s s1 ∧ regMap r3 ≠ 31#5 ∧ (Ur dst → regMap r3 ≠ regMap dst) ∧ regMap r3 ≠ 9#5 ∧ lo (!int) (s1.r (regMap r3)) = ov (!int) s src3 := by
  cases src3 with
  | imm v => exact absurd rfl (hi v)
  | reg r =>
    obtain ⟨r1, r2, r3, r4⟩ := ur_map h3
    simp only [intoCount]
    split
    · refine ⟨_, s.set 10#5 (s.r (regMap r)), TMP_REG2, rfl, runs_one ?_, ⟨rfl, rfl, fun q h => set_ne _ _ h⟩, by decide, fun hd => (ur_map hd).2.1.symm, by decide, ?_⟩
      · have := s_orr (s := s) (d := TMP_REG2) (n := TMP_ZERO) (m := r) false
        rw [show iv false = 0#32 from rfl, BitVec.xor_zero] at this
        rw [show MOV ||| RD TMP_REG2 ||| RM r = ORR ||| RD TMP_REG2 ||| RN TMP_ZERO ||| RM r by
          simp only [MOV, BitVec.or_assoc]; congr 1; rw [← BitVec.or_assoc, BitVec.or_comm (RN TMP_ZERO), BitVec.or_assoc], this]
        simp only [exec, sh0]
        show some (s.set 10#5 ((((0#64).setWidth 64 ||| (s.x (regMap r)).setWidth 64 : BitVec 64)).setWidth 64)) = _
        simp [x_ne r4]
      · rw [show regMap TMP_REG2 = 10#5 from rfl, set_self]; rfl
    · next h => exact ⟨[], s, r, rfl, rfl, ⟨rfl, rfl, fun _ _ => rfl⟩, r4, fun hd => map_inj ⟨h3.1, by have := h3.2; omega⟩ ⟨hd.1, by have := hd.2; omega⟩ (Ne.symm h), r1, rfl⟩
  | mem base offs w =>
    obtain ⟨is, s1, e1, e2, e3, e4⟩ := load_run (t := ⟨szOf int, false, false⟩) (sz_ok int) (fun _ => rfl) rfl h3 (.inr rfl) s
    refine ⟨is, s1, TMP_REG2, by rw [intoCount, e1], e2, e3, by decide, fun hd => (ur_map hd).2.1.symm, by decide, ?_⟩
    rw [e4]
    simp [ov, Ty.load, sz_div]

/-- sljit_emit_shift_into, :1803-1875. -/
theorem into_run (int left nz : Bool) {dst src1 src2 : Nat} (hd : Ur dst) (h1 : Ur src1) (h2 : Ur src2) {src3 : Opd} (h3 : Usr src3) (hne : dst ≠ src2)
    (h0 : ∀ v, src3 = .imm v → v.toNat % W (!int) = 0 → dst = src1 ∨ src1 = src2) (s : St) (hnz : nz = true → (ov (!int) s src3).toNat % W (!int) ≠ 0) :
    ∃ is s', emitShiftInto int left nz dst src1 src2 src3 = some is ∧ runs is s = some s' ∧
      Fin s s' (.reg dst) (intoV left (lo (!int) (s.r (regMap src1))) (lo (!int) (s.r (regMap src2))) ((ov (!int) s src3).toNat % W (!int))) := by
  obtain ⟨d1, d2, d3, d4⟩ := ur_map hd
  obtain ⟨x1, x2, x3, x4⟩ := ur_map h1
  obtain ⟨y1, y2, y3, y4⟩ := ur_map h2
  have hdn : dst ≠ TMP_REG2 := by have := hd.2; unfold TMP_REG2; omega
  have hdy : regMap src2 ≠ regMap dst := map_inj ⟨h2.1, by have := h2.2; omega⟩ ⟨hd.1, by have := hd.2; omega⟩ (Ne.symm hne)
  have hl : (ov (!int) s src3).toNat % W (!int) < W (!int) := Nat.mod_lt _ (W_pos _)
  unfold emitShiftInto
  split
  · next he =>
    subst he
    cases left
    · obtain ⟨is, s', x, e1, e2, e3, e4⟩ := emitOp2_run (op := ⟨.rotr, int, false, .none⟩) (cin := false) rfl ⟨rfl, rfl⟩ (dst := .reg dst) (.inl hd) (src1 := .reg src1) h1 h3 (s := s) ⟨fun h => (by cases h), fun h => (by cases h)⟩
      refine ⟨is, s', e1, e2, ?_⟩
      have := e4.val
      rw [into_rotr _ hl]
      rw [this] at e3; exact e3
    · obtain ⟨is, s', x, e1, e2, e3, e4⟩ := emitOp2_run (op := ⟨.rotl, int, false, .none⟩) (cin := false) rfl ⟨rfl, rfl⟩ (dst := .reg dst) (.inl hd) (src1 := .reg src1) h1 h3 (s := s) ⟨fun h => (by cases h), fun h => (by cases h)⟩
      refine ⟨is, s', e1, e2, ?_⟩
      have := e4.val
      rw [into_rotl _ hl]
      rw [this] at e3; exact e3
  · next hn =>
    have finish : ∀ (s' : St) (x : BitVec (W !int)), s'.m = s.m → (∀ q, q ≠ 9#5 → q ≠ 10#5 → q ≠ regMap dst → s'.r q = s.r q) → lo (!int) (s'.r (regMap dst)) = x → Fin s s' (.reg dst) x := by
      intro s' x a b c
      exact ⟨fun q q1 q2 _ q4 => b q q1 q2 (q4 dst rfl), fun d e _ => by cases e; exact c, fun _ _ _ e => (by cases e), fun _ => a⟩
    have general : ∀ (hi : ∀ v, src3 ≠ .imm v), ∃ is s', ((intoCount int dst src3).1 +> some ((((if left then LSLV else LSRV) ^^^ iv int) ||| RD dst ||| RN src1 ||| RM (intoCount int dst src3).2) ::
        if nz then ((SUB ^^^ iv int) ||| RD TMP_REG2 ||| RN TMP_ZERO ||| RM (intoCount int dst src3).2) :: [((if left then LSRV else LSLV) ^^^ iv int) ||| RD TMP_REG1 ||| RN src2 ||| RM TMP_REG2, (ORR ^^^ iv int) ||| RD dst ||| RN dst ||| RM TMP_REG1]
        else ((UBFM ^^^ (iv int ||| (iv int >>> 9))) ||| RD TMP_REG1 ||| RN src2 ||| (if left then (if int then bfBits true 1#32 31#32 else bfBits false 1#32 63#32) else (if int then bfBits true 31#32 30#32 else bfBits false 63#32 62#32))) ::
          ((EORI ^^^ iv int) ||| RD TMP_REG2 ||| RN (intoCount int dst src3).2 ||| (if int then 4#32 <<< 10 else (5#32 <<< 10) ||| (1#32 <<< 22))) :: [((if left then LSRV else LSLV) ^^^ iv int) ||| RD TMP_REG1 ||| RN TMP_REG1 ||| RM TMP_REG2, (ORR ^^^ iv int) ||| RD dst ||| RN dst ||| RM TMP_REG1])) = some is ∧ runs is s = some s' ∧
        Fin s s' (.reg dst) (intoV left (lo (!int) (s.r (regMap src1))) (lo (!int) (s.r (regMap src2))) ((ov (!int) s src3).toNat % W (!int))) := by
      intro hi
      obtain ⟨ic, sc, r3, c1, c2, c3, c4, c5, c6, c7⟩ := count_run int (dst := dst) h3 hi s
      have c5 := c5 hd
      rw [c1]
      have ea := s_sh (s := sc) left int (d := dst) (n := src1) (m := r3)
      rw [setX_ne _ _ d4, x_ne x4, x_ne c4, c3.keep _ x2, c7] at ea
      generalize hx : lo (!int) (s.r (regMap src1)) = x at ea ⊢
      generalize hy : lo (!int) (s.r (regMap src2)) = y
      generalize hc : ov (!int) s src3 = c at hnz c7 hl ea ⊢
      generalize hv : (if left = true then x <<< (c.toNat % W (!int)) else x >>> (c.toNat % W (!int))) = v at ea
      have g3 : (sc.set (regMap dst) (up v)).r (regMap r3) = sc.r (regMap r3) := set_ne _ _ c5
      cases nz
      · have eb := s_one (s := sc.set (regMap dst) (up v)) left int (d := TMP_REG1) (n := src2)
        rw [setX_ne _ _ (show regMap TMP_REG1 ≠ 31#5 by decide), x_ne y4, set_ne _ _ hdy, c3.keep _ y2, hy] at eb
        generalize hz : (if left = true then y >>> 1 else y <<< 1) = z at eb
        have ec := s_eorMask (s := (sc.set (regMap dst) (up v)).set (regMap TMP_REG1) (up z)) int (d := TMP_REG2) (n := r3) (by decide)
        rw [setX_ne _ _ (show regMap TMP_REG2 ≠ 31#5 by decide), x_ne c4, set_ne _ _ (show regMap r3 ≠ regMap TMP_REG1 from c6), g3, c7] at ec
        obtain ⟨s', t1, t2, t3, t4⟩ := tail_run left int (r := TMP_REG1) hd (((sc.set (regMap dst) (up v)).set (regMap TMP_REG1) (up z)).set (regMap TMP_REG2) (up (c ^^^ BitVec.ofNat _ (W (!int) - 1))))
        refine ⟨_, s', rfl, ?_, finish _ _ (t2.trans c3.m) (fun q q1 q2 q3 => ?_) ?_⟩
        · rw [runs_app c2, runs_cons, ea, Option.bind_some, if_neg (by decide), runs_cons, eb, Option.bind_some, runs_cons, ec, Option.bind_some]; exact t1
        · rw [t3 q q1 q3, set_ne _ _ (show q ≠ regMap TMP_REG2 from q2), set_ne _ _ (show q ≠ regMap TMP_REG1 from q1), set_ne _ _ q3, c3.keep q q2]
        · rw [t4, set_ne _ _ (show regMap dst ≠ regMap TMP_REG2 from d2), set_ne _ _ (show regMap dst ≠ regMap TMP_REG1 from d1), set_self, lo_up, x_ne (show regMap TMP_REG1 ≠ 31#5 by decide),
            set_ne _ _ (show regMap TMP_REG1 ≠ regMap TMP_REG2 by decide), set_self, lo_up, show regMap TMP_REG2 = 10#5 from rfl, set_self, lo_up, eor_cnt, ← hv, ← hz]
          cases left <;> rfl
      · have hpos := hnz rfl
        have eb := s_neg (s := sc.set (regMap dst) (up v)) int (d := TMP_REG2) (m := r3)
        rw [setX_ne _ _ (show regMap TMP_REG2 ≠ 31#5 by decide), x_ne c4, g3, c7] at eb
        obtain ⟨s', t1, t2, t3, t4⟩ := tail_run left int (r := src2) hd ((sc.set (regMap dst) (up v)).set (regMap TMP_REG2) (up (-c)))
        have en : (-c).toNat % W (!int) = W (!int) - c.toNat % W (!int) := by
          have := neg_mod _ (W_or (!int)) c rfl
          have hw := W_pos (!int)
          have h2 : (-c).toNat % W (!int) < W (!int) := Nat.mod_lt _ hw
          generalize (-c).toNat % W (!int) = p at *
          generalize c.toNat % W (!int) = q at *
          rcases Nat.lt_or_ge (q + p) (W (!int)) with h | h
          · rw [Nat.mod_eq_of_lt h] at this; omega
          · rw [Nat.mod_eq_sub_mod h, Nat.mod_eq_of_lt (by omega)] at this; omega
        refine ⟨_, s', rfl, ?_, finish _ _ (t2.trans c3.m) (fun q q1 q2 q3 => ?_) ?_⟩
        · rw [runs_app c2, runs_cons, ea, Option.bind_some, if_pos rfl, runs_cons, eb, Option.bind_some]; exact t1
        · rw [t3 q q1 q3, set_ne _ _ (show q ≠ regMap TMP_REG2 from q2), set_ne _ _ q3, c3.keep q q2]
        · rw [t4, set_ne _ _ (show regMap dst ≠ regMap TMP_REG2 from d2), set_self, lo_up, x_ne y4, set_ne _ _ (show regMap src2 ≠ regMap TMP_REG2 from y2), set_ne _ _ hdy, c3.keep _ y2, hy,
            show regMap TMP_REG2 = 10#5 from rfl, set_self, lo_up, en, ← hv]
          cases left
          · rw [into_right _ _ hl]; rfl
          · rw [into_left _ _ hl]; rfl
    cases src3 with
    | imm v =>
      simp only
      have ec := cnt int v
      have e0 : v.toNat % W (!int) = (ov (!int) s (.imm v)).toNat % W (!int) := by
        show _ = (lo (!int) v).toNat % W (!int)
        rw [lo_nat]; cases int
        · show _ % 64 = _ % 2 ^ 64 % 64; omega
        · show _ % 32 = _ % 2 ^ 32 % 32; omega
      rw [show (if int then 0x1f#32 else 0x3f#32) = cm int from rfl]
      split
      · next hz =>
        rw [hz] at ec
        have hz' : v.toNat % W (!int) = 0 := by rw [e0]; exact ec.symm
        rcases h0 v rfl hz' with rfl | h
        · refine ⟨[], s, rfl, rfl, finish _ _ rfl (fun _ _ _ _ => rfl) ?_⟩
          rw [← e0, hz']
          unfold intoV
          have wp := W_pos (!int)
          cases left
          · rw [if_neg (by decide), ← BitVec.shiftLeft_add, show 1 + (W (!int) - 1 - 0) = W (!int) by omega, BitVec.shiftLeft_eq_zero (Nat.le_refl _)]; simp
          · rw [if_pos rfl, ← BitVec.shiftRight_add, show 1 + (W (!int) - 1 - 0) = W (!int) by omega, BitVec.ushiftRight_eq_zero (Nat.le_refl _)]; simp
        · exact absurd h hn
      · next hz =>
        have hp : 0 < (v.setWidth 32 &&& cm int).toNat := by
          rcases Nat.eq_zero_or_pos (v.setWidth 32 &&& cm int).toNat with h | h
          · exact absurd (BitVec.eq_of_toNat_eq h) hz
          · exact h
        have hk := cm_lt int (v.setWidth 32)
        generalize v.setWidth 32 &&& cm int = k at *
        have hxm := xor_mask int hk hp
        have e := s_ex (s := s) (dst := dst) (n := if left then src1 else src2) (m := if left then src2 else src1) int (k := if left then (k ^^^ cm int) + 1#32 else k) (by
          cases left
          · exact hk
          · rw [if_pos rfl, hxm]; omega)
        refine ⟨_, _, rfl, runs_one e, ?_⟩
        have hval : (lo (!int) (s.x (regMap (if left then src1 else src2))) ++ lo (!int) (s.x (regMap (if left then src2 else src1)))).extractLsb' (if left then (k ^^^ cm int) + 1#32 else k).toNat (W !int) =
            intoV left (lo (!int) (s.r (regMap src1))) (lo (!int) (s.r (regMap src2))) ((ov (!int) s (.imm v)).toNat % W (!int)) := by
          rw [show (ov (!int) s (.imm v)).toNat % W (!int) = k.toNat from ec.symm, ← into_extr left _ _ hk hp]
          cases left
          · simp only [Bool.false_eq_true, if_false, x_ne x4, x_ne y4]
          · simp only [if_true, x_ne x4, x_ne y4, hxm]
        rw [hval, setX_ne _ _ d4]
        refine finish _ _ rfl (fun q _ _ q3 => set_ne _ _ q3) (by rw [set_self, lo_up])
    | reg r => exact general (fun v e => by cases e)
    | mem base offs w => exact general (fun v e => by cases e)

end Verif.A64
