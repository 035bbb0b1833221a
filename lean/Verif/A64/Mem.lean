import Verif.A64.StepsM
import Verif.A64.Post

/-! # emit_op_mem on the A64 machine (helper lemmas) -/

namespace Verif.A64
open Verif.Imm.A64 (fld Regs)
open Verif.Imm.Arm64 (regMap RD RN TMP_ZERO W_OP loadImmediate)

/-! ## Numbers -/

theorem fit12 {x : BitVec 32} (h : x.toNat < 4096) : x = (x.setWidth 12).setWidth 32 := by
  apply BitVec.eq_of_toNat_eq; simp only [BitVec.toNat_setWidth]; have := x.isLt; omega
theorem fit9 {x : BitVec 32} (h : x.toNat < 512) : x = (x.setWidth 9).setWidth 32 := by
  apply BitVec.eq_of_toNat_eq; simp only [BitVec.toNat_setWidth]; have := x.isLt; omega
theorem fit6 {x : BitVec 32} (h : x.toNat < 64) : x = (x.setWidth 6).setWidth 32 := by
  apply BitVec.eq_of_toNat_eq; simp only [BitVec.toNat_setWidth]; have := x.isLt; omega

theorem and_fff (x : BitVec 32) : (x &&& 0xfff#32).toNat = x.toNat % 4096 := by
  rw [BitVec.toNat_and]; exact Nat.and_two_pow_sub_one_eq_mod x.toNat 12
theorem and_1ff (x : BitVec 32) : (x &&& 0x1ff#32).toNat = x.toNat % 512 := by
  rw [BitVec.toNat_and]; exact Nat.and_two_pow_sub_one_eq_mod x.toNat 9
theorem and_fff64 (x : BitVec 64) : (x &&& 0xfff#64).toNat = x.toNat % 4096 := by
  rw [BitVec.toNat_and]; exact Nat.and_two_pow_sub_one_eq_mod x.toNat 12
theorem and_3 (x : BitVec 64) : (x &&& 3#64).toNat = x.toNat % 4 := by
  rw [BitVec.toNat_and]; exact Nat.and_two_pow_sub_one_eq_mod x.toNat 2

theorem align (x : BitVec 64) {z : Nat} (hz : z < 4) : x &&& ((1#64 <<< z) - 1#64) = 0#64 ↔ x.toNat % 2 ^ z = 0 := by
  have e : (x &&& ((1#64 <<< z) - 1#64)).toNat = x.toNat % 2 ^ z := by
    rw [BitVec.toNat_and]
    have : ((1#64 <<< z) - 1#64).toNat = 2 ^ z - 1 := by revert hz; revert z; decide
    rw [this, Nat.and_two_pow_sub_one_eq_mod]
  rw [← e, BitVec.toNat_eq]; rfl

theorem int_nat (x : BitVec 64) : (x.toNat < 2 ^ 63 ∧ x.toInt = x.toNat) ∨ (2 ^ 63 ≤ x.toNat ∧ x.toInt = (x.toNat : Int) - 2 ^ 64) := by
  have := x.isLt
  rw [BitVec.toInt_eq_toNat_cond]
  split <;> omega

/-! ## States -/

theorem set_m (s : St) (d v) : (s.set d v).m = s.m := rfl
theorem set_f (s : St) (d v) : (s.set d v).f = s.f := rfl
theorem set_self (s : St) (d v) : (s.set d v).r d = v := by simp [St.set]
theorem set_ne (s : St) {d q : BitVec 5} (v) (h : q ≠ d) : (s.set d v).r q = s.r q := by simp [St.set, h]
theorem x_ne {s : St} {q : BitVec 5} (h : q ≠ 31#5) : s.x q = s.r q := by simp [St.x, h]
theorem x_31 {s : St} : s.x 31#5 = 0#64 := by simp [St.x]
theorem set_x_ne (s : St) {d q : BitVec 5} (v) (h : q ≠ d) : (s.set d v).x q = s.x q := by simp [St.x, St.set, h]
theorem setX_ne (s : St) {d : BitVec 5} (v) (h : d ≠ 31#5) : s.setX d v = s.set d v := by simp [St.setX, h]

theorem awc_val {w : Nat} (x y : BitVec w) (c : Bool) : (awc x y c).1 = x + y + BitVec.ofNat w c.toNat := by
  apply BitVec.eq_of_toNat_eq
  simp [awc, BitVec.toNat_add, Nat.add_mod]

theorem awc_add (x y : BitVec 64) : up (w := W true) (awc (lo true x) (lo true y) false).1 = x + y := by
  rw [awc_val]
  show ((x.setWidth 64 + y.setWidth 64 + BitVec.ofNat 64 0).setWidth 64) = _
  simp
theorem awc_sub64 (x y : BitVec 64) : up (w := W true) (awc (lo true x) (~~~ (lo true y)) true).1 = x - y := by
  rw [awc_sub _ _ (by decide)]
  show ((x.setWidth 64 - y.setWidth 64).setWidth 64) = _
  simp

/-- A state which differs in a temporary register at most. -/
def Upto (t : BitVec 5) (s s1 : St) : Prop := s1 = s ∨ ∃ v, s1 = s.set t v

/-- The address of a memory operand. -/
def ea (s : St) (base offs : Nat) (w : BitVec 64) : BitVec 64 :=
  (if base = 0 then 0#64 else s.r (regMap base)) + if offs = 0 then w else s.r (regMap offs) <<< w.toNat

/-- What is allowed as a memory operand; `tmp` is a temporary register. -/
structure MemOk (base offs : Nat) (w : BitVec 64) (tmp : Nat) : Prop where
  t : regMap tmp ≠ 31#5
  b : base ≠ 0 → regMap base ≠ regMap tmp
  o : offs ≠ 0 → base ≠ 0 ∧ w.toNat < 4 ∧ regMap base ≠ 31#5 ∧ regMap offs ≠ 31#5

/-- A sequence of one word. -/
theorem runs_one {w : BitVec 32} {s s1 : St} (h : step w s = some s1) : runs [w] s = some s1 := by simp [runs, h]
theorem runs_two {w v : BitVec 32} {s s1 s2 : St} (h : step w s = some s1) (h' : step v s1 = some s2) : runs [w, v] s = some s2 := by simp [runs, h, h']
theorem runs_app {a b : List (BitVec 32)} {s s1 : St} (h : runs a s = some s1) : runs (a ++ b) s = runs b s1 := by
  induction a generalizing s with
  | nil => cases h; rfl
  | cons w a ih =>
    simp only [runs, Option.bind_eq_some_iff] at h
    obtain ⟨s2, e, h⟩ := h
    simp only [List.cons_append, runs, e, Option.bind_some]
    exact ih h

theorem s_addiT {sub : Bool} {tmp base : Nat} (ht : regMap tmp ≠ 31#5) (i : BitVec 12) (s : St) :
    step ((if sub then SUBI else ADDI) ||| (1#32 <<< 22) ||| RD tmp ||| RN base ||| (i.setWidth 32 <<< 10)) s =
      some (s.set (regMap tmp) (if sub then s.r (regMap base) - (i.setWidth 64 <<< 12) else s.r (regMap base) + (i.setWidth 64 <<< 12))) := by
  rw [s_addiM, exec]
  cases sub
  · simp only [Bool.false_eq_true, if_false]
    rw [awc_add]
  · simp only [if_true, Bool.false_eq_true, if_false]
    rw [awc_sub64]

theorem and_100 (i : BitVec 32) : i &&& 0x100#32 = 0#32 ↔ i.toNat / 256 % 2 = 0 := by
  have e : (i &&& 0x100#32).getLsbD 8 = i.getLsbD 8 := by simp [-BitVec.getLsbD_eq_getElem]
  have e2 : i.getLsbD 8 = decide (i.toNat / 2 ^ 8 % 2 = 1) := by rw [BitVec.getLsbD, Nat.testBit_eq_decide_div_mod_eq]
  constructor
  · intro h
    rw [h] at e
    have : decide (i.toNat / 2 ^ 8 % 2 = 1) = false := by rw [← e2, ← e]; rfl
    simp only [decide_eq_false_iff_not, Nat.reducePow] at this
    omega
  · intro h
    apply BitVec.eq_of_getLsbD_eq
    intro k hk
    by_cases hk8 : k = 8
    · subst hk8
      rw [e, e2]; simp; omega
    · rw [BitVec.getLsbD_and]
      have : (0x100#32).getLsbD k = false := by interval_cases k <;> simp_all
      rw [this]; simp

theorem sext9 (j : BitVec 9) : (j.toNat < 256 ∧ (j.signExtend 64).toNat = j.toNat) ∨ (256 ≤ j.toNat ∧ (j.signExtend 64).toNat = j.toNat + (2 ^ 64 - 512)) := by
  have h1 : (j.signExtend 64).toInt = j.toInt := BitVec.toInt_signExtend_of_le (by decide)
  have h2 := int_nat (j.signExtend 64)
  have h3 := j.isLt
  have h4 := (j.signExtend 64).isLt
  rw [h1, BitVec.toInt_eq_toNat_cond] at h2
  split at h2 <;> omega

set_option maxHeartbeats 2000000 in
theorem opMem_run {t : Ty} (ht : t.size < 4) (hs : t.size = 3 → t.sg = false) {r base offs tmp : Nat} {w : BitVec 64} (h : MemOk base offs w tmp) (s : St) :
    ∃ is s1, emitOpMem t r base offs w tmp = some is ∧ Upto (regMap tmp) s s1 ∧ runs is s = some (t.eff s1 (regMap r) (ea s base offs w)) := by
  unfold emitOpMem
  simp only
  have hx := w.isLt
  by_cases ho : offs ≠ 0
  · rw [if_pos ho]
    obtain ⟨hb, hw, hb31, ho31⟩ := h.o ho
    have ha : ea s base offs w = s.r (regMap base) + s.r (regMap offs) <<< w.toNat := by rw [ea, if_neg hb, if_neg ho]
    have hk : w &&& 3#64 = w := by apply BitVec.eq_of_toNat_eq; rw [and_3]; omega
    rw [hk]
    by_cases hc : w = 0#64 ∨ w.toNat = t.size
    · rw [if_pos hc]
      refine ⟨_, s, rfl, .inl rfl, runs_one ?_⟩
      have := s_memR (s := s) (r := r) (n := base) (m := offs) t ht (decide (w ≠ 0#64))
      simp only [decide_eq_true_eq] at this
      rw [this, exec_mem t ht hs]
      rw [ha, Mode.off, x_ne ho31]
      by_cases hw0 : w = 0#64
      · simp [hw0]
      · rw [if_pos hw0, ← (hc.resolve_left hw0)]
    · rw [if_neg hc]
      have e6 : w.setWidth 32 = (w.setWidth 6).setWidth 32 := by apply BitVec.eq_of_toNat_eq; simp only [BitVec.toNat_setWidth]; omega
      refine ⟨_, s.set (regMap tmp) (s.r (regMap base) + s.r (regMap offs) <<< w.toNat), rfl, .inr ⟨_, rfl⟩, runs_two (s1 := s.set (regMap tmp) (s.r (regMap base) + s.r (regMap offs) <<< w.toNat)) ?_ ?_⟩
      · rw [e6, s_addLsl, exec, setX_ne _ _ h.t, x_ne hb31, x_ne ho31]
        simp only [Bool.false_eq_true, if_false]
        have : shiftReg 0#2 (lo true (s.r (regMap offs))) (w.setWidth 6).toNat = lo true (s.r (regMap offs) <<< w.toNat) := by
          have e7 : (w.setWidth 6).toNat = w.toNat := by simp only [BitVec.toNat_setWidth]; omega
          rw [e7]
          show (s.r (regMap offs)).setWidth 64 <<< w.toNat = (s.r (regMap offs) <<< w.toNat).setWidth 64
          simp
        rw [this, awc_add]
      · rw [s_mem0 t ht, exec_mem t ht hs]
        rw [ha, set_self, Mode.off, BitVec.add_zero]
  · rw [if_neg ho]
    simp only [ne_eq, not_not] at ho
    by_cases hb : base = 0
    · rw [if_pos hb]
      have ha : ea s base offs w = w := by rw [ea, if_pos hb, if_pos ho, BitVec.zero_add]
      obtain ⟨ws, e1, e2⟩ := li_run tmp h.t (w &&& ~~~ (0xfff#64 <<< t.size)) s
      rw [e1]
      refine ⟨_, s.set (regMap tmp) (w &&& ~~~ (0xfff#64 <<< t.size)), rfl, .inr ⟨_, rfl⟩, ?_⟩
      simp only
      rw [runs_app e2]
      refine runs_one ?_
      have e4 : ((w.sshiftRight t.size) &&& 0xfff#64).setWidth 32 = (((w.sshiftRight t.size) &&& 0xfff#64).setWidth 12).setWidth 32 := by
        apply BitVec.eq_of_toNat_eq; simp only [BitVec.toNat_setWidth, and_fff64]; omega
      rw [e4, s_memI t ht, exec_mem t ht hs]
      rw [ha, set_self, Mode.off]
      have key : ∀ z < 4, (w &&& ~~~ (0xfff#64 <<< z)) + ((((w.sshiftRight z) &&& 0xfff#64).setWidth 12).setWidth 64 <<< z) = w := by
        intro z hz
        have e5 : (((w.sshiftRight z) &&& 0xfff#64).setWidth 12).setWidth 64 <<< z = w &&& (0xfff#64 <<< z) := by
          interval_cases z <;> (apply BitVec.eq_of_getLsbD_eq; intro k hk; interval_cases k <;> simp [-BitVec.getLsbD_eq_getElem, BitVec.getLsbD_sshiftRight])
        rw [e5, BitVec.add_eq_or_of_and_eq_zero]
        · apply BitVec.eq_of_getLsbD_eq; intro k hk
          simp only [BitVec.getLsbD_or, BitVec.getLsbD_and, BitVec.getLsbD_not, hk, decide_true, Bool.true_and]
          cases w.getLsbD k <;> cases (0xfff#64 <<< z).getLsbD k <;> rfl
        · apply BitVec.eq_of_getLsbD_eq; intro k hk
          simp only [BitVec.getLsbD_and, BitVec.getLsbD_not, hk, decide_true, Bool.true_and]
          cases w.getLsbD k <;> cases (0xfff#64 <<< z).getLsbD k <;> simp
      exact (key _ ht).symm
    · rw [if_neg hb]
      have ha : ea s base offs w = s.r (regMap base) + w := by rw [ea, if_neg hb, if_pos ho]
      rw [ha]
      simp only [align w ht]
      have hsh : (w.sshiftRight t.size).toInt = w.toInt / 2 ^ t.size := by rw [BitVec.toInt_sshiftRight, Int.shiftRight_eq_div_pow]; push_cast; rfl
      rw [hsh]
      have two : ∀ (sub : Bool) (j : BitVec 12) (off : BitVec 64) (v : BitVec 32), (∀ s', step v s' = exec (.mem t.sz t.opc (.imm off) (regMap tmp) (regMap r)) s') →
          (if sub then off - (j.setWidth 64 <<< 12) else (j.setWidth 64 <<< 12) + off) = w →
          ∃ s1, Upto (regMap tmp) s s1 ∧ runs [(if sub then SUBI else ADDI) ||| (1#32 <<< 22) ||| RD tmp ||| RN base ||| (j.setWidth 32 <<< 10), v] s = some (t.eff s1 (regMap r) (s.r (regMap base) + w)) := by
        intro sub j off v hv e
        refine ⟨s.set (regMap tmp) (if sub then s.r (regMap base) - (j.setWidth 64 <<< 12) else s.r (regMap base) + (j.setWidth 64 <<< 12)), .inr ⟨_, rfl⟩, runs_two (s_addiT h.t j s) ?_⟩
        rw [hv, exec_mem t ht hs]
        rw [set_self, Mode.off, ← e]
        cases sub
        · simp only [Bool.false_eq_true, if_false]; rw [BitVec.add_assoc]
        · simp only [if_true, BitVec.sub_eq_add_neg]; rw [BitVec.add_assoc, BitVec.add_comm off]
      have hI := int_nat w
      generalize hz : t.size = z at ht hsh ⊢
      by_cases c1 : w.toNat % 2 ^ z = 0 ∧ 0 ≤ w.toInt ∧ w.toInt / 2 ^ z ≤ 4095
      · rw [if_pos c1]
        refine ⟨_, s, rfl, .inl rfl, runs_one ?_⟩
        obtain ⟨h1, h2, h3⟩ := c1
        have e1 : w.setWidth 32 <<< (10 - z) = ((w >>> z).setWidth 12).setWidth 32 <<< 10 := by
          apply BitVec.eq_of_toNat_eq
          simp only [BitVec.toNat_setWidth, BitVec.toNat_shiftLeft, BitVec.toNat_ushiftRight, Nat.shiftLeft_eq, Nat.shiftRight_eq_div_pow]
          interval_cases z <;> simp only [Nat.reducePow, Nat.reduceSub] at h1 h2 h3 ⊢ <;> norm_num at h3 <;> omega
        rw [e1, s_memI t (by omega), exec_mem t (by omega) hs]
        simp only [Mode.off]
        congr 1
        apply BitVec.eq_of_toNat_eq
        simp only [BitVec.toNat_setWidth, BitVec.toNat_shiftLeft, BitVec.toNat_ushiftRight, Nat.shiftLeft_eq, Nat.shiftRight_eq_div_pow, hz]
        interval_cases z <;> simp only [Nat.reducePow, Nat.reduceSub] at h1 h2 h3 ⊢ <;> norm_num at h3 <;> omega
      rw [if_neg c1]
      by_cases c2 : w.toNat % 2 ^ z = 0 ∧ 0 ≤ w.toInt ∧ w.toInt ≤ 0xffffff
      · rw [if_pos c2]
        obtain ⟨h1, h2, h3⟩ := c2
        have f1 := fit12 (x := w.setWidth 32 >>> 12) (by simp only [BitVec.toNat_setWidth, BitVec.toNat_ushiftRight, Nat.shiftRight_eq_div_pow]; omega)
        have f2 := fit12 (x := (w.setWidth 32 &&& 0xfff#32) >>> z) (by simp only [BitVec.toNat_setWidth, BitVec.toNat_ushiftRight, Nat.shiftRight_eq_div_pow, and_fff]; exact Nat.lt_of_le_of_lt (Nat.div_le_self ..) (by omega))
        obtain ⟨s1, u, e⟩ := two false ((w.setWidth 32 >>> 12).setWidth 12) _ (STRBI ||| t.bits ||| RT r ||| RN tmp ||| (((w.setWidth 32 &&& 0xfff#32) >>> z) <<< 10)) (fun s' => by rw [f2]; exact s_memI t (by omega) _) (by
          simp only [Bool.false_eq_true, if_false]
          apply BitVec.eq_of_toNat_eq
          simp only [BitVec.toNat_add, BitVec.toNat_setWidth, BitVec.toNat_shiftLeft, BitVec.toNat_ushiftRight, Nat.shiftLeft_eq, Nat.shiftRight_eq_div_pow, and_fff, hz]
          interval_cases z <;> simp only [Nat.reducePow, Nat.reduceSub] at h1 h2 h3 ⊢ <;> omega)
        rw [← f1] at e
        exact ⟨_, s1, rfl, u, e⟩
      rw [if_neg c2]
      by_cases c3 : w.toNat % 2 ^ z = 0 ∧ w.toInt < -256 ∧ -0xfff000 ≤ w.toInt
      · rw [if_pos c3]
        obtain ⟨h1, h2, h3⟩ := c3
        have f1 := fit12 (x := (-(w.setWidth 32) + 0xfff#32) >>> 12) (by simp only [BitVec.toNat_add, BitVec.toNat_neg, BitVec.toNat_ofNat, BitVec.toNat_setWidth, BitVec.toNat_ushiftRight, Nat.shiftRight_eq_div_pow]; omega)
        have f2 := fit12 (x := ((0x1000#32 + w.setWidth 32) &&& 0xfff#32) >>> z) (by simp only [BitVec.toNat_setWidth, BitVec.toNat_ushiftRight, Nat.shiftRight_eq_div_pow, and_fff]; exact Nat.lt_of_le_of_lt (Nat.div_le_self ..) (by omega))
        obtain ⟨s1, u, e⟩ := two true ((-(w.setWidth 32) + 0xfff#32) >>> 12 |>.setWidth 12) _ (STRBI ||| t.bits ||| RT r ||| RN tmp ||| ((((0x1000#32 + w.setWidth 32) &&& 0xfff#32) >>> z) <<< 10)) (fun s' => by rw [f2]; exact s_memI t (by omega) _) (by
          simp only [if_true]
          apply BitVec.eq_of_toNat_eq
          simp only [BitVec.toNat_sub, BitVec.toNat_add, BitVec.toNat_neg, BitVec.toNat_ofNat, BitVec.toNat_setWidth, BitVec.toNat_shiftLeft, BitVec.toNat_ushiftRight, Nat.shiftLeft_eq, Nat.shiftRight_eq_div_pow, and_fff, hz]
          interval_cases z <;> simp only [Nat.reducePow, Nat.reduceSub] at h1 h2 h3 ⊢ <;> omega)
        rw [← f1] at e
        exact ⟨_, s1, rfl, u, e⟩
      rw [if_neg c3]
      by_cases c4 : w.toInt ≤ 0xff ∧ -0x100 ≤ w.toInt
      · rw [if_pos c4]
        refine ⟨_, s, rfl, .inl rfl, runs_one ?_⟩
        have f2 := fit9 (x := w.setWidth 32 &&& 0x1ff#32) (by rw [and_1ff]; omega)
        rw [f2, s_memU t (by omega), exec_mem t (by omega) hs]
        simp only [Mode.off]
        congr 1
        apply BitVec.eq_of_toNat_eq
        have := sext9 ((w.setWidth 32 &&& 0x1ff#32).setWidth 9)
        simp only [BitVec.toNat_setWidth, and_1ff] at this
        omega
      rw [if_neg c4]
      have e5 : (w + 0x100#64) &&& 0xfff#64 ≤ 0x1ff#64 ↔ (w.toNat + 256) % 2 ^ 64 % 4096 ≤ 511 := by
        rw [BitVec.le_def, and_fff64, BitVec.toNat_add]; rfl
      simp only [e5]
      by_cases c5 : (w.toNat + 256) % 2 ^ 64 % 4096 ≤ 511 ∧ w.toInt ≤ 0xfff0ff ∧ -0xfff100 ≤ w.toInt
      · rw [if_pos c5]
        obtain ⟨h1, h2, h3⟩ := c5
        by_cases c6 : 0 ≤ w.toInt
        · rw [if_pos c6]
          have hi : (if w.setWidth 32 &&& 0x100#32 ≠ 0#32 then w.setWidth 32 + 0x1000#32 else w.setWidth 32).toNat = if w.toNat / 256 % 2 = 1 then w.toNat + 4096 else w.toNat := by
            have e6 : (w.setWidth 32).toNat = w.toNat := by simp only [BitVec.toNat_setWidth]; omega
            have := and_100 (w.setWidth 32)
            rw [e6] at this
            by_cases c7 : w.toNat / 256 % 2 = 1
            · rw [if_pos c7, if_pos (fun h => by have := this.1 h; omega), BitVec.toNat_add, e6]; simp only [BitVec.toNat_ofNat]; omega
            · rw [if_neg c7, if_neg (fun h => h (this.2 (by omega))), e6]
          generalize (if w.setWidth 32 &&& 0x100#32 ≠ 0#32 then w.setWidth 32 + 0x1000#32 else w.setWidth 32) = i at hi ⊢
          have f1 := fit12 (x := i >>> 12) (by simp only [BitVec.toNat_ushiftRight, Nat.shiftRight_eq_div_pow]; rw [hi]; split <;> omega)
          have f2 := fit9 (x := i &&& 0x1ff#32) (by rw [and_1ff]; omega)
          obtain ⟨s1, u, e⟩ := two false ((i >>> 12).setWidth 12) _ (STURBI ||| t.bits ||| RT r ||| RN tmp ||| ((i &&& 0x1ff#32) <<< 12)) (fun s' => by rw [f2]; exact s_memU t (by omega) _) (by
            simp only [Bool.false_eq_true, if_false]
            apply BitVec.eq_of_toNat_eq
            have hx9 := sext9 ((i &&& 0x1ff#32).setWidth 9)
            simp only [BitVec.toNat_add, BitVec.toNat_setWidth, BitVec.toNat_shiftLeft, BitVec.toNat_ushiftRight, Nat.shiftLeft_eq, Nat.shiftRight_eq_div_pow, and_1ff] at hx9 ⊢
            split at hi <;> omega)
          rw [← f1] at e
          exact ⟨_, s1, rfl, u, e⟩
        · rw [if_neg c6]
          have hi : (if w.setWidth 32 &&& 0x100#32 = 0#32 then w.setWidth 32 - 0x1000#32 else w.setWidth 32).toNat = if w.toNat / 256 % 2 = 0 then w.toNat - (2 ^ 64 - 2 ^ 32) - 4096 else w.toNat - (2 ^ 64 - 2 ^ 32) := by
            have e6 : (w.setWidth 32).toNat = w.toNat - (2 ^ 64 - 2 ^ 32) := by simp only [BitVec.toNat_setWidth]; omega
            have := and_100 (w.setWidth 32)
            rw [e6] at this
            have e7 : (w.toNat - (2 ^ 64 - 2 ^ 32)) / 256 % 2 = w.toNat / 256 % 2 := by omega
            rw [e7] at this
            by_cases c7 : w.toNat / 256 % 2 = 0
            · rw [if_pos c7, if_pos (this.2 c7), BitVec.toNat_sub, e6]; simp only [BitVec.toNat_ofNat]; omega
            · rw [if_neg c7, if_neg (fun h => c7 (this.1 h)), e6]
          generalize (if w.setWidth 32 &&& 0x100#32 = 0#32 then w.setWidth 32 - 0x1000#32 else w.setWidth 32) = i at hi ⊢
          have hne : w.toNat % 4096 ≠ 0 := by
            intro h0
            apply c3
            refine ⟨?_, by omega, by omega⟩
            interval_cases z <;> simp only [Nat.reducePow] <;> omega
          have f1 := fit12 (x := (-i) >>> 12) (by simp only [BitVec.toNat_neg, BitVec.toNat_ushiftRight, Nat.shiftRight_eq_div_pow]; rw [hi]; split <;> omega)
          have f2 := fit9 (x := i &&& 0x1ff#32) (by rw [and_1ff]; omega)
          obtain ⟨s1, u, e⟩ := two true (((-i) >>> 12).setWidth 12) _ (STURBI ||| t.bits ||| RT r ||| RN tmp ||| ((i &&& 0x1ff#32) <<< 12)) (fun s' => by rw [f2]; exact s_memU t (by omega) _) (by
            simp only [if_true]
            apply BitVec.eq_of_toNat_eq
            have hx9 := sext9 ((i &&& 0x1ff#32).setWidth 9)
            simp only [BitVec.toNat_sub, BitVec.toNat_neg, BitVec.toNat_setWidth, BitVec.toNat_shiftLeft, BitVec.toNat_ushiftRight, Nat.shiftLeft_eq, Nat.shiftRight_eq_div_pow, and_1ff] at hx9 ⊢
            split at hi <;> omega)
          rw [← f1] at e
          exact ⟨_, s1, rfl, u, e⟩
      rw [if_neg c5]
      obtain ⟨ws, e1, e2⟩ := li_run tmp h.t w s
      rw [e1]
      refine ⟨_, s.set (regMap tmp) w, rfl, .inr ⟨_, rfl⟩, ?_⟩
      simp only
      rw [runs_app e2]
      refine runs_one ?_
      rw [s_memR0 t (by omega), exec_mem t (by omega) hs]
      simp only [Mode.off]
      rw [set_ne _ _ (h.b hb), x_ne h.t, set_self, BitVec.shiftLeft_zero]

end Verif.A64
