import Verif.RISCV.OpMemProof
import Verif.RISCV.EmitOp2Proof

/-!
# sljit_emit_shift_into (helper lemmas)
-/

namespace Verif.RV

/-- Upper half of the double word `a:b` shifted left, or lower half of `b:a` shifted right. -/
def dsh (w : Nat) (left : Bool) (a b : BitVec w) (n : Nat) : BitVec w :=
  if left then ((a ++ b) <<< n).extractLsb' w w else ((b ++ a) >>> n).extractLsb' 0 w

theorem dsh_left {w : Nat} (a b : BitVec w) {n : Nat} (h : n < w) :
    dsh w true a b n = a <<< n ||| (b >>> 1) >>> (w - 1 - n) := by
  apply BitVec.eq_of_getLsbD_eq
  intro i hi
  simp only [dsh, if_true, BitVec.getLsbD_extractLsb', BitVec.getLsbD_shiftLeft, BitVec.getLsbD_append, BitVec.getLsbD_or,
    BitVec.getLsbD_ushiftRight, hi, decide_true, Bool.true_and]
  by_cases hin : i < n
  · have e1 : w + i - n < w := by omega
    have e2 : w + i < w + w := by omega
    have e3 : ¬ (w + i < n) := by omega
    have e4 : 1 + (w - 1 - n + i) = w + i - n := by omega
    simp [e1, e2, e3, hin, e4]
  · have e1 : ¬ (w + i - n < w) := by omega
    have e2 : w + i < w + w := by omega
    have e3 : ¬ (w + i < n) := by omega
    have e4 : w + i - n - w = i - n := by omega
    have e5 : b.getLsbD (1 + (w - 1 - n + i)) = false := BitVec.getLsbD_of_ge _ _ (by omega)
    simp [e1, e2, e3, hin, e4, e5]

theorem dsh_left' {w : Nat} (a b : BitVec w) {n : Nat} (h : n < w) (h0 : 0 < n) :
    dsh w true a b n = a <<< n ||| b >>> (w - n) := by
  rw [dsh_left a b h, ← BitVec.shiftRight_add]; congr 2; omega

theorem dsh_right {w : Nat} (a b : BitVec w) {n : Nat} (h : n < w) :
    dsh w false a b n = a >>> n ||| (b <<< 1) <<< (w - 1 - n) := by
  apply BitVec.eq_of_getLsbD_eq
  intro i hi
  simp only [dsh, Bool.false_eq_true, if_false, BitVec.getLsbD_extractLsb', BitVec.getLsbD_shiftLeft, BitVec.getLsbD_append, BitVec.getLsbD_or,
    BitVec.getLsbD_ushiftRight, hi, decide_true, Bool.true_and, Nat.zero_add]
  by_cases hin : n + i < w
  · have e1 : i < w - 1 - n ∨ i - (w - 1 - n) < 1 := by omega
    rcases e1 with e1 | e1 <;> simp [hin, e1]
  · have e1 : ¬ (i < w - 1 - n) := by omega
    have e2 : ¬ (i - (w - 1 - n) < 1) := by omega
    have e3 : i - (w - 1 - n) < w := by omega
    have e4 : i - (w - 1 - n) - 1 = n + i - w := by omega
    have e5 : a.getLsbD (n + i) = false := BitVec.getLsbD_of_ge _ _ (by omega)
    have e6 : w - 1 - n ≤ i := by omega
    have e7 : 1 ≤ i - (w - 1 - n) := by omega
    simp [hin, e1, e2, e3, e4, e5, e6, e7]

theorem dsh_right' {w : Nat} (a b : BitVec w) {n : Nat} (h : n < w) (h0 : 0 < n) :
    dsh w false a b n = a >>> n ||| b <<< (w - n) := by
  rw [dsh_right a b h, ← BitVec.shiftLeft_add]; congr 2; omega

/-- Register image of the result. -/
def dshX (is32 left : Bool) (a b : BitVec 64) (n : BitVec 64) : BitVec 64 :=
  if is32 then sx32 (dsh 32 left (lo32 a) (lo32 b) (n.toNat % 32)) else dsh 64 left a b (n.toNat % 64)

theorem sw6 (v : BitVec 64) : (v.setWidth 6).toNat = v.toNat % 64 := by simp
theorem sw5 (v : BitVec 64) : ((lo32 v).setWidth 5).toNat = v.toNat % 32 := by
  simp only [lo32, BitVec.toNat_setWidth]; omega

theorem xor63 (v : BitVec 64) : ((v ^^^ 63#64).setWidth 6).toNat = 63 - v.toNat % 64 := by
  have : (v ^^^ 63#64).setWidth 6 = ~~~ (v.setWidth 6) := by
    rw [BitVec.setWidth_xor, show (63#64 : BitVec 64).setWidth 6 = BitVec.allOnes 6 from by decide, BitVec.xor_allOnes]
  rw [this, BitVec.toNat_not, sw6]
theorem xor31 (v : BitVec 64) : ((lo32 (v ^^^ 31#64)).setWidth 5).toNat = 31 - v.toNat % 32 := by
  have : (lo32 (v ^^^ 31#64)).setWidth 5 = ~~~ ((lo32 v).setWidth 5) := by
    unfold lo32
    rw [BitVec.setWidth_xor, BitVec.setWidth_xor, show ((31#64 : BitVec 64).setWidth 32).setWidth 5 = BitVec.allOnes 5 from by decide, BitVec.xor_allOnes]
  rw [this, BitVec.toNat_not, sw5]
theorem neg64 (v : BitVec 64) (h : v.toNat % 64 ≠ 0) : ((0#64 - v).setWidth 6).toNat = 64 - v.toNat % 64 := by
  simp only [BitVec.toNat_setWidth, BitVec.toNat_sub]
  have := v.isLt
  simp; omega
theorem neg32 (v : BitVec 64) (h : v.toNat % 32 ≠ 0) : ((lo32 (sx32 (0#32 - lo32 v))).setWidth 5).toNat = 32 - v.toNat % 32 := by
  rw [lo32_sx32]
  simp only [BitVec.toNat_setWidth, BitVec.toNat_sub, lo32]
  have := v.isLt
  simp; omega

theorem sx32_or (a b : BitVec 32) : sx32 (a ||| b) = sx32 a ||| sx32 b := by
  simp only [sx32, BitVec.signExtend_or]

/-- The end of sljit_emit_shift_into. -/
theorem shiftIntoTail_ok {left is32 nonZero : Bool} {dst s1 s2 r3 : Nat} {c : Core}
    (d0 : regMap dst ≠ 0#5) (d1 : regMap dst ≠ 1#5) (d6 : regMap dst ≠ 6#5)
    (a6 : regMap s2 ≠ 6#5) (a1 : regMap s2 ≠ 1#5) (ad : regMap s2 ≠ regMap dst) (r6 : regMap r3 ≠ 6#5) (rd : regMap r3 ≠ regMap dst)
    (hn : nonZero = true → (c.x (regMap r3)).toNat % (if is32 then 32 else 64) ≠ 0) :
    wp (shiftIntoTail left is32 nonZero dst s1 s2 r3) c fun c' =>
      c'.x (regMap dst) = dshX is32 left (c.x (regMap s1)) (c.x (regMap s2)) (c.x (regMap r3)) ∧
      Only [regMap dst, 6#5, 1#5] c c' := by
  have l64 : (c.x (regMap r3)).toNat % 64 < 64 := Nat.mod_lt _ (by decide)
  have l32 : (c.x (regMap r3)).toNat % 32 < 32 := Nat.mod_lt _ (by decide)
  have x64 : (c.x (regMap r3)).toNat % 64 ^^^ 63 = 64 - 1 - (c.x (regMap r3)).toNat % 64 := by
    have := xor63 (c.x (regMap r3)); simpa using this
  have e32 : (lo32 (c.x (regMap r3))).toNat % 32 = (c.x (regMap r3)).toNat % 32 := by
    have := sw5 (c.x (regMap r3)); simpa using this
  have x32 : (lo32 (c.x (regMap r3) ^^^ 31#64)).toNat % 32 = 32 - 1 - (c.x (regMap r3)).toNat % 32 := by
    have := xor31 (c.x (regMap r3)); simpa using this
  have s64 (h : (c.x (regMap r3)).toNat % 64 ≠ 0) : (subw false 0#64 (c.x (regMap r3))).toNat % 64 = 64 - (c.x (regMap r3)).toNat % 64 := by
    rw [← neg64 _ h, sw6]; rfl
  have s32 (h : (c.x (regMap r3)).toNat % 32 ≠ 0) : (lo32 (subw true 0#64 (c.x (regMap r3)))).toNat % 32 = 32 - (c.x (regMap r3)).toNat % 32 := by
    rw [← neg32 _ h, BitVec.toNat_setWidth]; rfl
  cases nonZero
  · cases is32 <;> cases left <;>
      simp only [shiftIntoTail, Bool.false_eq_true, if_false, if_true, List.append_assoc] <;>
      wps [ShOp.eval, ShOp.eval32, IOp.eval, ROp.eval, WOp.eval32, rm25, rm26, d0, d1, d6, a6, a1, ad, r6, rd] <;>
      refine ⟨?_, by repeat (first | exact Only.refl _ _ | refine Only.wr ?_ (by simp) _)⟩ <;> simp only [dshX, if_true, Bool.false_eq_true, if_false]
    · rw [dsh_right _ _ l64, x64]
    · rw [dsh_left _ _ l64, x64]
    · rw [dsh_right _ _ l32, x32, e32, sx32_or]
    · rw [dsh_left _ _ l32, x32, e32, sx32_or]
  · cases is32 <;> cases left <;>
      simp only [shiftIntoTail, Bool.false_eq_true, if_false, if_true, true_implies] at hn ⊢ <;>
      wps [ShOp.eval, ShOp.eval32, IOp.eval, ROp.eval, WOp.eval32, rm25, rm26, d0, d0.symm, d1, d6, a6, a1, ad, r6, rd] <;>
      refine ⟨?_, by repeat (first | exact Only.refl _ _ | refine Only.wr ?_ (by simp) _)⟩ <;> simp only [dshX, if_true, Bool.false_eq_true, if_false]
    · rw [dsh_right' _ _ l64 (by omega), s64 hn]
    · rw [dsh_left' _ _ l64 (by omega), s64 hn]
    · rw [dsh_right' _ _ l32 (by omega), s32 hn, e32, sx32_or]
    · rw [dsh_left' _ _ l32 (by omega), s32 hn, e32, sx32_or]

theorem dsh_rotl {w : Nat} (a : BitVec w) {n : Nat} (h : n < w) : dsh w true a a n = a.rotateLeft n := by
  rcases Nat.eq_zero_or_pos n with rfl | h0
  · rw [dsh_left _ _ h]
    apply BitVec.eq_of_getLsbD_eq
    intro i hi
    have : a.getLsbD (1 + (w - 1 + i)) = false := BitVec.getLsbD_of_ge _ _ (by omega)
    simp [hi, this]
  · rw [dsh_left' _ _ h h0, BitVec.rotateLeft_def, Nat.mod_eq_of_lt h]

theorem dsh_rotr {w : Nat} (a : BitVec w) {n : Nat} (h : n < w) : dsh w false a a n = a.rotateRight n := by
  rcases Nat.eq_zero_or_pos n with rfl | h0
  · rw [dsh_right _ _ h]
    apply BitVec.eq_of_getLsbD_eq
    intro i hi
    have : ∀ k, i - (w - 1) < 1 + k := fun k => by omega
    have h2 : i < w - 1 ∨ i - (w - 1) < 1 := by omega
    rcases h2 with h2 | h2 <;> simp [hi, h2]
  · rw [dsh_right' _ _ h h0, BitVec.rotateRight_def, Nat.mod_eq_of_lt h]

theorem dshX_rot (is32 left : Bool) (a n : BitVec 64) :
    dshX is32 left a a n = resX ⟨if left then .rotl else .rotr, is32, false, .none⟩ a n false := by
  have l64 : n.toNat % 64 < 64 := Nat.mod_lt _ (by decide)
  have l32 : n.toNat % 32 < 32 := Nat.mod_lt _ (by decide)
  have e32 : (lo32 n).toNat % 32 = n.toNat % 32 := by have := sw5 n; simpa using this
  cases is32 <;> cases left <;> simp only [dshX, resX, val, if_true, Bool.false_eq_true, if_false]
  · rw [dsh_rotr _ l64]
  · rw [dsh_rotl _ l64]
  · rw [dsh_rotr _ l32, e32]
  · rw [dsh_rotl _ l32, e32]

theorem dshX_congr {is32 left : Bool} {a b n m : BitVec 64} (h : n.toNat % (if is32 then 32 else 64) = m.toNat % (if is32 then 32 else 64)) :
    dshX is32 left a b n = dshX is32 left a b m := by
  cases is32 <;> simp only [dshX, if_true, Bool.false_eq_true, if_false] at h ⊢ <;> rw [h]

/-- Only the destination and temporaries changed. -/
theorem Done.ofOnly {sz : Sz} {dst : Nat} {v : BitVec 64} {c c' : Core} (hv : c'.x (regMap dst) = v)
    (h : Only [regMap dst, 6#5, 1#5, 7#5] c c') (h0 : dst ≠ 0) : Done sz (.reg dst) v c c' := by
  refine ⟨?_, h.2.1, ?_, h.2.2⟩
  · rintro r ⟨⟩ -; exact hv
  · intro q hq hr
    have := hr dst rfl
    refine h.1 q ?_
    simp only [List.mem_cons, List.not_mem_nil, or_false, not_or] at hq ⊢
    tauto

/-- sljit_emit_shift_into, except for a constant shift amount of zero. -/
theorem emitShiftInto_ok {cfg : Cfg} {left is32 nonZero : Bool} {dst s1 s2 : Nat} {o : Opd} {c : Core}
    (hd0 : dst ≠ 0) (hd : dst ≤ 24) (h1 : s1 ≤ 24) (h2 : s2 ≤ 24) (h3 : OpdOk o) (hne : regMap dst ≠ regMap s2)
    (hn : nonZero = true → (opdVal (if is32 then .int else .word) is32 c o).toNat % (if is32 then 32 else 64) ≠ 0)
    (hz : ∀ v, o = .imm v → s1 = s2 ∨ v.toNat % (if is32 then 32 else 64) ≠ 0)
    (h32 : is32 = true → s1 = s2 → Sx (c.x (regMap s1))) :
    wp (emitShiftInto cfg left is32 nonZero dst s1 s2 o) c
      (Done (if is32 then .int else .word) (.reg dst)
        (dshX is32 left (c.x (regMap s1)) (c.x (regMap s2)) (opdVal (if is32 then .int else .word) is32 c o)) c) := by
  obtain ⟨d1, d5, d6, d7, d28⟩ := user_ne hd
  obtain ⟨a1, a5, a6, a7, a28⟩ := user_ne h2
  obtain ⟨b1, b5, b6, b7, b28⟩ := user_ne h1
  have d0 : regMap dst ≠ 0#5 := by
    have key : ∀ a : Fin 25, a.1 ≠ 0 → regMap a.1 ≠ 0#5 := by decide +kernel
    exact key ⟨dst, by omega⟩ hd0
  unfold emitShiftInto
  by_cases h12 : s1 = s2
  · rw [if_pos h12]
    subst h12
    refine wp_mono (emitOp2_res (cin := false) (by cases left <;> simp [OpC.bin]) (by cases left <;> simp [Op.flagOk]) (Or.inl hd) (by simp [hd0]) h1 h3
      (by cases left <;> simp) ?_ ?_) ?_
    · intro h
      refine ⟨?_, ?_⟩
      · rintro r ⟨⟩; exact h32 h rfl
      · intro r _; left; cases left <;> simp [OpC.isSh]
    · intro h; cases h
    · intro c' h
      rw [dshX_rot]
      exact h
  rw [if_neg h12]
  cases o with
  | imm v =>
    have hv : v.toNat % (if is32 then 32 else 64) ≠ 0 := by
      rcases hz v rfl with h | h
      · exact absurd h h12
      · exact h
    have fin : ∀ a b r : BitVec 64, a ||| b = r → Done (if is32 then .int else .word) (.reg dst) r c
        (((c.wr (regMap dst) a).wr 6#5 b).wr (regMap dst) (a ||| b)) := by
      intro a b r h
      exact Done.ofOnly (by simp [d0, h]) ((((Only.refl _ _).wr (by simp) _).wr (by simp) _).wr (by simp) _) hd0
    have ho : ∀ x y z t u : BitVec 32, x ||| u ||| y ||| z ||| t = x ||| u ||| z ||| t ||| y := by intros; ac_rfl
    simp only [opdVal]
    have hm : (v &&& (if is32 then 31#64 else 63#64)).toNat = v.toNat % (if is32 then 32 else 64) := by
      cases is32
      · exact Nat.and_two_pow_sub_one_eq_mod v.toNat 6
      · exact Nat.and_two_pow_sub_one_eq_mod v.toNat 5
    generalize v &&& (if is32 then 31#64 else 63#64) = u at hm
    have hl : v.toNat % (if is32 then 32 else 64) < (if is32 then 32 else 64) := Nat.mod_lt _ (by cases is32 <;> decide)
    have hu : u ≠ 0#64 := by rintro rfl; rw [← hm] at hv; exact hv rfl
    rw [if_neg hu]
    have hk : ((if is32 then 32#64 else 64#64) - u).toNat = (if is32 then 32 else 64) - v.toNat % (if is32 then 32 else 64) := by
      cases is32
      · simp only [Bool.false_eq_true, if_false] at *
        rw [BitVec.toNat_sub, hm]; simp; omega
      · simp only [if_true] at *
        rw [BitVec.toNat_sub, hm]; simp; omega
    generalize (if is32 then 32#64 else 64#64) - u = k at hk
    rw [ho _ (IMM_I u), ho _ (IMM_I k)]
    have hlu : u.toNat < if is32 then 32 else 64 := by rw [hm]; exact hl
    have hlk : k.toNat < if is32 then 32 else 64 := by rw [hk]; omega
    have g6 : ∀ A : BitVec 64, (c.wr (regMap dst) A).x (regMap s2) = c.x (regMap s2) := by
      intro A; rw [x_wr, if_neg fun h => hne.symm h.1]
    have g7 : ∀ A B : BitVec 64, ((c.wr (regMap dst) A).wr 6#5 B).x (regMap dst) = A := by
      intro A B; rw [x_wr, if_neg fun h => d6 h.1, x_wr, if_pos ⟨rfl, d0⟩]
    have g8 : ∀ A B : BitVec 64, ((c.wr (regMap dst) A).wr 6#5 B).x 6#5 = B := by
      intro A B; rw [x_wr, if_pos ⟨rfl, by decide⟩]
    cases left <;> simp only [Bool.false_eq_true, if_false, if_true]
    · rw [wp_SRLI_W_s _ _ _ _ hlu, wp_SLLI_W_s _ _ _ _ hlk, wp_OR, rm25, g6, g7, g8]
      refine fin _ _ _ ?_
      cases is32 <;> simp only [dshX, Bool.false_eq_true, if_false, if_true, ShOp.eval, ShOp.eval32, BitVec.toNat_setWidth, hm, hk] at *
      · rw [dsh_right' _ _ hl (by omega)]
        generalize v.toNat % 64 = n at *
        rw [Nat.mod_eq_of_lt (show n < 2 ^ 6 by omega), Nat.mod_eq_of_lt (show 64 - n < 2 ^ 6 by omega)]
      · rw [dsh_right' _ _ hl (by omega), sx32_or]
        generalize v.toNat % 32 = n at *
        rw [Nat.mod_eq_of_lt (show n < 2 ^ 5 by omega), Nat.mod_eq_of_lt (show 32 - n < 2 ^ 5 by omega)]
    · rw [wp_SLLI_W_s _ _ _ _ hlu, wp_SRLI_W_s _ _ _ _ hlk, wp_OR, rm25, g6, g7, g8]
      refine fin _ _ _ ?_
      cases is32 <;> simp only [dshX, Bool.false_eq_true, if_false, if_true, ShOp.eval, ShOp.eval32, BitVec.toNat_setWidth, hm, hk] at *
      · rw [dsh_left' _ _ hl (by omega)]
        generalize v.toNat % 64 = n at *
        rw [Nat.mod_eq_of_lt (show n < 2 ^ 6 by omega), Nat.mod_eq_of_lt (show 64 - n < 2 ^ 6 by omega)]
      · rw [dsh_left' _ _ hl (by omega), sx32_or]
        generalize v.toNat % 32 = n at *
        rw [Nat.mod_eq_of_lt (show n < 2 ^ 5 by omega), Nat.mod_eq_of_lt (show 32 - n < 2 ^ 5 by omega)]
  | mem b i w =>
    have tb := user_ne h3.1
    refine wp_append (wp_mono (opMem_load (by decide) (by decide) (by decide) tb.2.2.2.1 (Or.inr (Or.inl tb.1))) ?_)
    rintro c1 ⟨g1, g2⟩
    rw [rm26] at g1 g2
    have hm : (c1.x 1#5).toNat % (if is32 then 32 else 64) =
        (opdVal (if is32 then .int else .word) is32 c (.mem b i w)).toNat % (if is32 then 32 else 64) := by
      rw [g1]
      cases is32
      · rfl
      · simp only [if_true, opdVal, ldOp, LdOp.eval]
        rw [← sw5, ← sw5]
        congr 2
        bits [lo32, BitVec.getLsbD_signExtend]
    have n1 := g2.1 _ (show regMap s1 ∉ _ by simp [b1, b7])
    have n2 := g2.1 _ (show regMap s2 ∉ _ by simp [a1, a7])
    refine wp_mono (shiftIntoTail_ok d0 d1 d6 a6 a1 hne.symm (by rw [rm26]; decide) (by rw [rm26]; exact d1.symm) ?_) ?_
    · intro h; rw [rm26, hm]; exact hn h
    · rintro c' ⟨h4, h5⟩
      rw [rm26, n1, n2, dshX_congr hm] at h4
      exact Done.ofOnly h4 ((g2.mono (by simp)).trans (h5.mono (by simp))) hd0
  | reg r =>
    obtain ⟨r1, r5, r6, r7, r28⟩ := user_ne (show r ≤ 24 from h3)
    simp only [opdVal] at hn ⊢
    by_cases hr : dst = r
    · rw [if_pos hr]
      subst hr
      have hz : Fits12 0#64 := by unfold Fits12; decide
      rw [wp_ADDIW _ _ _ hz, rm26]
      have hm : (addw is32 (c.x (regMap dst)) 0#64).toNat % (if is32 then 32 else 64) = (c.x (regMap dst)).toNat % (if is32 then 32 else 64) := by
        cases is32
        · simp [addw]
        · simp only [if_true]
          rw [← sw5, ← sw5]
          congr 2
          simp [addw, lo32_sx32, show lo32 0#64 = 0#32 from rfl]
      refine wp_mono (shiftIntoTail_ok d0 d1 d6 a6 a1 hne.symm (by rw [rm26]; decide) (by rw [rm26]; exact d1.symm) ?_) ?_
      · intro h; rw [rm26]; simpa [hm] using hn h
      · rintro c' ⟨g1, g2⟩
        rw [rm26, x_wr, x_wr, x_wr, if_neg fun h => b1 h.1, if_neg fun h => a1 h.1, if_pos (by decide), dshX_congr hm] at g1
        exact Done.ofOnly g1 (((Only.refl _ _).wr (by simp) _).trans (g2.mono (by simp))) hd0
    · rw [if_neg hr]
      have hr' : regMap r ≠ regMap dst := by
        have key : ∀ a : Fin 25, ∀ b : Fin 25, regMap a.1 = regMap b.1 → a = b := by decide +kernel
        intro e
        exact hr (congrArg Fin.val (key ⟨r, by have : r ≤ 24 := h3; omega⟩ ⟨dst, by omega⟩ e)).symm
      refine wp_mono (shiftIntoTail_ok d0 d1 d6 a6 a1 hne.symm r6 hr' hn) ?_
      rintro c' ⟨g1, g2⟩
      exact Done.ofOnly g1 (g2.mono (by simp)) hd0

end Verif.RV
