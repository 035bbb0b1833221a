import Verif.Loong.Api2
import Verif.Loong.EmitOp2Proof
import Verif.RISCV.ShiftInto

/-! # sljit_emit_shift_into on LoongArch64 (helper lemmas) -/

set_option linter.all false

namespace Verif.LA
open Verif.RV

theorem dec_XORI (d a : Nat) (i : BitVec 64) : decode (XORI ||| RD d ||| RJ a ||| IMM_I12 i) = some (.imm .xori (regMap d) (regMap a) (i.setWidth 12)) := by
  rw [imm12]; exact dec12 0xf#10 _ _ _ (by decide) (by rfl)
theorem wp_XORI_s (d a : Nat) (i : BitVec 64) (r : Emit) (c : Core) (Q : Core → Prop) :
    wp (ins (XORI ||| RD d ||| RJ a ||| IMM_I12 i) ++ r) c Q ↔ wp r (c.wr (regMap d) (IOp.eval .xori (c.x (regMap a)) (i.setWidth 12))) Q :=
  wp_ins_s (dec_XORI d a i) r c Q
theorem wp_XORI (d a : Nat) (i : BitVec 64) (c : Core) (Q : Core → Prop) :
    wp (ins (XORI ||| RD d ||| RJ a ||| IMM_I12 i)) c Q ↔ Q (c.wr (regMap d) (IOp.eval .xori (c.x (regMap a)) (i.setWidth 12))) :=
  wp_ins (dec_XORI d a i) c Q

/-- emit_op_mem for loads. -/
theorem opMem_load {sz : Sz} {sg : Bool} {reg b i : Nat} {w : BitVec 64} {c : Core} (hr : regMap reg ≠ 0#5) (hb : b ≤ 24) (hi : i ≤ 24)
    (hx : IdxOk i w) (hrb : regMap b ≠ regMap reg) (hr0 : reg ≠ 0) :
    wp (emitOpMem (.g sz sg) true reg b i w) c fun c' =>
      c'.x (regMap reg) = (ldOp sz sg).eval c.mem (ea c b i w) ∧ Only [regMap reg] c c' := by
  unfold emitOpMem
  simp only [if_true]
  by_cases hf : fastArg i w = true
  · rw [if_pos hf, wp_load, pa_fast hf]
    exact ⟨by simp [hr], (Only.refl _ _).wr (by simp) _⟩
  rw [if_neg hf]
  by_cases h0 : i = 0
  · subst h0
    rw [if_neg (not_not.mpr rfl)]
    refine wp_append (wp_loadImm hr ?_)
    by_cases hb0 : b = 0
    · subst hb0
      rw [if_neg (not_not.mpr rfl), wp_load]
      refine ⟨?_, ((Only.refl _ _).wr (by simp) _).wr (by simp) _⟩
      simp [hr, pa, ea]
    · rw [if_pos hb0, wp_load]
      refine ⟨?_, ((Only.refl _ _).wr (by simp) _).wr (by simp) _⟩
      simp [hr, pa, ea, hrb, hr0]
  · rw [if_pos h0]
    have hw4 : w.toNat < 4 := hx h0
    have h3 : w &&& 3#64 = w := by
      apply BitVec.eq_of_toNat_eq
      rw [BitVec.toNat_and, show (3#64).toNat = 2 ^ 2 - 1 from rfl, Nat.and_two_pow_sub_one_eq_mod]; omega
    have hw : w ≠ 0#64 := by rintro rfl; simp [fastArg] at hf
    rw [h3, if_pos hw, wp_SLLI_D_s _ _ (by omega), wp_load]
    refine ⟨?_, ((Only.refl _ _).wr (by simp) _).wr (by simp) _⟩
    have : w.toNat % 64 = w.toNat := by omega
    simp [hr, pa, ea, hrb, h0, hr0, h3, ShOp.eval, this]

/-- The end of sljit_emit_shift_into. -/
theorem shiftIntoTail_ok {left is32 nonZero : Bool} {dst s1 s2 r3 : Nat} {c : Core}
    (d0 : regMap dst ≠ 0#5) (d1 : regMap dst ≠ 1#5) (d6 : regMap dst ≠ 13#5)
    (a6 : regMap s2 ≠ 13#5) (a1 : regMap s2 ≠ 1#5) (ad : regMap s2 ≠ regMap dst) (r6 : regMap r3 ≠ 13#5) (rd : regMap r3 ≠ regMap dst)
    (hn : nonZero = true → (c.x (regMap r3)).toNat % (if is32 then 32 else 64) ≠ 0) :
    wp (shiftIntoTail left is32 nonZero dst s1 s2 r3) c fun c' =>
      c'.x (regMap dst) = dshX is32 left (c.x (regMap s1)) (c.x (regMap s2)) (c.x (regMap r3)) ∧
      Only [regMap dst, 13#5, 1#5] c c' := by
  have l64 : (c.x (regMap r3)).toNat % 64 < 64 := Nat.mod_lt _ (by decide)
  have l32 : (c.x (regMap r3)).toNat % 32 < 32 := Nat.mod_lt _ (by decide)
  have x64 : (c.x (regMap r3) ^^^ 63#64).toNat % 64 = 64 - 1 - (c.x (regMap r3)).toNat % 64 := by
    have := xor63 (c.x (regMap r3)); rw [sw6] at this; exact this
  have x32 : (c.x (regMap r3) ^^^ 31#64).toNat % 32 = 32 - 1 - (c.x (regMap r3)).toNat % 32 := by
    have := xor31 (c.x (regMap r3)); rw [sw5] at this; exact this
  have s64 (h : (c.x (regMap r3)).toNat % 64 ≠ 0) : (subw false 0#64 (c.x (regMap r3))).toNat % 64 = 64 - (c.x (regMap r3)).toNat % 64 := by
    rw [← neg64 _ h, sw6]; rfl
  have s32 (h : (c.x (regMap r3)).toNat % 32 ≠ 0) : (subw true 0#64 (c.x (regMap r3))).toNat % 32 = 32 - (c.x (regMap r3)).toNat % 32 := by
    rw [← neg32 _ h, sw5]; rfl
  have i1 : ∀ w : Bool, (1#64 : BitVec 64).toNat < if w then 32 else 64 := by decide
  have g1 : ∀ A : BitVec 64, (c.wr (regMap dst) A).x (regMap s2) = c.x (regMap s2) := by
    intro A; rw [x_wr, if_neg fun h => ad h.1]
  have g2 : ∀ A : BitVec 64, (c.wr (regMap dst) A).x (regMap r3) = c.x (regMap r3) := by
    intro A; rw [x_wr, if_neg fun h => rd h.1]
  have g3 : ∀ A B : BitVec 64, ((c.wr (regMap dst) A).wr 13#5 B).x (regMap r3) = c.x (regMap r3) := by
    intro A B; rw [x_wr, if_neg fun h => r6 h.1, g2]
  have g4 : ∀ (c : Core) (A B : BitVec 64), ((c.wr 13#5 A).wr 1#5 B).x 13#5 = A := by
    intro c A B; rw [x_wr, if_neg fun h => absurd h.1 (by decide), x_wr, if_pos ⟨rfl, by decide⟩]
  have g5 : ∀ (c : Core) (A : BitVec 64), (c.wr 1#5 A).x 1#5 = A := by
    intro c A; rw [x_wr, if_pos ⟨rfl, by decide⟩]
  have g6 : ∀ (c : Core) (A : BitVec 64), (c.wr 13#5 A).x 13#5 = A := by
    intro c A; rw [x_wr, if_pos ⟨rfl, by decide⟩]
  have g7 : ∀ (c : Core) (A : BitVec 64), (c.wr 13#5 A).x (regMap dst) = c.x (regMap dst) := by
    intro c A; rw [x_wr, if_neg fun h => d6 h.1]
  have g8 : ∀ (c : Core) (A : BitVec 64), (c.wr 1#5 A).x (regMap dst) = c.x (regMap dst) := by
    intro c A; rw [x_wr, if_neg fun h => d1 h.1]
  have g9 : ∀ (c : Core) (A : BitVec 64), (c.wr (regMap dst) A).x (regMap dst) = A := by
    intro c A; rw [x_wr, if_pos ⟨rfl, d0⟩]
  have g10 : ∀ A B : BitVec 64, ((c.wr (regMap dst) A).wr 1#5 B).x (regMap s2) = c.x (regMap s2) := by
    intro A B; rw [x_wr, if_neg fun h => a1 h.1, g1]
  have m63 : ((63#64 : BitVec 64).setWidth 12).setWidth 64 = 63#64 := by decide
  have m31 : ((31#64 : BitVec 64).setWidth 12).setWidth 64 = 31#64 := by decide
  have n1 : (1#64 : BitVec 64).toNat % 32 = 1 := by decide
  have n2 : (1#64 : BitVec 64).toNat % 64 = 1 := by decide
  unfold shiftIntoTail
  cases nonZero
  · simp only [Bool.false_eq_true, if_false, List.append_assoc]
    cases left <;> simp only [Bool.false_eq_true, if_false, if_true]
    · rw [wp_SRLx_s, wp_SLLIx_s _ _ _ (i1 _), wp_XORI_s, wp_SLLx_s, wp_OR]
      refine ⟨?_, ((((((Only.refl _ _).wr (by simp) _).wr (by simp) _).wr (by simp) _).wr (by simp) _).wr (by simp) _)⟩
      simp only [rm25, rm26, g1, g2, g3, g4, g5, g6, g7, g8, g9, IOp.eval, ROp.eval, n1, n2]
      cases is32 <;> simp only [Bool.false_eq_true, if_false, if_true, m63, m31, dshX]
      · rw [dsh_right _ _ l64, x64]
      · rw [dsh_right _ _ l32, x32, sx32_or, Verif.RV.lo32_sx32]
    · rw [wp_SLLx_s, wp_SRLIx_s _ _ _ (i1 _), wp_XORI_s, wp_SRLx_s, wp_OR]
      refine ⟨?_, ((((((Only.refl _ _).wr (by simp) _).wr (by simp) _).wr (by simp) _).wr (by simp) _).wr (by simp) _)⟩
      simp only [rm25, rm26, g1, g2, g3, g4, g5, g6, g7, g8, g9, IOp.eval, ROp.eval, n1, n2]
      cases is32 <;> simp only [Bool.false_eq_true, if_false, if_true, m63, m31, dshX]
      · rw [dsh_left _ _ l64, x64]
      · rw [dsh_left _ _ l32, x32, sx32_or, Verif.RV.lo32_sx32]
  · simp only [if_true] at hn ⊢
    have hn := hn trivial
    cases left <;> simp only [Bool.false_eq_true, if_false, if_true]
    · rw [wp_SRLx_s, wp_SUBx_s, wp_SLLx_s, wp_OR]
      refine ⟨?_, (((((Only.refl _ _).wr (by simp) _).wr (by simp) _).wr (by simp) _).wr (by simp) _)⟩
      simp only [rm0, x_zero, rm25, rm26, g1, g2, g10, g5, g6, g7, g8, g9, ROp.eval]
      cases is32 <;> simp only [Bool.false_eq_true, if_false, if_true, dshX] at hn ⊢
      · rw [dsh_right' _ _ l64 (by omega), s64 hn]
      · rw [dsh_right' _ _ l32 (by omega), s32 hn, sx32_or]
    · rw [wp_SLLx_s, wp_SUBx_s, wp_SRLx_s, wp_OR]
      refine ⟨?_, (((((Only.refl _ _).wr (by simp) _).wr (by simp) _).wr (by simp) _).wr (by simp) _)⟩
      simp only [rm0, x_zero, rm25, rm26, g1, g2, g10, g5, g6, g7, g8, g9, ROp.eval]
      cases is32 <;> simp only [Bool.false_eq_true, if_false, if_true, dshX] at hn ⊢
      · rw [dsh_left' _ _ l64 (by omega), s64 hn]
      · rw [dsh_left' _ _ l32 (by omega), s32 hn, sx32_or]

/-- Only the destination and temporaries changed. -/
theorem Done.ofOnly {sz : Sz} {dst : Nat} {v : BitVec 64} {c c' : Core} (hv : c'.x (regMap dst) = v)
    (h : Only [regMap dst, 13#5, 1#5, 14#5] c c') (h0 : dst ≠ 0) : Done sz (.reg dst) v c c' := by
  refine ⟨?_, h.2.1, ?_, h.2.2⟩
  · rintro r ⟨⟩ -; exact hv
  · intro q hq hr
    have := hr dst rfl
    refine h.1 q ?_
    simp only [List.mem_cons, List.not_mem_nil, or_false, not_or] at hq ⊢
    tauto

/-- sljit_emit_shift_into, except for a constant shift amount of zero. -/
theorem emitShiftInto_ok {left is32 nonZero : Bool} {dst s1 s2 : Nat} {o : Opd} {c : Core}
    (hd0 : dst ≠ 0) (hd : dst ≤ 24) (h1 : s1 ≤ 24) (h2 : s2 ≤ 24) (h3 : OpdOk o) (hne : regMap dst ≠ regMap s2)
    (hn : nonZero = true → (opdVal (if is32 then .int else .word) is32 c o).toNat % (if is32 then 32 else 64) ≠ 0)
    (hz : ∀ v, o = .imm v → s1 = s2 ∨ v.toNat % (if is32 then 32 else 64) ≠ 0)
    (h32 : is32 = true → s1 = s2 → Sx (c.x (regMap s1))) :
    wp (emitShiftInto left is32 nonZero dst s1 s2 o) c
      (Done (if is32 then .int else .word) (.reg dst)
        (dshX is32 left (c.x (regMap s1)) (c.x (regMap s2)) (opdVal (if is32 then .int else .word) is32 c o)) c) := by
  obtain ⟨d1, -, d6, d7, -⟩ := user_ne hd
  obtain ⟨a1, -, a6, a7, -⟩ := user_ne h2
  obtain ⟨b1, -, b6, b7, -⟩ := user_ne h1
  have d0 : regMap dst ≠ 0#5 := rm_ne0 (by omega) hd0
  unfold emitShiftInto
  by_cases h12 : s1 = s2
  · rw [if_pos h12]
    subst h12
    refine wp_mono (emitOp2_res (cin := false) (op := ⟨if left then .rotl else .rotr, is32, false, .none⟩) (by cases left <;> simp [OpC.bin])
      (by cases left <;> simp [Op.flagOk]) (Or.inl hd) (by simp [hd0]) h1 h3
      (by cases left <;> simp) ?_ ?_) ?_
    · intro h
      refine ⟨?_, ?_⟩
      · rintro r ⟨⟩; exact h32 h rfl
      · intro r _; left; cases left <;> simp [OpC.isSh]
    · rintro ⟨b1, i1, w1, b2, w2, b3, w3, h1, -⟩; cases h1
    · rintro c' ⟨v, h, hg⟩
      rw [dshX_rot]
      have := hg.2 (by rintro ⟨h, -⟩; revert h; cases left <;> simp)
      rw [this] at h
      exact h
  rw [if_neg h12]
  cases o with
  | imm v =>
    have hv : v.toNat % (if is32 then 32 else 64) ≠ 0 := by
      rcases hz v rfl with h | h
      · exact absurd h h12
      · exact h
    have fin : ∀ a b r : BitVec 64, a ||| b = r → Done (if is32 then .int else .word) (.reg dst) r c
        (((c.wr (regMap dst) a).wr 13#5 b).wr (regMap dst) (a ||| b)) := by
      intro a b r h
      exact Done.ofOnly (by simp [d0, h]) ((((Only.refl _ _).wr (by simp) _).wr (by simp) _).wr (by simp) _) hd0
    have ho : ∀ x y z t : BitVec 32, x ||| y ||| z ||| t = x ||| z ||| t ||| y := by intros; ac_rfl
    simp only [opdVal]
    have hm : (v &&& (if is32 then 31#64 else 63#64)).toNat = v.toNat % (if is32 then 32 else 64) := by
      cases is32
      · exact Nat.and_two_pow_sub_one_eq_mod v.toNat 6
      · exact Nat.and_two_pow_sub_one_eq_mod v.toNat 5
    generalize v &&& (if is32 then 31#64 else 63#64) = u at hm
    have hl : v.toNat % (if is32 then 32 else 64) < (if is32 then 32 else 64) := Nat.mod_lt _ (by cases is32 <;> decide)
    have hu : u ≠ 0#64 := by rintro rfl; rw [← hm] at hv; exact hv rfl
    rw [if_neg hu]
    have hk : ((if is32 then 32#64 else 64#64) - u).toNat = (if is32 then 32 else 64) - v.toNat % (if is32 then 32 else 64) := by
      cases is32
      · simp only [Bool.false_eq_true, if_false] at *
        rw [BitVec.toNat_sub, hm]; simp; omega
      · simp only [if_true] at *
        rw [BitVec.toNat_sub, hm]; simp; omega
    generalize (if is32 then 32#64 else 64#64) - u = k at hk
    have hlu : u.toNat < if is32 then 32 else 64 := by rw [hm]; exact hl
    have hlk : k.toNat < if is32 then 32 else 64 := by rw [hk]; omega
    have g6 : ∀ A : BitVec 64, (c.wr (regMap dst) A).x (regMap s2) = c.x (regMap s2) := by
      intro A; rw [x_wr, if_neg fun h => hne.symm h.1]
    have g7 : ∀ A B : BitVec 64, ((c.wr (regMap dst) A).wr 13#5 B).x (regMap dst) = A := by
      intro A B; rw [x_wr, if_neg fun h => d6 h.1, x_wr, if_pos ⟨rfl, d0⟩]
    have g8 : ∀ A B : BitVec 64, ((c.wr (regMap dst) A).wr 13#5 B).x 13#5 = B := by
      intro A B; rw [x_wr, if_pos ⟨rfl, by decide⟩]
    have eu : u.toNat % (if is32 then 32 else 64) = v.toNat % (if is32 then 32 else 64) := by rw [hm, Nat.mod_mod]
    have ek : k.toNat % (if is32 then 32 else 64) = (if is32 then 32 else 64) - v.toNat % (if is32 then 32 else 64) := by
      rw [Nat.mod_eq_of_lt hlk, hk]
    cases left <;> simp only [Bool.false_eq_true, if_false, if_true]
    · rw [ho _ (IMM_I12 u), ho _ (IMM_I12 k), wp_SRLIx_s _ _ _ hlu, wp_SLLIx_s _ _ _ hlk, wp_OR, rm25, g6, g7, g8]
      refine fin _ _ _ ?_
      cases is32 <;> simp only [dshX, Bool.false_eq_true, if_false, if_true] at *
      · rw [dsh_right' _ _ hl (by omega), eu, ek]
      · rw [dsh_right' _ _ hl (by omega), sx32_or, eu, ek]
    · rw [ho _ (IMM_I12 u), ho _ (IMM_I12 k), wp_SLLIx_s _ _ _ hlu, wp_SRLIx_s _ _ _ hlk, wp_OR, rm25, g6, g7, g8]
      refine fin _ _ _ ?_
      cases is32 <;> simp only [dshX, Bool.false_eq_true, if_false, if_true] at *
      · rw [dsh_left' _ _ hl (by omega), eu, ek]
      · rw [dsh_left' _ _ hl (by omega), sx32_or, eu, ek]
  | mem b i w =>
    have tb := user_ne h3.1
    refine wp_append (wp_mono (opMem_load (by decide) h3.1 h3.2.1 h3.2.2 (by rw [rm26]; exact tb.1) (by decide)) ?_)
    rintro c1 ⟨g1, g2⟩
    rw [rm26] at g1 g2
    have hm : (c1.x 1#5).toNat % (if is32 then 32 else 64) =
        (opdVal (if is32 then .int else .word) is32 c (.mem b i w)).toNat % (if is32 then 32 else 64) := by
      rw [g1]
      cases is32
      · rfl
      · simp only [if_true, opdVal, ldOp, LdOp.eval]
        rw [← sw5, ← sw5]
        congr 2
        bits [lo32, BitVec.getLsbD_signExtend]
    have n1 := g2.1 _ (show regMap s1 ∉ _ by simp [b1])
    have n2 := g2.1 _ (show regMap s2 ∉ _ by simp [a1])
    refine wp_mono (shiftIntoTail_ok d0 d1 d6 a6 a1 hne.symm (by rw [rm26]; decide) (by rw [rm26]; exact d1.symm) ?_) ?_
    · intro h; rw [rm26, hm]; exact hn h
    · rintro c' ⟨h4, h5⟩
      rw [rm26, n1, n2, dshX_congr hm] at h4
      exact Done.ofOnly h4 ((g2.mono (by simp)).trans (h5.mono (by simp))) hd0
  | reg r =>
    obtain ⟨r1, -, r6, r7, -⟩ := user_ne (show r ≤ 24 from h3)
    simp only [opdVal] at hn ⊢
    by_cases hr : dst = r
    · rw [if_pos hr]
      subst hr
      rw [wp_ADDIxz_s, rm26]
      have hm : (addw is32 (c.x (regMap dst)) 0#64).toNat % (if is32 then 32 else 64) = (c.x (regMap dst)).toNat % (if is32 then 32 else 64) := by
        cases is32
        · simp [addw]
        · simp only [if_true]
          rw [← sw5, ← sw5]
          congr 2
          simp [addw, Verif.RV.lo32_sx32, show lo32 0#64 = 0#32 from rfl]
      refine wp_mono (shiftIntoTail_ok d0 d1 d6 a6 a1 hne.symm (by rw [rm26]; decide) (by rw [rm26]; exact d1.symm) ?_) ?_
      · intro h; rw [rm26]; simpa [hm] using hn h
      · rintro c' ⟨g1, g2⟩
        rw [rm26, x_wr, x_wr, x_wr, if_neg fun h => b1 h.1, if_neg fun h => a1 h.1, if_pos (by decide), dshX_congr hm] at g1
        exact Done.ofOnly g1 (((Only.refl _ _).wr (by simp) _).trans (g2.mono (by simp))) hd0
    · rw [if_neg hr]
      have hr' : regMap r ≠ regMap dst := rm_ne (by have : r ≤ 24 := h3; omega) (by omega) (Ne.symm hr)
      refine wp_mono (shiftIntoTail_ok d0 d1 d6 a6 a1 hne.symm r6 hr' hn) ?_
      rintro c' ⟨g1, g2⟩
      exact Done.ofOnly g1 (g2.mono (by simp)) hd0

end Verif.LA
