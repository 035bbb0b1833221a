import Verif.RISCV.MemProof
import Verif.RISCV.OpsProof2

/-!
# emit_op: operands are fetched before the operation, the result is stored after it (helper lemmas)
-/

namespace Verif.RV

/-- Value of a source operand: register contents, constant, or the loaded and extended memory cell. -/
def opdVal (sz : Sz) (sg : Bool) (c : Core) : Opd → BitVec 64
  | .reg r => c.x (regMap r)
  | .imm v => v
  | .mem b i w => (ldOp sz sg).eval c.mem (ea c b i w)

/-- Operands made of user registers, SLJIT_SP and TMP_ZERO. -/
def OpdOk : Opd → Prop
  | .reg r => r ≤ 24
  | .imm _ => True
  | .mem b i _ => b ≤ 24 ∧ i ≤ 24

theorem Only.mono {W V : List Reg} {c c1 : Core} (h : Only W c c1) (hs : ∀ r ∈ W, r ∈ V) : Only V c c1 :=
  ⟨fun q hq => h.1 q fun hw => hq (hs q hw), h.2⟩
theorem Only.trans {W : List Reg} {c c1 c2 : Core} (h : Only W c c1) (g : Only W c1 c2) : Only W c c2 :=
  ⟨fun q hq => (g.1 q hq).trans (h.1 q hq), g.2.1.trans h.2.1, g.2.2.trans h.2.2⟩

abbrev temps : List Reg := [6#5, 1#5, 7#5]

theorem user_temps {r : Nat} (h : r ≤ 24) : regMap r ∉ temps := by
  obtain ⟨h1, -, h6, h7, -⟩ := user_ne h
  simp [h1, h6, h7]

theorem opdVal_only {sz : Sz} {sg : Bool} {c c1 : Core} {o : Opd} (ho : OpdOk o) (h : Only temps c c1) :
    opdVal sz sg c1 o = opdVal sz sg c o := by
  cases o with
  | reg r => exact h.1 _ (user_temps ho)
  | imm v => rfl
  | mem b i w => simp only [opdVal, h.2.1, ea_only h (user_temps ho.1) (user_temps ho.2)]

theorem emitSrc_ok {cfg : Cfg} {sz : Sz} {sg : Bool} {tmp : Nat} {o : Opd} {c : Core} (ho : OpdOk o) (hs : o.slow = false)
    (h0 : regMap tmp ≠ 0#5) (h2 : regMap tmp ≠ 2#5) (h7 : regMap tmp ≠ 7#5) :
    wp (emitSrc2 cfg (.g sz sg) tmp o).1 c fun c1 =>
      c1.x (regMap (emitSrc2 cfg (.g sz sg) tmp o).2) = opdVal sz sg c o ∧ Only [regMap tmp, 7#5] c c1 := by
  cases o with
  | reg r => simp only [emitSrc2, wp_nil]; exact ⟨rfl, Only.refl _ _⟩
  | imm v =>
    simp only [emitSrc2]
    by_cases hv : v = 0#64
    · simp only [hv, ne_eq, not_true, if_false, wp_nil]
      exact ⟨by simp [opdVal], Only.refl _ _⟩
    · simp only [hv, ne_eq, not_false_eq_true, if_true]
      exact wp_loadImm h0 h2 (by decide) (by rw [rm27]; exact h7)
  | mem b i w =>
    have hf : fastArg i w = true := by simpa [Opd.slow] using hs
    simp only [emitSrc2, hf, if_true]
    rw [wp_load h0]
    simp only [fastArg, Bool.and_eq_true, decide_eq_true_eq, fits12_iff] at hf
    obtain ⟨rfl, hw⟩ := hf
    rw [sext12 hw]
    exact ⟨by simp [h0, opdVal, ea], (Only.refl _ _).wr (by simp) _⟩

theorem emitSrc1_eq (cfg : Cfg) (t : MT) (o : Opd) : emitSrc1 cfg t o = emitSrc2 cfg t TMP_REG1 o := by
  cases o <;> rfl

theorem emitSrc2_slow {cfg : Cfg} {t : MT} {tmp : Nat} {o : Opd} (h : o.slow = true) : emitSrc2 cfg t tmp o = ([], tmp) := by
  cases o with
  | mem b i w =>
    have hf : fastArg i w = false := by simpa [Opd.slow] using h
    simp [emitSrc2, hf]
  | _ => simp [Opd.slow] at h

/-- The register that holds a source after the fetch. -/
theorem emitSrc2_reg {cfg : Cfg} {t : MT} {tmp : Nat} {o : Opd} : (emitSrc2 cfg t tmp o).2 =
    match o with | .reg r => r | .imm v => if v = 0#64 then 0 else tmp | .mem .. => tmp := by
  cases o with
  | imm v => simp only [emitSrc2]; split <;> simp_all
  | _ => rfl

theorem loadSlow_ok {cfg : Cfg} {sz : Sz} {sg tmp2 : Bool} {k : Cache} {reg : Nat} {o next : Opd} {c : Core} (ho : OpdOk o)
    (hs : o.slow = true) (hk : CacheOk k c) (hr : regMap reg ≠ 0#5) :
    wp (loadSlow cfg (.g sz sg) tmp2 k reg o next).1 c fun c' => ∃ c1, Only [7#5, regMap (tmpR tmp2)] c c1 ∧
      CacheOk (loadSlow cfg (.g sz sg) tmp2 k reg o next).2 c1 ∧ c' = c1.wr (regMap reg) (opdVal sz sg c o) := by
  cases o with
  | mem b i w => exact getput_load ho.1 ho.2 hk hr
  | _ => simp [Opd.slow] at hs

theorem CacheOk.wr {k : Cache} {c : Core} (h : CacheOk k c) {r : Reg} (hr : r = 6#5 ∨ r = 1#5) (v : BitVec 64) : CacheOk k (c.wr r v) := by
  intro b i hbi
  obtain ⟨p1, p2, p3⟩ := h b i hbi
  obtain ⟨b1, -, b6, b7, -⟩ := user_ne p1
  obtain ⟨i1, -, i6, i7, -⟩ := user_ne p2
  refine ⟨p1, p2, ?_⟩
  rcases hr with rfl | rfl <;> simp [ea, *]

theorem emitSlow_both {cfg : Cfg} {t : MT} {k : Cache} {dst o1 o2 : Opd} {r tmp : Nat} (h1 : o1.slow = true) (h2 : o2.slow = true) :
    emitSlow cfg t k dst o1 o2 r tmp = ((loadSlow cfg t false k TMP_REG1 o1 o2).1 ++
      (loadSlow cfg t true (loadSlow cfg t false k TMP_REG1 o1 o2).2 TMP_REG2 o2 dst).1,
      (loadSlow cfg t true (loadSlow cfg t false k TMP_REG1 o1 o2).2 TMP_REG2 o2 dst).2) ∨
    emitSlow cfg t k dst o1 o2 r tmp = ((loadSlow cfg t false k TMP_REG2 o2 o1).1 ++
      (loadSlow cfg t false (loadSlow cfg t false k TMP_REG2 o2 o1).2 TMP_REG1 o1 dst).1,
      (loadSlow cfg t false (loadSlow cfg t false k TMP_REG2 o2 o1).2 TMP_REG1 o1 dst).2) := by
  unfold emitSlow
  rw [h1, h2]
  exact ite_eq_or_eq _ _ _

/-- The fetch phase of emit_op for binary operations. -/
theorem fetch_ok {cfg : Cfg} {sz : Sz} {sg : Bool} {dst o1 o2 : Opd} {c : Core} {tmp : Nat} (h1 : OpdOk o1) (h2 : OpdOk o2)
    (htmp : tmp = if o1.isReg then TMP_REG1 else TMP_REG2) :
    wp ((emitSrc1 cfg (.g sz sg) o1).1 ++ ((emitSrc2 cfg (.g sz sg) tmp o2).1 ++
        (emitSlow cfg (.g sz sg) ⟨none, 0#64⟩ dst o1 o2 (emitSrc1 cfg (.g sz sg) o1).2 tmp).1)) c fun c' =>
      c'.x (regMap (emitSrc1 cfg (.g sz sg) o1).2) = opdVal sz sg c o1 ∧
      c'.x (regMap (emitSrc2 cfg (.g sz sg) tmp o2).2) = opdVal sz sg c o2 ∧ Only temps c c' ∧
      CacheOk (emitSlow cfg (.g sz sg) ⟨none, 0#64⟩ dst o1 o2 (emitSrc1 cfg (.g sz sg) o1).2 tmp).2 c' := by
  rw [emitSrc1_eq]
  have k0 : ∀ c, CacheOk ⟨none, 0#64⟩ c := fun c b i h => by cases h
  have htmp' : regMap tmp ≠ 0#5 ∧ regMap tmp ≠ 2#5 ∧ regMap tmp ≠ 7#5 ∧ (regMap tmp = 6#5 ∨ regMap tmp = 1#5) := by
    rw [htmp]; cases o1.isReg <;> simp
  obtain ⟨t0, t2, t7, t61⟩ := htmp'
  -- a value in a fetched register survives changes of the other registers
  have r1 : ∀ c1 c2 : Core, c1.x (regMap (emitSrc2 cfg (.g sz sg) TMP_REG1 o1).2) = opdVal sz sg c o1 →
      Only [regMap tmp, 7#5] c1 c2 → c2.x (regMap (emitSrc2 cfg (.g sz sg) TMP_REG1 o1).2) = opdVal sz sg c o1 := by
    intro c1 c2 hv ho
    rw [← hv]
    apply ho.1
    rw [emitSrc2_reg]
    cases o1 with
    | reg r =>
      have := user_temps h1
      simp only [List.mem_cons, List.not_mem_nil, not_or, or_false] at this ⊢
      refine ⟨?_, this.2.2⟩
      rcases t61 with h | h <;> rw [h]
      · exact this.1
      · exact this.2.1
    | imm v => simp only [Opd.isReg] at htmp; rw [htmp]; by_cases hv0 : v = 0#64 <;> simp [hv0]
    | mem b i w => simp only [Opd.isReg] at htmp; rw [htmp]; simp
  have v2 : ∀ c1 c2 : Core, Only temps c c1 → opdVal sz sg c1 o2 = opdVal sz sg c o2 := fun c1 _ h => opdVal_only h2 h
  have m1 : ∀ r ∈ [regMap TMP_REG1, 7#5], r ∈ temps := by simp
  have m2 : ∀ r ∈ [regMap tmp, 7#5], r ∈ temps := by
    rcases t61 with h | h <;> rw [h] <;> simp
  cases hs1 : o1.slow <;> cases hs2 : o2.slow
  · -- no slow load
    have e3 : emitSlow cfg (.g sz sg) ⟨none, 0#64⟩ dst o1 o2 (emitSrc2 cfg (.g sz sg) TMP_REG1 o1).2 tmp = ([], ⟨none, 0#64⟩) := by
      simp only [emitSlow, hs1, hs2]
    rw [e3]
    refine wp_append (wp_mono (emitSrc_ok h1 hs1 (by decide) (by decide) (by decide)) ?_)
    rintro c1 ⟨g1, g2⟩
    rw [List.append_nil]
    refine wp_mono (emitSrc_ok h2 hs2 t0 t2 t7) ?_
    rintro c2 ⟨g3, g4⟩
    exact ⟨r1 _ _ g1 g4, by rw [g3, v2 c1 c2 (g2.mono m1)], (g2.mono m1).trans (g4.mono m2), k0 _⟩
  · -- slow second source
    have e3 : emitSlow cfg (.g sz sg) ⟨none, 0#64⟩ dst o1 o2 (emitSrc2 cfg (.g sz sg) TMP_REG1 o1).2 tmp =
        loadSlow cfg (.g sz sg) (decide ((emitSrc2 cfg (.g sz sg) TMP_REG1 o1).2 = TMP_REG1)) ⟨none, 0#64⟩ tmp o2 dst := by
      simp only [emitSlow, hs1, hs2]
    rw [e3, emitSrc2_slow hs2]
    refine wp_append (wp_mono (emitSrc_ok h1 hs1 (by decide) (by decide) (by decide)) ?_)
    rintro c1 ⟨g1, g2⟩
    rw [List.nil_append]
    refine wp_mono (loadSlow_ok h2 hs2 (k0 _) t0) ?_
    rintro c' ⟨c2, g3, g4, rfl⟩
    have g5 := v2 c1 c1 (g2.mono m1)
    refine ⟨?_, by simp [t0, g5], ?_, g4.wr t61 _⟩
    · apply r1 _ _ _ ((Only.refl _ c2).wr (by simp) _)
      rw [← g1]
      apply g3.1
      rw [emitSrc2_reg]
      cases o1 with
      | reg r =>
        have := user_temps h1
        simp only [List.mem_cons, List.not_mem_nil, not_or, or_false] at this ⊢
        refine ⟨this.2.2, ?_⟩
        simp only [tmpR]; split
        · exact this.2.1
        · exact this.1
      | imm v => simp only []; by_cases hv : v = 0#64 <;> simp [hv, tmpR]
      | mem b i w => simp [tmpR]
    · refine (g2.mono m1).trans ((g3.mono ?_).wr (by rcases t61 with h | h <;> simp [h]) _)
      simp only [tmpR]; split <;> simp
  · -- slow first source
    have e3 : emitSlow cfg (.g sz sg) ⟨none, 0#64⟩ dst o1 o2 (emitSrc2 cfg (.g sz sg) TMP_REG1 o1).2 tmp =
        loadSlow cfg (.g sz sg) false ⟨none, 0#64⟩ TMP_REG1 o1 dst := by
      simp only [emitSlow, hs1, hs2]
    have ht : tmp = TMP_REG2 := by rw [htmp]; cases o1 <;> simp_all [Opd.isReg, Opd.slow]
    subst ht
    rw [e3, emitSrc2_slow hs1]
    rw [List.nil_append]
    refine wp_append (wp_mono (emitSrc_ok h2 hs2 t0 t2 t7) ?_)
    rintro c1 ⟨g1, g2⟩
    refine wp_mono (loadSlow_ok h1 hs1 (k0 _) (by decide)) ?_
    rintro c' ⟨c2, g3, g4, rfl⟩
    have g5 : opdVal sz sg c1 o1 = opdVal sz sg c o1 := opdVal_only h1 (g2.mono m2)
    refine ⟨by simp [g5], ?_, ?_, g4.wr (by simp) _⟩
    · have : ((emitSrc2 cfg (.g sz sg) TMP_REG2 o2).2) ≤ 24 ∨ ((emitSrc2 cfg (.g sz sg) TMP_REG2 o2).2) = 26 := by
        rw [emitSrc2_reg]
        cases o2 with
        | reg r => exact Or.inl h2
        | imm v => simp only []; split <;> simp
        | mem => right; rfl
      rw [← g1]
      have hq : regMap (emitSrc2 cfg (.g sz sg) TMP_REG2 o2).2 ≠ 6#5 ∧ regMap (emitSrc2 cfg (.g sz sg) TMP_REG2 o2).2 ≠ 7#5 := by
        rcases this with h | h
        · obtain ⟨-, -, q6, q7, -⟩ := user_ne h; exact ⟨q6, q7⟩
        · rw [h]; decide
      have := g3.1 (regMap (emitSrc2 cfg (.g sz sg) TMP_REG2 o2).2) (by simp [tmpR, hq.1, hq.2])
      simp [hq.1, this]
    · exact (g2.mono m2).trans ((g3.mono (by simp [tmpR])).wr (by simp) _)
  · -- both slow
    have ht : tmp = TMP_REG2 := by rw [htmp]; cases o1 <;> simp_all [Opd.isReg, Opd.slow]
    subst ht
    rw [emitSrc2_slow hs1, emitSrc2_slow hs2]
    have key := emitSlow_both (cfg := cfg) (t := .g sz sg) (k := ⟨none, 0#64⟩) (dst := dst) (r := TMP_REG1) (tmp := TMP_REG2) hs1 hs2
    simp only [List.nil_append]
    rcases key with key | key <;> rw [key]
    · refine wp_append (wp_mono (loadSlow_ok (reg := TMP_REG1) h1 hs1 (k0 _) (by decide)) ?_)
      rintro c' ⟨c1, g1, g2, rfl⟩
      have a1 : Only temps c c1 := g1.mono (by simp [tmpR])
      have a2 := a1.wr (r := 6#5) (by simp) (opdVal sz sg c o1)
      refine wp_mono (loadSlow_ok (reg := TMP_REG2) h2 hs2 (g2.wr (by simp) _) (by decide)) ?_
      rintro c' ⟨c2, g3, g4, rfl⟩
      have g5 := g3.1 6#5 (by simp [tmpR])
      have g6 := opdVal_only (sz := sz) (sg := sg) h2 a2
      simp only [rm25] at g3 g6 ⊢
      refine ⟨by simpa using g5, by simp [g6], ?_, g4.wr (by simp) _⟩
      exact a2.trans ((g3.mono (by simp [tmpR])).wr (by simp) _)
    · refine wp_append (wp_mono (loadSlow_ok (reg := TMP_REG2) h2 hs2 (k0 _) (by decide)) ?_)
      rintro c' ⟨c1, g1, g2, rfl⟩
      have a1 : Only temps c c1 := g1.mono (by simp [tmpR])
      have a2 := a1.wr (r := 1#5) (by simp) (opdVal sz sg c o2)
      refine wp_mono (loadSlow_ok (reg := TMP_REG1) h1 hs1 (g2.wr (by simp) _) (by decide)) ?_
      rintro c' ⟨c2, g3, g4, rfl⟩
      have g5 := g3.1 1#5 (by simp [tmpR])
      have g6 := opdVal_only (sz := sz) (sg := sg) h1 a2
      simp only [rm26] at g3 g6 ⊢
      refine ⟨by simp [g6], by simpa using g5, ?_, g4.wr (by simp) _⟩
      exact a2.trans ((g3.mono (by simp [tmpR])).wr (by simp) _)

end Verif.RV
