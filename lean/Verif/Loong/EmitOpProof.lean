import Verif.Loong.MemProof
import Verif.Loong.OpsProof2

/-!
# emit_op: operands are fetched before the operation, the result is stored after it (helper lemmas)
-/

set_option linter.all false

namespace Verif.LA
open Verif.RV
open Verif.Imm.Loong (loadImmediate)

/-- Value of a source operand: register contents, constant, or the loaded and extended memory cell. -/
def opdVal (sz : Sz) (sg : Bool) (c : Core) : Opd → BitVec 64
  | .reg r => c.x (regMap r)
  | .imm v => v
  | .mem b i w => (ldOp sz sg).eval c.mem (ea c b i w)

/-- Operands made of user registers, SLJIT_SP and TMP_ZERO; the offset register is shifted by 0 to 3. -/
def OpdOk : Opd → Prop
  | .reg r => r ≤ 24
  | .imm _ => True
  | .mem b i w => b ≤ 24 ∧ i ≤ 24 ∧ IdxOk i w

theorem Only.mono {W V : List Reg} {c c1 : Core} (h : Only W c c1) (hs : ∀ r ∈ W, r ∈ V) : Only V c c1 :=
  ⟨fun q hq => h.1 q fun hw => hq (hs q hw), h.2⟩
theorem Only.trans {W : List Reg} {c c1 c2 : Core} (h : Only W c c1) (g : Only W c1 c2) : Only W c c2 :=
  ⟨fun q hq => (g.1 q hq).trans (h.1 q hq), g.2.1.trans h.2.1, g.2.2.trans h.2.2⟩

abbrev temps : List Reg := [13#5, 1#5, 14#5]

theorem user_temps {r : Nat} (h : r ≤ 24) : regMap r ∉ temps := by
  obtain ⟨h1, -, h6, h7, -⟩ := user_ne h
  simp [h1, h6, h7]

theorem opdVal_only {sz : Sz} {sg : Bool} {c c1 : Core} {o : Opd} (ho : OpdOk o) (h : Only temps c c1) :
    opdVal sz sg c1 o = opdVal sz sg c o := by
  cases o with
  | reg r => exact h.1 _ (user_temps ho)
  | imm v => rfl
  | mem b i w => simp only [opdVal, h.2.1, ea_only h (user_temps ho.1) (user_temps ho.2.1)]

theorem emitSrc_ok {sz : Sz} {sg : Bool} {tmp : Nat} {o : Opd} {c : Core} (ho : OpdOk o) (hs : slow o = false)
    (h0 : regMap tmp ≠ 0#5) :
    wp (emitSrc2 (.g sz sg) tmp o).1 c fun c1 =>
      c1.x (regMap (emitSrc2 (.g sz sg) tmp o).2) = opdVal sz sg c o ∧ Only [regMap tmp, 14#5] c c1 := by
  cases o with
  | reg r => simp only [emitSrc2, wp_nil]; exact ⟨rfl, Only.refl _ _⟩
  | imm v =>
    simp only [emitSrc2]
    by_cases hv : v = 0#64
    · simp only [hv, ne_eq, not_true, if_false, wp_nil]
      exact ⟨by simp [opdVal], Only.refl _ _⟩
    · simp only [hv, ne_eq, not_false_eq_true, if_true]
      exact wp_loadImm h0 ⟨by simp [h0, opdVal], (Only.refl _ _).wr (by simp) _⟩
  | mem b i w =>
    have hf : fastArg i w = true := by simpa [slow] using hs
    simp only [emitSrc2, hf, if_true]
    rw [wp_load, pa_fast hf]
    exact ⟨by simp [h0, opdVal], (Only.refl _ _).wr (by simp) _⟩

theorem emitSrc1_eq (t : MT) (o : Opd) : emitSrc1 t o = emitSrc2 t TMP_REG1 o := by
  cases o <;> rfl

theorem emitSrc2_slow {t : MT} {tmp : Nat} {o : Opd} (h : slow o = true) : emitSrc2 t tmp o = ([], tmp) := by
  cases o with
  | mem b i w =>
    have hf : fastArg i w = false := by simpa [slow] using h
    simp [emitSrc2, hf]
  | _ => simp [slow] at h

/-- The register that holds a source after the fetch. -/
theorem emitSrc2_reg {t : MT} {tmp : Nat} {o : Opd} : (emitSrc2 t tmp o).2 =
    match o with | .reg r => r | .imm v => if v = 0#64 then 0 else tmp | .mem .. => tmp := by
  cases o with
  | imm v => simp only [emitSrc2]; split <;> simp_all [TMP_ZERO]
  | _ => rfl

/-- What is known about the cache when an operand is accessed through getput_arg: it is right, unless the operand has an offset
register or is too far from the cached constant. -/
def NextOk (k : Cache) (o : Opd) (c : Core) : Prop :=
  ∀ b w, o = .mem b 0 w → fits12 (w - k.argw) = true → CacheOk k c

theorem CacheOk.next {k : Cache} {c : Core} (h : CacheOk k c) (o : Opd) : NextOk k o c := fun _ _ _ _ => h

/-- An operand with an offset register. -/
def indexed : Opd → Prop
  | .mem _ i _ => i ≠ 0
  | _ => False

theorem loadSlow_ok {sz : Sz} {sg tmp2 : Bool} {k : Cache} {reg : Nat} {o next : Opd} {c : Core} (ho : OpdOk o)
    (hs : slow o = true) (hk : NextOk k o c) :
    wp (loadSlow (.g sz sg) tmp2 k reg o next).1 c fun c' => ∃ c1, Only [14#5, regMap (tmpR tmp2)] c c1 ∧
      (CacheOk (loadSlow (.g sz sg) tmp2 k reg o next).2 c1 ∨ (indexed o ∧ (loadSlow (.g sz sg) tmp2 k reg o next).2 = k)) ∧
      c' = c1.wr (regMap reg) (opdVal sz sg c o) := by
  cases o with
  | mem b i w =>
    have hf : fastArg i w = false := by simpa [slow] using hs
    exact getput_load ho.1 ho.2.1 ho.2.2 hf (fun h1 h2 => hk b w (by rw [h1]) h2)
  | _ => simp [slow] at hs

theorem k0 (c : Core) : CacheOk ⟨none, 0#64⟩ c := fun b i h => by cases h

/-- The first access. -/
theorem loadSlow0_ok {sz : Sz} {sg tmp2 : Bool} {reg : Nat} {o next : Opd} {c : Core} (ho : OpdOk o) (hs : slow o = true) :
    wp (loadSlow (.g sz sg) tmp2 ⟨none, 0#64⟩ reg o next).1 c fun c' => ∃ c1, Only [14#5, regMap (tmpR tmp2)] c c1 ∧
      CacheOk (loadSlow (.g sz sg) tmp2 ⟨none, 0#64⟩ reg o next).2 c1 ∧ c' = c1.wr (regMap reg) (opdVal sz sg c o) := by
  refine wp_mono (loadSlow_ok ho hs ((k0 c).next o)) ?_
  rintro c' ⟨c1, h1, h2, h3⟩
  refine ⟨c1, h1, ?_, h3⟩
  rcases h2 with h | ⟨-, h⟩
  · exact h
  · rw [h]; exact k0 _

theorem CacheOk.wr {k : Cache} {c : Core} (h : CacheOk k c) {r : Reg} (hr : r = 13#5 ∨ r = 1#5) (v : BitVec 64) : CacheOk k (c.wr r v) := by
  intro b i hbi
  obtain ⟨p1, p2, p3⟩ := h b i hbi
  obtain ⟨b1, -, b6, b7, -⟩ := user_ne p1
  obtain ⟨i1, -, i6, i7, -⟩ := user_ne p2
  refine ⟨p1, p2, ?_⟩
  rcases hr with rfl | rfl <;> simp [ea, *]

theorem emitSlow_both {t : MT} {k : Cache} {dst o1 o2 : Opd} {r tmp : Nat} (h1 : slow o1 = true) (h2 : slow o2 = true) :
    (canCacheO o2 dst = true ∧ emitSlow t k dst o1 o2 r tmp = ((loadSlow t false k TMP_REG1 o1 o2).1 ++
      (loadSlow t true (loadSlow t false k TMP_REG1 o1 o2).2 TMP_REG2 o2 dst).1,
      (loadSlow t true (loadSlow t false k TMP_REG1 o1 o2).2 TMP_REG2 o2 dst).2)) ∨
    (¬ (slow dst = true ∧ canCacheO o2 o1 = false ∧ canCacheO o2 dst = true) ∧
      emitSlow t k dst o1 o2 r tmp = ((loadSlow t false k TMP_REG2 o2 o1).1 ++
      (loadSlow t false (loadSlow t false k TMP_REG2 o2 o1).2 TMP_REG1 o1 dst).1,
      (loadSlow t false (loadSlow t false k TMP_REG2 o2 o1).2 TMP_REG1 o1 dst).2)) := by
  unfold emitSlow
  rw [h1, h2]
  by_cases hc : slow dst = true ∧ canCacheO o2 o1 = false ∧ canCacheO o2 dst = true
  · exact Or.inl ⟨hc.2.2, by simp only [if_pos hc]⟩
  · exact Or.inr ⟨hc, by simp only [if_neg hc]⟩

/-! ## The operands for which the cache is wrong -/

theorem fits12_nat (i : BitVec 64) : fits12 i = true ↔ i.toNat < 2048 ∨ 2 ^ 64 - 2048 ≤ i.toNat := by
  have h := BitVec.toInt_eq_toNat_cond i
  have hl := i.isLt
  simp only [fits12_iff, Fits12]
  split at h <;> omega

theorem and_fff (w : BitVec 64) : (w &&& ~~~0xfff#64).toNat = w.toNat / 4096 * 4096 := by
  have h : (w &&& ~~~0xfff#64) = (w >>> 12) <<< 12 := by bits []
  rw [h, BitVec.toNat_shiftLeft, BitVec.toNat_ushiftRight, Nat.shiftRight_eq_div_pow, Nat.shiftLeft_eq]
  have := w.isLt
  rw [Nat.mod_eq_of_lt] <;> omega

theorem argwHi_nat (w : BitVec 64) : (toArgwHi w).toNat = (w.toNat + 2048) / 4096 * 4096 % 2 ^ 64 := by
  have h1 : (w &&& 0x800#64 ≠ 0#64) ↔ 2048 ≤ w.toNat % 4096 := by
    have : (w &&& 0x800#64 ≠ 0#64) ↔ w.toNat.testBit 11 = true := by
      constructor
      · intro h
        by_contra hc
        apply h
        have hc' : w.getLsbD 11 = false := by simpa [BitVec.getLsbD] using hc
        bits [hc']
      · intro h hc
        have := congrArg (fun x => x.getLsbD 11) hc
        have h' : w.getLsbD 11 = true := h
        simp at this
        rw [← BitVec.getLsbD_eq_getElem, h'] at this; cases this
    rw [this, Nat.testBit_eq_decide_div_mod_eq, decide_eq_true_eq]; omega
  have hl := w.isLt
  unfold toArgwHi
  rw [BitVec.toNat_add, and_fff]
  by_cases h : w &&& 0x800#64 ≠ 0#64
  · rw [if_pos h]
    have := h1.mp h
    simp only [BitVec.toNat_ofNat]; omega
  · rw [if_neg h]
    have : ¬ 2048 ≤ w.toNat % 4096 := fun q => h (h1.mpr q)
    simp only [BitVec.toNat_ofNat]; omega

/-- A displacement that the constant TO_ARGW_HI of another one reaches has the same TO_ARGW_HI. -/
theorem argwHi_of_fits {w v : BitVec 64} (h : fits12 (w - toArgwHi v) = true) : toArgwHi v = toArgwHi w := by
  rw [fits12_nat, BitVec.toNat_sub, argwHi_nat] at h
  apply BitVec.eq_of_toNat_eq
  rw [argwHi_nat, argwHi_nat]
  have := w.isLt; have := v.isLt
  omega

theorem near_hi (w : BitVec 64) : (w - toArgwHi w).toNat < 2048 ∨ 2 ^ 64 - 2048 ≤ (w - toArgwHi w).toNat := by
  rw [BitVec.toNat_sub, argwHi_nat]
  have := w.isLt
  omega

/-- The displacements differ by at most 4096. -/
def Near (v w : BitVec 64) : Prop := (v - w).toNat ≤ 4096 ∨ (w - v).toNat ≤ 4096

theorem near_of {w v k : BitVec 64} (hk : k = v ∨ k = toArgwHi v) (h : fits12 (w - k) = true) : Near w v := by
  have hn : (v - k).toNat < 2048 ∨ 2 ^ 64 - 2048 ≤ (v - k).toNat := by
    rcases hk with rfl | rfl
    · left; simp
    · exact near_hi v
  rw [fits12_nat, BitVec.toNat_sub] at h
  rw [BitVec.toNat_sub] at hn
  unfold Near
  rw [BitVec.toNat_sub, BitVec.toNat_sub]
  have := w.isLt; have := v.isLt; have := k.isLt
  omega

/-- The operands of sljit_emit_op2 for which getput_arg relies on a TMP_REG3 that it has overwritten: a scaled offset register in the
first source, absolute displacements that need TMP_REG3 in the second source and the destination, and different base registers
with displacements close to each other. -/
def StaleCache (dst o1 o2 : Opd) : Prop :=
  ∃ b1 i1 w1 b2 w2 b3 w3, o1 = .mem b1 i1 w1 ∧ i1 ≠ 0 ∧ w1 ≠ 0#64 ∧ o2 = .mem b2 0 w2 ∧ fits12 w2 = false ∧
    dst = .mem b3 0 w3 ∧ fits12 w3 = false ∧ b2 ≠ b3 ∧ Near w3 w2

theorem slow_disp {b : Nat} {w : BitVec 64} (h : slow (.mem b 0 w) = true) : fits12 w = false := by
  simp [slow, fastArg] at h; exact h.2

/-- After the loads of both sources the cache is right for the destination. -/
theorem stale_free {sz : Sz} {sg : Bool} {reg : Nat} {dst o1 o2 : Opd} (hi : indexed o1) (hs1 : slow o1 = true) (hs2 : slow o2 = true) (hsd : slow dst = true)
    (hno : ¬ StaleCache dst o1 o2) (hb : ¬ (slow dst = true ∧ canCacheO o2 o1 = false ∧ canCacheO o2 dst = true)) (h2 : ¬ indexed o2)
    {b : Nat} {w : BitVec 64} (hd : dst = .mem b 0 w) (hf : fits12 (w - (loadSlow (.g sz sg) false ⟨none, 0#64⟩ reg o2 o1).2.argw) = true) : False := by
  cases o1 with
  | reg => exact hi
  | imm => exact hi
  | mem b1 i1 w1 =>
    cases o2 with
    | reg => simp [slow] at hs2
    | imm => simp [slow] at hs2
    | mem b2 i2 w2 =>
      have h2 : i2 = 0 := not_not.mp h2
      subst h2
      have hw1 : w1 ≠ 0#64 := by rintro rfl; simp [slow, fastArg] at hs1
      have hkw : (loadSlow (.g sz sg) false ⟨none, 0#64⟩ reg (.mem b2 0 w2) (.mem b1 i1 w1)).2.argw = w2 ∨
          (loadSlow (.g sz sg) false ⟨none, 0#64⟩ reg (.mem b2 0 w2) (.mem b1 i1 w1)).2.argw = toArgwHi w2 := getputAddr_kw (v := 0#64)
      generalize (loadSlow (.g sz sg) false ⟨none, 0#64⟩ reg (.mem b2 0 w2) (.mem b1 i1 w1)).2.argw = k at *
      subst hd
      by_cases hbb : b2 = b
      · subst hbb
        apply hb
        refine ⟨hsd, ?_, ?_⟩
        · simp only [canCacheO, canCache]
          have : (b2, 0) ≠ (b1, i1) := by
            intro h; simp only [Prod.mk.injEq] at h; exact hi h.2.symm
          simp [this]
        · simp only [canCacheO, canCache, ne_eq, not_true, if_false, if_true, Bool.or_eq_true, beq_iff_eq]
          rcases hkw with rfl | rfl
          · exact Or.inl hf
          · exact Or.inr (argwHi_of_fits hf)
      · exact hno ⟨b1, i1, w1, b2, w2, b, w, rfl, hi, hw1, rfl, slow_disp hs2, rfl, slow_disp hsd, hbb, near_of hkw hf⟩

/-- The cache before the final store. -/
def StoreOk (k : Cache) (dst : Opd) (c : Core) : Prop := slow dst = true → NextOk k dst c

theorem CacheOk.store {k : Cache} {c : Core} (h : CacheOk k c) (o : Opd) : StoreOk k o c := fun _ => h.next o

/-- The fetch phase of emit_op for binary operations. -/
theorem fetch_ok {sz : Sz} {sg : Bool} {dst o1 o2 : Opd} {c : Core} {tmp : Nat} (h1 : OpdOk o1) (h2 : OpdOk o2)
    (htmp : tmp = if o1.isReg then TMP_REG1 else TMP_REG2) (hno : ¬ StaleCache dst o1 o2) :
    wp ((emitSrc1 (.g sz sg) o1).1 ++ ((emitSrc2 (.g sz sg) tmp o2).1 ++
        (emitSlow (.g sz sg) ⟨none, 0#64⟩ dst o1 o2 (emitSrc1 (.g sz sg) o1).2 tmp).1)) c fun c' =>
      c'.x (regMap (emitSrc1 (.g sz sg) o1).2) = opdVal sz sg c o1 ∧
      c'.x (regMap (emitSrc2 (.g sz sg) tmp o2).2) = opdVal sz sg c o2 ∧ Only temps c c' ∧
      StoreOk (emitSlow (.g sz sg) ⟨none, 0#64⟩ dst o1 o2 (emitSrc1 (.g sz sg) o1).2 tmp).2 dst c' := by
  rw [emitSrc1_eq]
  have htmp' : regMap tmp ≠ 0#5 ∧ regMap tmp ≠ 3#5 ∧ regMap tmp ≠ 14#5 ∧ (regMap tmp = 13#5 ∨ regMap tmp = 1#5) := by
    rw [htmp]; cases o1.isReg <;> simp
  obtain ⟨t0, t2, t7, t61⟩ := htmp'
  -- a value in a fetched register survives changes of the other registers
  have r1 : ∀ c1 c2 : Core, c1.x (regMap (emitSrc2 (.g sz sg) TMP_REG1 o1).2) = opdVal sz sg c o1 →
      Only [regMap tmp, 14#5] c1 c2 → c2.x (regMap (emitSrc2 (.g sz sg) TMP_REG1 o1).2) = opdVal sz sg c o1 := by
    intro c1 c2 hv ho
    rw [← hv]
    apply ho.1
    rw [emitSrc2_reg]
    cases o1 with
    | reg r =>
      have := user_temps h1
      simp only [List.mem_cons, List.not_mem_nil, not_or, or_false] at this ⊢
      refine ⟨?_, this.2.2⟩
      rcases t61 with h | h <;> rw [h]
      · exact this.1
      · exact this.2.1
    | imm v => simp only [Opd.isReg] at htmp; rw [htmp]; by_cases hv0 : v = 0#64 <;> simp [hv0]
    | mem b i w => simp only [Opd.isReg] at htmp; rw [htmp]; simp
  have v2 : ∀ c1 c2 : Core, Only temps c c1 → opdVal sz sg c1 o2 = opdVal sz sg c o2 := fun c1 _ h => opdVal_only h2 h
  have m1 : ∀ r ∈ [regMap TMP_REG1, 14#5], r ∈ temps := by simp
  have m2 : ∀ r ∈ [regMap tmp, 14#5], r ∈ temps := by
    rcases t61 with h | h <;> rw [h] <;> simp
  cases hs1 : slow o1 <;> cases hs2 : slow o2
  · -- no slow load
    have e3 : emitSlow (.g sz sg) ⟨none, 0#64⟩ dst o1 o2 (emitSrc2 (.g sz sg) TMP_REG1 o1).2 tmp = ([], ⟨none, 0#64⟩) := by
      simp only [emitSlow, hs1, hs2]
    rw [e3]
    refine wp_append (wp_mono (emitSrc_ok h1 hs1 (by decide)) ?_)
    rintro c1 ⟨g1, g2⟩
    rw [List.append_nil]
    refine wp_mono (emitSrc_ok h2 hs2 t0) ?_
    rintro c2 ⟨g3, g4⟩
    exact ⟨r1 _ _ g1 g4, by rw [g3, v2 c1 c2 (g2.mono m1)], (g2.mono m1).trans (g4.mono m2), (k0 _).store _⟩
  · -- slow second source
    have e3 : emitSlow (.g sz sg) ⟨none, 0#64⟩ dst o1 o2 (emitSrc2 (.g sz sg) TMP_REG1 o1).2 tmp =
        loadSlow (.g sz sg) (decide ((emitSrc2 (.g sz sg) TMP_REG1 o1).2 = TMP_REG1)) ⟨none, 0#64⟩ tmp o2 dst := by
      simp only [emitSlow, hs1, hs2]
    rw [e3, emitSrc2_slow hs2]
    refine wp_append (wp_mono (emitSrc_ok h1 hs1 (by decide)) ?_)
    rintro c1 ⟨g1, g2⟩
    rw [List.nil_append]
    refine wp_mono (loadSlow0_ok h2 hs2) ?_
    rintro c' ⟨c2, g3, g4, rfl⟩
    have g5 := v2 c1 c1 (g2.mono m1)
    refine ⟨?_, by simp [t0, g5], ?_, (g4.wr t61 _).store _⟩
    · apply r1 _ _ _ ((Only.refl _ c2).wr (by simp) _)
      rw [← g1]
      apply g3.1
      rw [emitSrc2_reg]
      cases o1 with
      | reg r =>
        have := user_temps h1
        simp only [List.mem_cons, List.not_mem_nil, not_or, or_false] at this ⊢
        refine ⟨this.2.2, ?_⟩
        simp only [tmpR]; split
        · exact this.2.1
        · exact this.1
      | imm v => simp only []; by_cases hv : v = 0#64 <;> simp [hv, tmpR]
      | mem b i w => simp [tmpR]
    · refine (g2.mono m1).trans ((g3.mono ?_).wr (by rcases t61 with h | h <;> simp [h]) _)
      simp only [tmpR]; split <;> simp
  · -- slow first source
    have e3 : emitSlow (.g sz sg) ⟨none, 0#64⟩ dst o1 o2 (emitSrc2 (.g sz sg) TMP_REG1 o1).2 tmp =
        loadSlow (.g sz sg) false ⟨none, 0#64⟩ TMP_REG1 o1 dst := by
      simp only [emitSlow, hs1, hs2]
    have ht : tmp = TMP_REG2 := by rw [htmp]; cases o1 <;> simp_all [Opd.isReg, slow]
    subst ht
    rw [e3, emitSrc2_slow hs1]
    rw [List.nil_append]
    refine wp_append (wp_mono (emitSrc_ok h2 hs2 t0) ?_)
    rintro c1 ⟨g1, g2⟩
    refine wp_mono (loadSlow0_ok h1 hs1) ?_
    rintro c' ⟨c2, g3, g4, rfl⟩
    have g5 : opdVal sz sg c1 o1 = opdVal sz sg c o1 := opdVal_only h1 (g2.mono m2)
    refine ⟨by simp [g5], ?_, ?_, (g4.wr (by simp) _).store _⟩
    · have : ((emitSrc2 (.g sz sg) TMP_REG2 o2).2) ≤ 24 ∨ ((emitSrc2 (.g sz sg) TMP_REG2 o2).2) = 26 := by
        rw [emitSrc2_reg]
        cases o2 with
        | reg r => exact Or.inl h2
        | imm v => simp only []; split <;> simp
        | mem => right; rfl
      rw [← g1]
      have hq : regMap (emitSrc2 (.g sz sg) TMP_REG2 o2).2 ≠ 13#5 ∧ regMap (emitSrc2 (.g sz sg) TMP_REG2 o2).2 ≠ 14#5 := by
        rcases this with h | h
        · obtain ⟨-, -, q6, q7, -⟩ := user_ne h; exact ⟨q6, q7⟩
        · rw [h]; decide
      have := g3.1 (regMap (emitSrc2 (.g sz sg) TMP_REG2 o2).2) (by simp [tmpR, hq.1, hq.2])
      simp [hq.1, this]
    · exact (g2.mono m2).trans ((g3.mono (by simp [tmpR])).wr (by simp) _)
  · -- both slow
    have ht : tmp = TMP_REG2 := by rw [htmp]; cases o1 <;> simp_all [Opd.isReg, slow]
    subst ht
    rw [emitSrc2_slow hs1, emitSrc2_slow hs2]
    have key := emitSlow_both (t := .g sz sg) (k := ⟨none, 0#64⟩) (dst := dst) (r := TMP_REG1) (tmp := TMP_REG2) hs1 hs2
    simp only [List.nil_append]
    rcases key with ⟨hcc, key⟩ | ⟨hcc, key⟩ <;> rw [key]
    · refine wp_append (wp_mono (loadSlow0_ok (reg := TMP_REG1) h1 hs1) ?_)
      rintro c' ⟨c1, g1, g2, rfl⟩
      have a1 : Only temps c c1 := g1.mono (by simp [tmpR])
      have a2 := a1.wr (r := 13#5) (by simp) (opdVal sz sg c o1)
      refine wp_mono (loadSlow_ok (reg := TMP_REG2) h2 hs2 ((g2.wr (by simp) _).next _)) ?_
      rintro c' ⟨c2, g3, g4, rfl⟩
      have g5 := g3.1 13#5 (by simp [tmpR])
      have g6 := opdVal_only (sz := sz) (sg := sg) h2 a2
      have g7 : ¬ indexed o2 := by
        intro hi
        cases o2 with
        | mem b2 i2 w2 =>
          cases dst <;> simp [canCacheO, canCache] at hcc
          exact hi hcc.1
        | _ => exact hi
      have g4 := g4.resolve_right fun h => g7 h.1
      simp only [rm25] at g3 g6 ⊢
      refine ⟨by simpa using g5, by simp [g6], ?_, (g4.wr (by simp) _).store _⟩
      exact a2.trans ((g3.mono (by simp [tmpR])).wr (by simp) _)
    · refine wp_append (wp_mono (loadSlow0_ok (reg := TMP_REG2) h2 hs2) ?_)
      rintro c' ⟨c1, g1, g2, rfl⟩
      have a1 : Only temps c c1 := g1.mono (by simp [tmpR])
      have a2 := a1.wr (r := 1#5) (by simp) (opdVal sz sg c o2)
      refine wp_mono (loadSlow_ok (reg := TMP_REG1) h1 hs1 ((g2.wr (by simp) _).next _)) ?_
      rintro c' ⟨c2, g3, g4, rfl⟩
      have g5 := g3.1 1#5 (by simp [tmpR])
      have g6 := opdVal_only (sz := sz) (sg := sg) h1 a2
      simp only [rm26] at g3 g6 ⊢
      refine ⟨by simp [g6], by simpa using g5, ?_, ?_⟩
      · exact a2.trans ((g3.mono (by simp [tmpR])).wr (by simp) _)
      · rcases g4 with g4 | ⟨gi, g4⟩
        · exact (g4.wr (by simp) _).store _
        · by_cases hi2 : indexed o2
          · have : (loadSlow (.g sz sg) false ⟨none, 0#64⟩ TMP_REG2 o2 o1).2 = ⟨none, 0#64⟩ := by
              cases o2 with
              | mem b2 i2 w2 =>
                have hi2 : i2 ≠ 0 := hi2
                simp only [loadSlow, getputArg, getputAddr, if_pos hi2]
              | _ => rfl
            rw [g4, this]; exact (k0 _).store _
          · intro hsd b w hd hf
            rw [g4] at hf
            exact (stale_free gi hs1 hs2 hsd hno hcc hi2 hd hf).elim

end Verif.LA
