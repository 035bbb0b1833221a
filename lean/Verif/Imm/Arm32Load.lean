import Verif.Imm.ThumbLemmas

/-! # load_immediate of ARM32 and Thumb-2 (helper lemmas) -/

namespace Verif.Imm.Arm32
open A32

theorem IsImm.eq {i : BitVec 32} (h : IsImm i) : i = SRC2_IMM ||| (i.extractLsb' 0 12).setWidth 32 := by
  have hb : ∀ k, k < 32 → 12 ≤ k → i.getLsbD k = SRC2_IMM.getLsbD k := by
    intro k hk h12
    have := congrArg (fun v => v.getLsbD k) h
    simp only [BitVec.getLsbD_and] at this
    rw [← this]
    interval_cases k <;> simp [-BitVec.getLsbD_eq_getElem]
  apply BitVec.eq_of_getLsbD_eq
  intro k hk
  by_cases h12 : 12 ≤ k
  · rw [hb k hk h12]; interval_cases k <;> simp [-BitVec.getLsbD_eq_getElem, SRC2_IMM]
  · interval_cases k <;> simp [-BitVec.getLsbD_eq_getElem, SRC2_IMM] <;> omega

/-- The base words of the data processing instructions. -/
def Base (b : BitVec 32) : Prop := b &&& 0x021fffff#32 = 0#32 ∧ fld b 28 4 = 14#4 ∧ fld b 25 3 = 0#3 ∧ fld b 23 2 ≠ 2#2

instance (b) : Decidable (Base b) := inferInstanceAs (Decidable (_ ∧ _))

theorem dec_imm {b : BitVec 32} (hb : Base b) (d n : BitVec 4) {i : BitVec 32} (hi : IsImm i) :
    decode (b ||| d.setWidth 32 <<< 12 ||| n.setWidth 32 <<< 16 ||| i) =
      some (.dp (fld b 21 4) n d (.imm (expand (i.extractLsb' 0 12)))) := by
  obtain ⟨h1, h2, h3, h4⟩ := hb
  have hz := zero_bits h1
  rw [hi.eq]
  generalize i.extractLsb' 0 12 = f
  generalize hw : b ||| d.setWidth 32 <<< 12 ||| n.setWidth 32 <<< 16 ||| (SRC2_IMM ||| f.setWidth 32) = w
  have z : ∀ k, k < 21 → b.getLsbD k = false := fun k hk => hz k (by interval_cases k <;> rfl)
  have z25 : b.getLsbD 25 = false := hz 25 rfl
  have z3 : ∀ k, 25 ≤ k → k < 28 → b.getLsbD k = false := by
    intro k hk hk'
    have := congrArg (fun v => v.getLsbD (k - 25)) h3
    interval_cases k <;> simpa [-BitVec.getLsbD_eq_getElem, fld] using this
  have f1 : fld w 28 4 = 14#4 := by rw [← h2, ← hw]; bits [fld, SRC2_IMM]
  have f2 : fld w 20 1 = 0#1 := by subst hw; bits [fld, SRC2_IMM, z]
  have f3 : fld w 23 2 = fld b 23 2 := by subst hw; bits [fld, SRC2_IMM]
  have f4 : fld w 25 3 = 1#3 := by subst hw; bits [fld, SRC2_IMM, z3]
  have f5 : fld w 21 4 = fld b 21 4 := by subst hw; bits [fld, SRC2_IMM]
  have f6 : fld w 16 4 = n := by subst hw; bits [fld, SRC2_IMM, z]
  have f7 : fld w 12 4 = d := by subst hw; bits [fld, SRC2_IMM, z]
  have f8 : fld w 0 12 = f := by subst hw; bits [fld, SRC2_IMM, z]
  have f9 : (SRC2_IMM ||| f.setWidth 32).extractLsb' 0 12 = f := by bits [SRC2_IMM]
  simp only [decode, f1, f2, f3, f4, f5, f6, f7, f8, f9, h4]
  simp

theorem dec_reg {b : BitVec 32} (hb : Base b) (d n m : BitVec 4) :
    decode (b ||| d.setWidth 32 <<< 12 ||| n.setWidth 32 <<< 16 ||| m.setWidth 32) = some (.dp (fld b 21 4) n d (.reg m)) := by
  obtain ⟨h1, h2, h3, h4⟩ := hb
  have hz := zero_bits h1
  generalize hw : b ||| d.setWidth 32 <<< 12 ||| n.setWidth 32 <<< 16 ||| m.setWidth 32 = w
  have z : ∀ k, k < 21 → b.getLsbD k = false := fun k hk => hz k (by interval_cases k <;> rfl)
  have z3 : ∀ k, 25 ≤ k → k < 28 → b.getLsbD k = false := by
    intro k hk hk'
    have := congrArg (fun v => v.getLsbD (k - 25)) h3
    interval_cases k <;> simpa [-BitVec.getLsbD_eq_getElem, fld] using this
  have f1 : fld w 28 4 = 14#4 := by rw [← h2, ← hw]; bits [fld]
  have f2 : fld w 20 1 = 0#1 := by subst hw; bits [fld, z]
  have f3 : fld w 23 2 = fld b 23 2 := by subst hw; bits [fld]
  have f4 : fld w 25 3 = 0#3 := by subst hw; bits [fld, z3]
  have f5 : fld w 21 4 = fld b 21 4 := by subst hw; bits [fld]
  have f6 : fld w 16 4 = n := by subst hw; bits [fld, z]
  have f7 : fld w 12 4 = d := by subst hw; bits [fld, z]
  have f8 : fld w 0 4 = m := by subst hw; bits [fld, z]
  have f9 : fld w 4 8 = 0#8 := by subst hw; bits [fld, z]
  simp only [decode, f1, f2, f3, f4, f5, f6, f7, f8, f9, h4]
  simp

theorem dec_MOVW (d : BitVec 4) (v : BitVec 32) : decode (MOVW ||| d.setWidth 32 <<< 12 ||| ((v <<< 4) &&& 0xf0000#32) ||| (v &&& 0xfff#32)) =
    some (.movw d (v.setWidth 16)) := by
  generalize hw : MOVW ||| d.setWidth 32 <<< 12 ||| ((v <<< 4) &&& 0xf0000#32) ||| (v &&& 0xfff#32) = w
  have f1 : fld w 28 4 = 14#4 := by subst hw; bits [fld, MOVW]
  have f2 : fld w 20 1 = 0#1 := by subst hw; bits [fld, MOVW]
  have f3 : fld w 23 2 = 2#2 := by subst hw; bits [fld, MOVW]
  have f4 : fld w 20 8 = 0x30#8 := by subst hw; bits [fld, MOVW]
  have f5 : fld w 12 4 = d := by subst hw; bits [fld, MOVW]
  have f6 : (fld w 16 4).setWidth 16 <<< 12 ||| (fld w 0 12).setWidth 16 = v.setWidth 16 := by subst hw; bits [fld, MOVW]
  simp only [decode, f1, f2, f3, f4, f5, f6]; simp

theorem dec_MOVT (d : BitVec 4) (v : BitVec 32) :
    decode (MOVT ||| d.setWidth 32 <<< 12 ||| ((v >>> 12) &&& 0xf0000#32) ||| ((v >>> 16) &&& 0xfff#32)) =
    some (.movt d ((v >>> 16).setWidth 16)) := by
  generalize hw : MOVT ||| d.setWidth 32 <<< 12 ||| ((v >>> 12) &&& 0xf0000#32) ||| ((v >>> 16) &&& 0xfff#32) = w
  have f1 : fld w 28 4 = 14#4 := by subst hw; bits [fld, MOVT]
  have f2 : fld w 20 1 = 0#1 := by subst hw; bits [fld, MOVT]
  have f3 : fld w 23 2 = 2#2 := by subst hw; bits [fld, MOVT]
  have f4 : fld w 20 8 = 0x34#8 := by subst hw; bits [fld, MOVT]
  have f5 : fld w 12 4 = d := by subst hw; bits [fld, MOVT]
  have f6 : (fld w 16 4).setWidth 16 <<< 12 ||| (fld w 0 12).setWidth 16 = (v >>> 16).setWidth 16 := by subst hw; bits [fld, MOVT]
  simp only [decode, f1, f2, f3, f4, f5, f6]; simp

/-- Execution of what is emitted.  A load from the constant pool yields the constant. -/
def runItems : List Item → St → Option St
  | [], s => some s
  | .ins w :: ws, s => (decode w).bind fun i => (exec i s).bind (runItems ws)
  | .lit r v :: ws, s => if regMap r = 15#4 then none else runItems ws (s.set (regMap r) v)

theorem set_set (s : St) (d a b) : (s.set d a).set d b = s.set d b := by
  simp only [St.set]; congr 1; funext q; split <;> rfl
theorem set_r (s : St) (d a) : (s.set d a).r d = a := by simp [St.set]
theorem set_c (s : St) (d a) : (s.set d a).c = s.c := rfl

theorem run_append (a b : List Item) (s : St) : runItems (a ++ b) s = (runItems a s).bind (runItems b) := by
  induction a generalizing s with
  | nil => rfl
  | cons x xs ih =>
    cases x with
    | ins w =>
      simp only [List.cons_append, runItems]
      cases decode w with
      | none => rfl
      | some i => cases h : exec i s <;> simp [h, ih]
    | lit r v => simp only [List.cons_append, runItems]; split <;> simp [ih]

/-- A data processing instruction with an immediate. -/
theorem run_imm {b : BitVec 32} (hb : Base b) {d n : Nat} (hd : regMap d ≠ 15#4) (hn : regMap n ≠ 15#4) {i v : BitVec 32} (hi : IsImm i)
    (s : St) (hv : dpVal (fld b 21 4) (s.r (regMap n)) (expand (i.extractLsb' 0 12)) s.c = some v) :
    runItems [.ins (b ||| RD d ||| RN n ||| i)] s = some (s.set (regMap d) v) := by
  simp only [runItems, RD, RN, dec_imm hb _ _ hi, Option.bind_some, exec, hd, hn, or_self, if_false, Op2.val, hv, Option.map_some]

theorem run_imm0 {b : BitVec 32} (hb : Base b) {d : Nat} (hd : regMap d ≠ 15#4) {i v : BitVec 32} (hi : IsImm i)
    (s : St) (hv : dpVal (fld b 21 4) (s.r 0#4) (expand (i.extractLsb' 0 12)) s.c = some v) :
    runItems [.ins (b ||| RD d ||| i)] s = some (s.set (regMap d) v) := by
  have e : b ||| RD d ||| i = b ||| RD d ||| RN 0 ||| i := by simp [RN, regMap]
  rw [e]
  exact run_imm hb hd (n := 0) (by decide) hi s hv

theorem run_reg {b : BitVec 32} (hb : Base b) {d n m : Nat} (hd : regMap d ≠ 15#4) (hn : regMap n ≠ 15#4) (hm : regMap m ≠ 15#4)
    {v : BitVec 32} (s : St) (hv : dpVal (fld b 21 4) (s.r (regMap n)) (s.r (regMap m)) s.c = some v) :
    runItems [.ins (b ||| RD d ||| RN n ||| RM m)] s = some (s.set (regMap d) v) := by
  simp only [runItems, RD, RN, RM, dec_reg hb, Option.bind_some, exec, hd, hn, or_self, if_false, Op2.val, hm, hv, Option.map_some]

theorem loadImmediate_run (v6 : Bool) {reg : Nat} (hr : regMap reg ≠ 15#4) (imm : BitVec 32) (s : St) :
    runItems (loadImmediate v6 reg imm) s = some (s.set (regMap reg) imm) := by
  unfold loadImmediate
  split
  next h =>
    simp only [runItems, RD, dec_MOVW, Option.bind_some, exec, hr, if_false]
    congr 2
    have := zero_bits h.2
    apply BitVec.eq_of_getLsbD_eq
    intro k hk
    have := this k
    interval_cases k <;> simp [-BitVec.getLsbD_eq_getElem] at this ⊢ <;> simp only [*]
  next =>
  split
  next h =>
    obtain ⟨h1, h2⟩ := getImm_sound h
    exact run_imm0 (b := MOV) (by decide) hr h1 s (by rw [h2]; rfl)
  next =>
  split
  next h =>
    obtain ⟨h1, h2⟩ := getImm_sound h
    refine run_imm0 (b := MVN) (by decide) hr h1 s ?_
    rw [h2]
    show some (~~~ ~~~ imm) = _
    rw [BitVec.not_not]
  next =>
  split
  next =>
    split
    next i1 i2 h =>
      obtain ⟨h1, h2, h3, -⟩ := computeImm_sound h
      simp only at h1 h2 h3
      show runItems ([.ins _] ++ [.ins _]) s = _
      rw [run_append, run_imm0 (b := MOV) (by decide) hr h1 s (v := expand (i1.extractLsb' 0 12)) rfl, Option.bind_some,
        run_imm (b := ORR) (by decide) hr hr h2 _ (v := expand (i1.extractLsb' 0 12) ||| expand (i2.extractLsb' 0 12))
          (by rw [set_r]; rfl), set_set, h3]
    next =>
      split
      next i1 i2 h =>
        obtain ⟨h1, h2, h3, -⟩ := computeImm_sound h
        simp only at h1 h2 h3
        show runItems ([.ins _] ++ [.ins _]) s = _
        rw [run_append, run_imm0 (b := MVN) (by decide) hr h1 s (v := ~~~ expand (i1.extractLsb' 0 12)) rfl, Option.bind_some,
          run_imm (b := BIC) (by decide) hr hr h2 _ (v := ~~~ expand (i1.extractLsb' 0 12) &&& ~~~ expand (i2.extractLsb' 0 12))
            (by rw [set_r]; rfl), set_set]
        rw [← BitVec.not_or, h3, BitVec.not_not]
      next => simp [runItems, hr]
  next =>
    have hmw : imm ≤ 0xffff#32 → (imm.setWidth 16).setWidth 32 = imm := by
      intro h
      apply BitVec.eq_of_toNat_eq
      have : imm.toNat ≤ 65535 := h
      simp [BitVec.toNat_setWidth]; omega
    simp only [runItems, RD, dec_MOVW, Option.bind_some, exec, hr, if_false]
    split
    next h => simp only [runItems]; rw [hmw h]
    next h =>
      simp only [runItems, dec_MOVT, Option.bind_some, exec, hr, if_false, set_r, set_set]
      congr 2
      bits []

end Verif.Imm.Arm32
