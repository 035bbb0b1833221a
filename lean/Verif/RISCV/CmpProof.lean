import Verif.RISCV.EmitOpProof
import Verif.RISCV.OpMemProof
import Verif.RISCV.GenSpec

/-!
# sljit_emit_cmp (helper lemmas)
-/

namespace Verif.RV

/-- emit_op_mem2 as an integer load. -/
theorem opMem2_load {cfg : Cfg} {sz : Sz} {sg tmp2 : Bool} {k : Cache} {reg b i : Nat} {w : BitVec 64}
    {next : Option (Nat × Nat × BitVec 64)} {c : Core} (hb : b ≤ 24) (hi : i ≤ 24) (hk : CacheOk k c) (hr : regMap reg ≠ 0#5) :
    wp (emitOpMem2 cfg (.g sz sg) true tmp2 k reg b i w next).1 c fun c' => ∃ c1, Only [7#5, regMap (tmpR tmp2)] c c1 ∧
      CacheOk (emitOpMem2 cfg (.g sz sg) true tmp2 k reg b i w next).2 c1 ∧
      c' = c1.wr (regMap reg) (opdVal sz sg c (.mem b i w)) := by
  unfold emitOpMem2
  cases hf : fastArg i w
  · simp only [Bool.false_eq_true, if_false]
    exact getput_load hb hi hk hr
  · simp only [if_true]
    rw [wp_load hr]
    simp only [fastArg, Bool.and_eq_true, decide_eq_true_eq, fits12_iff] at hf
    obtain ⟨rfl, hw⟩ := hf
    rw [sext12 hw]
    exact ⟨c, Only.refl _ _, hk, by simp [opdVal, ea]⟩

theorem cache_none (c : Core) (v : BitVec 64) : CacheOk ⟨none, v⟩ c := by
  intro b i h; cases h

/-- After the operand loads the two registers hold the operands; only temporaries have changed. -/
theorem cmpFetch_ok {cfg : Cfg} {is32 : Bool} {o1 o2 : Opd} {c : Core} (h1 : OpdOk o1) (h2 : OpdOk o2) :
    wp (cmpFetch cfg is32 o1 o2).1 c fun c' =>
      c'.x (regMap (cmpFetch cfg is32 o1 o2).2.1) = opdVal (if is32 then .int else .word) false c o1 ∧
      c'.x (regMap (cmpFetch cfg is32 o1 o2).2.2) = opdVal (if is32 then .int else .word) false c o2 ∧ Only temps c c' := by
  have L1 : ∀ (v : BitVec 64) (c : Core), wp (emitSrc2 cfg (.g .word false) TMP_REG1 (.imm v)).1 c fun c1 =>
      c1.x (regMap (emitSrc2 cfg (.g .word false) TMP_REG1 (.imm v)).2) = v ∧ Only [6#5, 7#5] c c1 := fun v c =>
    emitSrc_ok (sz := .word) (sg := false) trivial rfl (by decide) (by decide) (by decide)
  have L2 : ∀ (v : BitVec 64) (c : Core), wp (emitSrc2 cfg (.g .word false) TMP_REG2 (.imm v)).1 c fun c1 =>
      c1.x (regMap (emitSrc2 cfg (.g .word false) TMP_REG2 (.imm v)).2) = v ∧ Only [1#5, 7#5] c c1 := fun v c =>
    emitSrc_ok (sz := .word) (sg := false) trivial rfl (by decide) (by decide) (by decide)
  have z : ∀ v t, (emitSrc2 cfg (.g .word false) t (.imm v)).2 = if v = 0#64 then 0 else t := fun v t => emitSrc2_reg
  have u : ∀ {r : Nat} {c c' : Core}, r ≤ 24 → Only temps c c' → c'.x (regMap r) = c.x (regMap r) := fun hr h => h.1 _ (user_temps hr)
  have s1 : ∀ c c' : Core, Only [6#5, 7#5] c c' → Only temps c c' := fun c c' h => h.mono (by simp)
  have s2 : ∀ c c' : Core, Only [1#5, 7#5] c c' → Only temps c c' := fun c c' h => h.mono (by simp)
  have s3 : ∀ c c' : Core, Only [7#5, regMap (tmpR false)] c c' → Only temps c c' := fun c c' h => h.mono (by simp [tmpR, rm25])
  have s4 : ∀ c c' : Core, Only [7#5, regMap (tmpR true)] c c' → Only temps c c' := fun c c' h => h.mono (by simp [tmpR, rm26])
  cases o1 with
  | reg r1 =>
    cases o2 with
    | reg r2 => exact (wp_nil ..).mpr ⟨rfl, rfl, Only.refl _ _⟩
    | imm v =>
      refine wp_mono (L1 v c) ?_
      rintro c' ⟨g1, g2⟩
      exact ⟨u h1 (s1 _ _ g2), g1, s1 _ _ g2⟩
    | mem b i w =>
      refine (?_ : wp ((emitOpMem2 cfg _ true false _ TMP_REG1 b i w none).1 ++ ([] ++ [])) c _)
      rw [List.append_nil, List.append_nil]
      refine wp_mono (opMem2_load h2.1 h2.2 (cache_none _ _) (by decide)) ?_
      rintro c' ⟨c1, g1, -, rfl⟩
      have := (s3 _ _ g1).wr (show (6#5 : Reg) ∈ temps by simp) (opdVal (if is32 then .int else .word) false c (.mem b i w))
      exact ⟨u h1 this, by simp [cmpFetch, Opd.isReg, rm25], this⟩
  | imm v =>
    cases o2 with
    | reg r2 =>
      refine (?_ : wp ((emitSrc2 cfg (.g .word false) TMP_REG1 (.imm v)).1 ++ []) c _)
      rw [List.append_nil]
      refine wp_mono (L1 v c) ?_
      rintro c' ⟨g1, g2⟩
      exact ⟨g1, u h2 (s1 _ _ g2), s1 _ _ g2⟩
    | imm v2 =>
      refine (?_ : wp ((emitSrc2 cfg (.g .word false) TMP_REG1 (.imm v)).1 ++ (emitSrc2 cfg (.g .word false) TMP_REG2 (.imm v2)).1) c _)
      refine wp_append (wp_mono (L1 v c) ?_)
      rintro c1 ⟨g1, g2⟩
      refine wp_mono (L2 v2 c1) ?_
      rintro c' ⟨g3, g4⟩
      refine ⟨?_, g3, (s1 _ _ g2).trans (s2 _ _ g4)⟩
      refine Eq.trans (g4.1 _ ?_) g1
      rw [show (cmpFetch cfg is32 (.imm v) (.imm v2)).2.1 = _ from z v TMP_REG1]
      split <;> decide
    | mem b i w =>
      refine (?_ : wp ((emitOpMem2 cfg _ true false _ TMP_REG2 b i w none).1 ++ ((emitSrc2 cfg (.g .word false) TMP_REG1 (.imm v)).1 ++ [])) c _)
      rw [List.append_nil]
      refine wp_append (wp_mono (opMem2_load h2.1 h2.2 (cache_none _ _) (by decide)) ?_)
      rintro c' ⟨c1, g1, -, rfl⟩
      refine wp_mono (L1 v _) ?_
      rintro c' ⟨g3, g4⟩
      refine ⟨g3, ?_, ((s3 _ _ g1).wr (by simp [rm26]) _).trans (s1 _ _ g4)⟩
      refine (g4.1 _ (by simp [cmpFetch, Opd.isReg, rm26])).trans ?_
      simp [cmpFetch, Opd.isReg, rm26]
  | mem b i w =>
    cases o2 with
    | reg r2 =>
      refine (?_ : wp ((emitOpMem2 cfg _ true false _ TMP_REG1 b i w none).1 ++ []) c _)
      rw [List.append_nil]
      refine wp_mono (opMem2_load h1.1 h1.2 (cache_none _ _) (by decide)) ?_
      rintro c' ⟨c1, g1, -, rfl⟩
      have := (s3 _ _ g1).wr (show (6#5 : Reg) ∈ temps by simp) (opdVal (if is32 then .int else .word) false c (.mem b i w))
      exact ⟨by simp [cmpFetch, Opd.isReg, rm25], u h2 this, this⟩
    | imm v =>
      refine (?_ : wp ((emitOpMem2 cfg _ true false _ TMP_REG1 b i w none).1 ++ (emitSrc2 cfg (.g .word false) TMP_REG2 (.imm v)).1) c _)
      refine wp_append (wp_mono (opMem2_load h1.1 h1.2 (cache_none _ _) (by decide)) ?_)
      rintro c' ⟨c1, g1, -, rfl⟩
      refine wp_mono (L2 v _) ?_
      rintro c' ⟨g3, g4⟩
      refine ⟨?_, g3, ((s3 _ _ g1).wr (by simp [rm25]) _).trans (s2 _ _ g4)⟩
      refine (g4.1 _ (by simp [cmpFetch, Opd.isReg, rm25])).trans ?_
      simp [cmpFetch, Opd.isReg, rm25]
    | mem b2 i2 w2 =>
      refine (?_ : wp ((emitOpMem2 cfg _ true false _ TMP_REG1 b i w _).1 ++ ((emitOpMem2 cfg _ true true _ TMP_REG2 b2 i2 w2 none).1 ++ ([] ++ []))) c _)
      rw [List.append_nil, List.append_nil]
      refine wp_append (wp_mono (opMem2_load h1.1 h1.2 (cache_none _ _) (by decide)) ?_)
      rintro c' ⟨c1, g1, gk, rfl⟩
      refine wp_mono (opMem2_load h2.1 h2.2 (gk.wr (Or.inl rm25) _) (by decide)) ?_
      rintro c' ⟨c2, g3, -, rfl⟩
      have o1 := (s3 _ _ g1).wr (show (regMap TMP_REG1) ∈ temps by simp [rm25]) (opdVal (if is32 then .int else .word) false c (.mem b i w))
      have o2 := o1.trans (s4 _ _ g3)
      refine ⟨?_, ?_, o2.wr (by simp [rm26]) _⟩
      · simp only [cmpFetch, rm25, rm26] at *
        rw [x_wr, if_neg (by decide), g3.1 _ (by simp [tmpR, rm26]), x_wr, if_pos (by decide)]
      · rw [opdVal_only h2 o1]
        simp [cmpFetch, Opd.isReg, rm26]

/-- The relation named by a condition type. -/
def cmpRel (type : Nat) (a b : BitVec 64) : Bool :=
  match type with
  | 0 => a == b
  | 1 => a != b
  | 2 => a.ult b
  | 3 => !a.ult b
  | 4 => b.ult a
  | 5 => !b.ult a
  | 6 => a.slt b
  | 7 => !a.slt b
  | 8 => b.slt a
  | _ => !b.slt a

theorem cmpBr_ok (cfg : Cfg) (type r1 r2 : Nat) (s : St) :
    (cmpBr cfg type r1 r2).skips s = !cmpRel type (s.rd (regMap r1)) (s.rd (regMap r2)) := by
  have z : s.rd (regMap TMP_ZERO) = 0#64 := s.core.x0
  unfold cmpBr
  split
  · split
    · next h => obtain ⟨-, rfl, -⟩ := h; simp only [Br.skips, cmpRel, z, if_true, bne, Bool.beq_comm]
    · split
      · next h => obtain ⟨-, rfl, -⟩ := h; simp only [Br.skips, cmpRel, z, if_true, bne]
      · rfl
  · split
    · next h => obtain ⟨-, rfl, -⟩ := h; simp [Br.skips, cmpRel, z, bne, Bool.beq_comm]
    · split
      · next h => obtain ⟨-, rfl, -⟩ := h; simp [Br.skips, cmpRel, z, bne]
      · simp [Br.skips, cmpRel, decBr, BrOp.eval, bne]
  all_goals simp [Br.skips, cmpRel, decBr, BrOp.eval]

end Verif.RV
