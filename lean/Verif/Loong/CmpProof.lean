import Verif.Loong.Api4
import Verif.Loong.Branch
import Verif.Loong.FlagsOp
import Verif.RISCV.CmpProof

/-! # sljit_emit_cmp on LoongArch64 (helper lemmas) -/

set_option linter.all false

namespace Verif.LA
open Verif.RV
open Verif.Imm.Loong (loadImmediate)

/-- The address of the operand is computed in the temporary register of getput_arg. -/
def farBase : Opd → Prop
  | .mem b i w => b ≠ 0 ∧ i = 0 ∧ fastArg i w = false
  | _ => False

/-- Otherwise the choice of the temporary makes no difference. -/
theorem getputArg_tmp {t : MT} {k : Cache} {reg b i : Nat} {w : BitVec 64} {next : Option (Nat × Nat × BitVec 64)} (h : ¬ (b ≠ 0 ∧ i = 0)) :
    getputArg t true false k reg b i w next = getputArg t true true k reg b i w next := by
  have : getputAddr false k b i w next = getputAddr true k b i w next := by
    unfold getputAddr
    by_cases hi : i = 0
    · have hb : b = 0 := by
        by_contra hb; exact h ⟨hb, hi⟩
      simp only [hi, hb, ne_eq, not_true, if_false, if_true]
    · simp only [hi, ne_eq, not_false_eq_true, if_true]
  unfold getputArg
  rw [this]

/-- emit_op_mem2 as an integer load. -/
theorem opMem2_loadK {sz : Sz} {sg : Bool} {k : Cache} {reg b i : Nat} {w : BitVec 64}
    {next : Option (Nat × Nat × BitVec 64)} {c : Core} (hb : b ≤ 24) (hi : i ≤ 24) (hx : IdxOk i w) (hk : CacheOk k c) (tmp2 : Bool)
    (ht : tmp2 = false ∨ ¬ farBase (.mem b i w)) :
    wp (emitOpMem2 (.g sz sg) k reg b i w next).1 c fun c' => ∃ c1, Only [14#5, regMap (tmpR tmp2)] c c1 ∧
      c' = c1.wr (regMap reg) (opdVal sz sg c (.mem b i w)) := by
  unfold emitOpMem2
  cases hf : fastArg i w
  · simp only [Bool.false_eq_true, if_false]
    have e : getputArg (.g sz sg) true false k reg b i w next = getputArg (.g sz sg) true tmp2 k reg b i w next := by
      cases tmp2 with
      | false => rfl
      | true => exact getputArg_tmp fun h => (ht.resolve_left (by decide)) ⟨h.1, h.2, hf⟩
    rw [e]
    refine wp_mono (getput_load hb hi hx hf (fun _ _ => hk)) ?_
    rintro c' ⟨c1, h1, -, h3⟩
    exact ⟨c1, h1, h3⟩
  · simp only [if_true]
    rw [wp_load, pa_fast hf]
    exact ⟨c, Only.refl _ _, rfl⟩

/-- The first operand loses its value (sljit_emit_cmp does not set MEM_USE_TMP2). -/
def Clobber (o1 o2 : Opd) : Prop := o1.isMem = true ∧ farBase o2

/-- After the operand loads the two registers hold the operands; only temporaries have changed. -/
theorem cmpFetch_ok {is32 : Bool} {o1 o2 : Opd} {c : Core} (h1 : OpdOk o1) (h2 : OpdOk o2) (hn : ¬ Clobber o1 o2) :
    wp (cmpFetch is32 o1 o2).1 c fun c' =>
      c'.x (regMap (cmpFetch is32 o1 o2).2.1) = opdVal (if is32 then .int else .word) false c o1 ∧
      c'.x (regMap (cmpFetch is32 o1 o2).2.2) = opdVal (if is32 then .int else .word) false c o2 ∧ Only temps c c' := by
  have L : ∀ (t : Nat) (ht : regMap t ≠ 0#5) (v : BitVec 64) (c : Core), wp (if v ≠ 0#64 then (loadImmediate t v, t) else ([], TMP_ZERO)).1 c fun c1 =>
      c1.x (regMap (if v ≠ 0#64 then (loadImmediate t v, t) else (([] : Emit), TMP_ZERO)).2) = v ∧ Only [regMap t] c c1 := by
    intro t ht v c
    by_cases hv : v = 0#64
    · simp only [hv, ne_eq, not_true, if_false, wp_nil]
      exact ⟨by rw [show regMap TMP_ZERO = 0#5 from by decide]; exact x_zero _, Only.refl _ _⟩
    · simp only [hv, ne_eq, not_false_eq_true, if_true]
      refine wp_loadImm ht ⟨?_, (Only.refl _ _).wr (by simp) _⟩
      simp [ht]
  have L1 := L TMP_REG1 (by decide)
  have L2 := L TMP_REG2 (by decide)
  have z : ∀ t v, (if v ≠ 0#64 then (loadImmediate t v, t) else (([] : Emit), TMP_ZERO)).2 = if v = 0#64 then TMP_ZERO else t := by
    intro t v; by_cases hv : v = 0#64 <;> simp [hv]
  have u : ∀ {r : Nat} {c c' : Core}, r ≤ 24 → Only temps c c' → c'.x (regMap r) = c.x (regMap r) := fun hr h => h.1 _ (user_temps hr)
  have s1 : ∀ c c' : Core, Only [regMap TMP_REG1] c c' → Only temps c c' := fun c c' h => h.mono (by simp [rm25])
  have s2 : ∀ c c' : Core, Only [regMap TMP_REG2] c c' → Only temps c c' := fun c c' h => h.mono (by simp [rm26])
  have s3 : ∀ c c' : Core, Only [14#5, regMap (tmpR false)] c c' → Only temps c c' := fun c c' h => h.mono (by simp [tmpR, rm25])
  have s4 : ∀ c c' : Core, Only [14#5, regMap (tmpR true)] c c' → Only temps c c' := fun c c' h => h.mono (by simp [tmpR, rm26])
  cases o1 with
  | reg r1 =>
    cases o2 with
    | reg r2 => exact (wp_nil ..).mpr ⟨rfl, rfl, Only.refl _ _⟩
    | imm v =>
      refine (?_ : wp ([] ++ ([] ++ ([] ++ (if v ≠ 0#64 then (loadImmediate TMP_REG1 v, TMP_REG1) else ([], TMP_ZERO)).1))) c _)
      rw [List.nil_append, List.nil_append, List.nil_append]
      refine wp_mono (L1 v c) ?_
      rintro c' ⟨g1, g2⟩
      exact ⟨u h1 (s1 _ _ g2), g1, s1 _ _ g2⟩
    | mem b i w =>
      refine (?_ : wp ([] ++ ((emitOpMem2 _ _ TMP_REG1 b i w none).1 ++ ([] ++ []))) c _)
      rw [List.nil_append, List.append_nil, List.append_nil]
      refine wp_mono (opMem2_loadK h2.1 h2.2.1 h2.2.2 (k0 _) false (Or.inl rfl)) ?_
      rintro c' ⟨c1, g1, rfl⟩
      have := (s3 _ _ g1).wr (show regMap TMP_REG1 ∈ temps by simp [rm25]) (opdVal (if is32 then .int else .word) false c (.mem b i w))
      exact ⟨u h1 this, by simp [cmpFetch, Opd.isReg, rm25], this⟩
  | imm v =>
    cases o2 with
    | reg r2 =>
      refine (?_ : wp ([] ++ ([] ++ ((if v ≠ 0#64 then (loadImmediate TMP_REG1 v, TMP_REG1) else ([], TMP_ZERO)).1 ++ []))) c _)
      rw [List.nil_append, List.nil_append, List.append_nil]
      refine wp_mono (L1 v c) ?_
      rintro c' ⟨g1, g2⟩
      exact ⟨g1, u h2 (s1 _ _ g2), s1 _ _ g2⟩
    | imm v2 =>
      refine (?_ : wp ([] ++ ([] ++ ((if v ≠ 0#64 then (loadImmediate TMP_REG1 v, TMP_REG1) else ([], TMP_ZERO)).1 ++ (if v2 ≠ 0#64 then (loadImmediate TMP_REG2 v2, TMP_REG2) else ([], TMP_ZERO)).1))) c _)
      rw [List.nil_append, List.nil_append]
      refine wp_append (wp_mono (L1 v c) ?_)
      rintro c1 ⟨g1, g2⟩
      refine wp_mono (L2 v2 c1) ?_
      rintro c' ⟨g3, g4⟩
      refine ⟨?_, g3, (s1 _ _ g2).trans (s2 _ _ g4)⟩
      refine Eq.trans (g4.1 _ ?_) g1
      rw [show (cmpFetch is32 (.imm v) (.imm v2)).2.1 = _ from z TMP_REG1 v]
      split <;> decide
    | mem b i w =>
      refine (?_ : wp ([] ++ ((emitOpMem2 _ _ TMP_REG2 b i w none).1 ++ ((if v ≠ 0#64 then (loadImmediate TMP_REG1 v, TMP_REG1) else ([], TMP_ZERO)).1 ++ []))) c _)
      rw [List.nil_append, List.append_nil]
      refine wp_append (wp_mono (opMem2_loadK h2.1 h2.2.1 h2.2.2 (k0 _) false (Or.inl rfl)) ?_)
      rintro c' ⟨c1, g1, rfl⟩
      refine wp_mono (L1 v _) ?_
      rintro c' ⟨g3, g4⟩
      refine ⟨g3, ?_, ((s3 _ _ g1).wr (by simp [rm26]) _).trans (s1 _ _ g4)⟩
      refine (g4.1 _ (by simp [cmpFetch, Opd.isReg, rm26, rm25])).trans ?_
      simp [cmpFetch, Opd.isReg, rm26]
  | mem b i w =>
    cases o2 with
    | reg r2 =>
      refine (?_ : wp ((emitOpMem2 _ _ TMP_REG1 b i w none).1 ++ ([] ++ ([] ++ []))) c _)
      rw [List.append_nil, List.append_nil, List.append_nil]
      refine wp_mono (opMem2_loadK h1.1 h1.2.1 h1.2.2 (k0 _) false (Or.inl rfl)) ?_
      rintro c' ⟨c1, g1, rfl⟩
      have := (s3 _ _ g1).wr (show regMap TMP_REG1 ∈ temps by simp [rm25]) (opdVal (if is32 then .int else .word) false c (.mem b i w))
      exact ⟨by simp [cmpFetch, Opd.isReg, rm25], u h2 this, this⟩
    | imm v =>
      refine (?_ : wp ((emitOpMem2 _ _ TMP_REG1 b i w none).1 ++ ([] ++ ([] ++ (if v ≠ 0#64 then (loadImmediate TMP_REG2 v, TMP_REG2) else ([], TMP_ZERO)).1))) c _)
      rw [List.nil_append, List.nil_append]
      refine wp_append (wp_mono (opMem2_loadK h1.1 h1.2.1 h1.2.2 (k0 _) false (Or.inl rfl)) ?_)
      rintro c' ⟨c1, g1, rfl⟩
      refine wp_mono (L2 v _) ?_
      rintro c' ⟨g3, g4⟩
      refine ⟨?_, g3, ((s3 _ _ g1).wr (by simp [rm25]) _).trans (s2 _ _ g4)⟩
      refine (g4.1 _ (by simp [cmpFetch, Opd.isReg, rm25, rm26])).trans ?_
      simp [cmpFetch, Opd.isReg, rm25]
    | mem b2 i2 w2 =>
      refine (?_ : wp ((emitOpMem2 _ _ TMP_REG1 b i w (Opd.memArg (.mem b2 i2 w2))).1 ++ ((emitOpMem2 _ _ TMP_REG2 b2 i2 w2 none).1 ++ ([] ++ []))) c _)
      rw [List.append_nil, List.append_nil]
      refine wp_append (wp_mono (opMem2_load (next := Opd.memArg (.mem b2 i2 w2)) h1.1 h1.2.1 h1.2.2) ?_)
      rintro c' ⟨c1, g1, gk, rfl⟩
      refine wp_mono (opMem2_loadK h2.1 h2.2.1 h2.2.2 (gk.wr (Or.inl rfl) _) true (Or.inr fun h => hn ⟨rfl, h⟩)) ?_
      rintro c' ⟨c2, g3, rfl⟩
      have o1 := (g1.mono (V := temps) (by simp)).wr (show (13#5 : Reg) ∈ temps by simp) (opdVal (if is32 then .int else .word) false c (.mem b i w))
      have o2 := o1.trans (s4 _ _ g3)
      refine ⟨?_, ?_, o2.wr (by simp [rm26]) _⟩
      · simp only [cmpFetch, rm25, rm26] at *
        rw [x_wr, if_neg (by decide), g3.1 _ (by simp [tmpR, rm26]), x_wr, if_pos (by decide)]
      · rw [opdVal_only h2 o1]
        simp [cmpFetch, Opd.isReg, rm26]

/-! ## The branches -/

theorem imm16 (n : Nat) : IMM_I16 n = (BitVec.ofNat 16 n).setWidth 32 <<< 10 := by
  have : BitVec.ofNat 32 n &&& 0xffff#32 = (BitVec.ofNat 16 n).setWidth 32 := by
    apply BitVec.eq_of_toNat_eq
    rw [BitVec.toNat_and, BitVec.toNat_setWidth, show (0xffff#32).toNat = 2 ^ 16 - 1 from rfl,
      Nat.and_two_pow_sub_one_eq_mod, BitVec.toNat_ofNat, BitVec.toNat_ofNat]
    omega
  unfold IMM_I16
  rw [this]

/-- A branch of the backend with its distance, as a word of the 2RI16 format. -/
theorem br_word (o : BitVec 6) (op : BitVec 32) (ho : op = o.setWidth 32 <<< 26) (a b n : Nat) :
    op ||| RJ a ||| RD b ||| IMM_I16 n = w16 o (regMap a) (regMap b) (BitVec.ofNat 16 n) := by
  rw [ho, imm16]; rfl

/-- Where the branch of a comparison goes. -/
theorem cmp_step {code : Code} {s : St} {type r1 r2 n : Nat} (hty : type < 10) (hc : code s.pc = cmpIns type r1 r2 ||| IMM_I16 n) :
    step code s = some ⟨if cmpRel type (s.core.x (regMap r1)) (s.core.x (regMap r2)) then s.pc + 4#64
      else s.pc + ((BitVec.ofNat 16 n).signExtend 64 <<< 2), s.core⟩ := by
  have main : ∀ (o : BitVec 6) (op : BitVec 32) (br : BrOp) (a b : Nat), op = o.setWidth 32 <<< 26 → decBr o = some br →
      cmpIns type r1 r2 = op ||| RJ a ||| RD b → br.eval (s.core.x (regMap a)) (s.core.x (regMap b)) = !cmpRel type (s.core.x (regMap r1)) (s.core.x (regMap r2)) →
      step code s = some ⟨if cmpRel type (s.core.x (regMap r1)) (s.core.x (regMap r2)) then s.pc + 4#64
        else s.pc + ((BitVec.ofNat 16 n).signExtend 64 <<< 2), s.core⟩ := by
    intro o op br a b h1 h2 h3 h4
    rw [h3, br_word o op h1] at hc
    rw [step_br hc h2, h4]
    cases cmpRel type (s.core.x (regMap r1)) (s.core.x (regMap r2)) <;> rfl
  clear hc
  interval_cases type
  · exact main 0x17#6 BNE .ne r1 r2 (by decide) (by decide) rfl rfl
  · exact main 0x16#6 BEQ .eq r1 r2 (by decide) (by decide) rfl (by simp [BrOp.eval, cmpRel, bne])
  · exact main 0x1b#6 BGEU .geu r1 r2 (by decide) (by decide) rfl rfl
  · exact main 0x1a#6 BLTU .ltu r1 r2 (by decide) (by decide) rfl (by simp [BrOp.eval, cmpRel])
  · exact main 0x1b#6 BGEU .geu r2 r1 (by decide) (by decide) rfl rfl
  · exact main 0x1a#6 BLTU .ltu r2 r1 (by decide) (by decide) rfl (by simp [BrOp.eval, cmpRel])
  · exact main 0x19#6 BGE .ge r1 r2 (by decide) (by decide) rfl rfl
  · exact main 0x18#6 BLT .lt r1 r2 (by decide) (by decide) rfl (by simp [BrOp.eval, cmpRel])
  · exact main 0x19#6 BGE .ge r2 r1 (by decide) (by decide) rfl rfl
  · exact main 0x18#6 BLT .lt r2 r1 (by decide) (by decide) rfl (by simp [BrOp.eval, cmpRel])

/-- Where the branch of a conditional jump goes. -/
theorem jump_step {code : Code} {s : St} {a : Bool} {type n : Nat} {t : Bool} (hty : type < 36) (h : FlagIs s.core a type t)
    (hc : code s.pc = jumpIns type ||| IMM_I16 n) :
    step code s = some ⟨if t then s.pc + 4#64 else s.pc + ((BitVec.ofNat 16 n).signExtend 64 <<< 2), s.core⟩ := by
  have z : s.core.x (regMap TMP_ZERO) = 0#64 := x_zero _
  have main : ∀ (o : BitVec 6) (op : BitVec 32) (br : BrOp) (r : Nat), op = o.setWidth 32 <<< 26 → decBr o = some br →
      jumpIns type = op ||| RJ r ||| RD TMP_ZERO → br.eval (s.core.x (regMap r)) 0#64 = !t →
      step code s = some ⟨if t then s.pc + 4#64 else s.pc + ((BitVec.ofNat 16 n).signExtend 64 <<< 2), s.core⟩ := by
    intro o op br r h1 h2 h3 h4
    rw [h3, br_word o op h1] at hc
    rw [step_br hc h2, z, h4]
    cases t <;> rfl
  have ne := main 0x17#6 BNE .ne
  have eq := main 0x16#6 BEQ .eq
  unfold FlagIs at h
  clear main hc
  interval_cases type <;> simp at h <;>
    first
    | refine ne EQUAL_FLAG (by decide) (by decide) rfl ?_
    | refine eq EQUAL_FLAG (by decide) (by decide) rfl ?_
    | refine ne OTHER_FLAG (by decide) (by decide) rfl ?_
    | refine eq OTHER_FLAG (by decide) (by decide) rfl ?_
  all_goals
    simp only [rmEq, rmOther, BrOp.eval]
    clear ne eq
    first
    | (generalize s.core.x 12#5 = v at h; by_cases hv : v = 0#64 <;> cases t <;> simp_all; done)
    | (generalize s.core.x 15#5 = v at h; by_cases hv : v = 0#64 <;> cases t <;> cases a <;> simp_all [bool64]; done)

end Verif.LA
