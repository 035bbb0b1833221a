import Verif.X86.EmitStep
import Verif.X86.Ops

/-! # The effect of the instructions used by the integer operations (helper lemmas) -/

namespace Verif.X86

/-! ## Values and places -/

/-- Operand size in bytes. -/
def NB (m32 : Bool) : Nat := if m32 then 4 else 8

/-- The part of a register which is used. -/
def trunc (m32 : Bool) (v : BitVec 64) : BitVec 64 := if m32 then (v.setWidth 32).setWidth 64 else v

/-- The value of an operand of sljit. -/
def opv (win m32 : Bool) (s : St) : Opd → BitVec 64
  | .reg r => trunc m32 (s.r (num win r))
  | .imm v => trunc m32 v
  | .mem base offs w => rd s.m (ea win s base offs w) (NB m32)

/-- TMP_REG2 is overwritten by an access to the operand. -/
def long : Opd → Bool
  | .mem _ offs w => offs == 0 && !isHalf w
  | _ => false

/-- Machine registers of the temporaries. -/
def T1 (win : Bool) : BitVec 4 := num win TMP_REG1
@[inherit_doc T1] def T2 (win : Bool) : BitVec 4 := num win TMP_REG2

/-- The memory after writing v to dst. -/
def wrMem (win m32 : Bool) (s : St) (dst : Option Opd) (v : BitVec 64) : BitVec 64 → Byte :=
  match dst with
  | some (.mem base offs w) => wr s.m (ea win s base offs w) (NB m32) v
  | _ => s.m

/-- s' is s with the value v written to dst; c1 and c2 tell whether TMP_REG1 and TMP_REG2 may have another value. -/
structure Res (win m32 : Bool) (s s' : St) (dst : Option Opd) (v : BitVec 64) (c1 c2 : Bool) : Prop where
  regs : ∀ q, (∀ d, dst = some (.reg d) → q ≠ num win d) → (q = T1 win → c1 = false) → (q = T2 win → c2 = false) → s'.r q = s.r q
  val : ∀ d, dst = some (.reg d) → s'.r (num win d) = trunc m32 v
  mem : s'.m = wrMem win m32 s dst v

theorem and_low32 (v : BitVec 64) : v &&& (BitVec.allOnes 64 >>> (64 - 8 * 4)) = (v.setWidth 32).setWidth 64 := by
  apply BitVec.eq_of_getLsbD_eq
  intro k hk
  simp only [BitVec.getLsbD_and, BitVec.getLsbD_ushiftRight, BitVec.getLsbD_allOnes, BitVec.getLsbD_setWidth, hk, decide_true, Bool.true_and]
  by_cases h : k < 32
  · simp [h, show 64 - 8 * 4 + k < 64 by omega]
  · simp [h, show ¬ (64 - 8 * 4 + k < 64) by omega]

theorem and_low64 (v : BitVec 64) : v &&& (BitVec.allOnes 64 >>> (64 - 8 * 8)) = v := by
  simp [and_ones]

theorem get_reg (m32 : Bool) (s : St) (r : BitVec 4) : get s (NB m32) (.reg r) = trunc m32 (s.r r) := by
  cases m32
  · simp only [get, NB, trunc, Bool.false_eq_true, if_false, and_low64]
  · simp only [get, NB, trunc, if_true, and_low32]

theorem put_reg (m32 : Bool) (s : St) (r : BitVec 4) (v : BitVec 64) : put s (NB m32) v (.reg r) = s.set r (trunc m32 v) := by
  cases m32
  · simp only [put, NB, trunc, Bool.false_eq_true, if_false, and_low64, show ¬ 8 < 4 by decide]
  · simp only [put, NB, trunc, if_true, and_low32, show ¬ 4 < 4 by decide, if_false]

/-- `clob` changes at most TMP_REG2. -/
theorem clob_reg {win : Bool} {s : St} {b : Opd} {q : BitVec 4} (h : q = T2 win → long b = false) : (clob win s b).r q = s.r q := by
  cases b with
  | reg r => rfl
  | imm v => rfl
  | mem base offs w =>
    simp only [clob]
    split
    next hc =>
      have hl : long (.mem base offs w) = true := by simp [long, hc.1, hc.2]
      have : q ≠ num win TMP_REG2 := fun e => by rw [h e] at hl; cases hl
      simp only [St.set, this, if_false]
    next => rfl

theorem clob_m (win : Bool) (s : St) (b : Opd) : (clob win s b).m = s.m := by
  cases b with
  | reg r => rfl
  | imm v => rfl
  | mem base offs w => simp only [clob]; split <;> rfl

theorem clob_f (win : Bool) (s : St) (b : Opd) : (clob win s b).f = s.f := by
  cases b with
  | reg r => rfl
  | imm v => rfl
  | mem base offs w => simp only [clob]; split <;> rfl

/-- Reading the operand after `clob`. -/
theorem get_target (win m32 : Bool) (s : St) (b : Opd) (hb : b.isImm = false) : get (clob win s b) (NB m32) (target win s b) = opv win m32 s b := by
  cases b with
  | reg r => exact get_reg m32 s (num win r)
  | imm v => cases hb
  | mem base offs w => simp only [target, get, clob_m, opv]

/-- Writing the operand after `clob`. -/
theorem put_target (win m32 : Bool) (s : St) (b : Opd) (hb : b.isImm = false) (v : BitVec 64) (f : Flags) :
    Res win m32 s { put (clob win s b) (NB m32) v (target win s b) with f := f } (some b) v false (long b) := by
  cases b with
  | imm v => cases hb
  | reg r =>
    rw [target, put_reg]
    refine ⟨fun q h1 _ _ => ?_, fun d hd => ?_, rfl⟩
    · simp only [St.set, clob, h1 r rfl, if_false]
    · cases hd; simp only [St.set, if_true]
  | mem base offs w =>
    refine ⟨fun q _ _ h => ?_, fun d hd => (by cases hd), ?_⟩
    · simp only [target, put]; exact clob_reg h
    · simp only [target, put, clob_m, wrMem]

/-- Writing a register after `clob`. -/
theorem put_dreg (win m32 : Bool) (s : St) (b : Opd) (r : Nat) (v : BitVec 64) (f : Flags) :
    Res win m32 s { put (clob win s b) (NB m32) v (.reg (num win r)) with f := f } (some (.reg r)) v false (long b) := by
  rw [put_reg]
  refine ⟨fun q h1 _ h => ?_, fun d hd => ?_, ?_⟩
  · simp only [St.set, h1 r rfl, if_false]; exact clob_reg h
  · cases hd; simp only [St.set, if_true]
  · simp only [St.set, clob_m, wrMem]

/-- Only the flags. -/
theorem put_none (win m32 : Bool) (s : St) (b : Opd) (v : BitVec 64) (f : Flags) : Res win m32 s { clob win s b with f := f } none v false (long b) :=
  ⟨fun q _ _ h => clob_reg h, fun d hd => (by cases hd), clob_m win s b⟩

/-! ## Executing -/

/-- A REX byte with W only. -/
def rexOf (m32 : Bool) : Byte := if m32 then 0#8 else 0x48#8

theorem opSize_rex {m32 : Bool} {rex : Byte} (h : rex.getLsbD 3 = (!m32 && !false)) : opSize 0#8 rex = NB m32 := by
  unfold opSize NB
  cases m32 <;> simp_all

/-- `execRM` without prefix for instructions with operands of NB bytes. -/
theorem execRM_nb {m32 : Bool} {rex : Byte} (h : rex.getLsbD 3 = (!m32 && !false)) {map : Nat} {op : Byte} (ho : map = 0 → op ≠ 0x88#8 ∧ op ≠ 0xc6#8 ∧ op ≠ 0x08#8) (ho' : map = 1 → op ≠ 0xb6#8 ∧ op ≠ 0xbe#8 ∧ fld op 4 4 ≠ 9#4)
    {reg : BitVec 4} {l : Option Loc} {ea : Option (BitVec 64)} {imm : BitVec 64} {s : St} :
    execRM 0#8 rex map op reg l ea imm s = execRM 0#8 (rexOf m32) map op reg l ea imm s := by
  have e1 := opSize_rex h
  have e2 : opSize 0#8 (rexOf m32) = NB m32 := opSize_rex (by cases m32 <;> decide)
  unfold execRM
  rw [e1, e2]
  by_cases hm : map = 0
  · obtain ⟨h1, h2, h3⟩ := ho hm
    simp only [hm, h1, h2, h3, if_false, false_and, true_and, if_true]
  · by_cases hm1 : map = 1
    · obtain ⟨h1, h2, h3⟩ := ho' hm1
      simp only [hm1, h1, h2, h3, if_false, if_true, Nat.one_ne_zero, false_and]
    · simp only [hm, hm1, if_false]

/-- Opcodes of one byte with operands of NB bytes and without an immediate. -/
def simpleOp (op : Byte) : Bool :=
  plainOp op && hasRM 0 op && decide (op ≠ 0x88#8 ∧ op ≠ 0xc6#8 ∧ op ≠ 0x08#8 ∧ op ≠ 0x81#8 ∧ op ≠ 0x69#8 ∧ op ≠ 0xc7#8 ∧ op ≠ 0x83#8 ∧ op ≠ 0x6b#8 ∧ op ≠ 0xc1#8)

theorem ins_reg {win m32 : Bool} {r : Nat} {b : Opd} {op : Byte} {bs : List Byte} (h : ins win m32 {} (.reg r) b [op] = some bs) (hok : OpdOk win b)
    (ho : simpleOp op = true) (h7 : op ≠ 0xf7#8) {s s' : St}
    (he : execRM 0#8 (rexOf m32) 0 op (num win r) (some (target win s b)) (addrOf (target win s b)) 0#64 (clob win s b) = some s') : Steps bs s s' := by
  simp only [ins, Option.map_eq_some_iff] at h
  obtain ⟨o, h, rfl⟩ := h
  simp only [simpleOp, Bool.and_eq_true, decide_eq_true_eq] at ho
  obtain ⟨⟨h1, h2⟩, h3, h4, h8, h5⟩ := ho
  have hbt : btarget win {} s b = target win s b := by cases b <;> simp [btarget, target]
  have := reg_step (ib := []) (imm := 0#64) (s := s) (s' := s') h rfl hok (by decide) (map := 0) (op := op) (Or.inl rfl) (fun _ => h1) h2 (fun rest => ?_) (fun rex hr _ => ?_)
  · simpa [opBytes] using this
  · have : immSize 0#8 0 op (BitVec.setWidth 3 (anum win {} r)) = 0 := by simp [immSize, h5, h7, h4]
    rw [show ({} : Ins).pref = 0#8 from rfl, this, List.nil_append, sle_zero]
  · rw [hbt, show ({} : Ins).pref = 0#8 from rfl, execRM_nb hr (fun _ => ⟨h3, h4, h8⟩) (fun h => by cases h)]
    exact he

/-- Two byte opcodes. -/
theorem groupf_step {win m32 : Bool} {r : Nat} {b : Opd} {op : Byte} {bs : List Byte} (h : groupf win m32 op r b = some bs) (hok : OpdOk win b)
    (ho : op ≠ 0xb6#8 ∧ op ≠ 0xbe#8 ∧ op ≠ 0xa4#8 ∧ op ≠ 0xac#8 ∧ fld op 4 4 ≠ 9#4) (hrm : hasRM 1 op = true) {s s' : St}
    (he : execRM 0#8 (rexOf m32) 1 op (num win r) (some (target win s b)) (addrOf (target win s b)) 0#64 (clob win s b) = some s') : Steps bs s s' := by
  simp only [groupf, ins, Option.map_eq_some_iff] at h
  obtain ⟨o, h, rfl⟩ := h
  have hbt : btarget win { size := 2 } s b = target win s b := by cases b <;> simp [btarget, target]
  have := reg_step (ib := []) (imm := 0#64) (s := s) (s' := s') h rfl hok (by decide) (map := 1) (op := op) (Or.inr rfl) (fun h => by cases h) hrm (fun rest => ?_) (fun rex hr _ => ?_)
  · simpa [opBytes] using this
  · have : immSize 0#8 1 op (BitVec.setWidth 3 (anum win { size := 2 } r)) = 0 := by simp [immSize, ho]
    rw [show ({ size := 2 } : Ins).pref = 0#8 from rfl, this, List.nil_append, sle_zero]
  · rw [hbt, show ({ size := 2 } : Ins).pref = 0#8 from rfl, execRM_nb hr (fun h => by cases h) (fun _ => ⟨ho.1, ho.2.1, ho.2.2.2.2⟩)]
    exact he

/-- SHLD and SHRD with a constant. -/
theorem dblImm_step {win m32 : Bool} {r : Nat} {b : Opd} {op : Byte} (hop : op = 0xa4#8 ∨ op = 0xac#8) {bs : List Byte}
    (h : groupf win m32 op r b = some bs) (hok : OpdOk win b) {v : BitVec 64} {s s' : St}
    (he : execRM 0#8 (rexOf m32) 1 op (num win r) (some (target win s b)) (addrOf (target win s b)) (sext 1 v) (clob win s b) = some s') :
    Steps (bs ++ toLe 1 v) s s' := by
  simp only [groupf, ins, Option.map_eq_some_iff] at h
  obtain ⟨o, h, rfl⟩ := h
  have hbt : btarget win { size := 2 } s b = target win s b := by cases b <;> simp [btarget, target]
  have hop1 : hasRM 1 op = true ∧ op ≠ 0xb6#8 ∧ op ≠ 0xbe#8 ∧ fld op 4 4 ≠ 9#4 := by rcases hop with rfl | rfl <;> decide
  have := reg_step (ib := toLe 1 v) (imm := sext 1 v) (s := s) (s' := s') h rfl hok (by decide) (map := 1) (op := op) (Or.inr rfl) (fun h => by cases h) hop1.1 (fun rest => ?_) (fun rex hr _ => ?_)
  · simpa [opBytes] using this
  · have : immSize 0#8 1 op (BitVec.setWidth 3 (anum win { size := 2 } r)) = 1 := by rcases hop with rfl | rfl <;> simp [immSize]
    rw [show ({ size := 2 } : Ins).pref = 0#8 from rfl, this]
    exact sle_toLe (by decide) (by decide) v rest
  · rw [hbt, show ({ size := 2 } : Ins).pref = 0#8 from rfl, execRM_nb hr (fun h => by cases h) (fun _ => hop1.2)]
    exact he

/-- IMUL with a constant. -/
theorem imulImm_step {win m32 : Bool} {r : Nat} {b : Opd} {op : Byte} {n : Nat} (hop : op = 0x6b#8 ∧ n = 1 ∨ op = 0x69#8 ∧ n = 4) {bs : List Byte}
    (h : ins win m32 {} (.reg r) b [op] = some bs) (hok : OpdOk win b) {v : BitVec 64} {s s' : St}
    (he : execRM 0#8 (rexOf m32) 0 op (num win r) (some (target win s b)) (addrOf (target win s b)) (sext n v) (clob win s b) = some s') :
    Steps (bs ++ toLe n v) s s' := by
  simp only [ins, Option.map_eq_some_iff] at h
  obtain ⟨o, h, rfl⟩ := h
  have hbt : btarget win {} s b = target win s b := by cases b <;> simp [btarget, target]
  have hop1 : plainOp op = true ∧ hasRM 0 op = true ∧ op ≠ 0x88#8 ∧ op ≠ 0xc6#8 ∧ op ≠ 0x08#8 := by rcases hop with ⟨rfl, rfl⟩ | ⟨rfl, rfl⟩ <;> decide
  have := reg_step (ib := toLe n v) (imm := sext n v) (s := s) (s' := s') h rfl hok (by decide) (map := 0) (op := op) (Or.inl rfl) (fun _ => hop1.1) hop1.2.1 (fun rest => ?_) (fun rex hr _ => ?_)
  · simpa [opBytes] using this
  · have : immSize 0#8 0 op (BitVec.setWidth 3 (anum win {} r)) = n := by rcases hop with ⟨rfl, rfl⟩ | ⟨rfl, rfl⟩ <;> simp [immSize]
    rw [show ({} : Ins).pref = 0#8 from rfl, this]
    rcases hop with ⟨rfl, rfl⟩ | ⟨rfl, rfl⟩
    · exact sle_toLe (by decide) (by decide) v rest
    · exact sle_toLe (by decide) (by decide) v rest
  · rw [hbt, show ({} : Ins).pref = 0#8 from rfl, execRM_nb hr (fun _ => hop1.2.2) (fun h => by cases h)]
    exact he

end Verif.X86
