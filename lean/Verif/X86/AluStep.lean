import Verif.X86.OpStep

/-! # Binary instructions and moves (helper lemmas) -/

namespace Verif.X86

variable {win m32 : Bool} {s : St} {bs : List Byte}

/-- An operation of group 1 on operands of NB bytes. -/
def aluN (m32 : Bool) (i : BitVec 3) (a b : BitVec 64) (f : Flags) : Option (BitVec 64 × Flags) := bin (NB m32) (fun _ x y => alu i x y f) a b

/-- CMP has no result. -/
def adst (i : BitVec 3) (b : Opd) : Option Opd := if i = 7#3 then none else some b

/-- The opcodes of the operation i of group 1. -/
def binOf (i : BitVec 3) : Bin := ⟨i.setWidth 8 <<< 3 ||| 5#8, i.setWidth 8 <<< 3 ||| 3#8, i.setWidth 8 <<< 3 ||| 1#8, i.setWidth 8 <<< 3⟩

theorem binOf_table : ADD = binOf 0#3 ∧ OR = binOf 1#3 ∧ ADC = binOf 2#3 ∧ SBB = binOf 3#3 ∧ AND = binOf 4#3 ∧ SUB = binOf 5#3 ∧ XOR = binOf 6#3 ∧ CMP = binOf 7#3 := by
  decide

theorem setWidth_trunc (m32 : Bool) (v : BitVec 64) : (trunc m32 v).setWidth (8 * NB m32) = v.setWidth (8 * NB m32) := by
  cases m32
  · rfl
  · simp only [trunc, NB, if_true]
    exact BitVec.setWidth_setWidth_of_le _ (by decide)

theorem bin_trunc (m32 : Bool) (g : (w : Nat) → BitVec w → BitVec w → Option (BitVec w × Flags)) (a b : BitVec 64) :
    bin (NB m32) g (trunc m32 a) b = bin (NB m32) g a b ∧ bin (NB m32) g a (trunc m32 b) = bin (NB m32) g a b := by
  unfold bin
  rw [setWidth_trunc, setWidth_trunc]
  exact ⟨rfl, rfl⟩

theorem rexOf_size (m32 : Bool) : opSize 0#8 (rexOf m32) = NB m32 := opSize_rex (by cases m32 <;> decide)

theorem mr_flds : ∀ i : BitVec 3, simpleOp (binOf i).mr = true ∧ (binOf i).mr ≠ 0xf7#8 ∧ (binOf i).mr ≠ 0x8d#8 ∧ fld (binOf i).mr 6 2 = 0#2 ∧ fld (binOf i).mr 0 3 = 1#3 ∧
    fld (binOf i).mr 3 3 = i := by decide
theorem rm_flds : ∀ i : BitVec 3, simpleOp (binOf i).rm = true ∧ (binOf i).rm ≠ 0xf7#8 ∧ (binOf i).rm ≠ 0x8d#8 ∧ fld (binOf i).rm 6 2 = 0#2 ∧ fld (binOf i).rm 0 3 = 3#3 ∧
    fld (binOf i).rm 3 3 = i := by decide

theorem isImm_of_ok {b : Opd} (h : OpdOk win b) : b.isImm = false := by
  cases b with
  | imm v => exact h.elim
  | _ => rfl

/-- op b, r -/
theorem i_mr {i : BitVec 3} {r : Nat} {b : Opd} (h : ins win m32 {} (.reg r) b [(binOf i).mr] = some bs) (hok : OpdOk win b)
    (hr : long b = true → num win r ≠ T2 win) {v : BitVec 64} {f : Flags} (ha : aluN m32 i (opv win m32 s b) (s.r (num win r)) s.f = some (v, f)) :
    ∃ s', Steps bs s s' ∧ Res win m32 s s' (adst i b) v false (long b) ∧ s'.f = f := by
  obtain ⟨h1, h2, h3, h4, h5, h6⟩ := mr_flds i
  have hg : (clob win s b).r (num win r) = s.r (num win r) := clob_reg fun e => by
    by_contra hl; exact hr (by simpa using hl) e
  by_cases hi : i = 7#3
  · refine ⟨{ clob win s b with f := f }, ins_reg h hok h1 h2 ?_, by rw [adst, if_pos hi]; exact put_none win m32 s b v f, rfl⟩
    simp only [execRM, rexOf_size, h3, and_false, if_false, Option.bind_some, if_true, h4, h5, and_self, h6, get_target win m32 s b (isImm_of_ok hok), hg, clob_f]
    simp only [aluN] at ha
    rw [ha]
    simp only [Option.map_some, hi, if_true]
  · refine ⟨_, ins_reg h hok h1 h2 ?_, by rw [adst, if_neg hi]; exact put_target win m32 s b (isImm_of_ok hok) v f, rfl⟩
    simp only [execRM, rexOf_size, h3, and_false, if_false, Option.bind_some, if_true, h4, h5, and_self, h6, get_target win m32 s b (isImm_of_ok hok), hg, clob_f]
    simp only [aluN] at ha
    rw [ha]
    simp only [Option.map_some, hi, if_false]

/-- op r, b -/
theorem i_rm {i : BitVec 3} {r : Nat} {b : Opd} (h : ins win m32 {} (.reg r) b [(binOf i).rm] = some bs) (hok : OpdOk win b)
    (hr : long b = true → num win r ≠ T2 win) {v : BitVec 64} {f : Flags} (ha : aluN m32 i (s.r (num win r)) (opv win m32 s b) s.f = some (v, f)) :
    ∃ s', Steps bs s s' ∧ Res win m32 s s' (adst i (.reg r)) v false (long b) ∧ s'.f = f := by
  obtain ⟨h1, h2, h3, h4, h5, h6⟩ := rm_flds i
  have hg : (clob win s b).r (num win r) = s.r (num win r) := clob_reg fun e => by
    by_contra hl; exact hr (by simpa using hl) e
  have h51 : ¬ (3#3 = 1#3) := by decide
  by_cases hi : i = 7#3
  · refine ⟨{ clob win s b with f := f }, ins_reg h hok h1 h2 ?_, by rw [adst, if_pos hi]; exact put_none win m32 s b v f, rfl⟩
    simp only [execRM, rexOf_size, h3, and_false, if_false, Option.bind_some, if_true, h4, h5, h51, and_false, and_self, h6, get_target win m32 s b (isImm_of_ok hok), hg, clob_f]
    simp only [aluN] at ha
    rw [ha]
    simp only [Option.map_some, hi, if_true]
  · refine ⟨_, ins_reg h hok h1 h2 ?_, by rw [adst, if_neg hi]; exact put_dreg win m32 s b r v f, rfl⟩
    simp only [execRM, rexOf_size, h3, and_false, if_false, Option.bind_some, if_true, h4, h5, h51, and_false, and_self, h6, get_target win m32 s b (isImm_of_ok hok), hg, clob_f]
    simp only [aluN] at ha
    rw [ha]
    simp only [Option.map_some, hi, if_false]

/-- The constant of an instruction has the same low bits, also if it was sign extended from 32 bits. -/
theorem bin_imm (m32 : Bool) {v : BitVec 64} (h : m32 = false → isHalf v = true) (g : (w : Nat) → BitVec w → BitVec w → Option (BitVec w × Flags)) (a : BitVec 64) :
    bin (NB m32) g a (sext 4 v) = bin (NB m32) g a v := by
  cases m32
  · rw [sext_half (h rfl)]
  · unfold bin
    have : (sext 4 v).setWidth (8 * NB true) = v.setWidth (8 * NB true) := by
      apply BitVec.eq_of_getLsbD_eq
      intro k hk
      have hk : k < 32 := hk
      rw [BitVec.getLsbD_setWidth, BitVec.getLsbD_setWidth, sext_bit (by decide) (by decide) _ (by omega), if_pos (by omega)]
    rw [this]

theorem immOp_ok : ∀ i : BitVec 3, i.setWidth 4 = ext false i ∧ (i.setWidth 4).setWidth 3 = i := by decide

/-- op b, imm -/
theorem i_imm {i : BitVec 3} {u : BitVec 64} {b : Opd} (h : insOr win m32 { binIns := true } (.imm u) b (binOf i).imm = some bs) (hok : OpdOk win b)
    {v : BitVec 64} {f : Flags} (ha : aluN m32 i (opv win m32 s b) u s.f = some (v, f)) :
    ∃ s', Steps bs s s' ∧ Res win m32 s s' (adst i b) v false (long b) ∧ s'.f = f := by
  simp only [insOr, Option.map_eq_some_iff] at h
  obtain ⟨o, h, rfl⟩ := h
  obtain ⟨n, b', rexB, hs, -, -, -, -, -, g6, -, g8, -⟩ := imm_inv h
  have hbt : btarget win { binIns := true } s b = target win s b := by cases b <;> simp [btarget, target]
  -- the byte and the long form
  obtain ⟨op, cnt, hop, hib, hu⟩ : ∃ op cnt, (op = 0x83#8 ∧ cnt = 1 ∨ op = 0x81#8 ∧ cnt = 4) ∧
      (o.opc = [op] ∧ (if (sizeA { binIns := true } u).2 then toLe 1 u else if ({ binIns := true } : Ins).halfArg then toLe 2 u else
        if ¬ ({ binIns := true } : Ins).shiftIns then toLe 4 u else []) = toLe cnt u) ∧
      bin (NB m32) (fun _ x y => alu i x y s.f) (opv win m32 s b) (sext cnt u) = some (v, f) := by
    by_cases hby : isByte u = true
    · have hA : sizeA { binIns := true } u = (1, true) := by simp [sizeA, hby]
      refine ⟨0x83#8, 1, Or.inl ⟨rfl, rfl⟩, ⟨?_, ?_⟩, ?_⟩
      · rw [g6, hA]; simp
      · rw [hA]; simp
      · rw [sext_byte hby]; exact ha
    · have hA : sizeA { binIns := true } u = (4, false) := by simp [sizeA, hby]
      refine ⟨0x81#8, 4, Or.inr ⟨rfl, rfl⟩, ⟨?_, ?_⟩, ?_⟩
      · rw [g6, hA]; simp
      · rw [hA]; simp
      · rw [bin_imm m32 g8]; exact ha
  have hop1 : plainOp op = true ∧ hasRM 0 op = true ∧ op ≠ 0x88#8 ∧ op ≠ 0xc6#8 ∧ op ≠ 0x8d#8 ∧ fld op 6 2 ≠ 0#2 ∧ (op = 0x81#8 ∨ op = 0x83#8) := by
    rcases hop with ⟨rfl, rfl⟩ | ⟨rfl, rfl⟩ <;> decide
  have key : ∀ s', execRM 0#8 (rexOf m32) 0 op (i.setWidth 4) (some (target win s b)) (addrOf (target win s b)) (sext cnt u) (clob win s b) = some s' →
      Steps (o.or (binOf i).imm).bytes s s' := by
    intro s' he
    refine imm_step (imm := sext cnt u) (s := s) (s' := s') (op := op) h hok (by decide) hop1.1 hop1.2.1 i rfl (fun rest => ?_) (fun rex hr _ => ?_) rfl rfl rfl rfl rfl hib.1
    · rw [hib.2]
      have : immSize ({ binIns := true } : Ins).pref 0 op i = cnt := by rcases hop with ⟨rfl, rfl⟩ | ⟨rfl, rfl⟩ <;> simp [immSize]
      rw [this]
      rcases hop with ⟨rfl, rfl⟩ | ⟨rfl, rfl⟩
      · exact sle_toLe (by decide) (by decide) u rest
      · exact sle_toLe (by decide) (by decide) u rest
    · rw [hbt, show ({ binIns := true } : Ins).pref = 0#8 from rfl, execRM_nb hr (fun _ => ⟨hop1.2.2.1, hop1.2.2.2.1, by rcases hop with ⟨rfl, rfl⟩ | ⟨rfl, rfl⟩ <;> decide⟩) (fun h => by cases h)]
      exact he
  obtain ⟨-, -, -, -, o1, o2, o3⟩ := hop1
  by_cases hi : i = 7#3
  · refine ⟨{ clob win s b with f := f }, key _ ?_, by rw [adst, if_pos hi]; exact put_none win m32 s b v f, rfl⟩
    simp only [execRM, rexOf_size, o1, and_false, if_false, Option.bind_some, if_true, o2, false_and, o3, (immOp_ok i).2, get_target win m32 s b (isImm_of_ok hok), clob_f, hu,
      Option.map_some]
    simp only [hi, if_true]
  · refine ⟨_, key _ ?_, by rw [adst, if_neg hi]; exact put_target win m32 s b (isImm_of_ok hok) v f, rfl⟩
    simp only [execRM, rexOf_size, o1, and_false, if_false, Option.bind_some, if_true, o2, false_and, o3, (immOp_ok i).2, get_target win m32 s b (isImm_of_ok hok), clob_f, hu,
      Option.map_some, hi]

theorem num_r0 (win : Bool) : num win 1 = 0#4 := by cases win <;> decide

theorem eax_flds : ∀ i : BitVec 3, (binOf i).eax ≠ 0x66#8 ∧ (binOf i).eax ≠ 0xf2#8 ∧ (binOf i).eax ≠ 0xf3#8 ∧ fld (binOf i).eax 4 4 ≠ 4#4 ∧ (binOf i).eax ≠ 0x0f#8 ∧
    fld (binOf i).eax 6 2 = 0#2 ∧ fld (binOf i).eax 0 3 = 5#3 ∧ fld (binOf i).eax 3 3 = i ∧ (binOf i).eax ≠ 0xa9#8 ∧ fld (binOf i).eax 3 5 ≠ 0b10111#5 := by decide

/-- The short instructions: prefix, opcode and four bytes. -/
theorem doImm32_parse {op : Byte} (h1 : op ≠ 0x66#8) (h2 : op ≠ 0xf2#8) (h3 : op ≠ 0xf3#8) (h4 : fld op 4 4 ≠ 4#4) (h5 : op ≠ 0x0f#8)
    (h6 : shortSize 0#8 (rexOf m32) 0 op = some 4) (v : BitVec 64) (rest : List Byte) :
    parse (doImm32 (if ¬ m32 = true then REX_W else 0#8) op v ++ rest) = some (.short 0#8 (rexOf m32) 0 op (sext 4 v), rest) := by
  have hs := sle_toLe (n := 4) (by decide) (by decide) v rest
  have c1 : ¬ ((0x48#8 : Byte) = 0x66#8 ∨ (0x48#8 : Byte) = 0xf2#8 ∨ (0x48#8 : Byte) = 0xf3#8) := by decide
  have c2 : fld 0x48#8 4 4 = 4#4 := by decide
  cases m32
  · simp only [rexOf, Bool.false_eq_true, if_false] at h6 ⊢
    simp only [doImm32, REX_W, not_false_eq_true, if_true, ne_eq, show ¬ (0x48#8 : Byte) = 0#8 by decide, List.cons_append, List.nil_append, parse, c1, if_false, parseRex, c2,
      parseMap, h5, parseOp, h6, hs, Option.map_some]
  · simp only [rexOf, if_true] at h6 ⊢
    simp only [doImm32, not_true_eq_false, if_false, ne_eq, List.cons_append, List.nil_append, parse, h1, h2, h3, or_self, parseRex, h4, parseMap, h5, parseOp, h6, hs, Option.map_some]

/-- op eax, imm -/
theorem i_eax {i : BitVec 3} {u : BitVec 64} (h : eaxImm m32 (binOf i).eax u = some bs) (hu : m32 = false → isHalf u = true)
    {v : BitVec 64} {f : Flags} (ha : aluN m32 i (opv win m32 s (.reg 1)) u s.f = some (v, f)) :
    ∃ s', Steps bs s s' ∧ Res win m32 s s' (adst i (.reg 1)) v false false ∧ s'.f = f := by
  simp only [eaxImm, Option.some.injEq] at h
  subst h
  obtain ⟨e1, e2, e3, e4, e5, e6, e7, e8, e9, e10⟩ := eax_flds i
  have hp := doImm32_parse (m32 := m32) e1 e2 e3 e4 e5 (by simp [shortSize, e6, e7]) u
  simp only [aluN, opv, num_r0, bin_trunc] at ha
  by_cases hi : i = 7#3
  · refine ⟨{ clob win s (.reg 1) with f := f }, Steps.one _ hp ?_, by rw [adst, if_pos hi]; exact put_none win m32 s (.reg 1) v f, rfl⟩
    simp only [exec, rexOf_size, Nat.zero_ne_one, if_false, e9, e10, e6, e7, e8, and_self, if_true, bin_imm m32 hu, ha, Option.map_some, clob]
    simp only [hi, if_true]
  · refine ⟨_, Steps.one _ hp ?_, by rw [adst, if_neg hi]; exact put_target win m32 s (.reg 1) rfl v f, rfl⟩
    simp only [exec, rexOf_size, Nat.zero_ne_one, if_false, e9, e10, e6, e7, e8, and_self, if_true, bin_imm m32 hu, ha, Option.map_some, hi, clob, target, num_r0]

end Verif.X86
