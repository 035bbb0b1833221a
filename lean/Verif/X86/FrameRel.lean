import Verif.X86.FrameAlloc

/-! # Releasing the frame (helper lemmas) -/

namespace Verif.X86

variable {win : Bool}

theorem down_reverse {lo : Nat} (hi : Nat) : (down hi lo).reverse = upTo lo hi := by
  apply List.ext_getElem
  · simp [down, upTo]
  · intro i h1 h2
    simp only [upTo, List.length_map, List.length_range] at h2
    simp only [down, upTo, List.getElem_reverse, List.getElem_map, List.getElem_range, List.length_map, List.length_range]
    omega

theorem mem_down {hi lo r : Nat} : r ∈ down hi lo ↔ ∃ i < hi + 1 - lo, hi - i = r := by simp [down]

/-- A legal frame: the checks of check_sljit_emit_enter. -/
structure Frame.Ok (win : Bool) (p : Frame) : Prop where
  kept : p.kept ≤ p.sav
  sav : p.sav ≤ nSaved win
  regs : p.scr + p.sav ≤ 13
  locals : p.locals ≤ 1048576

variable {p : Frame}

theorem nSaved_le (win : Bool) : 6 ≤ nSaved win ∧ nSaved win ≤ 8 ∧ firstSaved win + nSaved win = 14 := by cases win <;> decide

theorem mem_regs (h : p.Ok win) {r : Nat} : r ∈ p.regs win ↔ (13 < r + p.sav ∧ r + p.kept ≤ 13) ∨ (firstSaved win ≤ r ∧ r ≤ p.scr) := by
  have := nSaved_le win
  have h1 := h.kept
  have h2 := h.sav
  rw [Frame.regs, List.mem_append, mem_down, mem_down]
  simp only [S0]
  constructor
  · rintro (⟨i, h, rfl⟩ | ⟨i, h, rfl⟩) <;> omega
  · rintro (h | h)
    · exact Or.inl ⟨13 - p.kept - r, by omega, by omega⟩
    · exact Or.inr ⟨p.scr - r, by omega, by omega⟩

theorem length_regs (h : p.Ok win) : (p.regs win).length = (p.sav - p.kept) + (p.scr + 1 - firstSaved win) := by
  have h1 := h.kept
  have h2 := h.sav
  have := nSaved_le win
  simp only [Frame.regs, down, List.length_append, List.length_map, List.length_range, S0]
  omega

theorem regs_range (h : p.Ok win) {r : Nat} (hr : r ∈ p.regs win) : 1 ≤ r ∧ r ≤ 13 := by
  have := nSaved_le win
  have h1 := h.regs
  have h2 := h.sav
  rcases (mem_regs h).mp hr with h | h <;> omega

theorem pops_eq (h : p.Ok win) : p.pops win = (p.regs win).reverse := by
  have h2 := h.sav
  have := nSaved_le win
  rw [Frame.regs, List.reverse_append, down_reverse, down_reverse, Frame.pops]
  simp only [S0]
  rw [show 13 - p.sav + 1 = 13 + 1 - p.sav by omega]

theorem savedSize_eq (h : p.Ok win) : p.savedSize win = 8 * ((p.regs win).length + 1) := by
  have := nSaved_le win
  rw [length_regs h, Frame.savedSize]
  simp only [S0]
  split <;> omega

/-- Bytes below the return address. -/
def Frame.total (win : Bool) (p : Frame) : Nat := 8 * (p.regs win).length + p.localSize win

theorem total_ok (h : p.Ok win) : (p.total win + 8) % 16 = 0 ∧ p.locals + localsOffset win ≤ p.localSize win ∧ p.localSize win + 8 < 2 ^ 31 ∧ p.total win < 2 ^ 31 ∧ 8 * (p.regs win).length < 2 ^ 20 := by
  have h1 := savedSize_eq h
  have h2 := length_regs h
  have h3 := h.locals
  have h4 := h.regs
  have h5 := h.sav
  have : localsOffset win ≤ 32 := by cases win <;> decide
  have := nSaved_le win
  rw [Frame.total, Frame.localSize, h1]
  omega

/-- Executing the release code. -/
theorem release_ok (h : p.Ok win) (rt : Bool) {v : BitVec 4 → BitVec 64} {t : St} {sp : BitVec 64} (hsp : t.r 4#4 = sp - BitVec.ofNat 64 (p.total win)) (hs : Slots win v t.m sp (p.regs win)) :
    ∃ t', Emits (emitRelease win p rt) t t' ∧ t'.r 4#4 = (if rt then sp + 8#64 else sp) ∧ t'.m = t.m ∧
      ∀ q, q ≠ 4#4 → t'.r q = if q ∈ (p.regs win).map (num win) then v q else t.r q := by
  obtain ⟨-, -, hl1, -, -⟩ := total_ok h
  have hsub : t.r 4#4 + BitVec.ofNat 64 (p.localSize win) = sp - BitVec.ofNat 64 (8 * (p.regs win).length) := by
    rw [hsp, Frame.total, BitVec.ofNat_add]
    generalize BitVec.ofNat 64 (8 * (p.regs win).length) = x
    generalize BitVec.ofNat 64 (p.localSize win) = y
    rw [show sp - (x + y) = sp - x - y by simp only [BitVec.sub_eq_add_neg, BitVec.neg_add, BitVec.add_assoc], BitVec.sub_add_cancel]
  have key : ∀ n, n < 2 ^ 31 → ∃ t1, Emits (if n > 0 then spImm win ADD n else some []) t t1 ∧ SpTo t t1 (t.r 4#4 + BitVec.ofNat 64 n) := by
    intro n hn
    by_cases h : n > 0
    · rw [if_pos h]; exact e_spAdd hn
    · rw [if_neg h, show n = 0 by omega]
      exact ⟨t, Emits.nil t, by simp, fun _ _ => rfl, rfl⟩
  unfold emitRelease
  by_cases hsh : rt = true ∧ p.scr < firstSaved win ∧ p.sav = p.kept
  · obtain ⟨t1, e1, g1⟩ := key (p.localSize win + 8) hl1
    have hnil : p.regs win = [] := by
      have := length_regs h
      rw [← List.length_eq_zero_iff]; omega
    simp only [hsh, and_self, if_true, not_true_eq_false, and_false, if_false, pops_eq h, hnil, List.reverse_nil, List.flatMap_nil]
    refine ⟨t1, e1.cat ((Emits.nil _).cat (Emits.nil _)), ?_, g1.mem, fun q hq => ?_⟩
    · rw [g1.sp, BitVec.ofNat_add, ← BitVec.add_assoc, hsub, hnil]; simp
    · rw [g1.regs q hq]; simp
  · obtain ⟨t1, e1, g1⟩ := key (p.localSize win) (by omega)
    obtain ⟨t2, e2, s2, m2, -, r2⟩ := pops (win := win) v t1.m (p.regs win) t1 sp (fun r hr => regs_range h hr) rfl (by rw [g1.sp, hsub]) (by rw [g1.mem]; exact hs)
    simp only [hsh, if_false, pops_eq h, not_false_eq_true, and_true]
    have r2' : ∀ q, q ≠ 4#4 → t2.r q = if q ∈ (p.regs win).map (num win) then v q else t.r q := fun q hq => by rw [r2 q hq, g1.regs q hq]
    cases rt with
    | false =>
      refine ⟨t2, e1.cat (Emits.cat ⟨_, rfl, e2⟩ (Emits.nil _)), by simpa using s2, m2.trans g1.mem, r2'⟩
    | true =>
      obtain ⟨t3, e3, g3⟩ := e_spAdd (win := win) (s := t2) (n := 8) (by decide)
      simp only [if_true]
      refine ⟨t3, e1.cat (Emits.cat ⟨_, rfl, e2⟩ e3), by rw [g3.sp, s2], g3.mem.trans (m2.trans g1.mem), fun q hq => by rw [g3.regs q hq, r2' q hq]⟩

/-- RET. -/
theorem ret_step {c : IMem} {q : PSt} (hb : BytesAt c q.pc [0xc3#8]) : step c q = some ⟨q.s.set 4#4 (q.s.r 4#4 + 8#64), rd q.s.m (q.s.r 4#4) 8⟩ :=
  step_ctl (k := .ret) hb (by decide) (fun rest => ctl0_exec (by decide) _) (fun rest => rfl) rfl

theorem jumpReg_code : ∀ win : Bool, ∀ r : Fin 17, emitJumpReg win r.val = some ((if high win r.val then [0x41#8] else []) ++ [0xff#8, 0xe0#8 ||| (low win r.val).setWidth 8]) := by decide +kernel

theorem jumpReg_flds : ∀ k : BitVec 3, fld (0xe0#8 ||| k.setWidth 8) 6 2 = 3#2 ∧ fld (0xe0#8 ||| k.setWidth 8) 3 3 = 4#3 ∧ fld (0xe0#8 ||| k.setWidth 8) 0 3 = k := by decide

theorem ff_exec0 {bs : List Byte} (s : St) : ((parse (0xff#8 :: bs)).bind fun (i, r) => (exec i s).map fun s => (s, r)) = none := by
  have e : parse (0xff#8 :: bs) = parseOp 0#8 0#8 0 (0xff#8 :: bs) := by
    simp only [parse, show ¬ (0xff#8 = 0x66#8 ∨ 0xff#8 = 0xf2#8 ∨ 0xff#8 = 0xf3#8) by decide, if_false, parseRex, show ¬ (fld 0xff#8 4 4 = 4#4) by decide, parseMap, show ¬ (0xff#8 = 0x0f#8) by decide]
  rw [e]
  rcases hp : parseOp 0#8 0#8 0 (0xff#8 :: bs) with _ | ⟨i, r⟩
  · rfl
  · simp only [Option.bind_some, parseOp_exec (Or.inl rfl) (by decide) (by decide) hp s, Option.map_none]

/-- JMP reg. -/
theorem jumpReg_step {r : Nat} (hr : r ≤ 16) : ∃ bs, emitJumpReg win r = some bs ∧ ∀ (c : IMem) (q : PSt), BytesAt c q.pc bs → step c q = some ⟨q.s, q.s.r (num win r)⟩ := by
  obtain ⟨h1, h2, h3⟩ := jumpReg_flds (low win r)
  refine ⟨_, jumpReg_code win ⟨r, by omega⟩, fun c q hb => ?_⟩
  simp only at hb
  have hn := num_eq win r
  cases hh : high win r with
  | false =>
    rw [hh] at hb hn
    rw [hn]
    refine step_ctl (k := .jmpReg (ext false (low win r))) hb (by simp) (fun rest => ff_exec0 _) (fun rest => ?_) rfl
    simp only [Bool.false_eq_true, if_false, List.nil_append, List.cons_append, ctl, show ¬ (0xff#8 = 0xeb#8) by decide, show ¬ (0xff#8 = 0xe9#8) by decide, show ¬ (0xff#8 = 0xe8#8) by decide,
      show ¬ (0xff#8 = 0x90#8) by decide, show ¬ (0xff#8 = 0xc3#8) by decide, show ¬ (fld 0xff#8 4 4 = 7#4) by decide, show ¬ (0xff#8 = 0x0f#8) by decide, show ¬ (fld 0xff#8 4 4 = 4#4) by decide,
      ctlRex, h1, h2, h3, and_self, if_true]
    rfl
  | true =>
    rw [hh] at hb hn
    rw [hn]
    refine step_ctl (k := .jmpReg (ext true (low win r))) hb (by simp) (fun rest => ff_exec (by decide) _) (fun rest => ?_) rfl
    simp only [if_true, List.nil_append, List.cons_append, ctl, show ¬ (0x41#8 = 0xeb#8) by decide, show ¬ (0x41#8 = 0xe9#8) by decide, show ¬ (0x41#8 = 0xe8#8) by decide,
      show ¬ (0x41#8 = 0x90#8) by decide, show ¬ (0x41#8 = 0xc3#8) by decide, show ¬ (fld 0x41#8 4 4 = 7#4) by decide, show ¬ (0x41#8 = 0x0f#8) by decide, show fld 0x41#8 4 4 = 4#4 by decide, if_false,
      ctlRex, h1, h2, h3, and_self]
    rfl

end Verif.X86
