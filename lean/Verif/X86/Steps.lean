import Verif.X86.EmitLemmas

/-! # Executing an instruction emitted by emit_x86_instruction (helper lemmas) -/

namespace Verif.X86

/-- The bytes, whatever follows them, take the machine from s to s'. -/
def Steps (bs : List Byte) (s s' : St) : Prop := ∃ n, ∀ m rest, run (n + m) (bs ++ rest) s = run m rest s'

theorem Steps.nil (s : St) : Steps [] s s := ⟨0, fun m rest => by simp⟩

theorem Steps.append {a b : List Byte} {s t u : St} (h1 : Steps a s t) (h2 : Steps b t u) : Steps (a ++ b) s u := by
  obtain ⟨n, h1⟩ := h1
  obtain ⟨k, h2⟩ := h2
  refine ⟨n + k, fun m rest => ?_⟩
  rw [List.append_assoc, Nat.add_assoc, h1, h2]

theorem Steps.one {bs : List Byte} {s s' : St} (i : Inst) (hp : ∀ rest, parse (bs ++ rest) = some (i, rest)) (he : exec i s = some s') : Steps bs s s' := by
  refine ⟨1, fun m rest => ?_⟩
  rw [Nat.add_comm 1 m]
  simp only [run, hp, he, Option.bind_some]

/-- Steps of a complete program. -/
theorem Steps.run {bs : List Byte} {s s' : St} (h : Steps bs s s') : ∃ n, run n bs s = some ([], s') := by
  obtain ⟨n, h⟩ := h
  exact ⟨n, by simpa [X86.run] using h 0 []⟩

/-! ## Prefixes and opcodes -/

/-- Opcodes with ModRM. -/
def hasRM (map : Nat) (op : Byte) : Bool :=
  if map = 1 then decide (fld op 3 5 ≠ 0b11001#5)
  else decide (¬ (fld op 6 2 = 0#2 ∧ fld op 0 3 = 5#3) ∧ op ≠ 0xa9#8 ∧ fld op 3 5 ≠ 0b10111#5 ∧ fld op 4 4 ≠ 5#4 ∧ op ≠ 0x99#8)

theorem short_none {pre rex : Byte} {map : Nat} {op : Byte} (h : hasRM map op = true) : shortSize pre rex map op = none := by
  unfold hasRM at h; unfold shortSize
  by_cases hm : map = 1
  · simp only [hm, if_true, decide_eq_true_eq, ne_eq] at h ⊢
    rw [if_neg h]
  · simp only [hm, if_false, decide_eq_true_eq, ne_eq] at h ⊢
    rw [if_neg (by intro h'; exact h'.elim h.1 h.2.1), if_neg h.2.2.1, if_neg (by intro h'; exact h'.elim h.2.2.2.1 h.2.2.2.2)]

/-- The opcode bytes of the one and two byte maps. -/
def opBytes (map : Nat) (op : Byte) : List Byte := if map = 1 then [0x0f#8, op] else [op]

/-- The byte is neither a prefix nor the escape. -/
def plainOp (op : Byte) : Bool := decide (op ≠ 0x0f#8 ∧ op ≠ 0x66#8 ∧ op ≠ 0xf2#8 ∧ op ≠ 0xf3#8 ∧ fld op 4 4 ≠ 4#4)

/-- A prefix byte, or none. -/
def preOk (p : Byte) : Bool := decide (p = 0#8 ∨ p = 0x66#8 ∨ p = 0xf2#8 ∨ p = 0xf3#8)

/-- A REX byte, or none. -/
def rexOk (p : Byte) : Bool := decide (p = 0#8 ∨ fld p 4 4 = 4#4)

theorem rex_plain {p : Byte} (h : fld p 4 4 = 4#4) : ¬ (p = 0x66#8 ∨ p = 0xf2#8 ∨ p = 0xf3#8) ∧ p ≠ 0#8 := by
  revert p; decide

theorem parse_head {pre rex : Byte} {map : Nat} {op : Byte} {tl : List Byte} (hp : preOk pre = true) (hr : rexOk rex = true) (hm : map = 0 ∨ map = 1)
    (ho : map = 0 → plainOp op = true) :
    parse ((if pre ≠ 0#8 then [pre] else []) ++ ((if rex ≠ 0#8 then [rex] else []) ++ (opBytes map op ++ tl))) = parseOp pre rex map (op :: tl) := by
  have A : ∀ rex : Byte, parseMap pre rex (opBytes map op ++ tl) = parseOp pre rex map (op :: tl) := by
    intro rex
    rcases hm with rfl | rfl
    · have := ho rfl
      simp only [plainOp, ne_eq, decide_eq_true_eq] at this
      simp only [opBytes, if_false, Nat.zero_ne_one, List.cons_append, List.nil_append, parseMap, this.1]
    · simp only [opBytes, if_true, List.cons_append, List.nil_append, parseMap]
  have hd : ∃ c cs, opBytes map op ++ tl = c :: cs ∧ fld c 4 4 ≠ 4#4 ∧ ¬ (c = 0x66#8 ∨ c = 0xf2#8 ∨ c = 0xf3#8) := by
    rcases hm with rfl | rfl
    · have := ho rfl
      simp only [plainOp, ne_eq, decide_eq_true_eq] at this
      exact ⟨op, tl, rfl, this.2.2.2.2, by simp [this]⟩
    · exact ⟨0x0f#8, op :: tl, rfl, by decide, by decide⟩
  have B : parseRex pre ((if rex ≠ 0#8 then [rex] else []) ++ (opBytes map op ++ tl)) = parseOp pre rex map (op :: tl) := by
    simp only [rexOk, decide_eq_true_eq] at hr
    by_cases h0 : rex = 0#8
    · obtain ⟨c, cs, e, hc, -⟩ := hd
      simp only [h0, ne_eq, not_true_eq_false, if_false, List.nil_append]
      rw [← A 0#8, e]
      simp only [parseRex, hc, if_false]
    · have := hr.resolve_left h0
      simp only [ne_eq, h0, not_false_eq_true, if_true, List.cons_append, List.nil_append, parseRex, this]
      exact A rex
  rw [← B]
  simp only [preOk, decide_eq_true_eq] at hp
  by_cases h0 : pre = 0#8
  · simp only [h0, ne_eq, not_true_eq_false, if_false, List.nil_append]
    by_cases hr0 : rex = 0#8
    · obtain ⟨c, cs, e, -, hc⟩ := hd
      simp only [hr0, ne_eq, not_true_eq_false, if_false, List.nil_append, e]
      simp only [parse, hc, if_false]
    · have hc := (rex_plain (by simpa [rexOk, hr0] using hr)).1
      simp only [ne_eq, hr0, not_false_eq_true, if_true, List.cons_append, List.nil_append, parse, hc, if_false]
  · have := hp.resolve_left h0
    simp only [ne_eq, h0, not_false_eq_true, if_true, List.cons_append, List.nil_append, parse, this]

theorem parse_inst {pre rex : Byte} {map : Nat} {op mb : Byte} {mt ib rest : List Byte} {reg : BitVec 4} {rm : RM} {imm : BitVec 64}
    (hp : preOk pre = true) (hr : rexOk rex = true) (hm : map = 0 ∨ map = 1) (ho : map = 0 → plainOp op = true) (hs : hasRM map op = true)
    (hrm : parseRM rex (mb :: (mt ++ (ib ++ rest))) = some (reg, rm, ib ++ rest))
    (hi : sle' (immSize pre map op (reg.setWidth 3)) (ib ++ rest) = some (imm, rest)) :
    parse ((if pre ≠ 0#8 then [pre] else []) ++ ((if rex ≠ 0#8 then [rex] else []) ++ (opBytes map op ++ mb :: (mt ++ (ib ++ rest))))) =
      some (.rm pre rex map op reg rm imm, rest) := by
  rw [parse_head hp hr hm ho]
  simp only [parseOp, short_none hs, hrm, Option.bind_some, hi, Option.map_some]

/-! ## The parts of emit_x86_instruction -/

/-- Where an operand is. -/
def target (win : Bool) (s : St) : Opd → Loc
  | .reg r => .reg (num win r)
  | .mem base offs w => .mem (ea win s base offs w)
  | .imm _ => .reg 0#4

/-- The address of a place. -/
def addrOf : Loc → Option (BitVec 64)
  | .mem a => some a
  | .reg _ => none

/-- The state after the load of a long displacement. -/
def clob (win : Bool) (s : St) : Opd → St
  | .mem _ offs w => if offs = 0 ∧ ¬ isHalf w then s.set (num win TMP_REG2) w else s
  | _ => s

/-- What sljit requires of a memory operand (sljitLir.c:987-1019): an offset register has a base, is not SLJIT_SP and its shift is
below 4.  In addition the base must not be TMP_REG2 if the displacement is loaded to it. -/
def OpdOk (win : Bool) : Opd → Prop
  | .mem base offs w =>
    (offs ≠ 0 → base ≠ 0 ∧ w.toNat < 4 ∧ num win offs ≠ 4#4) ∧ (offs = 0 → base ≠ 0 → isHalf w = false → num win base ≠ num win TMP_REG2)
  | .reg _ => True
  | .imm _ => False

theorem isHalf0 : isHalf 0#64 = true := by decide

theorem tmp2_num (win : Bool) : num win TMP_REG2 ≠ 4#4 := by cases win <;> decide

/-- Every operand is a register or a simple memory operand after `prep`. -/
theorem prep_spec {win : Bool} {b : Opd} (h : OpdOk win b) :
    (match (prep win b).2 with
      | .mem base offs w => MemOk win base offs w ∧ (∀ s, Loc.mem (ea win (clob win s b) base offs w) = target win s b) ∧ b.isMem = true
      | .reg r => b = .reg r
      | .imm _ => False) := by
  cases b with
  | reg r => rfl
  | imm v => exact h.elim
  | mem base offs w =>
    obtain ⟨h1, h2⟩ := h
    by_cases hp : offs = 0 ∧ ¬ isHalf w = true
    · obtain ⟨rfl, hw⟩ := hp
      have hw' : isHalf w = false := by simpa using hw
      by_cases hb : base = 0
      · have e : (prep win (.mem base 0 w)).2 = .mem TMP_REG2 0 0#64 := by simp [prep, hw, hb]
        rw [e]
        refine ⟨⟨fun h => (h rfl).elim, fun _ => isHalf0⟩, ?_, rfl⟩
        intro s
        simp [ea, clob, hw, target, hb, St.set, show ¬ TMP_REG2 = 0 by decide]
      · have e : (prep win (.mem base 0 w)).2 = .mem base TMP_REG2 0#64 := by simp [prep, hw, hb]
        rw [e]
        refine ⟨⟨fun _ => ⟨hb, by simp, tmp2_num win⟩, fun h => (by revert h; decide)⟩, ?_, rfl⟩
        have := h2 rfl hb hw'
        intro s
        simp [ea, clob, hw, target, hb, St.set, show ¬ TMP_REG2 = 0 by decide, this]
    · have e : prep win (.mem base offs w) = ([], .mem base offs w) := by simp only [prep, hp, if_false]
      rw [e]
      refine ⟨⟨h1, fun h => ?_⟩, ?_, rfl⟩
      · by_contra hw; exact hp ⟨h, hw⟩
      · intro s; simp only [clob, hp, if_false, target]

theorem and_ones (v : BitVec 64) : v &&& 18446744073709551615#64 = v := by
  rw [show (18446744073709551615#64 : BitVec 64) = BitVec.allOnes 64 from by decide, BitVec.and_allOnes]

/-- The load of an immediate. -/
theorem loadImm64_steps (win : Bool) (r : Nat) (v : BitVec 64) (s : St) : Steps (loadImm64 win r v) s (s.set (num win r) v) := by
  have hrex : (REX_W ||| if regMap win r ≤ 7#8 then 0#8 else REX_B) = if high win r then 0x49#8 else 0x48#8 := by
    have : (regMap win r ≤ 7#8) ↔ ¬ high win r = true := by
      rw [high, decide_eq_true_eq]
      generalize regMap win r = v
      revert v; decide
    by_cases hh : high win r <;> simp [this, hh, REX_W, REX_B]
  refine Steps.one (.short 0#8 (if high win r then 0x49#8 else 0x48#8) 0 (0xb8#8 ||| regLmap win r) v) (fun rest => ?_) ?_
  · rw [loadImm64, hrex, lmap_eq]
    generalize low win r = k
    have hop : ∀ k : BitVec 3, (0xb8#8 ||| k.setWidth 8) ≠ 0x0f#8 ∧ (0xb8#8 ||| k.setWidth 8) ≠ 0xa9#8 ∧ fld (0xb8#8 ||| k.setWidth 8) 6 2 ≠ 0#2 ∧
      fld (0xb8#8 ||| k.setWidth 8) 3 5 = 0b10111#5 := by decide
    obtain ⟨o1, o2, o3, o4⟩ := hop k
    have hs := sle_toLe (n := 8) (by decide) (by decide) v rest
    rw [sext8] at hs
    cases high win r <;>
      simp only [if_true, if_false, Bool.false_eq_true, List.cons_append, parse, parseRex, parseMap, parseOp, shortSize, o1, o2, o3, o4, hs,
        show ¬ ((0x48#8 : Byte) = 0x66#8 ∨ (0x48#8 : Byte) = 0xf2#8 ∨ (0x48#8 : Byte) = 0xf3#8) by decide,
        show ¬ ((0x49#8 : Byte) = 0x66#8 ∨ (0x49#8 : Byte) = 0xf2#8 ∨ (0x49#8 : Byte) = 0xf3#8) by decide,
        show fld 0x48#8 4 4 = 4#4 by decide, show fld 0x49#8 4 4 = 4#4 by decide, show (0x48#8 : Byte).getLsbD 3 = true by decide,
        show (0x49#8 : Byte).getLsbD 3 = true by decide, Nat.zero_ne_one, false_and, or_self, Option.map_some]
  · have hop : ∀ k : BitVec 3, (0xb8#8 ||| k.setWidth 8) ≠ 0xa9#8 ∧ fld (0xb8#8 ||| k.setWidth 8) 3 5 = 0b10111#5 ∧ fld (0xb8#8 ||| k.setWidth 8) 0 3 = k := by
      decide
    obtain ⟨o1, o2, o3⟩ := hop (low win r)
    have hz : (BitVec.allOnes 64 >>> 0 : BitVec 64) = BitVec.allOnes 64 := by decide
    rw [num_eq, lmap_eq]
    cases high win r <;>
      simp [exec, opSize, o1, o2, o3, put, and_ones]

theorem pre_steps {win : Bool} (b : Opd) (s : St) : Steps (prep win b).1 s (clob win s b) := by
  cases b with
  | reg r => exact Steps.nil s
  | imm v => exact Steps.nil s
  | mem base offs w =>
    by_cases hp : offs = 0 ∧ ¬ isHalf w = true
    · simp only [prep, clob, hp, if_true, and_self, not_false_eq_true]
      exact loadImm64_steps win TMP_REG2 w s
    · simp only [prep, clob, hp, if_false]
      exact Steps.nil s

/-! ### The REX byte -/

theorem sizeB_rex {win : Bool} {fl : Ins} {b b' : Opd} {n : Nat} {rexB : Byte} (h : sizeB win fl b = some (n, b', rexB)) :
    rexB = 0#8 ∨ rexB = 0x41#8 ∨ rexB = 0x42#8 ∨ rexB = 0x43#8 := by
  have A : ∀ p q : Bool, ((if p then REX_B else 0#8) ||| if q then REX_X else 0#8) ∈ [0#8, 0x41#8, 0x42#8, 0x43#8] := by decide
  have B : ∀ p : Prop, ∀ [Decidable p], (if p then REX_B else 0#8) ∈ [0#8, 0x41#8, 0x42#8, 0x43#8] := by
    intro p _; split <;> decide
  suffices rexB ∈ [0#8, 0x41#8, 0x42#8, 0x43#8] by simpa using this
  cases b with
  | imm v => simp [sizeB] at h
  | reg r =>
    simp only [sizeB, Option.some.injEq, Prod.mk.injEq] at h
    rw [← h.2.2]; exact B _
  | mem base offs w =>
    simp only [sizeB, high_if] at h
    repeat' split at h
    all_goals
      simp only [Option.some.injEq, Prod.mk.injEq] at h
      rw [← h.2.2]
      first | exact A _ _ | exact B _ | decide

/-- The first value of REX. -/
def rex0 (m32 : Bool) (fl : Ins) : Byte := if ¬ m32 = true ∧ ¬ fl.noRexW = true then REX_W else if fl.rex then REX else 0#8

theorem rex_bits {m32 : Bool} {fl : Ins} {rexB : Byte} (h : rexB = 0#8 ∨ rexB = 0x41#8 ∨ rexB = 0x42#8 ∨ rexB = 0x43#8) (r : Bool) :
    let rex := rex0 m32 fl ||| rexB ||| (if r then REX_R else 0#8)
    rexOk rex = true ∧ rex.getLsbD 0 = rexB.getLsbD 0 ∧ rex.getLsbD 1 = rexB.getLsbD 1 ∧ rex.getLsbD 2 = r ∧
      rex.getLsbD 3 = (!m32 && !fl.noRexW) ∧ (fl.rex = true → rex ≠ 0#8) := by
  simp only [rex0]
  generalize fl.rex = fr
  generalize fl.noRexW = fn
  rcases h with rfl | rfl | rfl | rfl <;> cases m32 <;> cases fr <;> cases fn <;> cases r <;> clear fl <;> decide

/-- The machine register of the first operand. -/
def anum (win : Bool) (fl : Ins) (r : Nat) : BitVec 4 := if fl.sseOp1 then (fregMap r).setWidth 4 else num win r
/-- The place of the second one. -/
def btarget (win : Bool) (fl : Ins) (s : St) : Opd → Loc
  | .reg r => .reg (if fl.sseOp2 then (fregMap r).setWidth 4 else num win r)
  | b => target win s b

theorem fmap_table : ∀ r : Fin 17, fregLmap r.val = ((fregMap r.val).setWidth 3).setWidth 8 ∧
    (fregMap r.val).setWidth 4 = ext (decide (fregMap r.val ≥ 8#8)) ((fregMap r.val).setWidth 3) := by decide

theorem fmap_eq (r : Nat) : fregLmap r = ((fregMap r).setWidth 3).setWidth 8 ∧
    (fregMap r).setWidth 4 = ext (decide (fregMap r ≥ 8#8)) ((fregMap r).setWidth 3) := by
  by_cases h : r < 17
  · exact fmap_table ⟨r, h⟩
  · have h1 : fregMap r = 0#8 := by unfold fregMap; rw [List.getD_eq_getElem?_getD, List.getElem?_eq_none (by simp; omega)]; rfl
    have h2 : fregLmap r = 0#8 := by unfold fregLmap; rw [List.getD_eq_getElem?_getD, List.getElem?_eq_none (by simp; omega)]; rfl
    rw [h1, h2]; decide

/-- The operand `b` of an emitted instruction is decoded as requested. -/
theorem b_parse {win : Bool} {fl : Ins} {b : Opd} (hok : OpdOk win b) {n : Nat} {b' : Opd} {rexB rex : Byte}
    (hs : sizeB win fl (prep win b).2 = some (n, b', rexB)) (h0 : rex.getLsbD 0 = rexB.getLsbD 0) (h1 : rex.getLsbD 1 = rexB.getLsbD 1)
    (x : BitVec 3) :
    ∃ rm, (∀ rest, parseRM rex ((x.setWidth 8 <<< 3 ||| (encB win fl b').1) :: ((encB win fl b').2 ++ rest)) = some (ext (rex.getLsbD 2) x, rm, rest)) ∧
      (encB win fl b').2.length = n ∧ (∀ s, loc (clob win s b) rm = some (btarget win fl s b)) ∧ ((∃ q, rm = .reg q) ↔ b.isMem = false) := by
  have hp := prep_spec hok
  revert hp hs
  generalize hq : (prep win b).2 = q
  intro hs hp
  cases q with
  | imm v => exact hp.elim
  | reg r =>
    simp only at hp
    subst hp
    simp only [sizeB, Option.some.injEq, Prod.mk.injEq] at hs
    obtain ⟨rfl, rfl, rfl⟩ := hs
    have hx : ∀ (p : Prop) [Decidable p], (if p then REX_B else (0#8 : Byte)).getLsbD 0 = decide p := by intro p _; by_cases p <;> simp_all [REX_B]
    by_cases h2 : fl.sseOp2 = true
    · refine ⟨.reg ((fregMap r).setWidth 4), ?_, rfl, ?_, ?_⟩
      · intro rest
        have e := parse_reg (rex := rex) (x := x) (r := (fregMap r).setWidth 3) (rest := rest)
        rw [← rm_reg, ← (fmap_eq r).1, h0, hx] at e
        simp only [h2, if_true] at e
        rw [← (fmap_eq r).2] at e
        simpa only [encB, h2, if_true, List.nil_append] using e
      · intro s; simp only [loc, btarget, h2, if_true]
      · simp [Opd.isMem]
    · refine ⟨.reg (num win r), ?_, rfl, ?_, ?_⟩
      · intro rest
        have e := parse_reg (rex := rex) (x := x) (r := low win r) (rest := rest)
        rw [← rm_reg, ← lmap_eq, h0, hx] at e
        simp only [h2, if_false, Bool.false_eq_true] at e
        rw [show ext (decide (regMap win r ≥ 8#8)) (low win r) = num win r from (num_eq win r).symm] at e
        simpa only [encB, h2, if_false, List.nil_append, Bool.false_eq_true] using e
      · intro s; simp only [loc, btarget, h2, if_false, Bool.false_eq_true]
      · simp [Opd.isMem]
  | mem base offs w =>
    obtain ⟨hm, ht, hbm⟩ := hp
    obtain ⟨bb, ii, d, e1, e2, e3⟩ := mem_parse (rex := rex) hm hs h0 h1 x
    refine ⟨_, e1, e2, fun s => ?_, by simp [hbm]⟩
    rw [e3, ht]
    cases b <;> simp_all [Opd.isMem, btarget]

theorem core_step {win m32 : Bool} {fl : Ins} {b : Opd} (hok : OpdOk win b) {n : Nat} {b' : Opd} {rexB : Byte}
    (hs : sizeB win fl (prep win b).2 = some (n, b', rexB)) (hp : preOk fl.pref = true) {map : Nat} {op : Byte} (hm : map = 0 ∨ map = 1)
    (ho : map = 0 → plainOp op = true) (hrm : hasRM map op = true) (ah : Bool) (x : BitVec 3) {ib : List Byte} {imm : BitVec 64}
    (hi : ∀ rest, sle' (immSize fl.pref map op ((ext ah x).setWidth 3)) (ib ++ rest) = some (imm, rest)) {s s' : St}
    (he : ∀ rex : Byte, rex.getLsbD 3 = (!m32 && !fl.noRexW) → (fl.rex = true → rex ≠ 0#8) →
      execRM fl.pref rex map op (ext ah x) (some (btarget win fl s b)) (addrOf (btarget win fl s b)) imm (clob win s b) = some s')
    {rex : Byte} (hrex : rex = rex0 m32 fl ||| rexB ||| (if ah then REX_R else 0#8)) {bs : List Byte}
    (hbs : bs = (prep win b).1 ++ ((if fl.pref ≠ 0#8 then [fl.pref] else []) ++ ((if rex ≠ 0#8 then [rex] else []) ++
      (opBytes map op ++ (x.setWidth 8 <<< 3 ||| (encB win fl b').1) :: ((encB win fl b').2 ++ ib))))) : Steps bs s s' := by
  subst hbs
  obtain ⟨r1, r2, r3, r4, r5, r6⟩ := rex_bits (m32 := m32) (fl := fl) (sizeB_rex hs) ah
  rw [← hrex] at r1 r2 r3 r4 r5 r6
  refine (pre_steps b s).append ?_
  obtain ⟨rm, e1, -, e3, e4⟩ := b_parse hok hs r2 r3 x
  refine Steps.one (.rm fl.pref rex map op (ext ah x) rm imm) (fun rest => ?_) ?_
  · have e1 := e1 (ib ++ rest)
    rw [r4] at e1
    simpa only [List.append_assoc, List.cons_append] using parse_inst hp r1 hm ho hrm e1 (hi rest)
  · have e3 := e3 s
    simp only [exec, e3]
    rw [← he rex r5 r6]
    congr 1
    cases rm with
    | reg q =>
      simp only [loc, Option.some.injEq] at e3
      rw [← e3]; rfl
    | mem bb ii d => simp only [loc, Option.some.injEq] at e3; rw [← e3]; rfl
    | rip d => simp [loc] at e3

end Verif.X86
