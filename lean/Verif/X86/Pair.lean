import Verif.X86.OpEff
import Verif.X86.BinEff

/-! # sljit_emit_mem with register pairs on x86-64 -/

namespace Verif.X86

/-- The second word with an index register: the instruction encoded by hand with a displacement of one byte (sljitNativeX86_64.c:1124-1133). -/
def pairIdx (win store : Bool) (r b o : Nat) (w : BitVec 64) : List Byte :=
  [0x48#8 ||| (if regMap win r ≥ 8#8 then 0x04#8 else 0#8) ||| (if regMap win b ≥ 8#8 then 0x01#8 else 0#8) ||| (if regMap win o ≥ 8#8 then 0x02#8 else 0#8),
   if store then 0x89#8 else 0x8b#8, 0x44#8 ||| regLmap win r <<< 3, w.setWidth 8 <<< 6 ||| regLmap win o <<< 3 ||| regLmap win b, 8#8]

/-- One word (sljitNativeX86_64.c:1124-1138); `sec` is `reg_idx == 1`. -/
def pairOne (win store sec : Bool) (r b o : Nat) (w : BitVec 64) : Code :=
  if o ≠ 0 ∧ sec = true then some (pairIdx win store r b o w)
  else if store then emitMov win false (.mem b o w) (.reg r) else emitMov win false (.reg r) (.mem b o w)

/-- The loop (sljitNativeX86_64.c:1120-1142); `rev` is `next < 0`. -/
def pairLoop (win store rev : Bool) (r1 r2 b o : Nat) (w : BitVec 64) : Code :=
  if rev then pairOne win store true r2 b o w +> pairOne win store false r1 b o (if o = 0 then w - 8#64 else w)
  else pairOne win store false r1 b o w +> pairOne win store true r2 b o (if o = 0 then w + 8#64 else w)

/-- The order of the words (sljitNativeX86_64.c:1098-1118) and the loop. -/
def pairOrder (win store : Bool) (r1 r2 b o : Nat) (w : BitVec 64) : Code :=
  if store = false ∧ (r1 = b ∨ r1 = o) then
    if r2 = b ∨ r2 = o then emitMov win false (.reg TMP_REG1) (.reg o) +> pairLoop win store (decide (r2 = o)) r1 r2 b TMP_REG1 w
    else pairLoop win store true r1 r2 b o (if o = 0 then w + 8#64 else w)
  else pairLoop win store false r1 r2 b o w

/-- sljit_emit_mem with a register pair (sljitNativeX86_64.c:1067-1145), after ADJUST_LOCAL_OFFSET; `store` is SLJIT_MEM_STORE.  HALFWORD_MIN and HALFWORD_MAX are
-0x80000000 and 0x7fffffff (sljitNativeX86_common.c:127-128). -/
def emitPair (win store : Bool) (r1 r2 b o : Nat) (w : BitVec 64) : Code :=
  if b = 0 then emitMov win false (.reg TMP_REG1) (.imm w) +> pairOrder win store r1 r2 TMP_REG1 0 0#64
  else if o = 0 ∧ (w.slt (-0x80000000#64) ∨ (0x7ffffff7#64).slt w) then
    emitMov win false (.reg TMP_REG1) (.imm w) +> pairOrder win store r1 r2 b TMP_REG1 0#64
  else pairOrder win store r1 r2 b o w

/-! ## One word -/

/-- The transfer of one word. -/
def xfer (win store : Bool) (s : St) (r : Nat) (a : BitVec 64) : St :=
  if store then { s with m := wr s.m a 8 (s.r (num win r)) } else s.set (num win r) (rd s.m a 8)

theorem clob_id {win : Bool} {s : St} {b : Opd} (h : long b = false) : clob win s b = s := by
  cases b with
  | mem base offs w =>
    have : ¬ (offs = 0 ∧ ¬ isHalf w = true) := by
      simp only [long, Bool.and_eq_false_iff, beq_eq_false_iff_ne, Bool.not_eq_false'] at h
      tauto
    simp only [clob, this, if_false]
  | reg r => rfl
  | imm v => rfl

theorem exec89 (rex : Byte) (hr : opSize 0#8 rex = 8) (x : BitVec 4) (a : BitVec 64) (s : St) (q : Option (BitVec 64)) :
    execRM 0#8 rex 0 0x89#8 x (some (.mem a)) q 0#64 s = some { s with m := wr s.m a 8 (s.r x) } := by
  simp only [execRM, hr, show ¬ ((0x89#8 : Byte) = 0x8d#8) by decide, and_false, if_false, Option.bind_some, if_true,
    show ¬ (fld 0x89#8 6 2 = 0#2) by decide, false_and, show ¬ ((0x89#8 : Byte) = 0x81#8) by decide, show ¬ ((0x89#8 : Byte) = 0x83#8) by decide,
    show ¬ ((0x89#8 : Byte) = 0x85#8) by decide, show ¬ ((0x89#8 : Byte) = 0xf7#8) by decide, or_self, put]

theorem exec8b (rex : Byte) (hr : opSize 0#8 rex = 8) (x : BitVec 4) (a : BitVec 64) (s : St) (q : Option (BitVec 64)) :
    execRM 0#8 rex 0 0x8b#8 x (some (.mem a)) q 0#64 s = some (s.set x (rd s.m a 8)) := by
  simp only [execRM, hr, show ¬ ((0x8b#8 : Byte) = 0x8d#8) by decide, and_false, if_false, Option.bind_some, if_true,
    show ¬ (fld 0x8b#8 6 2 = 0#2) by decide, false_and, show ¬ ((0x8b#8 : Byte) = 0x81#8) by decide, show ¬ ((0x8b#8 : Byte) = 0x83#8) by decide,
    show ¬ ((0x8b#8 : Byte) = 0x85#8) by decide, show ¬ ((0x8b#8 : Byte) = 0xf7#8) by decide, show ¬ ((0x8b#8 : Byte) = 0x89#8) by decide, or_self, put, get]
  simp [and_ones]

theorem mvOne {win store : Bool} {s : St} {r b o : Nat} {w : BitVec 64} (hok : OpdOk win (.mem b o w)) (hl : long (.mem b o w) = false) :
    Emits (if store then emitMov win false (.mem b o w) (.reg r) else emitMov win false (.reg r) (.mem b o w)) s (xfer win store s r (ea win s b o w)) := by
  cases store
  · obtain ⟨bs, h⟩ := ins_some (win := win) (m32 := false) (fl := {}) rfl r (b := .mem b o w) rfl [0x8b#8]
    refine ⟨bs, ?_, ins_reg h hok mov_flds.2.1 mov_flds.2.2.2 ?_⟩
    · rw [if_neg (by decide)]; exact h
    · rw [clob_id hl]; exact exec8b _ (rexOf_size false) _ _ _ _
  · obtain ⟨bs, h⟩ := ins_some (win := win) (m32 := false) (fl := {}) rfl r (b := .mem b o w) rfl [0x89#8]
    refine ⟨bs, ?_, ins_reg h hok mov_flds.1 mov_flds.2.2.1 ?_⟩
    · rw [if_pos rfl]; exact h
    · rw [clob_id hl]; exact exec89 _ (rexOf_size false) _ _ _ _

theorem modrm44 : ∀ x : BitVec 3, 0x44#8 ||| x.setWidth 8 <<< 3 = mk 1#2 x 4#3 := by decide
theorem sib_swap (i r : BitVec 3) (sc : BitVec 2) : sc.setWidth 8 <<< 6 ||| i.setWidth 8 <<< 3 ||| r.setWidth 8 = mk sc i r := by revert i r sc; decide

theorem rexW_tab : ∀ a b c : Bool, ∀ rex, rex = (0x48#8 ||| (if a then 0x04#8 else 0#8) ||| (if b then 0x01#8 else 0#8) ||| (if c then 0x02#8 else 0#8) : Byte) →
    rex.getLsbD 2 = a ∧ rex.getLsbD 0 = b ∧ rex.getLsbD 1 = c ∧ opSize 0#8 rex = 8 ∧ fld rex 4 4 = 4#4 ∧ ¬ (rex = 0x66#8 ∨ rex = 0xf2#8 ∨ rex = 0xf3#8) := by
  intro a b c rex h; subst h; revert a b c; decide

theorem idxOne {win store : Bool} {s : St} {r b o : Nat} {w : BitVec 64} (hw : w.toNat < 4) (ho : num win o ≠ 4#4) (ho0 : o ≠ 0) (hb0 : b ≠ 0) :
    Emits (some (pairIdx win store r b o w)) s (xfer win store s r (ea win s b o w + 8#64)) := by
  refine ⟨_, rfl, ?_⟩
  unfold pairIdx
  simp only [high_if, lmap_eq, modrm44, scale_eq, sib_swap]
  obtain ⟨h2, h0, h1, h3, h4, h5⟩ := rexW_tab (high win r) (high win b) (high win o) _ rfl
  generalize (0x48#8 ||| (if high win r = true then 0x04#8 else 0#8) ||| (if high win b = true then 0x01#8 else 0#8) ||| (if high win o = true then 0x02#8 else 0#8) : Byte) = rex at *
  have hp : ∀ op : Byte, op = 0x89#8 ∨ op = 0x8b#8 → ∀ rest, parse (rex :: op :: mk 1#2 (low win r) 4#3 :: mk (w.setWidth 2) (low win o) (low win b) :: 8#8 :: rest) =
      some (.rm 0#8 rex 0 op (num win r) (.mem (some (num win b)) (some (num win o, w.setWidth 2)) 8#64) 0#64, rest) := by
    intro op hop rest
    have e := parse_s1 (rex := rex) (x := low win r) (i := low win o) (r := low win b) (sc := w.setWidth 2) (rest := rest) 8#64
    rw [show toLe 1 8#64 = [8#8] by decide, show sext 1 8#64 = 8#64 by decide, h2, h0, sibIndex, h1, ← num_eq, ← num_eq, ← num_eq, if_neg ho] at e
    simp only [List.singleton_append] at e
    rcases hop with rfl | rfl <;>
      simp [parse, parseRex, parseMap, parseOp, h4, h5, e, sle', immSize, shortSize, show fld (0x89#8) 6 2 = 2#2 by decide, show fld (0x8b#8) 6 2 = 2#2 by decide,
        show ¬ fld (0x89#8) 3 5 = 23#5 by decide, show ¬ fld (0x89#8) 4 4 = 5#4 by decide, show ¬ fld (0x8b#8) 3 5 = 23#5 by decide, show ¬ fld (0x8b#8) 4 4 = 5#4 by decide, le, show sext 0 0#64 = 0#64 by decide]
  have hl : loc s (.mem (some (num win b)) (some (num win o, w.setWidth 2)) 8#64) = some (.mem (ea win s b o w + 8#64)) := by
    have : (w.setWidth 2).toNat = w.toNat := by rw [BitVec.toNat_setWidth]; omega
    simp only [loc, Option.elim_some, this, ea, ho0, hb0, if_false]
  cases store
  · refine Steps.one _ (fun rest => hp _ (Or.inr rfl) rest) ?_
    simp only [exec, hl]
    exact exec8b rex h3 _ _ _ _
  · refine Steps.one _ (fun rest => hp _ (Or.inl rfl) rest) ?_
    simp only [exec, hl]
    exact exec89 rex h3 _ _ _ _

theorem oneRun {win store sec : Bool} {s : St} {r b o : Nat} {w : BitVec 64} (hb : b ≠ 0) (h0 : o = 0 → isHalf w = true) (h1 : o ≠ 0 → w.toNat < 4 ∧ num win o ≠ 4#4) :
    Emits (pairOne win store sec r b o w) s (xfer win store s r (ea win s b o w + if o ≠ 0 ∧ sec = true then 8#64 else 0#64)) := by
  unfold pairOne
  by_cases h : o ≠ 0 ∧ sec = true
  · rw [if_pos h, if_pos h]
    exact idxOne (h1 h.1).1 (h1 h.1).2 h.1 hb
  · rw [if_neg h, if_neg h, BitVec.add_zero]
    refine mvOne ⟨fun ho => ⟨hb, h1 ho⟩, fun ho _ e => ?_⟩ ?_
    · rw [h0 ho] at e; cases e
    · by_cases ho : o = 0
      · simp [long, h0 ho]
      · simp [long, ho]

theorem ea_xfer {win store : Bool} {s : St} {r b o : Nat} {w a : BitVec 64} (h : store = false → num win r ≠ num win b ∧ (o ≠ 0 → num win r ≠ num win o)) :
    ea win (xfer win store s r a) b o w = ea win s b o w := by
  cases store
  · obtain ⟨h1, h2⟩ := h rfl
    unfold ea xfer
    by_cases ho : o = 0
    · simp [ho, St.set, h1.symm]
    · simp [ho, St.set, h1.symm, (h2 ho).symm]
  · rfl

/-- The two words are transferred in either order. -/
def xfer2 (win store rev : Bool) (s : St) (r1 r2 : Nat) (a : BitVec 64) : St :=
  if rev then xfer win store (xfer win store s r2 (a + 8#64)) r1 a else xfer win store (xfer win store s r1 a) r2 (a + 8#64)

theorem loopRun {win store rev : Bool} {s : St} {r1 r2 b o : Nat} {w a : BitVec 64} (hb : b ≠ 0) (h1 : o ≠ 0 → w.toNat < 4 ∧ num win o ≠ 4#4 ∧ ea win s b o w = a)
    (h0 : o = 0 → isHalf w = true ∧ isHalf (if rev then w - 8#64 else w + 8#64) = true ∧ ea win s b 0 w = if rev then a + 8#64 else a)
    (hf : store = false → num win (if rev then r2 else r1) ≠ num win b ∧ (o ≠ 0 → num win (if rev then r2 else r1) ≠ num win o)) :
    Emits (pairLoop win store rev r1 r2 b o w) s (xfer2 win store rev s r1 r2 a) := by
  have z : ∀ {x y : BitVec 64}, ea win s b 0 (x + y) = ea win s b 0 x + y := by
    intro x y; unfold ea; simp [BitVec.add_assoc]
  cases rev
  · simp only [pairLoop, xfer2, Bool.false_eq_true, if_false]
    simp only [Bool.false_eq_true, if_false] at h0 hf
    by_cases ho : o = 0
    · subst ho
      rw [if_pos rfl]
      obtain ⟨g1, g2, g3⟩ := h0 rfl
      have e1 := oneRun (win := win) (store := store) (sec := false) (s := s) (r := r1) (b := b) (o := 0) (w := w) hb (fun _ => g1) (fun h => absurd rfl h)
      have e2 := oneRun (win := win) (store := store) (sec := true) (s := xfer win store s r1 a) (r := r2) (b := b) (o := 0) (w := w + 8#64) hb (fun _ => g2) (fun h => absurd rfl h)
      rw [if_neg (by simp), BitVec.add_zero] at e1 e2
      rw [g3] at e1
      rw [ea_xfer hf, z, g3] at e2
      exact e1.cat e2
    · obtain ⟨g1, g2, g3⟩ := h1 ho
      have e1 := oneRun (win := win) (store := store) (sec := false) (s := s) (r := r1) (b := b) (o := o) (w := w) hb (fun h => absurd h ho) (fun _ => ⟨g1, g2⟩)
      have e2 := oneRun (win := win) (store := store) (sec := true) (s := xfer win store s r1 a) (r := r2) (b := b) (o := o) (w := w) hb (fun h => absurd h ho) (fun _ => ⟨g1, g2⟩)
      rw [if_neg (by simp), BitVec.add_zero, g3] at e1
      rw [if_pos ⟨ho, rfl⟩, ea_xfer hf, g3] at e2
      rw [if_neg ho]
      exact e1.cat e2
  · simp only [pairLoop, xfer2, if_true]
    simp only [if_true] at h0 hf
    by_cases ho : o = 0
    · subst ho
      rw [if_pos rfl]
      obtain ⟨g1, g2, g3⟩ := h0 rfl
      have e1 := oneRun (win := win) (store := store) (sec := true) (s := s) (r := r2) (b := b) (o := 0) (w := w) hb (fun _ => g1) (fun h => absurd rfl h)
      have e2 := oneRun (win := win) (store := store) (sec := false) (s := xfer win store s r2 (a + 8#64)) (r := r1) (b := b) (o := 0) (w := w - 8#64) hb (fun _ => g2) (fun h => absurd rfl h)
      rw [if_neg (by simp), BitVec.add_zero] at e1 e2
      rw [g3] at e1
      rw [ea_xfer hf, BitVec.sub_eq_add_neg, z, g3, BitVec.add_assoc, show (8#64 + -8#64 : BitVec 64) = 0#64 by decide, BitVec.add_zero, ← BitVec.sub_eq_add_neg] at e2
      exact e1.cat e2
    · obtain ⟨g1, g2, g3⟩ := h1 ho
      have e1 := oneRun (win := win) (store := store) (sec := true) (s := s) (r := r2) (b := b) (o := o) (w := w) hb (fun h => absurd h ho) (fun _ => ⟨g1, g2⟩)
      have e2 := oneRun (win := win) (store := store) (sec := false) (s := xfer win store s r2 (a + 8#64)) (r := r1) (b := b) (o := o) (w := w) hb (fun h => absurd h ho) (fun _ => ⟨g1, g2⟩)
      rw [if_pos ⟨ho, rfl⟩, g3] at e1
      rw [if_neg (by simp), BitVec.add_zero, ea_xfer hf, g3] at e2
      rw [if_neg ho]
      exact e1.cat e2

/-! ## The whole transfer -/

/-- TMP_REG1 gets a value. -/
structure Pre (win : Bool) (s t : St) (v : BitVec 64) : Prop where
  regs : ∀ q, q ≠ num win TMP_REG1 → t.r q = s.r q
  val : t.r (num win TMP_REG1) = v
  mem : t.m = s.m
  flags : t.f = s.f

theorem preMov {win : Bool} {s : St} {src : Opd} (hs : Good src) (hl : long src = false) :
    ∃ t, Emits (emitMov win false (.reg TMP_REG1) src) s t ∧ Pre win s t (opv win false s src) := by
  obtain ⟨t, h1, h2, h3⟩ := e_mov (win := win) (m32 := false) (s := s) (dst := .reg TMP_REG1) (src := src) (show 1 ≤ TMP_REG1 ∧ TMP_REG1 ≤ 16 ∧ TMP_REG1 ≠ 14 by decide) rfl hs (fun h => by cases h)
  refine ⟨t, h1, ⟨fun q hq => h2.regs q (fun d hd => ?_) (fun h => absurd h hq) (fun _ => ?_), ?_, h2.mem, h3⟩⟩
  · cases hd; exact hq
  · rw [hl]; rfl
  · rw [h2.val _ rfl]; rfl

/-- The state after the transfer of a pair. -/
structure PairEnd (win store : Bool) (s t : St) (r1 r2 : Nat) (a : BitVec 64) : Prop where
  regs : ∀ q, q ≠ num win TMP_REG1 → (store = false → q ≠ num win r1 ∧ q ≠ num win r2) → t.r q = s.r q
  load : store = false → t.r (num win r1) = rd s.m a 8 ∧ t.r (num win r2) = rd s.m (a + 8#64) 8
  mem : t.m = if store then wr (wr s.m a 8 (s.r (num win r1))) (a + 8#64) 8 (s.r (num win r2)) else s.m
  flags : t.f = s.f

theorem end_xfer2 {win store rev : Bool} {s t : St} {r1 r2 : Nat} {a : BitVec 64} (hr : num win r1 ≠ num win r2) (h1 : num win r1 ≠ num win TMP_REG1) (h2 : num win r2 ≠ num win TMP_REG1)
    (hv : store = true → rev = false) (hp : ∀ q, q ≠ num win TMP_REG1 → t.r q = s.r q) (hm : t.m = s.m) (hf : t.f = s.f) :
    PairEnd win store s (xfer2 win store rev t r1 r2 a) r1 r2 a := by
  cases store
  · have k : ∀ q, q ≠ num win TMP_REG1 → (false = false → q ≠ num win r1 ∧ q ≠ num win r2) → (xfer2 win false rev t r1 r2 a).r q = s.r q := by
      intro q hq h
      obtain ⟨n1, n2⟩ := h rfl
      cases rev <;> simp [xfer2, xfer, St.set, n1, n2, hp q hq]
    refine ⟨k, fun _ => ?_, ?_, ?_⟩
    · cases rev <;> simp [xfer2, xfer, St.set, hr, hr.symm, hm]
    · cases rev <;> simp [xfer2, xfer, St.set, hm]
    · cases rev <;> simp [xfer2, xfer, St.set, hf]
  · rw [hv rfl]
    exact ⟨fun q hq _ => hp q hq, fun h => (by cases h), by simp [xfer2, xfer, hm, hp _ h1, hp _ h2], hf⟩

/-- Operands of `pairOrder`: the registers of the pair are registers of the user, the base and the index may be TMP_REG1 (one of them). -/
structure PairOpd (r1 r2 b o : Nat) (w : BitVec 64) : Prop where
  p1 : 1 ≤ r1 ∧ r1 ≤ 13
  p2 : 1 ≤ r2 ∧ r2 ≤ 13
  ne : r1 ≠ r2
  base : 1 ≤ b ∧ b ≤ 15
  offs : o ≤ 13 ∨ o = 15
  one : b = 15 → o = 0
  shift : o ≠ 0 → w.toNat < 4
  disp : o = 0 → isHalf w = true ∧ isHalf (w + 8#64) = true

theorem num_sp4 {win : Bool} {o : Nat} (h1 : 1 ≤ o) (h2 : o ≤ 13 ∨ o = 15) : num win o ≠ 4#4 := by
  have : ∀ o : Fin 16, 1 ≤ o.val → (o.val ≤ 13 ∨ o.val = 15) → num false o.val ≠ 4#4 ∧ num true o.val ≠ 4#4 := by decide
  obtain ⟨a, b⟩ := this ⟨o, by omega⟩ h1 h2
  cases win
  · exact a
  · exact b

theorem orderRun {win store : Bool} {s : St} {r1 r2 b o : Nat} {w : BitVec 64} (h : PairOpd r1 r2 b o w) :
    ∃ t rev, Emits (pairOrder win store r1 r2 b o w) s (xfer2 win store rev t r1 r2 (ea win s b o w)) ∧ (store = true → rev = false) ∧
      (∀ q, q ≠ num win TMP_REG1 → t.r q = s.r q) ∧ t.m = s.m ∧ t.f = s.f := by
  obtain ⟨p1, p2, ne, hb, hof, one, sh, disp⟩ := h
  have N : ∀ {x y : Nat}, 1 ≤ x → x ≤ 16 → 1 ≤ y → y ≤ 16 → x ≠ y → num win x ≠ num win y := fun a1 a2 a3 a4 a5 => num_ne a1 a2 a3 a4 a5
  have g1 : o ≠ 0 → w.toNat < 4 ∧ num win o ≠ 4#4 ∧ ea win s b o w = ea win s b o w := fun ho => ⟨sh ho, num_sp4 (by omega) hof, rfl⟩
  unfold pairOrder
  by_cases hx : store = false ∧ (r1 = b ∨ r1 = o)
  · rw [if_pos hx]
    by_cases hy : r2 = b ∨ r2 = o
    · rw [if_pos hy]
      have ho : o ≠ 0 := by omega
      have hob : o ≠ b := by omega
      have ho15 : o ≤ 13 := by omega
      have hb15 : b ≤ 13 := by omega
      obtain ⟨t, e1, e2⟩ := preMov (win := win) (s := s) (src := .reg o) ⟨by omega, by omega, by omega⟩ rfl
      have ev : opv win false s (.reg o) = s.r (num win o) := rfl
      rw [ev] at e2
      have hea : ea win t b TMP_REG1 w = ea win s b o w := by
        unfold ea
        rw [if_neg (by omega), if_neg (by decide), if_neg (by omega), if_neg ho, e2.val, e2.regs _ (N (by omega) (by omega) (by decide) (by decide) (by unfold TMP_REG1; omega))]
      refine ⟨t, decide (r2 = o), e1.cat (loopRun (by omega) (fun _ => ⟨sh ho, num_sp4 (by decide) (Or.inr rfl), hea⟩) (fun hh => by cases hh) (fun _ => ?_)), (fun hs => by rw [hx.1] at hs; cases hs), e2.regs, e2.mem, e2.flags⟩
      by_cases hr : r2 = o
      · simp only [hr, decide_true, if_true]
        exact ⟨N (by omega) (by omega) (by omega) (by omega) hob, fun _ => N (by omega) (by omega) (by decide) (by decide) (by unfold TMP_REG1; omega)⟩
      · simp only [hr, decide_false, Bool.false_eq_true, if_false]
        exact ⟨N (by omega) (by omega) (by omega) (by omega) (by omega), fun _ => N (by omega) (by omega) (by decide) (by decide) (by unfold TMP_REG1; omega)⟩
    · rw [if_neg hy]
      refine ⟨s, true, loopRun (by omega) (fun ho => by rw [if_neg ho]; exact g1 ho) (fun ho => ?_) (fun _ => ?_), (fun hs => by rw [hx.1] at hs; cases hs), fun _ _ => rfl, rfl, rfl⟩
      · subst ho
        simp only [if_true]
        refine ⟨(disp rfl).2, by rw [BitVec.add_sub_cancel]; exact (disp rfl).1, ?_⟩
        unfold ea; simp [BitVec.add_assoc]
      · simp only [if_true]
        exact ⟨N (by omega) (by omega) (by omega) (by omega) (by omega), fun _ => N (by omega) (by omega) (by omega) (by omega) (by omega)⟩
  · rw [if_neg hx]
    refine ⟨s, false, loopRun (by omega) g1 (fun ho => ?_) (fun hs => ?_), fun _ => rfl, fun _ _ => rfl, rfl, rfl⟩
    · subst ho
      simp only [Bool.false_eq_true, if_false]
      exact ⟨(disp rfl).1, (disp rfl).2, trivial⟩
    · simp only [Bool.false_eq_true, if_false]
      exact ⟨N (by omega) (by omega) (by omega) (by omega) (by tauto), fun _ => N (by omega) (by omega) (by omega) (by omega) (by tauto)⟩

theorem disp_ok {w : BitVec 64} (h : ¬ (w.slt (-0x80000000#64) = true ∨ (0x7ffffff7#64).slt w = true)) : isHalf w = true ∧ isHalf (w + 8#64) = true := by
  simp only [isHalf, BitVec.slt, BitVec.sle, Bool.and_eq_true, decide_eq_true_eq, not_or, not_lt] at h ⊢
  rw [show (-0x80000000#64 : BitVec 64).toInt = -2147483648 by decide, show (0x7ffffff7#64 : BitVec 64).toInt = 2147483639 by decide] at h
  rw [show (-0x80000000#64 : BitVec 64).toInt = -2147483648 by decide, show (0x7fffffff#64 : BitVec 64).toInt = 2147483647 by decide]
  have : (w + 8#64).toInt = w.toInt + 8 := by
    rw [BitVec.toInt_add, show (8#64 : BitVec 64).toInt = 8 by decide]
    exact Int.bmod_eq_of_le (by omega) (by omega)
  omega

/-- Both words are transferred, for all pairs and addresses. -/
theorem emitPair_run {win store : Bool} {s : St} {r1 r2 b o : Nat} {w : BitVec 64} (p1 : 1 ≤ r1 ∧ r1 ≤ 13) (p2 : 1 ≤ r2 ∧ r2 ≤ 13) (ne : r1 ≠ r2) (hb : b ≤ 14) (ho : o ≤ 13)
    (hs : o ≠ 0 → b ≠ 0 ∧ w.toNat < 4) :
    ∃ t, Emits (emitPair win store r1 r2 b o w) s t ∧ PairEnd win store s t r1 r2 (ea win s b o w) := by
  have N : ∀ {x y : Nat}, 1 ≤ x → x ≤ 16 → 1 ≤ y → y ≤ 16 → x ≠ y → num win x ≠ num win y := fun a1 a2 a3 a4 a5 => num_ne a1 a2 a3 a4 a5
  have n1 : num win r1 ≠ num win TMP_REG1 := N (by omega) (by omega) (by decide) (by decide) (by unfold TMP_REG1; omega)
  have n2 : num win r2 ≠ num win TMP_REG1 := N (by omega) (by omega) (by decide) (by decide) (by unfold TMP_REG1; omega)
  have n12 : num win r1 ≠ num win r2 := N (by omega) (by omega) (by omega) (by omega) ne
  unfold emitPair
  by_cases hb0 : b = 0
  · have ho0 : o = 0 := by by_contra hc; exact (hs hc).1 hb0
    subst hb0 ho0
    rw [if_pos rfl]
    obtain ⟨t, e1, e2⟩ := preMov (win := win) (s := s) (src := .imm w) trivial rfl
    obtain ⟨u, rev, k1, k2, k3, k4, k5⟩ := orderRun (win := win) (store := store) (s := t) (r1 := r1) (r2 := r2) (b := TMP_REG1) (o := 0) (w := 0#64)
      ⟨p1, p2, ne, by decide, by decide, fun _ => rfl, fun h => absurd rfl h, fun _ => by decide⟩
    have hea : ea win t TMP_REG1 0 0#64 = ea win s 0 0 w := by
      unfold ea
      rw [if_neg (by decide), if_pos rfl, if_pos rfl, if_pos rfl, e2.val, BitVec.add_zero, BitVec.zero_add]; rfl
    rw [hea] at k1
    exact ⟨_, e1.cat k1, end_xfer2 n12 n1 n2 k2 (fun q hq => (k3 q hq).trans (e2.regs q hq)) (k4.trans e2.mem) (k5.trans e2.flags)⟩
  · rw [if_neg hb0]
    by_cases hl : o = 0 ∧ (w.slt (-0x80000000#64) = true ∨ (0x7ffffff7#64).slt w = true)
    · rw [if_pos hl]
      obtain ⟨rfl, -⟩ := hl
      obtain ⟨t, e1, e2⟩ := preMov (win := win) (s := s) (src := .imm w) trivial rfl
      obtain ⟨u, rev, k1, k2, k3, k4, k5⟩ := orderRun (win := win) (store := store) (s := t) (r1 := r1) (r2 := r2) (b := b) (o := TMP_REG1) (w := 0#64)
        ⟨p1, p2, ne, by omega, Or.inr rfl, fun h => by omega, fun _ => by decide, fun h => by cases h⟩
      have hea : ea win t b TMP_REG1 0#64 = ea win s b 0 w := by
        unfold ea
        rw [if_neg hb0, if_neg (by decide), if_neg hb0, if_pos rfl, e2.val, e2.regs _ (N (by omega) (by omega) (by decide) (by decide) (by unfold TMP_REG1; omega))]
        simp [opv, trunc]
      rw [hea] at k1
      exact ⟨_, e1.cat k1, end_xfer2 n12 n1 n2 k2 (fun q hq => (k3 q hq).trans (e2.regs q hq)) (k4.trans e2.mem) (k5.trans e2.flags)⟩
    · rw [if_neg hl]
      obtain ⟨u, rev, k1, k2, k3, k4, k5⟩ := orderRun (win := win) (store := store) (s := s) (r1 := r1) (r2 := r2) (b := b) (o := o) (w := w)
        ⟨p1, p2, ne, by omega, Or.inl ho, fun h => by omega, fun h => (hs h).2, fun h => disp_ok fun hc => hl ⟨h, hc⟩⟩
      exact ⟨_, k1, end_xfer2 n12 n1 n2 k2 k3 k4 k5⟩

end Verif.X86
