import Verif.X86.Emit
import Verif.Imm.Bits

/-! # emit_x86_instruction and the decoder (helper lemmas) -/

namespace Verif.X86
open Verif.Imm (bits_sle)

/-! ## Registers -/

theorem map_table : ∀ (win : Bool) (r : Fin 17), regLmap win r.val = ((regMap win r.val).setWidth 3).setWidth 8 ∧
    (regMap win r.val).setWidth 4 = ext (decide (regMap win r.val ≥ 8#8)) ((regMap win r.val).setWidth 3) := by decide

theorem map_big {win : Bool} {r : Nat} (h : 17 ≤ r) : regMap win r = 0#8 ∧ regLmap win r = 0#8 := by
  unfold regMap regLmap
  cases win <;> (constructor <;> simp only [Bool.false_eq_true, if_false, if_true, List.getD_eq_getElem?_getD] <;>
    rw [List.getElem?_eq_none (by simpa using h)] <;> rfl)

/-- The lowest three bits of a register number. -/
def low (win : Bool) (r : Nat) : BitVec 3 := (regMap win r).setWidth 3
/-- Its highest bit. -/
def high (win : Bool) (r : Nat) : Bool := decide (regMap win r ≥ 8#8)

theorem lmap_eq (win : Bool) (r : Nat) : regLmap win r = (low win r).setWidth 8 := by
  by_cases h : r < 17
  · exact (map_table win ⟨r, h⟩).1
  · obtain ⟨h1, h2⟩ := map_big (win := win) (r := r) (by omega)
    rw [low, h1, h2]; decide

theorem num_eq (win : Bool) (r : Nat) : num win r = ext (high win r) (low win r) := by
  by_cases h : r < 17
  · exact (map_table win ⟨r, h⟩).2
  · obtain ⟨h1, h2⟩ := map_big (win := win) (r := r) (by omega)
    rw [num, high, low, h1]; decide

theorem lmap_ne (win : Bool) (r : Nat) (k : BitVec 3) : regLmap win r = k.setWidth 8 ↔ low win r = k := by
  rw [lmap_eq]
  constructor
  · intro h
    have := congrArg (fun v => v.setWidth 3) h
    simpa using this
  · intro h; rw [h]

theorem lmap5 (win : Bool) (r : Nat) : regLmap win r = 5#8 ↔ low win r = 5#3 := lmap_ne win r 5#3
theorem lmap4 (win : Bool) (r : Nat) : regLmap win r = 4#8 ↔ low win r = 4#3 := lmap_ne win r 4#3

/-! ## Bytes -/

/-- The n lowest bytes. -/
def lowB (n : Nat) (v : BitVec 64) : BitVec 64 := v &&& ~~~(BitVec.allOnes 64 <<< (8 * n))

theorem lowB_bit (n : Nat) (v : BitVec 64) (k : Nat) : (lowB n v).getLsbD k = (decide (k < 8 * n) && v.getLsbD k) := by
  unfold lowB
  by_cases hk : k < 64
  · rw [BitVec.getLsbD_and, BitVec.getLsbD_not, BitVec.getLsbD_shiftLeft, BitVec.getLsbD_allOnes]
    by_cases h8 : k < 8 * n
    · simp [hk, h8, -BitVec.getLsbD_eq_getElem]
    · simp [hk, h8, show k - 8 * n < 64 by omega, -BitVec.getLsbD_eq_getElem]
  · rw [BitVec.getLsbD_of_ge _ _ (by omega), BitVec.getLsbD_of_ge v _ (by omega)]; simp

theorem le_toLe (n : Nat) (v : BitVec 64) (rest : List Byte) : le n (toLe n v ++ rest) = some (lowB n v, rest) := by
  induction n generalizing v with
  | zero =>
    simp only [le, toLe, List.nil_append]
    congr 2
    apply BitVec.eq_of_getLsbD_eq
    intro k hk
    rw [lowB_bit]; simp
  | succ n ih =>
    simp only [le, toLe, List.cons_append, ih, Option.map_some]
    congr 2
    apply BitVec.eq_of_getLsbD_eq
    intro k hk
    rw [BitVec.getLsbD_or, BitVec.getLsbD_shiftLeft, lowB_bit, lowB_bit, BitVec.getLsbD_ushiftRight]
    simp only [BitVec.getLsbD_setWidth]
    by_cases h8 : k < 8
    · simp [h8, hk, -BitVec.getLsbD_eq_getElem]
      omega
    · have e : 8 + (k - 8) = k := by omega
      have e2 : (k - 8 < 8 * n) ↔ (k < 8 * (n + 1)) := by omega
      simp only [h8, hk, e, e2, decide_true, decide_false, Bool.false_and, Bool.and_false, Bool.false_or, Bool.true_and, Bool.not_false]

theorem toLe_length (n : Nat) (v : BitVec 64) : (toLe n v).length = n := by
  induction n generalizing v with
  | zero => rfl
  | succ n ih => simp [toLe, ih]

theorem sext_bit {n : Nat} (h0 : 0 < n) (hn : n ≤ 8) (v : BitVec 64) {k : Nat} (hk : k < 64) :
    (sext n v).getLsbD k = v.getLsbD (if k < 8 * n then k else 8 * n - 1) := by
  unfold sext
  rw [BitVec.getLsbD_sshiftRight]
  simp only [show ¬ (64 ≤ k) by omega, decide_false, Bool.not_false, Bool.true_and]
  by_cases h : k < 8 * n
  · rw [if_pos (by omega), if_pos h, BitVec.getLsbD_shiftLeft]
    have e : 64 - 8 * n + k - (64 - 8 * n) = k := by omega
    simp only [show 64 - 8 * n + k < 64 by omega, show ¬ (64 - 8 * n + k < 64 - 8 * n) by omega, e, decide_true, decide_false, Bool.not_false, Bool.true_and]
  · rw [if_neg (by omega), if_neg h, BitVec.msb_eq_getLsbD_last, BitVec.getLsbD_shiftLeft]
    have e : 64 - 1 - (64 - 8 * n) = 8 * n - 1 := by omega
    simp only [show 64 - 1 < 64 by omega, show ¬ (64 - 1 < 64 - 8 * n) by omega, e, decide_true, decide_false, Bool.not_false, Bool.true_and]

theorem sext_low {n : Nat} (h0 : 0 < n) (hn : n ≤ 8) (v : BitVec 64) : sext n (lowB n v) = sext n v := by
  apply BitVec.eq_of_getLsbD_eq
  intro k hk
  rw [sext_bit h0 hn _ hk, sext_bit h0 hn _ hk, lowB_bit]
  split
  next h => simp [h]
  next h => simp; omega

theorem sle_toLe {n : Nat} (h0 : 0 < n) (hn : n ≤ 8) (v : BitVec 64) (rest : List Byte) : sle' n (toLe n v ++ rest) = some (sext n v, rest) := by
  simp only [sle', le_toLe, Option.map_some, sext_low h0 hn]

theorem sle_zero (bs : List Byte) : sle' 0 bs = some (0#64, bs) := by
  simp only [sle', le, Option.map_some]
  rfl

theorem sext_half {v : BitVec 64} (h : isHalf v = true) : sext 4 v = v := by
  apply BitVec.eq_of_getLsbD_eq
  intro k hk
  have hb := bits_sle (x := v) (hi := 0x7fffffff#64) (lo := -0x80000000#64) (by simpa [isHalf] using h) 31
  rw [sext_bit (by decide) (by decide) _ hk]
  split
  next => rfl
  next h => rw [hb k (by omega) hk, hb 31 (by omega) (by omega)]

theorem sext_byte {v : BitVec 64} (h : isByte v = true) : sext 1 v = v := by
  apply BitVec.eq_of_getLsbD_eq
  intro k hk
  have hb := bits_sle (x := v) (hi := 127#64) (lo := -128#64) (by simpa [isByte] using h) 7
  rw [sext_bit (by decide) (by decide) _ hk]
  split
  next => rfl
  next h => rw [hb k (by omega) hk, hb 7 (by omega) (by omega)]

theorem sext8 (v : BitVec 64) : sext 8 v = v := by
  apply BitVec.eq_of_getLsbD_eq
  intro k hk
  rw [sext_bit (by decide) (by decide) _ hk, if_pos (by omega)]

/-! ## ModRM and SIB -/

/-- A byte of three fields. -/
def mk (md : BitVec 2) (x r : BitVec 3) : Byte := md.setWidth 8 <<< 6 ||| x.setWidth 8 <<< 3 ||| r.setWidth 8

theorem fld_mk (md : BitVec 2) (x r : BitVec 3) : fld (mk md x r) 6 2 = md ∧ fld (mk md x r) 3 3 = x ∧ fld (mk md x r) 0 3 = r := by
  revert md x r; decide

theorem rm_reg (x r : BitVec 3) : x.setWidth 8 <<< 3 ||| (0xc0#8 ||| r.setWidth 8) = mk 3#2 x r := by revert x r; decide
theorem rm_mem0 (x r : BitVec 3) : x.setWidth 8 <<< 3 ||| (0#8 ||| r.setWidth 8) = mk 0#2 x r := by revert x r; decide
theorem rm_mem1 (x r : BitVec 3) : x.setWidth 8 <<< 3 ||| (0x40#8 ||| r.setWidth 8) = mk 1#2 x r := by revert x r; decide
theorem rm_mem2 (x r : BitVec 3) : x.setWidth 8 <<< 3 ||| (0x80#8 ||| r.setWidth 8) = mk 2#2 x r := by revert x r; decide
theorem sib0 (x : BitVec 3) : mk 0#2 x 4#3 = x.setWidth 8 <<< 3 ||| 0x04#8 := by revert x; decide
theorem sib0' (x : BitVec 3) : mk 0#2 x 4#3 = x.setWidth 8 <<< 3 ||| (0#8 ||| 0x04#8) := by revert x; decide
theorem sib1 (x : BitVec 3) : mk 1#2 x 4#3 = x.setWidth 8 <<< 3 ||| (0x40#8 ||| 0x04#8) := by revert x; decide
theorem sib2 (x : BitVec 3) : mk 2#2 x 4#3 = x.setWidth 8 <<< 3 ||| (0x80#8 ||| 0x04#8) := by revert x; decide
theorem sib_eq (i r : BitVec 3) (sc : BitVec 2) : r.setWidth 8 ||| i.setWidth 8 <<< 3 ||| sc.setWidth 8 <<< 6 = mk sc i r := by revert i r sc; decide
theorem sib_eq0 (i r : BitVec 3) : r.setWidth 8 ||| i.setWidth 8 <<< 3 = mk 0#2 i r := by revert i r; decide

theorem scale_eq {w : BitVec 64} : w.setWidth 8 <<< 6 = (w.setWidth 2).setWidth 8 <<< 6 := by
  apply BitVec.eq_of_getLsbD_eq
  intro k hk
  interval_cases k <;> simp [-BitVec.getLsbD_eq_getElem, -BitVec.setWidth_eq]

/-! ### The forms of a memory operand -/

variable {rex : Byte} {x r i : BitVec 3} {rest : List Byte}

theorem parse_reg : parseRM rex (mk 3#2 x r :: rest) = some (ext (rex.getLsbD 2) x, .reg (ext (rex.getLsbD 0) r), rest) := by
  obtain ⟨h1, h2, h3⟩ := fld_mk 3#2 x r
  simp only [parseRM, h1, h2, h3, if_true]

theorem parse_b0 (h4 : r ≠ 4#3) (h5 : r ≠ 5#3) :
    parseRM rex (mk 0#2 x r :: rest) = some (ext (rex.getLsbD 2) x, .mem (some (ext (rex.getLsbD 0) r)) none 0#64, rest) := by
  obtain ⟨f1, f2, f3⟩ := fld_mk 0#2 x r
  simp only [parseRM, f1, f2, f3, h4, h5, if_false, if_true, show ¬ (0#2 = 3#2) by decide]

theorem parse_b1 (h4 : r ≠ 4#3) (w : BitVec 64) :
    parseRM rex (mk 1#2 x r :: (toLe 1 w ++ rest)) = some (ext (rex.getLsbD 2) x, .mem (some (ext (rex.getLsbD 0) r)) none (sext 1 w), rest) := by
  obtain ⟨f1, f2, f3⟩ := fld_mk 1#2 x r
  simp only [parseRM, f1, f2, f3, h4, if_false, if_true, show ¬ (1#2 = 3#2) by decide, show ¬ (1#2 = 0#2) by decide, sle_toLe (n := 1) (by decide) (by decide),
    Option.map_some]

theorem parse_b4 (h4 : r ≠ 4#3) (w : BitVec 64) :
    parseRM rex (mk 2#2 x r :: (toLe 4 w ++ rest)) = some (ext (rex.getLsbD 2) x, .mem (some (ext (rex.getLsbD 0) r)) none (sext 4 w), rest) := by
  obtain ⟨f1, f2, f3⟩ := fld_mk 2#2 x r
  simp only [parseRM, f1, f2, f3, h4, if_false, show ¬ (2#2 = 3#2) by decide, show ¬ (2#2 = 0#2) by decide, show ¬ (2#2 = 1#2) by decide, sle_toLe (n := 4) (by decide) (by decide),
    Option.map_some]

/-- The index of a SIB byte. -/
def sibIndex (rex : Byte) (i : BitVec 3) (sc : BitVec 2) : Option (BitVec 4 × BitVec 2) :=
  if ext (rex.getLsbD 1) i = 4#4 then none else some (ext (rex.getLsbD 1) i, sc)

theorem parse_s0 {sc : BitVec 2} (h5 : r ≠ 5#3) :
    parseRM rex (mk 0#2 x 4#3 :: mk sc i r :: rest) =
      some (ext (rex.getLsbD 2) x, .mem (some (ext (rex.getLsbD 0) r)) (sibIndex rex i sc) 0#64, rest) := by
  obtain ⟨f1, f2, f3⟩ := fld_mk 0#2 x 4#3
  obtain ⟨g1, g2, g3⟩ := fld_mk sc i r
  simp only [parseRM, f1, f2, f3, g1, g2, g3, h5, if_false, if_true, show ¬ (0#2 = 3#2) by decide, sibIndex]

theorem parse_s1 {sc : BitVec 2} (w : BitVec 64) :
    parseRM rex (mk 1#2 x 4#3 :: mk sc i r :: (toLe 1 w ++ rest)) =
      some (ext (rex.getLsbD 2) x, .mem (some (ext (rex.getLsbD 0) r)) (sibIndex rex i sc) (sext 1 w), rest) := by
  obtain ⟨f1, f2, f3⟩ := fld_mk 1#2 x 4#3
  obtain ⟨g1, g2, g3⟩ := fld_mk sc i r
  simp only [parseRM, f1, f2, f3, g1, g2, g3, if_false, if_true, show ¬ (1#2 = 3#2) by decide, show ¬ (1#2 = 0#2) by decide, sibIndex,
    sle_toLe (n := 1) (by decide) (by decide), Option.map_some]

theorem parse_s4 {sc : BitVec 2} (w : BitVec 64) :
    parseRM rex (mk 2#2 x 4#3 :: mk sc i r :: (toLe 4 w ++ rest)) =
      some (ext (rex.getLsbD 2) x, .mem (some (ext (rex.getLsbD 0) r)) (sibIndex rex i sc) (sext 4 w), rest) := by
  obtain ⟨f1, f2, f3⟩ := fld_mk 2#2 x 4#3
  obtain ⟨g1, g2, g3⟩ := fld_mk sc i r
  simp only [parseRM, f1, f2, f3, g1, g2, g3, if_false, if_true, show ¬ (2#2 = 3#2) by decide, show ¬ (2#2 = 0#2) by decide, show ¬ (2#2 = 1#2) by decide, sibIndex,
    sle_toLe (n := 4) (by decide) (by decide), Option.map_some]

theorem parse_abs (h : rex.getLsbD 1 = false) (w : BitVec 64) :
    parseRM rex (mk 0#2 x 4#3 :: 0x25#8 :: (toLe 4 w ++ rest)) = some (ext (rex.getLsbD 2) x, .mem none none (sext 4 w), rest) := by
  obtain ⟨f1, f2, f3⟩ := fld_mk 0#2 x 4#3
  have g2 : fld 0x25#8 3 3 = 4#3 := by decide
  have g3 : fld 0x25#8 0 3 = 5#3 := by decide
  have g4 : ext false 4#3 = 4#4 := by decide
  simp only [parseRM, f1, f2, f3, g2, g3, g4, h, if_false, if_true, show ¬ (0#2 = 3#2) by decide, sle_toLe (n := 4) (by decide) (by decide), Option.map_some]

/-! ## The general operand -/

/-- The address of a memory operand of sljit: base plus offset, or base plus index shifted left. -/
def ea (win : Bool) (s : St) (base offs : Nat) (w : BitVec 64) : BitVec 64 :=
  (if base = 0 then 0#64 else s.r (num win base)) + (if offs = 0 then w else s.r (num win offs) <<< w.toNat)

/-- Memory operands which need no load of TMP_REG2. -/
def MemOk (win : Bool) (base offs : Nat) (w : BitVec 64) : Prop :=
  (offs ≠ 0 → base ≠ 0 ∧ w.toNat < 4 ∧ num win offs ≠ 4#4) ∧ (offs = 0 → isHalf w = true)

theorem num_sp (win : Bool) : num win SP = 4#4 := by cases win <;> decide

theorem rexB_bits (b x : Bool) : ((if b then REX_B else 0#8) ||| (if x then REX_X else 0#8)).getLsbD 0 = b ∧
    ((if b then REX_B else 0#8) ||| (if x then REX_X else 0#8)).getLsbD 1 = x := by revert b x; decide
theorem rexB_bits' (b : Bool) : (if b then REX_B else 0#8).getLsbD 0 = b ∧ (if b then REX_B else 0#8).getLsbD 1 = false := by revert b; decide

theorem high_if {α : Type} (win : Bool) (r : Nat) (a b : α) : (if regMap win r ≥ 8#8 then a else b) = if high win r then a else b := by
  simp only [high, decide_eq_true_eq]

theorem isByte0 : isByte 0#64 = true := by decide

theorem n45 : ¬ (4#8 : Byte) = 5#8 := by decide
theorem n54 : ¬ (5#8 : Byte) = 4#8 := by decide

theorem mem_parse {win : Bool} {fl : Ins} {base offs : Nat} {w : BitVec 64} (hok : MemOk win base offs w) {n : Nat} {b' : Opd} {rexB : Byte}
    (hs : sizeB win fl (.mem base offs w) = some (n, b', rexB)) (h0 : rex.getLsbD 0 = rexB.getLsbD 0) (h1 : rex.getLsbD 1 = rexB.getLsbD 1)
    (x : BitVec 3) :
    ∃ bb ii d, (∀ rest, parseRM rex ((x.setWidth 8 <<< 3 ||| (encB win fl b').1) :: ((encB win fl b').2 ++ rest)) =
        some (ext (rex.getLsbD 2) x, .mem bb ii d, rest)) ∧ (encB win fl b').2.length = n ∧
      ∀ s, loc s (.mem bb ii d) = some (.mem (ea win s base offs w)) := by
  obtain ⟨hk, hh⟩ := hok
  by_cases hb : base = 0
  · have ho : offs = 0 := by by_contra h; exact (hk h).1 hb
    subst hb ho
    simp only [sizeB, if_true, Option.some.injEq, Prod.mk.injEq] at hs
    obtain ⟨rfl, rfl, rfl⟩ := hs
    refine ⟨none, none, w, ?_, ?_, ?_⟩
    · intro rest
      have e := parse_abs (rex := rex) (x := x) (rest := rest) (by rw [h1]; decide) w
      rw [sext_half (hh rfl), sib0] at e
      simpa only [encB, n45, n54, ne_eq, not_true_eq_false, if_false, List.cons_append] using e
    · simp [encB, toLe_length]
    · intro s; simp [loc, ea]
  by_cases ho : offs = 0
  · subst ho
    have hh := hh rfl
    by_cases h4 : low win base = 4#3
    · have e5 : ¬ regLmap win base = 5#8 := by rw [lmap5, h4]; decide
      have e4 : regLmap win base = 4#8 := (lmap4 win base).2 h4
      have esp : regLmap win SP = (4#3).setWidth 8 := (lmap4 win SP).2 (by cases win <;> decide)
      have hsp : ¬ (SP = 0) := by decide
      have hhi : high win SP = false := by cases win <;> decide
      have hs' : n = (if w = 0#64 then 0 else if isByte w then 1 else 4) + 1 ∧ b' = .mem base SP w ∧
          rexB = (if high win base then REX_B else 0#8) ||| (if false then REX_X else 0#8) := by
        by_cases hw : w = 0#64
        · simp only [sizeB, n45, n54, hb, if_false, e5, e4, and_self, and_true, if_true, high_if, hhi, ne_eq, hsp, not_false_eq_true, hw, not_true_eq_false, Bool.false_eq_true,
            Option.some.injEq, Prod.mk.injEq] at hs
          simp only [hw, if_true, Bool.false_eq_true, if_false]
          exact ⟨hs.1.symm, hs.2.1.symm, hs.2.2.symm⟩
        · simp only [sizeB, n45, n54, hb, if_false, e5, e4, and_self, and_true, if_true, high_if, hhi, ne_eq, hsp, not_false_eq_true, hw, Bool.false_eq_true,
            Option.some.injEq, Prod.mk.injEq] at hs
          simp only [hw, if_false, Bool.false_eq_true]
          exact ⟨hs.1.symm, hs.2.1.symm, hs.2.2.symm⟩
      obtain ⟨rfl, rfl, rfl⟩ := hs'
      obtain ⟨r1, r2⟩ := rexB_bits (high win base) false
      have hix : ∀ sc, sibIndex rex 4#3 sc = none := by
        intro sc
        rw [sibIndex, h1, r2, if_pos (by decide)]
      have hbb : ext (rex.getLsbD 0) 4#3 = num win base := by rw [h0, r1, num_eq, h4]
      have hsib : (4#8 ||| BitVec.setWidth 8 4#3 <<< 3 : Byte) = mk 0#2 4#3 4#3 := by decide
      by_cases hw : w = 0#64
      · clear hs
        subst hw
        refine ⟨some (num win base), none, 0#64, ?_, ?_, ?_⟩
        · intro rest
          have e := parse_s0 (rex := rex) (x := x) (i := 4#3) (r := 4#3) (rest := rest) (sc := 0#2) (by decide)
          rw [hix, hbb, sib0'] at e
          simpa only [encB, n45, n54, hb, ne_eq, not_false_eq_true, if_true, hsp, e5, e4, esp, hsib, false_or, or_self, or_true, not_true_eq_false, if_false, List.cons_append,
            List.nil_append] using e
        · simp [encB, hb, hsp, e5]
        · intro s; simp [loc, ea, hb]
      · refine ⟨some (num win base), none, w, ?_, ?_, ?_⟩
        · intro rest
          by_cases hby : isByte w
          · have e := parse_s1 (rex := rex) (x := x) (i := 4#3) (r := 4#3) (rest := rest) (sc := 0#2) w
            rw [hix, hbb, sib1, sext_byte hby] at e
            simpa only [encB, n45, n54, hb, hw, hby, ne_eq, not_false_eq_true, if_true, hsp, e5, e4, esp, hsib, or_true, true_or, if_false, List.cons_append] using e
          · have e := parse_s4 (rex := rex) (x := x) (i := 4#3) (r := 4#3) (rest := rest) (sc := 0#2) w
            rw [hix, hbb, sib2, sext_half hh] at e
            simpa only [encB, n45, n54, hb, hw, hby, ne_eq, not_false_eq_true, if_true, hsp, e5, e4, esp, hsib, or_true, true_or, if_false, List.cons_append,
              Bool.false_eq_true] using e
        · simp [encB, hb, hsp, hw, toLe_length]
        · intro s; simp [loc, ea, hb]
    · have e4 : ¬ regLmap win base = 4#8 := by rw [lmap4]; exact h4
      have hs' : n = (if w ≠ 0#64 ∨ regLmap win base = 5#8 then if isByte w then 1 else 4 else 0) ∧ b' = .mem base 0 w ∧
          rexB = (if high win base then REX_B else 0#8) := by
        by_cases hw : w = 0#64
        · by_cases e5 : regLmap win base = 5#8
          · simp only [sizeB, n45, n54, hb, if_false, e5, e4, and_self, and_true, false_and, if_true, high_if, ne_eq, hw, not_true_eq_false,
              Option.some.injEq, Prod.mk.injEq] at hs
            simp only [hw, e5, or_true, isByte0, if_true]
            exact ⟨hs.1.symm, hs.2.1.symm, hs.2.2.symm⟩
          · simp only [sizeB, n45, n54, hb, if_false, e5, e4, and_self, and_true, false_and, high_if, ne_eq, hw, not_true_eq_false,
              Option.some.injEq, Prod.mk.injEq] at hs
            simp only [hw, e5, ne_eq, not_true_eq_false, or_self, if_false]
            exact ⟨hs.1.symm, hs.2.1.symm, hs.2.2.symm⟩
        · simp only [sizeB, n45, n54, hb, if_false, e4, and_true, false_and, if_true, high_if, ne_eq, hw, not_true_eq_false, not_false_eq_true,
            Option.some.injEq, Prod.mk.injEq] at hs
          simp only [hw, ne_eq, not_false_eq_true, true_or, if_true]
          exact ⟨hs.1.symm, hs.2.1.symm, hs.2.2.symm⟩
      obtain ⟨rfl, rfl, rfl⟩ := hs'
      obtain ⟨r1, r2⟩ := rexB_bits' (high win base)
      have hbb : ext (rex.getLsbD 0) (low win base) = num win base := by rw [h0, r1, num_eq]
      by_cases hd : w ≠ 0#64 ∨ regLmap win base = 5#8
      · refine ⟨some (num win base), none, w, ?_, ?_, ?_⟩
        · intro rest
          by_cases hby : isByte w
          · have e := parse_b1 (rex := rex) (x := x) (r := low win base) (rest := rest) h4 w
            rw [hbb, ← rm_mem1, ← lmap_eq, sext_byte hby] at e
            simpa only [encB, n45, n54, hb, hd, hby, ne_eq, not_false_eq_true, if_true, true_or, if_false] using e
          · have e := parse_b4 (rex := rex) (x := x) (r := low win base) (rest := rest) h4 w
            rw [hbb, ← rm_mem2, ← lmap_eq, sext_half hh] at e
            simpa only [encB, n45, n54, hb, hd, hby, ne_eq, not_false_eq_true, if_true, true_or, if_false, Bool.false_eq_true] using e
        · have hd' : ¬ w = 0#64 ∨ regLmap win base = 5#8 := hd
          simp only [encB, n45, n54, ne_eq, hb, not_false_eq_true, if_true, true_or, hd', toLe_length]
        · intro s; simp [loc, ea, hb]
      · have hw : w = 0#64 := by by_contra h; exact hd (Or.inl h)
        have h5 : ¬ regLmap win base = 5#8 := fun h => hd (Or.inr h)
        subst hw
        refine ⟨some (num win base), none, 0#64, ?_, ?_, ?_⟩
        · intro rest
          have e := parse_b0 (rex := rex) (x := x) (r := low win base) (rest := rest) h4 (fun h => h5 ((lmap5 win base).2 h))
          rw [hbb, ← rm_mem0, ← lmap_eq] at e
          simpa only [encB, n45, n54, hb, h5, ne_eq, not_false_eq_true, if_true, true_or, if_false, not_true_eq_false, or_self, List.nil_append] using e
        · simp [encB, hb, h5]
        · intro s; simp [loc, ea, hb]
  · obtain ⟨-, hw4, hi⟩ := hk ho
    have hosp : offs ≠ SP := by rintro rfl; exact hi (num_sp win)
    have hsc : (w.setWidth 2).toNat = w.toNat := by
      rw [BitVec.toNat_setWidth]; exact Nat.mod_eq_of_lt (by omega)
    by_cases hsw : regLmap win base = 5#8 ∧ w &&& 3#64 = 0#64 ∧ regLmap win offs ≠ 5#8
    · obtain ⟨e5, hw3, o5⟩ := hsw
      have hw : w = 0#64 := by
        have : w.toNat &&& 3 = 0 := by simpa using congrArg BitVec.toNat hw3
        have h3 : w.toNat = 0 := by
          have : w.toNat % 4 = 0 := by rw [← this]; exact (Nat.and_two_pow_sub_one_eq_mod w.toNat 2).symm
          omega
        exact BitVec.eq_of_toNat_eq (by simpa using h3)
      subst hw
      simp only [sizeB, n45, n54, hb, ho, if_false, e5, o5, and_self, if_true, high_if, ne_eq, not_true_eq_false, not_false_eq_true, and_false, and_true,
        hw3] at hs
      simp only [Option.some.injEq, Prod.mk.injEq] at hs
      obtain ⟨rfl, rfl, rfl⟩ := hs
      have l5 : low win base = 5#3 := (lmap5 win base).1 e5
      obtain ⟨r1, r2⟩ := rexB_bits (high win offs) (high win base)
      have hbsp : base ≠ SP := by rintro rfl; revert l5; cases win <;> decide
      have hnb : ¬ num win base = 4#4 := by
        rw [num_eq, l5]; cases high win base <;> decide
      refine ⟨some (num win offs), some (num win base, 0#2), 0#64, ?_, ?_, ?_⟩
      · intro rest
        have e := parse_s0 (rex := rex) (x := x) (i := low win base) (r := low win offs) (rest := rest) (sc := 0#2)
          (fun h => o5 ((lmap5 win offs).2 h))
        rw [h0, r1, ← num_eq, sibIndex, h1, r2, ← num_eq, if_neg hnb, sib0', ← sib_eq, ← lmap_eq, ← lmap_eq, show BitVec.setWidth 8 0#2 = BitVec.setWidth 8 0#64 from by decide] at e
        simpa only [encB, n45, n54, hb, ho, hbsp, o5, ne_eq, not_false_eq_true, if_true, or_self, if_false, List.cons_append, List.nil_append] using e
      · simp [encB, hb, ho, hbsp, o5]
      · intro s; simp [loc, ea, hb, ho, BitVec.add_comm]
    · have hs' : n = (if regLmap win base = 5#8 then 2 else 1) ∧ b' = .mem base offs w ∧
          rexB = (if high win base then REX_B else 0#8) ||| (if high win offs then REX_X else 0#8) := by
        by_cases e5 : regLmap win base = 5#8
        · have : ¬ (w &&& 3#64 = 0#64 ∧ ¬ regLmap win offs = 5#8) := fun h => hsw ⟨e5, h⟩
          simp only [sizeB, n45, n54, hb, ho, if_false, e5, if_true, high_if, ne_eq, not_true_eq_false, not_false_eq_true, and_false, and_true, true_and, this,
            Option.some.injEq, Prod.mk.injEq] at hs
          simp only [e5, if_true]
          exact ⟨hs.1.symm, hs.2.1.symm, hs.2.2.symm⟩
        · simp only [sizeB, n45, n54, hb, ho, if_false, e5, if_true, high_if, ne_eq, not_false_eq_true, and_false,
            Option.some.injEq, Prod.mk.injEq] at hs
          simp only [e5, if_false]
          exact ⟨hs.1.symm, hs.2.1.symm, hs.2.2.symm⟩
      obtain ⟨rfl, rfl, rfl⟩ := hs'
      obtain ⟨r1, r2⟩ := rexB_bits (high win base) (high win offs)
      refine ⟨some (num win base), some (num win offs, w.setWidth 2), 0#64, ?_, ?_, ?_⟩
      · intro rest
        by_cases e5 : regLmap win base = 5#8
        · have l5 : low win base = 5#3 := (lmap5 win base).1 e5
          have e := parse_s1 (rex := rex) (x := x) (i := low win offs) (r := low win base) (rest := rest) (sc := w.setWidth 2) 0#64
          rw [h0, r1, ← num_eq, sibIndex, h1, r2, ← num_eq, if_neg hi, sib1, ← sib_eq, ← lmap_eq, ← lmap_eq, ← scale_eq] at e
          rw [e5, show toLe 1 0#64 = [0#8] from by decide, show sext 1 0#64 = 0#64 from by decide] at e
          simpa only [encB, n45, n54, hb, ho, hosp, e5, ne_eq, not_false_eq_true, if_true, or_self, if_false, List.cons_append, List.nil_append] using e
        · have e := parse_s0 (rex := rex) (x := x) (i := low win offs) (r := low win base) (rest := rest) (sc := w.setWidth 2)
            (fun h => e5 ((lmap5 win base).2 h))
          rw [h0, r1, ← num_eq, sibIndex, h1, r2, ← num_eq, if_neg hi, sib0', ← sib_eq, ← lmap_eq, ← lmap_eq, ← scale_eq] at e
          simpa only [encB, n45, n54, hb, ho, hosp, e5, ne_eq, not_false_eq_true, if_true, or_self, if_false, List.cons_append, List.nil_append] using e
      · by_cases e5 : regLmap win base = 5#8 <;> simp [encB, hb, ho, hosp, e5]
      · intro s; simp [loc, ea, hb, ho, hsc]

end Verif.X86
