import Verif.X86.Mach

/-! # Lemmas about the machine with an instruction pointer -/

namespace Verif.X86

theorem fetch_length (c : IMem) : ∀ (n : Nat) (a : BitVec 64), (fetch c a n).length = n
  | 0, _ => rfl
  | n + 1, a => by simp [fetch, fetch_length c n]

theorem fetch_append {c : IMem} : ∀ {bs : List Byte} {a : BitVec 64} {n : Nat}, BytesAt c a bs → bs.length ≤ n →
    ∃ rest, fetch c a n = bs ++ rest ∧ rest.length = n - bs.length
  | [], a, n, _, _ => ⟨fetch c a n, rfl, by simp [fetch_length]⟩
  | b :: bs, a, 0, _, h => by simp at h
  | b :: bs, a, n + 1, ⟨h1, h2⟩, h => by
    obtain ⟨r, e, l⟩ := fetch_append (n := n) h2 (by simpa using h)
    exact ⟨r, by rw [fetch, h1, e]; rfl, by rw [l]; simp⟩

theorem BytesAt.append {c : IMem} : ∀ {x y : List Byte} {a : BitVec 64},
    BytesAt c a (x ++ y) ↔ BytesAt c a x ∧ BytesAt c (a + BitVec.ofNat 64 x.length) y
  | [], y, a => by simp [BytesAt]
  | b :: x, y, a => by
    have := BytesAt.append (c := c) (x := x) (y := y) (a := a + 1#64)
    have e : a + 1#64 + BitVec.ofNat 64 x.length = a + BitVec.ofNat 64 (x.length + 1) := by
      rw [BitVec.add_assoc, Nat.add_comm, BitVec.ofNat_add]
    simp only [List.cons_append, BytesAt, this, List.length_cons, e, and_assoc]

/-! ## The opcodes of the two tables are different -/

/-- No integer instruction with ModRM has this opcode. -/
def noRM (map : Nat) (op : Byte) : Bool :=
  if map = 0 then
    op != 0x8d#8 && !((fld op 6 2 == 0#2) && (fld op 0 3 == 1#3)) && !((fld op 6 2 == 0#2) && (fld op 0 3 == 3#3)) && op != 0x81#8 && op != 0x83#8 &&
    op != 0x85#8 && op != 0xf7#8 && op != 0x89#8 && op != 0x8b#8 && op != 0x88#8 && op != 0xc7#8 && op != 0xc6#8 && op != 0x63#8 && op != 0x69#8 &&
    op != 0x6b#8 && op != 0xc1#8 && op != 0xd1#8 && op != 0xd3#8 && op != 0x08#8
  else
    op != 0xaf#8 && op != 0xb6#8 && op != 0xb7#8 && op != 0xbe#8 && op != 0xbf#8 && op != 0xa4#8 && op != 0xa5#8 && op != 0xac#8 && op != 0xad#8 &&
    fld op 4 4 != 4#4 && fld op 4 4 != 9#4 && op != 0xbc#8 && op != 0xbd#8

theorem execRM_none {pre rex : Byte} {map : Nat} {op : Byte} (h : noRM map op = true) (hm : map = 0 ∨ map = 1) (reg : BitVec 4) (l : Option Loc)
    (ea : Option (BitVec 64)) (imm : BitVec 64) (s : St) : execRM pre rex map op reg l ea imm s = none := by
  rcases hm with rfl | rfl
  · simp only [noRM, if_true, Bool.and_eq_true, Bool.not_eq_true', bne_iff_ne, ne_eq, Bool.and_eq_false_iff, beq_eq_false_iff_ne] at h
    obtain ⟨⟨⟨⟨⟨⟨⟨⟨⟨⟨⟨⟨⟨⟨⟨⟨⟨⟨h0, h1⟩, h2⟩, h3⟩, h4⟩, h5⟩, h6⟩, h7⟩, h8⟩, h9⟩, h10⟩, h11⟩, h12⟩, h13⟩, h14⟩, h15⟩, h16⟩, h17⟩, h18⟩ := h
    have h1' : ¬ (fld op 6 2 = 0#2 ∧ fld op 0 3 = 1#3) := by rintro ⟨a, b⟩; rcases h1 with h | h <;> exact h (by assumption)
    have h2' : ¬ (fld op 6 2 = 0#2 ∧ fld op 0 3 = 3#3) := by rintro ⟨a, b⟩; rcases h2 with h | h <;> exact h (by assumption)
    cases l with
    | none => simp [execRM, h0]
    | some l =>
      simp only [execRM, h0, and_false, if_false, Option.bind_some, if_true, h1', h2', h3, h4, h5, h6, h7, h8, h9, h10, h11, h12, h13, h14, h15, h16, h17, h18, or_self, false_and]
  · simp only [noRM, Nat.one_ne_zero, if_false, Bool.and_eq_true, bne_iff_ne, ne_eq] at h
    obtain ⟨⟨⟨⟨⟨⟨⟨⟨⟨⟨⟨⟨h0, h1⟩, h2⟩, h3⟩, h4⟩, h5⟩, h6⟩, h7⟩, h8⟩, h9⟩, h10⟩, h11⟩, h12⟩ := h
    cases l with
    | none => simp [execRM]
    | some l => simp only [execRM, Nat.one_ne_zero, false_and, if_false, Option.bind_some, if_true, h0, h1, h2, h3, h4, h5, h6, h7, h8, h9, h10, h11, h12, or_self]

/-- An opcode with ModRM. -/
theorem parseOp_exec {pre rex : Byte} {map : Nat} {op : Byte} {bs : List Byte} (hm : map = 0 ∨ map = 1) (h1 : shortSize pre rex map op = none)
    (h2 : noRM map op = true) {i : Inst} {r : List Byte} (hp : parseOp pre rex map (op :: bs) = some (i, r)) (s : St) : exec i s = none := by
  simp only [parseOp, h1, Option.bind_eq_some_iff, Option.map_eq_some_iff] at hp
  obtain ⟨⟨reg, m, bs'⟩, -, ⟨imm, r'⟩, -, e⟩ := hp
  obtain ⟨rfl, -⟩ := Prod.mk.injEq .. ▸ e
  exact execRM_none h2 hm ..

/-- Control opcodes of one byte. -/
def ctl0 (b : Byte) : Bool := b == 0xeb#8 || b == 0xe9#8 || b == 0xe8#8 || b == 0x90#8 || b == 0xc3#8 || fld b 4 4 == 7#4

theorem ctl0_table : ∀ b : Byte, ctl0 b = true → noRM 0 b = true ∧ shortSize 0#8 0#8 0 b = none ∧ ¬ (b = 0x66#8 ∨ b = 0xf2#8 ∨ b = 0xf3#8) ∧
    fld b 4 4 ≠ 4#4 ∧ b ≠ 0x0f#8 := by decide +kernel

theorem ctl0_exec {b : Byte} {bs : List Byte} (h : ctl0 b = true) (s : St) :
    ((parse (b :: bs)).bind fun (i, r) => (exec i s).map fun s => (s, r)) = none := by
  obtain ⟨h1, h2, h3, h4, h5⟩ := ctl0_table b h
  simp only [parse, h3, if_false, parseRex, h4, parseMap, h5]
  rcases hp : parseOp 0#8 0#8 0 (b :: bs) with _ | ⟨i, r⟩
  · rfl
  · simp only [Option.bind_some, parseOp_exec (Or.inl rfl) h2 h1 hp s, Option.map_none]

theorem ctl1_table : ∀ b : Byte, fld b 4 4 = 8#4 → noRM 1 b = true ∧ shortSize 0#8 0#8 1 b = none := by decide +kernel

theorem ctl1_exec {b : Byte} {bs : List Byte} (h : fld b 4 4 = 8#4) (s : St) :
    ((parse (0x0f#8 :: b :: bs)).bind fun (i, r) => (exec i s).map fun s => (s, r)) = none := by
  obtain ⟨h1, h2⟩ := ctl1_table b h
  have e : parse (0x0f#8 :: b :: bs) = parseOp 0#8 0#8 1 (b :: bs) := by
    simp only [parse, show ¬ (0x0f#8 = 0x66#8 ∨ 0x0f#8 = 0xf2#8 ∨ 0x0f#8 = 0xf3#8) by decide, if_false, parseRex,
      show fld 0x0f#8 4 4 ≠ 4#4 by decide, parseMap, if_true]
  rw [e]
  rcases hp : parseOp 0#8 0#8 1 (b :: bs) with _ | ⟨i, r⟩
  · rfl
  · simp only [Option.bind_some, parseOp_exec (Or.inr rfl) h2 h1 hp s, Option.map_none]

theorem parse_rex {rex : Byte} {op : Byte} {bs : List Byte} (h : fld rex 4 4 = 4#4) (ho : op ≠ 0x0f#8) : parse (rex :: op :: bs) = parseOp 0#8 rex 0 (op :: bs) := by
  have h3 : ¬ (rex = 0x66#8 ∨ rex = 0xf2#8 ∨ rex = 0xf3#8) := by rintro (rfl | rfl | rfl) <;> revert h <;> decide
  simp only [parse, h3, if_false, parseRex, h, if_true, parseMap, ho]

theorem ff_exec {rex : Byte} {bs : List Byte} (h : fld rex 4 4 = 4#4) (s : St) :
    ((parse (rex :: 0xff#8 :: bs)).bind fun (i, r) => (exec i s).map fun s => (s, r)) = none := by
  rw [parse_rex h (by decide)]
  rcases hp : parseOp 0#8 rex 0 (0xff#8 :: bs) with _ | ⟨i, r⟩
  · rfl
  · simp only [Option.bind_some, parseOp_exec (Or.inl rfl) (by simp [shortSize, fld]) (by decide) hp s, Option.map_none]

theorem lea_exec {rex m : Byte} {bs : List Byte} (h : fld rex 4 4 = 4#4) (h1 : fld m 6 2 = 0#2) (h2 : fld m 0 3 = 5#3) (s : St) :
    ((parse (rex :: 0x8d#8 :: m :: bs)).bind fun (i, r) => (exec i s).map fun s => (s, r)) = none := by
  rw [parse_rex h (by decide)]
  have e : shortSize 0#8 rex 0 0x8d#8 = none := by simp [shortSize, fld]
  rcases hp : parseOp 0#8 rex 0 (0x8d#8 :: m :: bs) with _ | ⟨i, r⟩
  · rfl
  · simp only [parseOp, e, Option.bind_eq_some_iff, Option.map_eq_some_iff, parseRM, h1, h2, show ¬ (0#2 = 3#2) by decide,
      show ¬ (5#3 = 4#3) by decide, if_false, if_true] at hp
    obtain ⟨⟨reg, mm, bs'⟩, ⟨⟨d, r1⟩, -, e1⟩, ⟨imm, r'⟩, -, e2⟩ := hp
    simp only [Prod.mk.injEq] at e1 e2
    obtain ⟨-, rfl, -⟩ := e1
    obtain ⟨rfl, -⟩ := e2
    simp [exec, loc, execRM]

/-! ## Steps of the machine -/

theorem step_ctl {c : IMem} {p : PSt} {pre : List Byte} {k : Ctl} {q : PSt} (hb : BytesAt c p.pc pre) (hl : pre.length ≤ 15)
    (hx : ∀ rest, ((parse (pre ++ rest)).bind fun (i, r) => (exec i p.s).map fun s => (s, r)) = none)
    (hc : ∀ rest, ctl (pre ++ rest) = some (k, rest)) (he : ctlExec k p.s (p.pc + BitVec.ofNat 64 pre.length) = some q) :
    step c p = some q := by
  obtain ⟨rest, e, l⟩ := fetch_append hb hl
  have hn : ((parse (pre ++ rest)).bind fun (i, r) => (exec i p.s).map fun s => PSt.mk s (p.pc + BitVec.ofNat 64 (15 - r.length))) = none := by
    have := hx rest
    rcases hp : parse (pre ++ rest) with _ | ⟨i, r⟩
    · rfl
    · rw [hp] at this
      simp only [Option.bind_some, Option.map_eq_none_iff] at this
      simp only [Option.bind_some, this, Option.map_none]
  simp only [step, e, hn, hc, Option.bind_some]
  rw [← he]
  congr 3
  omega

end Verif.X86
