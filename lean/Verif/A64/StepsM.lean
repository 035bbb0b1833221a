import Verif.A64.StepsI

/-! # Loads and stores on the A64 machine (helper lemmas) -/

namespace Verif.A64
open Verif.Imm.A64 (fld)
open Verif.Imm.Arm64 (regMap RD RN TMP_ZERO W_OP)

variable {s : St} {r n m : Nat}

/-- The opc field. -/
def Ty.opc (t : Ty) : BitVec 2 := if t.store then 0#2 else if t.sg then 2#2 else 1#2
/-- The size field. -/
def Ty.sz (t : Ty) : BitVec 2 := BitVec.ofNat 2 t.size

/-- A transfer with a constant offset. -/
theorem s_memI (t : Ty) (ht : t.size < 4) (i : BitVec 12) : step (STRBI ||| t.bits ||| RT r ||| RN n ||| (i.setWidth 32 <<< 10)) s =
    exec (.mem t.sz t.opc (.imm (i.setWidth 64 <<< t.size)) (regMap n) (regMap r)) s := by
  obtain ⟨z, g, st⟩ := t
  simp only at ht
  have key : ∀ z < 4, ∀ g st : Bool, let t : Ty := ⟨z, g, st⟩; let c := STRBI ||| t.bits
      c &&& 0x3fffff#32 = 0#32 ∧ (fld c 22 10).extractLsb' 4 3 ≠ 4#3 ∧ (fld c 22 10).extractLsb' 3 3 ≠ 5#3 ∧ (fld c 22 10).extractLsb' 5 3 = 7#3 ∧ (fld c 22 10).extractLsb' 3 2 = 0#2 ∧
      (fld c 22 10).getLsbD 2 = true ∧ (fld c 22 10).extractLsb' 8 2 = t.sz ∧ (fld c 22 10).extractLsb' 0 2 = t.opc ∧ t.sz.toNat = z := by decide
  obtain ⟨h1, h2, h3, h4, h5, h6, h7, h8, h9⟩ := key z ht g st
  rw [step, RT, RN, word_I h1, dec_mem h2 h3 h4 h5 h6, h7, h8, h9]; rfl

theorem s_mem0 (t : Ty) (ht : t.size < 4) : step (STRBI ||| t.bits ||| RT r ||| RN n) s =
    exec (.mem t.sz t.opc (.imm 0#64) (regMap n) (regMap r)) s := by
  have := s_memI (s := s) (r := r) (n := n) t ht 0#12
  rw [show (0#12).setWidth 32 <<< 10 = 0#32 from rfl, BitVec.or_zero] at this
  rw [this, show (0#12).setWidth 64 = 0#64 from rfl, BitVec.zero_shiftLeft]

/-- A transfer with an offset in a register. -/
theorem s_memR (t : Ty) (ht : t.size < 4) (b : Bool) : step (STRB ||| t.bits ||| RT r ||| RN n ||| RM m ||| (if b then 1#32 <<< 12 else 0#32)) s =
    exec (.mem t.sz t.opc (.reg (regMap m) (if b then t.size else 0)) (regMap n) (regMap r)) s := by
  obtain ⟨z, g, st⟩ := t
  simp only at ht
  have key : ∀ z < 4, ∀ g st b : Bool, let t : Ty := ⟨z, g, st⟩; let c := STRB ||| t.bits ||| (if b then 1#32 <<< 12 else 0#32)
      c &&& 0x1f03ff#32 = 0#32 ∧ (fld c 21 11).extractLsb' 5 3 ≠ 4#3 ∧ (fld c 21 11).extractLsb' 4 3 ≠ 5#3 ∧ (fld c 21 11).extractLsb' 6 3 = 7#3 ∧ (fld c 21 11).extractLsb' 4 2 = 0#2 ∧
      (fld c 21 11).getLsbD 3 = false ∧ (fld c 21 11).getLsbD 0 = true ∧ (fld c 10 6).extractLsb' 0 2 = 2#2 ∧ (fld c 10 6).extractLsb' 3 3 = 3#3 ∧ (fld c 10 6).getLsbD 2 = b ∧
      (fld c 21 11).extractLsb' 9 2 = t.sz ∧ (fld c 21 11).extractLsb' 1 2 = t.opc ∧ t.sz.toNat = z := by decide
  obtain ⟨h1, h2, h3, h4, h5, h6, h7, h8, h9, h10, h11, h12, h13⟩ := key z ht g st b
  have e : ∀ w x y z u : BitVec 32, w ||| x ||| y ||| z ||| u = (w ||| u) ||| x ||| y ||| z := or_move
  rw [e, step, RT, RN, RM, word_R h1, dec_memR h2 h3 h4 h5 h6 h7 h8 h9, h10, h11, h12, h13]; rfl

theorem s_memR0 (t : Ty) (ht : t.size < 4) : step (STRB ||| t.bits ||| RT r ||| RN n ||| RM m) s =
    exec (.mem t.sz t.opc (.reg (regMap m) 0) (regMap n) (regMap r)) s := by
  have := s_memR (s := s) (r := r) (n := n) (m := m) t ht false
  simpa using this

/-- A transfer with an unscaled offset. -/
theorem s_memU (t : Ty) (ht : t.size < 4) (j : BitVec 9) : step (STURBI ||| t.bits ||| RT r ||| RN n ||| (j.setWidth 32 <<< 12)) s =
    exec (.mem t.sz t.opc (.imm (j.signExtend 64)) (regMap n) (regMap r)) s := by
  obtain ⟨z, g, st⟩ := t
  simp only at ht
  have key : ∀ z < 4, ∀ g st : Bool, let t : Ty := ⟨z, g, st⟩; let c := STURBI ||| t.bits
      c &&& 0x1fffff#32 = 0#32 ∧ (fld c 21 11).extractLsb' 5 3 ≠ 4#3 ∧ (fld c 21 11).extractLsb' 4 3 ≠ 5#3 ∧ (fld c 21 11).extractLsb' 6 3 = 7#3 ∧ (fld c 21 11).extractLsb' 4 2 = 0#2 ∧
      (fld c 21 11).getLsbD 3 = false ∧ (fld c 21 11).getLsbD 0 = false ∧
      (fld c 21 11).extractLsb' 9 2 = t.sz ∧ (fld c 21 11).extractLsb' 1 2 = t.opc := by decide
  obtain ⟨h1, h2, h3, h4, h5, h6, h7, h8, h9⟩ := key z ht g st
  have hm : ∀ k, (j.extractLsb' 0 4 ++ 0#2 : BitVec 6).getLsbD k = if k < 2 then (0#2).getLsbD k else (j.extractLsb' 0 4).getLsbD (k - 2) := fun k => BitVec.getLsbD_append
  have e1 : (j.extractLsb' 0 4 ++ 0#2 : BitVec 6).extractLsb' 0 2 = 0#2 ∧ (j.extractLsb' 0 4 ++ 0#2 : BitVec 6).extractLsb' 2 4 = j.extractLsb' 0 4 := by
    generalize (j.extractLsb' 0 4 ++ 0#2 : BitVec 6) = mid at hm
    constructor
    · apply BitVec.eq_of_getLsbD_eq; intro k hk
      interval_cases k <;> simp [-BitVec.getLsbD_eq_getElem, hm]
    · apply BitVec.eq_of_getLsbD_eq; intro k hk
      interval_cases k <;> simp [-BitVec.getLsbD_eq_getElem, hm]
  have e2 : (j.setWidth 32 <<< 12) = (j.extractLsb' 4 5).setWidth 32 <<< 16 ||| (j.extractLsb' 0 4 ++ 0#2 : BitVec 6).setWidth 32 <<< 10 := by
    generalize (j.extractLsb' 0 4 ++ 0#2 : BitVec 6) = mid at hm
    apply BitVec.eq_of_getLsbD_eq; intro k hk
    interval_cases k <;> simp [-BitVec.getLsbD_eq_getElem, hm]
  have e3 : (j.extractLsb' 4 5 ++ j.extractLsb' 0 4 : BitVec 9) = j := by
    apply BitVec.eq_of_getLsbD_eq; intro k hk
    rw [BitVec.getLsbD_append]
    interval_cases k <;> simp [-BitVec.getLsbD_eq_getElem]
  rw [e2, ← BitVec.or_assoc, step, RT, RN, word_Rm h1, dec_memU h2 h3 h4 h5 h6 h7 e1.1, e1.2, h8, h9, e3]; rfl

/-! ## What a transfer does -/

/-- The value which a load yields. -/
def Ty.load (t : Ty) (m : BitVec 64 → BitVec 8) (a : BitVec 64) : BitVec 64 :=
  if t.sg ∧ t.size < 3 then ((rd m a (2 ^ t.size)).setWidth (8 * 2 ^ t.size)).signExtend 64 else rd m a (2 ^ t.size)

/-- The state after the transfer. -/
def Ty.eff (t : Ty) (s : St) (r : BitVec 5) (a : BitVec 64) : St :=
  if t.store then { s with m := wr s.m a (s.x r) (2 ^ t.size) } else s.setX r (t.load s.m a)

theorem exec_mem (t : Ty) (ht : t.size < 4) (hs : t.size = 3 → t.sg = false) (mode : Mode) (rn rt : BitVec 5) (a : BitVec 64)
    (ha : a = s.r rn + mode.off s) :
    exec (.mem t.sz t.opc mode rn rt) s = some (t.eff s rt a) := by
  obtain ⟨z, g, st⟩ := t
  simp only at ht hs
  subst ha
  have hz : bytes (BitVec.ofNat 2 z) = 2 ^ z := by clear hs; revert ht; revert z; decide
  simp only [exec, Ty.sz, Ty.opc, hz, Ty.eff, Ty.load]
  cases st
  · cases g
    · simp
    · have h3 : z < 3 := by
        rcases Nat.lt_or_ge z 3 with h | h
        · exact h
        · have : z = 3 := by omega
          exact absurd (hs this) (by decide)
      have : BitVec.ofNat 2 z ≠ 3#2 := by clear hs ht hz; revert h3; revert z; decide
      simp only [Bool.false_eq_true, if_false, if_true, h3, and_self]
      rw [if_neg (by decide), if_neg (by decide), if_pos ⟨by decide, this⟩, hz]
  · simp

end Verif.A64
