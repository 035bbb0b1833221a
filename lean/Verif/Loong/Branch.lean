import Verif.Loong.Wp

/-!
# Branches of LoongArch64

The conditional branches beq, bne, blt, bge, bltu, bgeu (LoongArch Reference Manual, volume 1, 2.2.6: `if cond(GR[rj], GR[rd])
PC += SignExtend({offs16, 2'b0})`), in a machine with a program counter.  `Verif.LA.run` executes straight line code only.
-/

set_option linter.all false

namespace Verif.LA
open Verif.Imm.Loong (regMap)

/-- The comparison of a branch. -/
inductive BrOp
  | eq | ne | lt | ge | ltu | geu
  deriving DecidableEq, Repr

/-- Taken or not. -/
def BrOp.eval : BrOp → BitVec 64 → BitVec 64 → Bool
  | .eq, a, b => a == b
  | .ne, a, b => a != b
  | .lt, a, b => a.slt b
  | .ge, a, b => !a.slt b
  | .ltu, a, b => a.ult b
  | .geu, a, b => !a.ult b

/-- Opcodes of the 2RI16 format (bits 31..26). -/
def decBr (o : BitVec 6) : Option BrOp :=
  if o = 0x16#6 then some .eq
  else if o = 0x17#6 then some .ne
  else if o = 0x18#6 then some .lt
  else if o = 0x19#6 then some .ge
  else if o = 0x1a#6 then some .ltu
  else if o = 0x1b#6 then some .geu
  else none

/-- The code in memory; instructions are aligned words. -/
abbrev Code := BitVec 64 → BitVec 32

/-- Program counter and contents. -/
structure St where
  pc : BitVec 64
  core : Core

/-- One instruction; `none` if the word is neither a branch nor one of the instructions of `Verif.LA.decode`. -/
def step (code : Code) (s : St) : Option St :=
  match decode (code s.pc) with
  | some i => some ⟨s.pc + 4#64, exec i s.core⟩
  | none =>
    match decBr (fld (code s.pc) 26 6) with
    | some o =>
      some ⟨if o.eval (s.core.x (fld (code s.pc) 5 5)) (s.core.x (fld (code s.pc) 0 5)) then
          s.pc + ((fld (code s.pc) 10 16).signExtend 64 <<< 2)
        else s.pc + 4#64, s.core⟩
    | none => none

/-- Any number of instructions. -/
inductive Steps (code : Code) : St → St → Prop
  | refl (s : St) : Steps code s s
  | step {s s1 s2 : St} : step code s = some s1 → Steps code s1 s2 → Steps code s s2

/-- The words are stored at the address. -/
def CodeAt (code : Code) : BitVec 64 → Emit → Prop
  | _, [] => True
  | a, w :: ws => code a = w ∧ CodeAt code (a + 4#64) ws

theorem Steps.trans {code : Code} {a b c : St} (h : Steps code a b) (g : Steps code b c) : Steps code a c := by
  induction h with
  | refl => exact g
  | step h1 _ ih => exact .step h1 (ih g)

theorem CodeAt_append {code : Code} {b : Emit} : ∀ {a : Emit} {p : BitVec 64},
    CodeAt code p (a ++ b) ↔ CodeAt code p a ∧ CodeAt code (p + BitVec.ofNat 64 (4 * a.length)) b
  | [], p => by simp [CodeAt]
  | w :: a, p => by
    simp only [List.cons_append, CodeAt, CodeAt_append (a := a), and_assoc, List.length_cons]
    have : p + 4#64 + BitVec.ofNat 64 (4 * a.length) = p + BitVec.ofNat 64 (4 * (a.length + 1)) := by
      apply BitVec.eq_of_toNat_eq
      simp; omega
    rw [this]

/-- Straight line code runs the same in the machine with a program counter. -/
theorem steps_of_run {code : Code} : ∀ {e : Emit} {p : BitVec 64} {c c' : Core}, CodeAt code p e → run e c = some c' →
    Steps code ⟨p, c⟩ ⟨p + BitVec.ofNat 64 (4 * e.length), c'⟩
  | [], p, c, c', _, h => by
    cases h
    have : p + BitVec.ofNat 64 (4 * ([] : Emit).length) = p := by simp
    rw [this]; exact .refl _
  | w :: e, p, c, c', hc, h => by
    simp only [run] at h
    cases hd : decode w with
    | none => rw [hd] at h; cases h
    | some i =>
      rw [hd] at h
      have ih := steps_of_run hc.2 (show run e (exec i c) = some c' from h)
      refine .step (s1 := ⟨p + 4#64, exec i c⟩) ?_ ?_
      · unfold step
        simp only [hc.1, hd]
      · have : p + 4#64 + BitVec.ofNat 64 (4 * e.length) = p + BitVec.ofNat 64 (4 * (w :: e).length) := by
          apply BitVec.eq_of_toNat_eq
          simp; omega
        rw [← this]; exact ih

/-! ## Decoding a branch -/

/-- The 2RI16 format. -/
def w16 (o : BitVec 6) (j d : BitVec 5) (i : BitVec 16) : BitVec 32 :=
  o.setWidth 32 <<< 26 ||| j.setWidth 32 <<< 5 ||| d.setWidth 32 ||| i.setWidth 32 <<< 10

section
variable (o : BitVec 6) (j d : BitVec 5) (i : BitVec 16)
theorem w16_26 : fld (w16 o j d i) 26 6 = o := by fbits [w16]
theorem w16_0 : fld (w16 o j d i) 0 5 = d := by fbits [w16]
theorem w16_5 : fld (w16 o j d i) 5 5 = j := by fbits [w16]
theorem w16_10 : fld (w16 o j d i) 10 16 = i := by fbits [w16]
end

theorem fld10 (w : BitVec 32) : fld w 26 6 = (fld w 22 10).extractLsb' 4 6 := by fbits []

theorem dec17_none {o : BitVec 17} {d j k : Reg} (h : 0xb000 ≤ o.toNat) : dec17 o d j k = none := by
  unfold dec17
  repeat (rw [if_neg (by rintro rfl; revert h; decide)])

theorem dec16_none {o : BitVec 16} {d j : Reg} {n : BitVec 6} (h : 0x5800 ≤ o.toNat) : dec16 o d j n = none := by
  unfold dec16
  repeat (rw [if_neg (by rintro rfl; revert h; decide)])

theorem dec22_none {o : BitVec 22} {d j : Reg} (h : 0x160000 ≤ o.toNat) : dec22 o d j = none := by
  unfold dec22
  repeat (rw [if_neg (by rintro rfl; revert h; decide)])
  rw [if_neg]
  rintro ⟨h1, -⟩
  have h2 := congrArg BitVec.toNat h1
  simp [BitVec.extractLsb'_toNat] at h2
  omega

/-- A branch is no other instruction. -/
theorem decode_br {w : BitVec 32} {o : BrOp} (h : decBr (fld w 26 6) = some o) : decode w = none := by
  have hlo : 0x16 ≤ (fld w 26 6).toNat := by
    by_contra hn
    have : ∀ x : BitVec 6, x.toNat < 0x16 → decBr x = none := by decide +kernel
    rw [this _ (by omega)] at h; cases h
  have h10 : ok10 (fld w 22 10) = true := by
    rw [fld10] at h
    have : ∀ x : BitVec 10, (decBr (x.extractLsb' 4 6)).isSome = true → ok10 x = true := by decide +kernel
    exact this _ (by rw [h]; rfl)
  have hw : 0x16 * 2 ^ 26 ≤ w.toNat := by
    simp only [fld, BitVec.extractLsb'_toNat, Nat.shiftRight_eq_div_pow] at hlo
    have := w.isLt
    omega
  have := w.isLt
  rw [decode_ok10 h10, dec17_none, dec16_none, dec22_none]
  all_goals simp only [fld, BitVec.extractLsb'_toNat, Nat.shiftRight_eq_div_pow]; omega

/-- A branch word is executed as a branch. -/
theorem step_br {code : Code} {s : St} {b : BitVec 6} {o : BrOp} {j d : BitVec 5} {i : BitVec 16} (hc : code s.pc = w16 b j d i)
    (ho : decBr b = some o) :
    step code s = some ⟨if o.eval (s.core.x j) (s.core.x d) then s.pc + (i.signExtend 64 <<< 2) else s.pc + 4#64, s.core⟩ := by
  unfold step
  rw [hc, decode_br (by rw [w16_26]; exact ho)]
  simp only [w16_26, w16_0, w16_5, w16_10, ho]

end Verif.LA
