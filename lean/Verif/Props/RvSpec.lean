import Verif.RISCV.EmitOp2Proof

/-!
# What an RV64 operation may observe and change (specification used by C20-C29)

Stated on whole machine states, with the memory access functions of the instruction set and the register numbering of
sljitLir.h.  Nothing here refers to the code generator.
-/

namespace Verif.Props.Rv
open Verif.RV

/-- A general purpose register an application can name, or SLJIT_SP (24). -/
def UserReg (r : Nat) : Prop := 1 ≤ r ∧ r ≤ 24

instance (r : Nat) : Decidable (UserReg r) := by unfold UserReg; infer_instance

/-- A source operand: register, constant, `[base + w]`, `[w]` (base 0), `[base + (index << w)]`. -/
def Src : Opd → Prop
  | .reg r => UserReg r
  | .imm _ => True
  | .mem b i _ => b ≤ 24 ∧ i ≤ 24

/-- A destination operand. -/
def Dst : Opd → Prop
  | .reg r => UserReg r
  | .imm _ => False
  | .mem b i _ => b ≤ 24 ∧ i ≤ 24

/-- Effective address (sljitLir.h:998-1014): only the lower two bits of the shift are used. -/
def addr (s : St) (b i : Nat) (w : BitVec 64) : BitVec 64 :=
  (if b = 0 then 0#64 else s.rd (regMap b)) + (if i = 0 then w else s.rd (regMap i) <<< (w.toNat % 4))

/-- Value of a source operand of a 64 bit operation, or of a 32 bit one (sign extended memory cell). -/
def value (is32 : Bool) (s : St) : Opd → BitVec 64
  | .reg r => s.rd (regMap r)
  | .imm v => v
  | .mem b i w => if is32 then (ld32 s.mem (addr s b i w)).signExtend 64 else ld64 s.mem (addr s b i w)

/-- The destination holds `v`; no other register of the application, no float register and no other memory byte has
changed.  Also the registers the generator reserves for nobody (gp, tp) are kept. -/
structure Result (is32 : Bool) (dst : Opd) (v : BitVec 64) (s s' : St) : Prop where
  reg : ∀ r, dst = .reg r → UserReg r → s'.rd (regMap r) = v
  mem : s'.mem = match dst with
    | .mem b i w => if is32 then st32 s.mem (addr s b i w) (v.setWidth 32) else st64 s.mem (addr s b i w) v
    | _ => s.mem
  user : ∀ r, UserReg r → dst ≠ .reg r → s'.rd (regMap r) = s.rd (regMap r)
  fixed : s'.rd 3#5 = s.rd 3#5 ∧ s'.rd 4#5 = s.rd 4#5
  fregs : s'.f = s.f

/-- The zero flag of the backend (EQUAL_FLAG, x5): set means that the register is zero. -/
def zeroFlag (s : St) : Prop := s.rd 5#5 = 0#64
/-- The variable flag (OTHER_FLAG, x28): set means that the register is not zero. -/
def varFlag (s : St) : Prop := s.rd 28#5 ≠ 0#64
/-- The carry flag as SLJIT_ADDC and SLJIT_SUBC take it: the variable flag register is 0 or 1. -/
def carryFlag (s : St) (cin : Bool) : Prop := s.rd 28#5 = if cin then 1#64 else 0#64

/-- 32 bit operations take registers that hold results of 32 bit operations (sljitLir.h:1072-1075): sign extended. -/
def Src32 (s : St) : Opd → Prop
  | .reg r => s.rd (regMap r) = ((s.rd (regMap r)).setWidth 32).signExtend 64
  | _ => True

/-! ## Connection with the helper lemmas -/

theorem and3 (w : BitVec 64) : (w &&& 3#64).toNat = w.toNat % 4 := by
  rw [BitVec.toNat_and]; exact Nat.and_two_pow_sub_one_eq_mod w.toNat 2

theorem addr_eq (s : St) (b i : Nat) (w : BitVec 64) : ea s.core b i w = addr s b i w := by
  unfold ea addr
  rw [and3]
  congr 1
  by_cases h : b = 0
  · rw [if_pos h, h]; exact s.core.x0
  · rw [if_neg h]; rfl

theorem value_eq (op : Op) (s : St) (o : Opd) : opdVal (opSz op) op.is32 s.core o = value op.is32 s o := by
  cases o with
  | reg r => rfl
  | imm v => rfl
  | mem b i w =>
    simp only [opdVal, value, addr_eq, opSz]
    cases op.is32 <;> rfl

theorem Src.ok {o : Opd} (h : Src o) : OpdOk o := by
  cases o with
  | reg r => exact h.2
  | imm v => trivial
  | mem b i w => exact h

theorem Dst.ok {o : Opd} (h : Dst o) : DOk o ∧ o ≠ .reg 0 := by
  cases o with
  | reg r => exact ⟨Or.inl h.2, by rintro ⟨⟩; exact absurd h.1 (by decide)⟩
  | imm v => exact absurd h (by simp [Dst])
  | mem b i w => exact ⟨h, by rintro ⟨⟩⟩

theorem user_inj : ∀ r q : Nat, UserReg r → UserReg q → regMap r = regMap q → r = q := by
  intro r q hr hq h
  have key : ∀ a : Fin 25, ∀ b : Fin 25, regMap a.1 = regMap b.1 → a = b := by decide +kernel
  exact congrArg Fin.val (key ⟨r, by have := hr.2; omega⟩ ⟨q, by have := hq.2; omega⟩ h)

theorem user_34 : ∀ r, UserReg r → regMap r ≠ 3#5 ∧ regMap r ≠ 4#5 := by
  intro r hr
  have key : ∀ a : Fin 25, a.1 ≠ 0 → regMap a.1 ≠ 3#5 ∧ regMap a.1 ≠ 4#5 := by decide +kernel
  exact key ⟨r, by have := hr.2; omega⟩ (by have := hr.1; simp; omega)

theorem Result.of {op : Op} {dst : Opd} {v : BitVec 64} {s s' : St} (hd : Dst dst ∨ dst = .reg 0)
    (h : Done (opSz op) dst v s.core s'.core) : Result op.is32 dst v s s' := by
  have keep : ∀ q, q ∉ ([1#5, 5#5, 6#5, 7#5, 28#5] : List Reg) → (∀ r, dst = .reg r → q ≠ regMap r ∨ r = 0) → s'.rd q = s.rd q := h.kept
  refine ⟨fun r e hr => h.reg r e (by have := hr.1; omega), ?_, ?_, ?_, h.fregs⟩
  · have := h.mem
    change s'.mem = _ at this
    rw [this]
    cases dst with
    | mem b i w =>
      simp only [addr_eq, opSz]
      cases op.is32 <;> rfl
    | _ => rfl
  · intro r hr hne
    obtain ⟨u1, u5, u6, u7, u28⟩ := user_ne hr.2
    refine keep _ (by simp [u1, u5, u6, u7, u28]) ?_
    intro r' he
    by_cases h0 : r' = 0
    · exact Or.inr h0
    · refine Or.inl fun e => hne ?_
      have : UserReg r' := by
        rcases hd with hd | hd
        · rw [he] at hd; exact hd
        · rw [hd] at he; cases he; exact absurd rfl h0
      rw [user_inj r r' hr this e, he]
  · have aux : ∀ q : Reg, (q = 3#5 ∨ q = 4#5) → s'.rd q = s.rd q := by
      intro q hq
      refine keep _ (by rcases hq with rfl | rfl <;> decide) ?_
      intro r he
      by_cases h0 : r = 0
      · exact Or.inr h0
      · have : UserReg r := by
          rcases hd with hd | hd
          · rw [he] at hd; exact hd
          · rw [hd] at he; cases he; exact absurd rfl h0
        left
        have := user_34 r this
        rcases hq with rfl | rfl
        · exact this.1.symm
        · exact this.2.symm
    exact ⟨aux _ (Or.inl rfl), aux _ (Or.inr rfl)⟩

end Verif.Props.Rv
