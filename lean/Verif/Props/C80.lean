import Verif.A64.Pair
import Verif.Props.C47

/-!
# C80: sljit_emit_mem with register pairs on ARM64

The contract of sljit_emit_mem (sljitLir.h:2002-2028) with SLJIT_REG_PAIR: two consecutive words are transferred, the first register belongs to the lower address.
`Run` executes instruction words fetched from memory (A64/Mach.lean).
-/

namespace Verif.Props.C80
open Verif.A64
open Verif.Imm.Arm64 (regMap)
open Verif.Props.C47 (addr)

/-- A pair of different registers of the user. -/
structure PairOk (r1 r2 : Nat) : Prop where
  a : 1 ≤ r1 ∧ r1 ≤ 26
  b : 1 ≤ r2 ∧ r2 ≤ 26
  ne : r1 ≠ r2

/-- A memory operand: as in C47; displacements of SLJIT_SP (27) are inside of the local area, which has at most SLJIT_MAX_LOCAL_SIZE = 0x100000 bytes (sljitLir.h:935). -/
structure MemOp (base offs : Nat) (w : BitVec 64) : Prop where
  ok : C47.Src (.mem base offs w)
  sp : base = 27 → w.toNat ≤ 0x101000

/-- The stack pointer is a multiple of 16 (C54). -/
def Aligned (m : MSt) : Prop := m.s.r 31#5 &&& 15#64 = 0#64

/-- Registers of the user other than those of `ws`, the stack pointer, flags and vector registers are kept. -/
structure Kept (m m' : MSt) (ws : List Nat) : Prop where
  reg : ∀ q, 1 ≤ q → q ≤ 27 → q ∉ ws → m'.s.r (regMap q) = m.s.r (regMap q)
  flags : m'.s.f = m.s.f
  vec : m'.v = m.v

/-- Both words are loaded, from the address which the operand has before the code. -/
structure Loaded (r1 r2 base offs : Nat) (w : BitVec 64) (m m' : MSt) : Prop where
  first : m'.s.r (regMap r1) = rd m.s.m (addr m.s base offs w) 8
  second : m'.s.r (regMap r2) = rd m.s.m (addr m.s base offs w + 8#64) 8
  mem : m'.s.m = m.s.m
  kept : Kept m m' [r1, r2]

/-- Both words are stored. -/
structure Stored (r1 r2 base offs : Nat) (w : BitVec 64) (m m' : MSt) : Prop where
  mem : m'.s.m = wr (wr m.s.m (addr m.s base offs w) (m.s.r (regMap r1)) 8) (addr m.s base offs w + 8#64) (m.s.r (regMap r2)) 8
  kept : Kept m m' []

theorem reg_facts : ∀ r : _root_.Fin 28, r.val ≠ 0 → regMap r.val ≠ 9#5 ∧ (r.val ≠ 27 → regMap r.val ≠ 31#5) ∧ ∀ q : _root_.Fin 28, q.val ≠ 0 → regMap q.val = regMap r.val → q = r := by
  decide +kernel

theorem user9 {r : Nat} (h : 1 ≤ r ∧ r ≤ 27) : regMap r ≠ 9#5 := (reg_facts ⟨r, by omega⟩ (by show r ≠ 0; omega)).1
theorem user31 {r : Nat} (h : 1 ≤ r ∧ r ≤ 26) : regMap r ≠ 31#5 := (reg_facts ⟨r, by omega⟩ (by show r ≠ 0; omega)).2.1 (by show r ≠ 27; omega)
theorem user_inj {q r : Nat} (hq : 1 ≤ q ∧ q ≤ 27) (hr : 1 ≤ r ∧ r ≤ 27) (h : regMap q = regMap r) : q = r :=
  congrArg (·.val) ((reg_facts ⟨r, by omega⟩ (by show r ≠ 0; omega)).2.2 ⟨q, by omega⟩ (by show q ≠ 0; omega) h)

theorem regs {r1 r2 : Nat} (h : PairOk r1 r2) : PairRegs r1 r2 where
  ne e := h.ne (user_inj ⟨h.a.1, by have := h.a.2; omega⟩ ⟨h.b.1, by have := h.b.2; omega⟩ e)
  a := ⟨user31 h.a, user9 ⟨h.a.1, by have := h.a.2; omega⟩⟩
  b := ⟨user31 h.b, user9 ⟨h.b.1, by have := h.b.2; omega⟩⟩

theorem mems {base offs : Nat} {w : BitVec 64} (h : MemOp base offs w) : PairMem base offs w where
  b hb := user9 ⟨by omega, h.ok.1⟩
  o ho := by
    obtain ⟨h1, h2, h3⟩ := h.ok.2.2 ho
    exact ⟨h1, h3, user31 ⟨by omega, by have := h.ok.1; omega⟩, user31 ⟨by omega, h.ok.2.1⟩⟩
  sp hb _ h31 := by
    have : base = 27 := by
      by_contra hn
      exact user31 (r := base) ⟨by omega, by have := h.ok.1; omega⟩ h31
    have := h.sp this
    omega

theorem base_ne {base offs r1 r2 : Nat} {w : BitVec 64} (h : MemOp base offs w) (hr : PairOk r1 r2) : base ≠ r1 → regMap base ≠ regMap r1 ∨ base = 0 := by
  intro hne
  by_cases hb : base = 0
  · exact .inr hb
  · exact .inl fun e => hne (user_inj ⟨by omega, h.ok.1⟩ ⟨hr.a.1, by have := hr.a.2; omega⟩ e)

/-- **C80, stores**: both registers are stored for every operand and state. -/
theorem c80_store (r1 r2 base offs : Nat) (w : BitVec 64) (m : MSt) (hr : PairOk r1 r2) (hm : MemOp base offs w) (ha : Aligned m) :
    ∃ ws m', emitMemPair true r1 r2 base offs w = some ws ∧ Run ws m m' ∧ Stored r1 r2 base offs w m m' := by
  obtain ⟨ws, m', e, h1, h2⟩ := pair_run (store := true) (regs hr) (mems hm) m ha (fun h => by cases h.1) (base_ne hm hr)
  exact ⟨ws, m', e, h1, h2.st rfl, fun q a b _ => h2.keep _ (user9 ⟨a, b⟩) (fun h => by cases h), h2.f, h2.v⟩

/-- **C80, loads**, partial: both words are loaded, also if the base or the index register is one of the two.  Missing: the first register of the pair is the base and the
displacement is a multiple of 8 between 0x200 and 0x7ff0 (`c80_load_false`). -/
theorem c80_load_partial (r1 r2 base offs : Nat) (w : BitVec 64) (m : MSt) (hr : PairOk r1 r2) (hm : MemOp base offs w) (ha : Aligned m)
    (hx : ¬ (base = r1 ∧ offs = 0 ∧ w.toNat % 8 = 0 ∧ 0x200 ≤ w.toNat ∧ w.toNat ≤ 0x7ff0)) :
    ∃ ws m', emitMemPair false r1 r2 base offs w = some ws ∧ Run ws m m' ∧ Loaded r1 r2 base offs w m m' := by
  obtain ⟨ws, m', e, h1, h2⟩ := pair_run (store := false) (regs hr) (mems hm) m ha (fun h => by
    obtain ⟨-, k1, -, k2, k3, k4, k5⟩ := h
    have h8 : w.toNat % 8 = 0 := (align w (z := 3) (by omega)).1 k3
    have hn := int_nat w
    exact hx ⟨k1, k2, h8, by omega, by omega⟩) (base_ne hm hr)
  obtain ⟨g1, g2, g3⟩ := h2.ld rfl
  refine ⟨ws, m', e, h1, g1, g2, g3, fun q a b hq => ?_, h2.f, h2.v⟩
  simp only [List.mem_cons, List.not_mem_nil, or_false, not_or] at hq
  exact h2.keep _ (user9 ⟨a, b⟩) fun _ => ⟨fun h => hq.1 (user_inj ⟨a, b⟩ ⟨hr.a.1, by have := hr.a.2; omega⟩ h), fun h => hq.2 (user_inj ⟨a, b⟩ ⟨hr.b.1, by have := hr.b.2; omega⟩ h)⟩

/-- **C80, the remaining loads**: if the first register is the base and the displacement is a multiple of 8 between 0x200 and 0x7ff0, the registers are swapped: the first
one gets the word at the higher address (sljitNativeARM_64.c:2715-2718), so the contract fails in every state where the two words differ. -/
theorem c80_load_false (r1 r2 : Nat) (w : BitVec 64) (hr : PairOk r1 r2) (h8 : w.toNat % 8 = 0) (h1 : 0x200 ≤ w.toNat) (h2 : w.toNat ≤ 0x7ff0) :
    ∃ ws, emitMemPair false r1 r2 r1 0 w = some ws ∧ ∀ m, ∃ m', Run ws m m' ∧
      m'.s.r (regMap r2) = rd m.s.m (addr m.s r1 0 w) 8 ∧ m'.s.r (regMap r1) = rd m.s.m (addr m.s r1 0 w + 8#64) 8 ∧
      (rd m.s.m (addr m.s r1 0 w) 8 ≠ rd m.s.m (addr m.s r1 0 w + 8#64) 8 → ¬ Loaded r1 r2 r1 0 w m m') := by
  have hn := int_nat w
  have hb : r1 ≠ 0 := by have := hr.a.1; omega
  have hw : Mid w := ⟨(align w (z := 3) (by omega)).2 h8, by omega, by omega⟩
  obtain ⟨ws, e, h⟩ := pair_swapped (regs hr) hb hw
  have ea : ∀ m : MSt, addr m.s r1 0 w = m.s.r (regMap r1) + w := fun m => by rw [addr, if_neg hb, if_pos rfl]
  refine ⟨ws, e, fun m => ⟨_, h m, ?_, ?_, fun hne k => hne ?_⟩⟩
  · rw [set_ne _ _ (Ne.symm (regs hr).ne), set_self, ea]
  · rw [set_self, ea]
  · have := k.first
    rw [set_self, ← ea m] at this
    exact this.symm

/-! ## Concrete cases -/

/-- A state: register n holds 0x1000 * n, the byte at address a is the low byte of a. -/
def st : MSt := ⟨⟨fun r => if r = 31#5 then 0x100000#64 else r.setWidth 64 <<< 12, fun a => a.setWidth 8, ⟨false, true, false, true⟩⟩, fun _ => 0#64⟩

theorem st_ok : Aligned st := by unfold Aligned; decide

/-- SLJIT_REG_PAIR(SLJIT_R1, SLJIT_R0) from SLJIT_MEM1(SLJIT_R1) + 0x200 (the documented order of the words fails), and the next smaller displacement. -/
example : ∃ ws m', emitMemPair false 2 1 2 0 0x200#64 = some ws ∧ Run ws st m' ∧ ¬ Loaded 2 1 2 0 0x200#64 st m' := by
  obtain ⟨ws, e, h⟩ := c80_load_false 2 1 0x200#64 ⟨by decide, by decide, by decide⟩ (by decide) (by decide) (by decide)
  obtain ⟨m', h1, -, -, h2⟩ := h st
  exact ⟨ws, m', e, h1, h2 (by decide +kernel)⟩

example : ∃ ws m', emitMemPair false 2 1 2 0 0x1f8#64 = some ws ∧ Run ws st m' ∧ Loaded 2 1 2 0 0x1f8#64 st m' :=
  c80_load_partial 2 1 2 0 0x1f8#64 st ⟨by decide, by decide, by decide⟩ ⟨by simp [C47.Src], by decide⟩ st_ok (by decide)

/-- Base and index are the registers of the pair. -/
example : ∃ ws m', emitMemPair false 2 1 1 2 3#64 = some ws ∧ Run ws st m' ∧ Loaded 2 1 1 2 3#64 st m' :=
  c80_load_partial 2 1 1 2 3#64 st ⟨by decide, by decide, by decide⟩ ⟨by simp [C47.Src], by decide⟩ st_ok (by decide)

/-- Large displacements and the local area. -/
example : (∃ ws m', emitMemPair true 2 1 2 0 0xfffffffff1234567#64 = some ws ∧ Run ws st m' ∧ Stored 2 1 2 0 0xfffffffff1234567#64 st m') ∧
    ∃ ws m', emitMemPair true 2 1 27 0 0x12348#64 = some ws ∧ Run ws st m' ∧ Stored 2 1 27 0 0x12348#64 st m' :=
  ⟨c80_store 2 1 2 0 _ st ⟨by decide, by decide, by decide⟩ ⟨by simp [C47.Src], by decide⟩ st_ok,
   c80_store 2 1 27 0 _ st ⟨by decide, by decide, by decide⟩ ⟨by simp [C47.Src], by decide⟩ st_ok⟩

end Verif.Props.C80
