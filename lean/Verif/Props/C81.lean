import Verif.X86.Pair
import Verif.Props.C46

/-!
# C81: sljit_emit_mem with register pairs on x86-64

The contract of sljit_emit_mem (sljitLir.h:2002-2028) with SLJIT_REG_PAIR: two consecutive words are transferred, the first register belongs to the lower address.
`Steps` executes the emitted bytes (X86/Arch.lean).
-/

namespace Verif.Props.C81
open Verif.X86
open Verif.Props.C46 (mreg addr Src)

/-- A pair of different registers of the user. -/
structure PairOk (r1 r2 : Nat) : Prop where
  a : 1 ≤ r1 ∧ r1 ≤ 13
  b : 1 ≤ r2 ∧ r2 ≤ 13
  ne : r1 ≠ r2

/-- Registers of the user other than those of `ws`, the stack pointer and the flags are kept. -/
structure Kept (win : Bool) (s s' : St) (ws : List Nat) : Prop where
  reg : ∀ q, 1 ≤ q → q ≤ 14 → q ∉ ws → s'.r (mreg win q) = s.r (mreg win q)
  flags : s'.f = s.f

/-- Both words are loaded, from the address which the operand has before the code. -/
structure Loaded (win : Bool) (r1 r2 base offs : Nat) (w : BitVec 64) (s s' : St) : Prop where
  first : s'.r (mreg win r1) = rd s.m (addr win s base offs w) 8
  second : s'.r (mreg win r2) = rd s.m (addr win s base offs w + 8#64) 8
  mem : s'.m = s.m
  kept : Kept win s s' [r1, r2]

/-- Both words are stored; bytes which are not in the sixteen bytes are kept. -/
structure Stored (win : Bool) (r1 r2 base offs : Nat) (w : BitVec 64) (s s' : St) : Prop where
  first : ∀ i, i < 8 → s'.m (addr win s base offs w + BitVec.ofNat 64 i) = (s.r (mreg win r1) >>> (8 * i)).setWidth 8
  second : ∀ i, i < 8 → s'.m (addr win s base offs w + BitVec.ofNat 64 (8 + i)) = (s.r (mreg win r2) >>> (8 * i)).setWidth 8
  rest : ∀ q, 16 ≤ (q - addr win s base offs w).toNat → s'.m q = s.m q
  kept : Kept win s s' []

theorem runs {win store : Bool} {r1 r2 base offs : Nat} {w : BitVec 64} (hr : PairOk r1 r2) (hm : Src (.mem base offs w)) (s : St) :
    ∃ t, Emits (emitPair win store r1 r2 base offs w) s t ∧ PairEnd win store s t r1 r2 (addr win s base offs w) :=
  emitPair_run hr.a hr.b hr.ne hm.1 hm.2.1 hm.2.2

theorem user_ne {win : Bool} {q r : Nat} (h1 : 1 ≤ q) (h2 : q ≤ 14) (h3 : 1 ≤ r) (h4 : r ≤ 16) (h : q ≠ r) : mreg win q ≠ num win r := num_ne h1 (by omega) h3 h4 h

/-- **C81, loads**: for every pair, operand and state both words are loaded, also if one or both registers of the pair are used by the operand. -/
theorem c81_load (win : Bool) (r1 r2 base offs : Nat) (w : BitVec 64) (hr : PairOk r1 r2) (hm : Src (.mem base offs w)) :
    ∃ bs, emitPair win false r1 r2 base offs w = some bs ∧ ∀ s, ∃ s', Steps bs s s' ∧ Loaded win r1 r2 base offs w s s' := by
  obtain ⟨-, ⟨bs, e, -⟩, -⟩ := runs (win := win) (store := false) hr hm ⟨fun _ => 0#64, fun _ => 0#8, ⟨none, none, none, none⟩⟩
  refine ⟨bs, e, fun s => ?_⟩
  obtain ⟨t, ⟨bs', e', h1⟩, h2⟩ := runs (win := win) (store := false) hr hm s
  rw [e] at e'
  cases e'
  obtain ⟨g1, g2⟩ := h2.load rfl
  refine ⟨t, h1, g1, g2, h2.mem, fun q a b hq => ?_, h2.flags⟩
  simp only [List.mem_cons, List.not_mem_nil, or_false, not_or] at hq
  exact h2.regs _ (user_ne a b (by decide) (by decide) (by unfold TMP_REG1; omega)) fun _ =>
    ⟨user_ne a b hr.a.1 (by have := hr.a.2; omega) hq.1, user_ne a b hr.b.1 (by have := hr.b.2; omega) hq.2⟩

/-- **C81, stores**: for every pair, operand and state both words are stored. -/
theorem c81_store (win : Bool) (r1 r2 base offs : Nat) (w : BitVec 64) (hr : PairOk r1 r2) (hm : Src (.mem base offs w)) :
    ∃ bs, emitPair win true r1 r2 base offs w = some bs ∧ ∀ s, ∃ s', Steps bs s s' ∧ Stored win r1 r2 base offs w s s' := by
  obtain ⟨-, ⟨bs, e, -⟩, -⟩ := runs (win := win) (store := true) hr hm ⟨fun _ => 0#64, fun _ => 0#8, ⟨none, none, none, none⟩⟩
  refine ⟨bs, e, fun s => ?_⟩
  obtain ⟨t, ⟨bs', e', h1⟩, h2⟩ := runs (win := win) (store := true) hr hm s
  rw [e] at e'
  cases e'
  have hmem := h2.mem
  rw [if_pos rfl] at hmem
  refine ⟨t, h1, fun i hi => ?_, fun i hi => ?_, fun q hq => ?_, fun q a b _ => h2.regs _ (user_ne a b (by decide) (by decide) (by unfold TMP_REG1; omega)) (fun h => by cases h), h2.flags⟩
  · generalize addr win s base offs w = a at *
    have e1 : (a + BitVec.ofNat 64 i - a).toNat = i := by rw [BitVec.add_comm, BitVec.add_sub_cancel, BitVec.toNat_ofNat]; omega
    have e2 : ¬ (a + BitVec.ofNat 64 i - (a + 8#64)).toNat < 8 := by
      rw [show a + BitVec.ofNat 64 i - (a + 8#64) = BitVec.ofNat 64 i - 8#64 by bv_omega, BitVec.toNat_sub, BitVec.toNat_ofNat]; simp only [BitVec.toNat_ofNat]; omega
    rw [hmem, wr, if_neg e2, wr, e1, if_pos hi]; rfl
  · generalize addr win s base offs w = a at *
    have e1 : (a + BitVec.ofNat 64 (8 + i) - (a + 8#64)).toNat = i := by
      rw [BitVec.ofNat_add, show a + (BitVec.ofNat 64 8 + BitVec.ofNat 64 i) - (a + 8#64) = BitVec.ofNat 64 i by bv_omega, BitVec.toNat_ofNat]; omega
    rw [hmem, wr, e1, if_pos hi]; rfl
  · generalize addr win s base offs w = a at *
    have e2 : ¬ (q - (a + 8#64)).toNat < 8 := by
      rw [show q - (a + 8#64) = (q - a) - 8#64 by bv_omega, BitVec.toNat_sub]; simp only [BitVec.toNat_ofNat]; omega
    rw [hmem, wr, if_neg e2, wr, if_neg (by omega)]

/-! ## Concrete cases -/

/-- The instructions of a load where both registers are used by the operand, [r0 + (r1 << 3)], on System V: a copy of the index to TMP_REG1 and
two loads. -/
example : ∃ bs, emitPair false false 1 2 1 2 3#64 = some bs ∧ bs.length = 12 := by
  refine ⟨(emitPair false false 1 2 1 2 3#64).getD [], ?_, ?_⟩ <;> decide +kernel

/-- A state: register n holds 0x1000 * n, the byte at address a is the low byte of a. -/
def st : St := ⟨fun q => BitVec.ofNat 64 (0x1000 * q.toNat), fun a => a.setWidth 8, ⟨none, none, none, none⟩⟩

/-- The base is the first register, the displacement is the first one which needs TMP_REG1: both words come from the old address. -/
example : ∃ bs s', emitPair false false 2 1 2 0 0x7ffffff8#64 = some bs ∧ Steps bs st s' ∧ s'.r (mreg false 2) = 0xfffefdfcfbfaf9f8#64 ∧ s'.r (mreg false 1) = 0x0706050403020100#64 := by
  obtain ⟨bs, e, h⟩ := c81_load false 2 1 2 0 0x7ffffff8#64 ⟨by decide, by decide, by decide⟩ ⟨by decide, by decide, fun h => absurd rfl h⟩
  obtain ⟨s', h1, h2⟩ := h st
  refine ⟨bs, s', e, h1, h2.first.trans ?_, h2.second.trans ?_⟩ <;> decide +kernel

/-- Both registers are used by the operand. -/
example : ∃ bs s', emitPair true false 3 4 3 4 1#64 = some bs ∧ Steps bs st s' ∧ s'.r (mreg true 3) = 0x0706050403020100#64 ∧ s'.r (mreg true 4) = 0x0f0e0d0c0b0a0908#64 := by
  obtain ⟨bs, e, h⟩ := c81_load true 3 4 3 4 1#64 ⟨by decide, by decide, by decide⟩ ⟨by decide, by decide, fun _ => by decide⟩
  obtain ⟨s', h1, h2⟩ := h st
  refine ⟨bs, s', e, h1, h2.first.trans ?_, h2.second.trans ?_⟩ <;> decide +kernel

/-- A store to an absolute address. -/
example : ∃ bs s', emitPair false true 1 2 0 0 0x123456789abcdef0#64 = some bs ∧ Steps bs st s' ∧ s'.m 0x123456789abcdef1#64 = 0#8 ∧ s'.m 0x123456789abcdf00#64 = 0#8 := by
  obtain ⟨bs, e, h⟩ := c81_store false 1 2 0 0 0x123456789abcdef0#64 ⟨by decide, by decide, by decide⟩ ⟨by decide, by decide, fun h => absurd rfl h⟩
  obtain ⟨s', h1, h2⟩ := h st
  refine ⟨bs, s', e, h1, ?_, ?_⟩
  · exact (h2.first 1 (by decide)).trans (by decide +kernel)
  · exact (h2.rest _ (by decide +kernel)).trans (by decide +kernel)

end Verif.Props.C81
