import Verif.A32.T2MemUpd
import Verif.Props.C83

/-!
# C85: sljit_emit_mem_update on Thumb-2

The contract (sljitLir.h:1983-2001, 2033-2052) is the one of C83; the offset is a constant.
-/

namespace Verif.Props.C85
open Verif.A32
open Verif.A32.T2 (regMap)
open Verif.Props.C47 (IsMove)
open Verif.Props.C83 (nbytes loaded)

/-- A register and a base of the API (sljitLir.c:2876-2880); neither is SLJIT_SP. -/
structure Regs (r base : Nat) : Prop where
  hr : 1 ≤ r ∧ r ≤ 12
  hb : 1 ≤ base ∧ base ≤ 12
  ne : r ≠ base

/-- The address. -/
def addr (post : Bool) (base : Nat) (w : BitVec 32) (s : St) : BitVec 32 := if post then s.r (regMap base) else s.r (regMap base) + w

/-- The load or store with update. -/
structure Updated (o : RV.Op1C) (store post : Bool) (r base : Nat) (w : BitVec 32) (s s' : St) : Prop where
  upd : s'.r (regMap base) = s.r (regMap base) + w
  reg : s'.r (regMap r) = if store then s.r (regMap r) else loaded o (addr post base w s) s
  mem : s'.m = if store then wr s.m (addr post base w s) (s.r (regMap r)) (nbytes o) else s.m
  keep : ∀ q, 1 ≤ q → q ≤ 13 → q ≠ r → q ≠ base → s'.r (regMap q) = s.r (regMap q)
  flags : s'.n = s.n ∧ s'.z = s.z ∧ s'.c = s.c ∧ s'.v = s.v

theorem user {q : Nat} (h : q ≤ 12) : regMap q ≠ 15#4 ∧ regMap q ≠ 13#4 := by
  have : ∀ q : Fin 13, regMap q.val ≠ 15#4 ∧ regMap q.val ≠ 13#4 := by decide
  exact this ⟨q, by omega⟩

theorem inj {a b : Nat} (ha : 1 ≤ a ∧ a ≤ 13) (hb : 1 ≤ b ∧ b ≤ 13) (h : a ≠ b) : regMap a ≠ regMap b := by
  have : ∀ a b : Fin 13, a ≠ b → regMap (a.val + 1) ≠ regMap (b.val + 1) := by decide
  have := this ⟨a - 1, by omega⟩ ⟨b - 1, by omega⟩ (by intro e; simp only [Fin.mk.injEq] at e; omega)
  simpa only [Nat.sub_add_cancel ha.1, Nat.sub_add_cancel hb.1] using this

/-- **C85 (the instruction)**: when code is emitted, it is one load or store with update (two halfwords), for every type, register, offset and state. -/
theorem c85_update (o : RV.Op1C) (store post : Bool) (r base offs : Nat) (w : BitVec 32) (ho : IsMove o) (hr : Regs r base)
    (ws : List (BitVec 16)) (h : T2.emitMemUpdate o store post false r base offs w = some ws) :
    ∃ hi lo, ws = [hi, lo] ∧ ∀ s, ∃ s', T2.step hi lo s = some s' ∧ Updated o store post r base w s s' := by
  obtain ⟨⟨r1, r2⟩, ⟨b1, b2⟩, ne⟩ := hr
  have N : ∀ q, 1 ≤ q → q ≤ 13 → ∀ p, 1 ≤ p → p ≤ 12 → q ≠ p → regMap q ≠ regMap p := fun q a b p c d e => inj ⟨a, b⟩ ⟨c, by omega⟩ e
  have n3 := N base b1 (by omega) r r1 r2 ne.symm
  obtain ⟨hi, lo, rfl, k⟩ := T2.run (user b2).1 (user r2).1 (user r2).2 n3 h
  refine ⟨hi, lo, rfl, fun s => ⟨_, k s, ?_⟩⟩
  have hb : 2 ^ (T2.opSz o).toNat = nbytes o := by
    simp only [IsMove, List.mem_cons, List.not_mem_nil, or_false] at ho
    rcases ho with rfl | rfl | rfl | rfl | rfl | rfl | rfl | rfl | rfl <;> rfl
  cases store
  · have hv : ∀ a, (if T2.opS o false = true then ((rd s.m a (2 ^ (T2.opSz o).toNat)).setWidth (8 * 2 ^ (T2.opSz o).toNat)).signExtend 32 else rd s.m a (2 ^ (T2.opSz o).toNat)) =
        loaded o a s := by
      intro a
      simp only [IsMove, List.mem_cons, List.not_mem_nil, or_false] at ho
      rcases ho with rfl | rfl | rfl | rfl | rfl | rfl | rfl | rfl | rfl <;> rfl
    simp only [hv]
    refine ⟨by simp [St.set], by simp [St.set, n3.symm, addr], by simp [St.set], fun q q1 q2 q3 q4 => ?_, by simp [St.set]⟩
    simp [St.set, N q q1 q2 r r1 r2 q3, N q q1 q2 base b1 b2 q4]
  · simp only [hb]
    refine ⟨by simp [St.set], by simp [St.set, n3.symm], by simp [St.set, addr], fun q q1 q2 q3 q4 => ?_, by simp [St.set]⟩
    simp [St.set, N q q1 q2 base b1 b2 q4]

/-- **C85 (what is supported)**: exactly the forms without an index register and with an offset of -255..255; the answer of SLJIT_MEM_SUPP agrees with the code and emits
nothing. -/
theorem c85_supported (o : RV.Op1C) (store post : Bool) (r base offs : Nat) (w : BitVec 32) :
    ((∃ ws, T2.emitMemUpdate o store post false r base offs w = some ws) ↔ offs = 0 ∧ -255 ≤ w.toInt ∧ w.toInt ≤ 255) ∧
    T2.emitMemUpdate o store post true r base offs w = (T2.emitMemUpdate o store post false r base offs w).map fun _ => [] := by
  unfold T2.emitMemUpdate
  by_cases h : offs ≠ 0 ∨ 255 < w.toInt ∨ w.toInt < -255
  · simp only [h, if_true, Option.map_none, and_true]
    constructor
    · rintro ⟨ws, h⟩; cases h
    · rintro ⟨h1, h2, h3⟩; omega
  · simp only [h, if_false, if_true, Bool.false_eq_true, Option.map_some, and_true]
    exact ⟨fun _ => ⟨by omega, by omega, by omega⟩, fun _ => ⟨_, rfl⟩⟩

/-! ## A concrete case -/

/-- ldrsh.w r0, [r1, #-255]! -/
example : ∃ hi lo s', T2.emitMemUpdate .movS16 false false false 1 2 0 (-255#32) = some [hi, lo] ∧ T2.step hi lo C83.st = some s' ∧ s'.r 0#4 = 0xffff8281#32 ∧
    s'.r 1#4 = 0xf81#32 := by
  obtain ⟨ws, e⟩ := (c85_supported .movS16 false false 1 2 0 (-255#32)).1.2 (by decide)
  obtain ⟨hi, lo, rfl, h⟩ := c85_update .movS16 false false 1 2 0 (-255#32) (by simp [IsMove]) ⟨by decide, by decide, by decide⟩ _ e
  obtain ⟨s', h1, h2⟩ := h C83.st
  refine ⟨hi, lo, s', e, h1, h2.reg.trans ?_, h2.upd.trans ?_⟩ <;> decide +kernel

end Verif.Props.C85
