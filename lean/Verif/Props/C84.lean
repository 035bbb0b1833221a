import Verif.A64.FMemUpd
import Verif.Props.C80

/-!
# C84: sljit_emit_fmem_update on ARM64

The contract (sljitLir.h:1987-2001, 2070-2079): one load or store of a floating point register, where the base register gets the sum of its old value and the offset; with
SLJIT_MEM_PRE the sum is the address, with SLJIT_MEM_POST the old value.
-/

namespace Verif.Props.C84
open Verif.A64
open Verif.Imm.Arm64 (regMap)

/-- The address. -/
def addr (post : Bool) (base : Nat) (w : BitVec 64) (s : St) : BitVec 64 := if post then s.r (regMap base) else s.r (regMap base) + w

/-- The load or store with update. -/
structure Updated (f32 store post : Bool) (freg base : Nat) (w : BitVec 64) (t t' : FSt) : Prop where
  upd : t'.s.r (regMap base) = t.s.r (regMap base) + w
  load64 : store = false → f32 = false → t'.v (fregMap freg) = rd t.s.m (addr post base w t.s) 8
  load32 : store = false → f32 = true → (t'.v (fregMap freg)).setWidth 32 = (rd t.s.m (addr post base w t.s) 4).setWidth 32
  loadMem : store = false → t'.s.m = t.s.m
  storeMem : store = true → t'.s.m = wr t.s.m (addr post base w t.s) (t.v (fregMap freg)) (if f32 then 4 else 8)
  fkeep : ∀ q, 1 ≤ q → q ≤ 32 → (q ≠ freg ∨ store = true) → t'.v (fregMap q) = t.v (fregMap q)
  keep : ∀ q, 1 ≤ q → q ≤ 27 → q ≠ base → t'.s.r (regMap q) = t.s.r (regMap q)
  flags : t'.s.f = t.s.f

theorem freg_inj {a b : Nat} (ha : 1 ≤ a ∧ a ≤ 32) (hb : 1 ≤ b ∧ b ≤ 32) (h : a ≠ b) : fregMap a ≠ fregMap b := by
  have : ∀ a b : Fin 32, a ≠ b → fregMap (a.val + 1) ≠ fregMap (b.val + 1) := by decide +kernel
  have := this ⟨a - 1, by omega⟩ ⟨b - 1, by omega⟩ (by intro e; simp only [Fin.mk.injEq] at e; omega)
  simpa only [Nat.sub_add_cancel ha.1, Nat.sub_add_cancel hb.1] using this

/-- **C84 (the instruction)**: when a word is emitted, it is one load or store with update, for every size, register, offset and state. -/
theorem c84_update (f32 store post : Bool) (freg base offs : Nat) (w : BitVec 64) (hf : 1 ≤ freg ∧ freg ≤ 30) (hb : 1 ≤ base ∧ base ≤ 26) (ws : List (BitVec 32))
    (h : emitFmemUpdate f32 store post false freg base offs w = some ws) :
    ∃ i, ws = [i] ∧ ∀ t, ∃ t', fupdStep i t = some t' ∧ Updated f32 store post freg base w t t' := by
  obtain ⟨i, rfl, k⟩ := fupd_run (C80.user31 hb) h
  refine ⟨i, rfl, fun t => ⟨_, k t, ?_⟩⟩
  have N : ∀ q, 1 ≤ q → q ≤ 27 → q ≠ base → regMap q ≠ regMap base := fun q a b hne e => hne (C80.user_inj ⟨a, b⟩ ⟨hb.1, by omega⟩ e)
  have F : ∀ q, 1 ≤ q → q ≤ 32 → q ≠ freg → fregMap q ≠ fregMap freg := fun q a b hne => freg_inj ⟨a, b⟩ ⟨hf.1, by omega⟩ hne
  cases store
  · refine ⟨by simp [St.set], fun _ e => ?_, fun _ e => ?_, fun _ => rfl, nofun, fun q a b e => ?_, fun q a b e => ?_, rfl⟩
    · subst e; simp [addr]
    · subst e; simp [addr]
    · simp [F q a b (by simpa using e)]
    · simp [St.set, N q a b e]
  · refine ⟨by simp [St.set], nofun, nofun, nofun, fun _ => rfl, fun q a b e => rfl, fun q a b e => ?_, rfl⟩
    simp [St.set, N q a b e]

/-- **C84 (what is supported)**: exactly the forms without an index register and with an offset of 9 bits; the answer of SLJIT_MEM_SUPP agrees with the code and emits
nothing. -/
theorem c84_supported (f32 store post : Bool) (freg base offs : Nat) (w : BitVec 64) :
    ((∃ ws, emitFmemUpdate f32 store post false freg base offs w = some ws) ↔ offs = 0 ∧ -256 ≤ w.toInt ∧ w.toInt ≤ 255) ∧
    emitFmemUpdate f32 store post true freg base offs w = (emitFmemUpdate f32 store post false freg base offs w).map fun _ => [] := by
  unfold emitFmemUpdate
  by_cases h : offs ≠ 0 ∨ 255 < w.toInt ∨ w.toInt < -256
  · simp only [h, if_true, Option.map_none, and_true]
    constructor
    · rintro ⟨ws, h⟩; cases h
    · rintro ⟨h1, h2, h3⟩; omega
  · simp only [h, if_false, if_true, Bool.false_eq_true, Option.map_some, and_true]
    exact ⟨fun _ => ⟨by omega, by omega, by omega⟩, fun _ => ⟨_, rfl⟩⟩

/-! ## Concrete cases -/

/-- A state: register n holds 0x1080 * n, floating point register n holds 0x11 * n, the byte at address a is the low byte of a. -/
def st : FSt := ⟨{ r := fun q => BitVec.ofNat 64 (0x1080 * q.toNat), m := fun a => a.setWidth 8, f := ⟨false, false, false, false⟩ }, fun q => BitVec.ofNat 64 (0x11 * q.toNat)⟩

/-- ldr d16, [x1, #-256]! -/
example : ∃ i t', emitFmemUpdate false false false false 9 2 0 (-256#64) = some [i] ∧ fupdStep i st = some t' ∧ t'.v 16#5 = 0x8786858483828180#64 ∧ t'.s.r 1#5 = 0xf80#64 := by
  obtain ⟨ws, e⟩ := (c84_supported false false false 9 2 0 (-256#64)).1.2 (by decide)
  obtain ⟨i, rfl, h⟩ := c84_update false false false 9 2 0 (-256#64) (by decide) (by decide) _ e
  obtain ⟨s', h1, h2⟩ := h st
  refine ⟨i, s', e, h1, (h2.load64 rfl rfl).trans ?_, h2.upd.trans ?_⟩ <;> decide +kernel

/-- str s1, [x1], #255 -/
example : ∃ i t', emitFmemUpdate true true true false 2 2 0 255#64 = some [i] ∧ fupdStep i st = some t' ∧ t'.s.m 0x1080#64 = 0x11#8 ∧ t'.s.m 0x1084#64 = 0x84#8 ∧
    t'.s.r 1#5 = 0x117f#64 := by
  obtain ⟨ws, e⟩ := (c84_supported true true true 2 2 0 255#64).1.2 (by decide)
  obtain ⟨i, rfl, h⟩ := c84_update true true true 2 2 0 255#64 (by decide) (by decide) _ e
  obtain ⟨s', h1, h2⟩ := h st
  refine ⟨i, s', e, h1, (congrFun (h2.storeMem rfl) _).trans ?_, (congrFun (h2.storeMem rfl) _).trans ?_, h2.upd.trans ?_⟩ <;> decide +kernel

end Verif.Props.C84
