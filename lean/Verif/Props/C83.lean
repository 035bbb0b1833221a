import Verif.A32.MemUpd
import Verif.A32.Into
import Verif.Props.C47

/-!
# C83: sljit_emit_mem_update on ARM32

The contract (sljitLir.h:1983-2001, 2033-2052): one load or store, where the base register gets the sum of its old value and the offset; with SLJIT_MEM_PRE the sum is the
address, with SLJIT_MEM_POST the old value.  The offset is a constant or a shifted register.  Forms which the CPU does not have are refused, and SLJIT_MEM_SUPP only tests.
-/

namespace Verif.Props.C83
open Verif.A32
open Verif.Imm.Arm32 (regMap)
open Verif.Props.C47 (IsMove)

/-- A register, a base and an index (0: none) of the API (sljitLir.c:2876-2880; neither is SLJIT_SP); the index is not the base (UNPREDICTABLE before ARMv6). -/
structure Regs (r base offs : Nat) : Prop where
  hr : 1 ≤ r ∧ r ≤ 12
  hb : 1 ≤ base ∧ base ≤ 12
  hi : offs ≤ 12
  ne : r ≠ base
  nb : offs ≠ base

/-- The change of the base: `w`, or the index times 2^w. -/
def delta (offs : Nat) (w : BitVec 32) (s : St) : BitVec 32 := if offs = 0 then w else s.r (regMap offs) * BitVec.ofNat 32 (2 ^ w.toNat)

/-- The address. -/
def addr (post : Bool) (base offs : Nat) (w : BitVec 32) (s : St) : BitVec 32 := if post then s.r (regMap base) else s.r (regMap base) + delta offs w s

/-- The number of bytes. -/
def nbytes (o : RV.Op1C) : Nat :=
  match o with
  | .movU8 | .movS8 => 1
  | .movU16 | .movS16 => 2
  | _ => 4

/-- The value of a load. -/
def loaded (o : RV.Op1C) (a : BitVec 32) (s : St) : BitVec 32 :=
  match o with
  | .movS8 => ((rd s.m a 1).setWidth 8).signExtend 32
  | .movS16 => ((rd s.m a 2).setWidth 16).signExtend 32
  | o => rd s.m a (nbytes o)

/-- The load or store with update. -/
structure Updated (o : RV.Op1C) (store post : Bool) (r base offs : Nat) (w : BitVec 32) (s s' : St) : Prop where
  upd : s'.r (regMap base) = s.r (regMap base) + delta offs w s
  reg : s'.r (regMap r) = if store then s.r (regMap r) else loaded o (addr post base offs w s) s
  mem : s'.m = if store then wr s.m (addr post base offs w s) (s.r (regMap r)) (nbytes o) else s.m
  keep : ∀ q, 1 ≤ q → q ≤ 13 → q ≠ r → q ≠ base → s'.r (regMap q) = s.r (regMap q)
  flags : s'.n = s.n ∧ s'.z = s.z ∧ s'.c = s.c ∧ s'.v = s.v

theorem user15 {q : Nat} (h : q ≤ 13) : regMap q ≠ 15#4 := by
  have : ∀ q : Fin 14, regMap q.val ≠ 15#4 := by decide
  exact this ⟨q, by omega⟩

/-- **C83 (the instruction)**: when a word is emitted, it is one load or store with update, for every type, register, offset and state. -/
theorem c83_update (o : RV.Op1C) (store post : Bool) (r base offs : Nat) (w : BitVec 32) (ho : IsMove o) (hr : Regs r base offs) (hs : offs ≠ 0 → w.toNat < 4)
    (ws : List (BitVec 32)) (h : emitMemUpdate o store post false r base offs w = some ws) :
    ∃ i, ws = [i] ∧ ∀ s, ∃ s', updStep i s = some s' ∧ Updated o store post r base offs w s s' := by
  obtain ⟨⟨r1, r2⟩, ⟨b1, b2⟩, hi, ne, -⟩ := hr
  have N : ∀ q, 1 ≤ q → q ≤ 13 → ∀ p, 1 ≤ p → p ≤ 12 → q ≠ p → regMap q ≠ regMap p := fun q a b p c d e => regMap_inj ⟨a, by omega⟩ ⟨c, by omega⟩ e
  have n3 := N base b1 (by omega) r r1 r2 ne.symm
  obtain ⟨i, rfl, k⟩ := upd_run (user15 (by omega)) (user15 (by omega)) (user15 (by omega)) n3 hs h
  refine ⟨i, rfl, fun s => ⟨_, k s, ?_⟩⟩
  have hd : updOff offs w s = delta offs w s := by
    unfold updOff delta
    split
    · rfl
    · rw [BitVec.shiftLeft_eq_mul_twoPow]
      congr 1
      apply BitVec.eq_of_toNat_eq
      rw [BitVec.toNat_twoPow, BitVec.toNat_ofNat]
  rw [hd, show (if post = true then s.r (regMap base) else s.r (regMap base) + delta offs w s) = addr post base offs w s from rfl]
  generalize ha : addr post base offs w s = a
  have hl : (updTy o store).load = !store := by cases o <;> rfl
  have hb : bytes (updTy o store) = nbytes o := by
    simp only [IsMove, List.mem_cons, List.not_mem_nil, or_false] at ho
    rcases ho with rfl | rfl | rfl | rfl | rfl | rfl | rfl | rfl | rfl <;> rfl
  have hv : ldVal (updTy o store) s.m a = loaded o a s := by
    simp only [IsMove, List.mem_cons, List.not_mem_nil, or_false] at ho
    rcases ho with rfl | rfl | rfl | rfl | rfl | rfl | rfl | rfl | rfl <;> rfl
  unfold xfer
  rw [hl, hb, hv]
  cases store
  · refine ⟨by simp [St.set], by simp [St.set, n3.symm, ha], by simp [St.set, ha], fun q q1 q2 q3 q4 => ?_, by simp [St.set]⟩
    simp [St.set, N q q1 q2 r r1 r2 q3, N q q1 q2 base b1 b2 q4]
  · refine ⟨by simp [St.set], by simp [St.set, n3.symm, ha], by simp [St.set, ha], fun q q1 q2 q3 q4 => ?_, by simp [St.set]⟩
    simp [St.set, N q q1 q2 base b1 b2 q4]

/-- The forms of the CPU: words and bytes (but not signed byte loads) have 12 bits of offset or a shifted index, the others 8 bits of offset or an index. -/
def Available (o : RV.Op1C) (store : Bool) (offs : Nat) (w : BitVec 32) : Prop :=
  let full := nbytes o = 4 ∨ o = .movU8 ∨ (o = .movS8 ∧ store = true)
  if offs = 0 then (full ∧ -4095 ≤ w.toInt ∧ w.toInt ≤ 4095) ∨ (¬ full ∧ -255 ≤ w.toInt ∧ w.toInt ≤ 255) else full ∨ w = 0#32

/-- **C83 (what is supported)**: exactly the forms of the CPU; the answer of SLJIT_MEM_SUPP agrees with the code and emits nothing. -/
theorem c83_supported (o : RV.Op1C) (store post : Bool) (r base offs : Nat) (w : BitVec 32) (ho : IsMove o) :
    ((∃ ws, emitMemUpdate o store post false r base offs w = some ws) ↔ Available o store offs w) ∧
    emitMemUpdate o store post true r base offs w = (emitMemUpdate o store post false r base offs w).map fun _ => [] := by
  have hf : (nbytes o = 4 ∨ o = .movU8 ∨ (o = .movS8 ∧ store = true)) ↔ updT1 o store = true := by
    simp only [IsMove, List.mem_cons, List.not_mem_nil, or_false] at ho
    rcases ho with rfl | rfl | rfl | rfl | rfl | rfl | rfl | rfl | rfl <;> cases store <;> decide
  unfold emitMemUpdate Available
  simp only [hf]
  by_cases h0 : offs = 0
  · simp only [h0, ne_eq, not_true_eq_false, if_false, if_true]
    cases updT1 o store
    · by_cases h : 255 < w.toInt ∨ w.toInt < -255
      · simp [h]; omega
      · simp [h]; omega
    · by_cases h : 4095 < w.toInt ∨ w.toInt < -4095
      · simp [h]; omega
      · simp [h]; omega
  · simp only [h0, ne_eq, not_false_eq_true, if_false, if_true]
    cases updT1 o store
    · by_cases h : w = 0#32 <;> simp [h]
    · simp

/-! ## Concrete cases -/

/-- A state: register n holds 0x1080 * n, the byte at address a is the low byte of a. -/
def st : St := { r := fun q => BitVec.ofNat 32 (0x1080 * q.toNat), m := fun a => a.setWidth 8, n := false, z := true, c := false, v := false }

/-- ldrsh r0, [r1, #-255]! -/
example : ∃ i s', emitMemUpdate .movS16 false false false 1 2 0 (-255#32) = some [i] ∧ updStep i st = some s' ∧ s'.r 0#4 = 0xffff8281#32 ∧ s'.r 1#4 = 0xf81#32 := by
  obtain ⟨ws, e⟩ := (c83_supported .movS16 false false 1 2 0 (-255#32) (by simp [IsMove])).1.2 (by unfold Available; decide)
  obtain ⟨i, rfl, h⟩ := c83_update .movS16 false false 1 2 0 (-255#32) (by simp [IsMove]) ⟨by decide, by decide, by decide, by decide, by decide⟩ (by decide) _ e
  obtain ⟨s', h1, h2⟩ := h st
  refine ⟨i, s', e, h1, h2.reg.trans ?_, h2.upd.trans ?_⟩ <;> decide +kernel

/-- strb r2, [r1], r0, lsl #3 -/
example : ∃ i s', emitMemUpdate .movU8 true true false 3 2 1 3#32 = some [i] ∧ updStep i st = some s' ∧ s'.m 0x1080#32 = 0#8 ∧ s'.r 1#4 = 0x1080#32 := by
  obtain ⟨ws, e⟩ := (c83_supported .movU8 true true 3 2 1 3#32 (by simp [IsMove])).1.2 (by unfold Available; decide)
  obtain ⟨i, rfl, h⟩ := c83_update .movU8 true true 3 2 1 3#32 (by simp [IsMove]) ⟨by decide, by decide, by decide, by decide, by decide⟩ (by decide) _ e
  obtain ⟨s', h1, h2⟩ := h st
  refine ⟨i, s', e, h1, (congrFun h2.mem _).trans ?_, h2.upd.trans ?_⟩ <;> decide +kernel

end Verif.Props.C83
