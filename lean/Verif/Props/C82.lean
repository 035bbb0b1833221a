import Verif.A64.MemUpd
import Verif.Props.C80

/-!
# C82: sljit_emit_mem_update on ARM64

The contract (sljitLir.h:1983-2001, 2033-2052): one load or store, where the base register gets the sum of its old value and the offset; with SLJIT_MEM_PRE the sum is the
address, with SLJIT_MEM_POST the old value.  Forms which the CPU does not have are refused, and SLJIT_MEM_SUPP only tests.
-/

namespace Verif.Props.C82
open Verif.A64
open Verif.Imm.Arm64 (regMap)
open Verif.Props.C47 (IsMove width)

/-- A register and a base of the API (sljitLir.c:2876-2880; the base is not SLJIT_SP). -/
structure Regs (r base : Nat) : Prop where
  hr : 1 ≤ r ∧ r ≤ 26
  hb : 1 ≤ base ∧ base ≤ 26
  ne : r ≠ base

/-- The address. -/
def addr (post : Bool) (base : Nat) (w : BitVec 64) (s : St) : BitVec 64 := if post then s.r (regMap base) else s.r (regMap base) + w

/-- The value of a load: `width` bits of memory, extended. -/
def loaded (o : RV.Op1C) (a : BitVec 64) (s : St) : BitVec 64 :=
  match o with
  | .movS8 => ((rd s.m a 1).setWidth 8).signExtend 64
  | .movS16 => ((rd s.m a 2).setWidth 16).signExtend 64
  | .movS32 => ((rd s.m a 4).setWidth 32).signExtend 64
  | o => rd s.m a (width o false / 8)

/-- The load or store with update. -/
structure Updated (o : RV.Op1C) (store post : Bool) (r base : Nat) (w : BitVec 64) (s s' : St) : Prop where
  upd : s'.r (regMap base) = s.r (regMap base) + w
  reg : s'.r (regMap r) = if store then s.r (regMap r) else loaded o (addr post base w s) s
  mem : s'.m = if store then wr s.m (addr post base w s) (s.r (regMap r)) (width o false / 8) else s.m
  keep : ∀ q, 1 ≤ q → q ≤ 27 → q ≠ r → q ≠ base → s'.r (regMap q) = s.r (regMap q)
  flags : s'.f = s.f

/-- **C82 (the instruction)**: when a word is emitted, it is one load or store with update, for every type, register, offset and state. -/
theorem c82_update (o : RV.Op1C) (store post : Bool) (r base offs : Nat) (w : BitVec 64) (ho : IsMove o) (hr : Regs r base) (ws : List (BitVec 32))
    (h : emitMemUpdate o store post false r base offs w = some ws) :
    ∃ i, ws = [i] ∧ ∀ s, ∃ s', updStep i s = some s' ∧ Updated o store post r base w s s' := by
  unfold emitMemUpdate at h
  split at h
  · cases h
  rename_i hx
  rw [if_neg (by decide)] at h
  have hw : (w.setWidth 9).signExtend 64 = w := upd_sext fun hc => hx (Or.inr hc)
  have e := upd_word o store post r base w
  simp only at e
  simp only [Option.some.injEq] at h
  refine ⟨_, h.symm, fun s => ?_⟩
  have n1 : regMap base ≠ 31#5 := C80.user31 hr.hb
  have n2 : regMap r ≠ 31#5 := C80.user31 hr.hr
  have n3 : regMap base ≠ regMap r := fun e => hr.ne (C80.user_inj ⟨hr.hb.1, by have := hr.hb.2; omega⟩ ⟨hr.hr.1, by have := hr.hr.2; omega⟩ e).symm
  have N : ∀ q, 1 ≤ q → q ≤ 27 → ∀ p, 1 ≤ p → p ≤ 26 → q ≠ p → regMap q ≠ regMap p := fun q a b p c d hne e => hne (C80.user_inj ⟨a, b⟩ ⟨c, by omega⟩ e)
  rw [e, updStep_W _ _ _ _ _ _ n1 n3, hw]
  have ha : s.r (regMap base) + Mode.off (.imm (if (!post) = true then w else 0#64)) s = addr post base w s := by
    cases post <;> simp [addr, Mode.off]
  simp only [exec, ha]
  cases store
  · have key : ∃ v, (if updOpc o false = 0#2 then some { s with m := wr s.m (addr post base w s) (s.x (regMap r)) (bytes ((updSize o).setWidth 2)) }
        else if updOpc o false = 1#2 then some (s.setX (regMap r) (rd s.m (addr post base w s) (bytes ((updSize o).setWidth 2))))
        else if updOpc o false = 2#2 ∧ (updSize o).setWidth 2 ≠ 3#2 then
          some (s.setX (regMap r) (((rd s.m (addr post base w s) (bytes ((updSize o).setWidth 2))).setWidth (8 * bytes ((updSize o).setWidth 2))).signExtend 64))
        else if ((updSize o).setWidth 2).toNat < 2 then
          some (s.setX (regMap r) (up (((rd s.m (addr post base w s) (bytes ((updSize o).setWidth 2))).setWidth (8 * bytes ((updSize o).setWidth 2))).signExtend 32)))
        else none) = some (s.setX (regMap r) v) ∧ v = loaded o (addr post base w s) s := by
      simp only [IsMove, List.mem_cons, List.not_mem_nil, or_false] at ho
      rcases ho with rfl | rfl | rfl | rfl | rfl | rfl | rfl | rfl | rfl <;> exact ⟨_, rfl, rfl⟩
    obtain ⟨v, k1, k2⟩ := key
    rw [k1]
    refine ⟨_, rfl, ?_⟩
    subst k2
    refine ⟨by simp [St.set], ?_, ?_, fun q a b q1 q2 => ?_, ?_⟩
    · simp [St.set, St.setX, n2, n3.symm]
    · simp [St.set, St.setX, n2]
    · simp [St.set, St.setX, n2, N q a b _ hr.hr.1 hr.hr.2 q1, N q a b _ hr.hb.1 hr.hb.2 q2]
    · simp [St.set, St.setX, n2]
  · have hb : bytes ((updSize o).setWidth 2) = width o false / 8 := by
      simp only [IsMove, List.mem_cons, List.not_mem_nil, or_false] at ho
      rcases ho with rfl | rfl | rfl | rfl | rfl | rfl | rfl | rfl | rfl <;> rfl
    rw [if_pos (show updOpc o true = 0#2 from rfl), hb]
    refine ⟨_, rfl, by simp [St.set], ?_, ?_, fun q a b q1 q2 => ?_, rfl⟩
    · simp [St.set, n3.symm]
    · simp [St.set, St.x, n2]
    · simp [St.set, N q a b _ hr.hb.1 hr.hb.2 q2]

/-- **C82 (what is supported)**: exactly the forms without an index register and with an offset of 9 bits; the answer of SLJIT_MEM_SUPP agrees with the code and emits
nothing. -/
theorem c82_supported (o : RV.Op1C) (store post : Bool) (r base offs : Nat) (w : BitVec 64) :
    ((∃ ws, emitMemUpdate o store post false r base offs w = some ws) ↔ offs = 0 ∧ -256 ≤ w.toInt ∧ w.toInt ≤ 255) ∧
    emitMemUpdate o store post true r base offs w = (emitMemUpdate o store post false r base offs w).map fun _ => [] := by
  unfold emitMemUpdate
  by_cases h : offs ≠ 0 ∨ 255 < w.toInt ∨ w.toInt < -256
  · simp only [h, if_true, Option.map_none, and_true]
    constructor
    · rintro ⟨ws, h⟩; cases h
    · rintro ⟨h1, h2, h3⟩; omega
  · simp only [h, if_false, if_true, Bool.false_eq_true, Option.map_some, and_true]
    exact ⟨fun _ => ⟨by omega, by omega, by omega⟩, fun _ => ⟨_, rfl⟩⟩

/-! ## Concrete cases -/

/-- A state: register n holds 0x1080 * n, the byte at address a is the low byte of a. -/
def st : St := { r := fun q => BitVec.ofNat 64 (0x1080 * q.toNat), m := fun a => a.setWidth 8, f := ⟨false, false, false, false⟩ }

/-- ldrsh x0, [x1, #-256]! -/
example : ∃ i s', emitMemUpdate .movS16 false false false 1 2 0 (-256#64) = some [i] ∧ updStep i st = some s' ∧ s'.r 0#5 = 0xffffffffffff8180#64 ∧ s'.r 1#5 = 0xf80#64 := by
  obtain ⟨ws, e⟩ := (c82_supported .movS16 false false 1 2 0 (-256#64)).1.2 (by decide)
  obtain ⟨i, rfl, h⟩ := c82_update .movS16 false false 1 2 0 (-256#64) (by simp [IsMove]) ⟨by decide, by decide, by decide⟩ _ e
  obtain ⟨s', h1, h2⟩ := h st
  refine ⟨i, s', e, h1, h2.reg.trans ?_, h2.upd.trans ?_⟩ <;> decide +kernel

/-- strb w0, [x1], #255 -/
example : ∃ i s', emitMemUpdate .movU8 true true false 1 2 0 255#64 = some [i] ∧ updStep i st = some s' ∧ s'.m 0x1080#64 = 0#8 ∧ s'.r 1#5 = 0x117f#64 := by
  obtain ⟨ws, e⟩ := (c82_supported .movU8 true true 1 2 0 255#64).1.2 (by decide)
  obtain ⟨i, rfl, h⟩ := c82_update .movU8 true true 1 2 0 255#64 (by simp [IsMove]) ⟨by decide, by decide, by decide⟩ _ e
  obtain ⟨s', h1, h2⟩ := h st
  refine ⟨i, s', e, h1, (congrFun h2.mem _).trans ?_, h2.upd.trans ?_⟩ <;> decide +kernel

end Verif.Props.C82
