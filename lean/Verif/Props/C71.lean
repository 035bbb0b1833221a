import Verif.Loong.PairProof
import Verif.RISCV.PairProof
import Verif.Props.C63

/-!
# C71: sljit_emit_mem on LoongArch64 and RISC-V (RV64)

What an application can see of a machine is `View`; the contract of sljit_emit_mem (sljitLir.h:1976-2011) is stated on views only.
-/

namespace Verif.Props.C71
open Verif.RV (ld64 st64 Opd Op1C)
open Verif.Props.C62 (UserReg)

/-- What an application can see: its registers, the memory, the status flags, and what the platform reserves. -/
structure View where
  reg : Nat → BitVec 64
  mem : BitVec 64 → BitVec 8
  zero : Prop
  var : Prop
  carry : Bool → Prop
  fixed : BitVec 64 × BitVec 64
  f : BitVec 5 → BitVec 64

/-- A memory operand: `[base + w]`, `[w]` (base 0), `[base + (index << w)]` with a shift below 4. -/
def MemOk (b i : Nat) (w : BitVec 64) : Prop := b ≤ 24 ∧ i ≤ 24 ∧ (i ≠ 0 → w.toNat < 4)

/-- Effective address (sljitLir.h:998-1014). -/
def View.addr (s : View) (b i : Nat) (w : BitVec 64) : BitVec 64 :=
  (if b = 0 then 0#64 else s.reg b) + (if i = 0 then w else s.reg i <<< (w.toNat % 4))

/-- Apart from the registers of `ws` and the memory, nothing has changed. -/
structure View.Kept (s s' : View) (ws : List Nat) : Prop where
  reg : ∀ r, UserReg r → r ∉ ws → s'.reg r = s.reg r
  flags : (s'.zero ↔ s.zero) ∧ (s'.var ↔ s.var) ∧ ∀ b, s'.carry b ↔ s.carry b
  fixed : s'.fixed = s.fixed
  f : s'.f = s.f

/-- Two consecutive words are loaded, from the address in the state before the code. -/
structure Loaded (r1 r2 b i : Nat) (w : BitVec 64) (s s' : View) : Prop where
  first : s'.reg r1 = ld64 s.mem (s.addr b i w)
  second : s'.reg r2 = ld64 s.mem (s.addr b i w + 8#64)
  mem : s'.mem = s.mem
  kept : s.Kept s' [r1, r2]

/-- Two registers are stored into consecutive words. -/
structure Stored (r1 r2 b i : Nat) (w : BitVec 64) (s s' : View) : Prop where
  mem : s'.mem = st64 (st64 s.mem (s.addr b i w) (s.reg r1)) (s.addr b i w + 8#64) (s.reg r2)
  kept : s.Kept s' []

/-! ## LoongArch64 -/

open Verif.Imm.Loong in
/-- The view of a LoongArch64 machine. -/
def viewL (c : Verif.LA.Core) : View :=
  ⟨fun r => c.x (regMap r), c.mem, C62.zeroFlag c, C62.varFlag c, C62.carryFlag c, (c.x 2#5, c.x 21#5), c.f⟩

section
open Verif.LA Verif.Imm.Loong

theorem kept_L {c c' : Core} {ws : List Nat} {W : List (BitVec 5)} (h : Verif.LA.Only W c { c' with mem := c.mem }) (h0 : ∀ r, UserReg r → r ∉ ws → regMap r ∉ W)
    (hf : 12#5 ∉ W ∧ 15#5 ∉ W ∧ 2#5 ∉ W ∧ 21#5 ∉ W) : (viewL c).Kept (viewL c') ws := by
  have k : ∀ q, q ∉ W → c'.x q = c.x q := h.1
  refine ⟨fun r hr hn => k _ (h0 r hr hn), ⟨?_, ?_, fun b => ?_⟩, ?_, h.2.2⟩
  · simp only [viewL, C62.zeroFlag, k _ hf.1]
  · simp only [viewL, C62.varFlag, k _ hf.2.1]
  · simp only [viewL, C62.carryFlag, k _ hf.2.1]
  · simp only [viewL, k _ hf.2.2.1, k _ hf.2.2.2]

theorem addr_L (c : Core) (b i : Nat) (w : BitVec 64) : ea c b i w = (viewL c).addr b i w := C62.addr_eq c b i w

/-- **C71, loads on LoongArch64.**  sljit_emit_mem with SLJIT_REG_PAIR(r1, r2) loads both words from the address which the operand has before the code, also
when the base or the index register is one of the two and for every offset; nothing else changes, not even a flag. -/
theorem c71_loong_load (r1 r2 b i : Nat) (w : BitVec 64) (s : Core) (h1 : UserReg r1) (h2 : UserReg r2) (hne : r1 ≠ r2) (hm : MemOk b i w) :
    ∃ s', run (emitMemPair false r1 r2 b i w) s = some s' ∧ Loaded r1 r2 b i w (viewL s) (viewL s') := by
  obtain ⟨s', hr, g1, g2, g3⟩ := pair_load (c := s) (w := w) hm.1 hm.2.1 h1 h2 hne
  have inj := C62.user_inj
  refine ⟨s', hr, ?_, ?_, g3.2.1, kept_L (W := [13#5, regMap r1, regMap r2]) ⟨g3.1, rfl, g3.2.2⟩ ?_ ?_⟩
  · rw [addr_L] at g1; exact g1
  · rw [addr_L] at g2; exact g2
  · intro r hr hn
    simp only [List.mem_cons, List.not_mem_nil, or_false, not_or] at hn ⊢
    exact ⟨(user_ne hr.2).2.2.1, fun h => hn.1 (inj _ _ hr h1 h), fun h => hn.2 (inj _ _ hr h2 h)⟩
  · have a1 := user_ne h1.2; have a2 := user_ne h2.2
    have b1 := C62.user_fixed r1 h1; have b2 := C62.user_fixed r2 h2
    simp [a1.2.1.symm, a1.2.2.2.2.symm, a2.2.1.symm, a2.2.2.2.2.symm, b1.1.symm, b1.2.symm, b2.1.symm, b2.2.symm]

/-- **C71, stores on LoongArch64.** -/
theorem c71_loong_store (r1 r2 b i : Nat) (w : BitVec 64) (s : Core) (h1 : UserReg r1) (h2 : UserReg r2) (hm : MemOk b i w) :
    ∃ s', run (emitMemPair true r1 r2 b i w) s = some s' ∧ Stored r1 r2 b i w (viewL s) (viewL s') := by
  obtain ⟨s', hr, c1, g1, rfl⟩ := pair_store (c := s) (w := w) hm.1 hm.2.1 h1.2 h2.2
  refine ⟨_, hr, ?_, kept_L (W := [13#5]) ⟨g1.1, rfl, g1.2.2⟩ ?_ (by decide)⟩
  · rw [addr_L]; rfl
  · intro r hr _
    simp [(user_ne hr.2).2.2.1]

/-- **C71, one register, on LoongArch64.**  sljit_emit_mem is the move of its type between the register and memory (C63). -/
theorem c71_loong_single (store : Bool) (o : Op1C) (is32 : Bool) (r b i : Nat) (w : BitVec 64) (s : Core) (ho : C24.IsMove o) (hr : UserReg r) (hm : MemOk b i w) :
    ∃ s', run (emitMem1 store o is32 r b i w) s = some s' ∧
      (store = false → s'.x (regMap r) = C24.moved o (C24.load (C24.width o is32) false s.mem ((viewL s).addr b i w)) ∧ s'.mem = s.mem ∧
        (viewL s).Kept (viewL s') [r]) ∧
      (store = true → s'.mem = C24.store (C24.width o is32) s.mem ((viewL s).addr b i w) (C24.moved o (s.x (regMap r))) ∧
        (viewL s).Kept (viewL s') []) := by
  cases store
  · obtain ⟨s', e, h⟩ := C63.c63_move o is32 (.reg r) (.mem b i w) s ho hr hm
    refine ⟨s', by simpa [emitMem1] using e, fun _ => ⟨h.reg r rfl, h.mem, ?_, h.flags, ?_, h.fregs⟩, fun h => by cases h⟩
    · intro q hq hn
      exact h.user q hq (fun e => hn (by cases e; simp))
    · exact Prod.ext h.fixed.1 h.fixed.2
  · obtain ⟨s', e, h⟩ := C63.c63_move o is32 (.mem b i w) (.reg r) s ho hm hr
    refine ⟨s', by simpa [emitMem1] using e, (by intro h; cases h), fun _ => ⟨h.mem, ?_, h.flags, ?_, h.fregs⟩⟩
    · intro q hq _
      exact h.user q hq (fun e => by cases e)
    · exact Prod.ext h.fixed.1 h.fixed.2

end

/-! ## RV64 -/

open Verif.RV in
/-- The view of an RV64 machine. -/
def viewR (s : St) : View :=
  ⟨fun r => s.rd (regMap r), s.mem, Rv.zeroFlag s, Rv.varFlag s, Rv.carryFlag s, (s.rd 3#5, s.rd 4#5), s.f⟩

section
open Verif.RV

theorem user_inj : ∀ r q : Nat, UserReg r → UserReg q → regMap r = regMap q → r = q := by
  have key : ∀ r ≤ 24, ∀ q ≤ 24, regMap r = regMap q → r = q := by decide +kernel
  exact fun r q hr hq => key r hr.2 q hq.2

theorem user_fixed {r : Nat} (h : UserReg r) : regMap r ≠ 3#5 ∧ regMap r ≠ 4#5 := by
  have key : ∀ r ≤ 24, regMap r ≠ 3#5 ∧ regMap r ≠ 4#5 := by decide +kernel
  exact key r h.2

theorem kept_R {s s' : St} {ws : List Nat} {W : List (BitVec 5)} (k : ∀ q, q ∉ W → s'.rd q = s.rd q) (hf : s'.f = s.f)
    (h0 : ∀ r, UserReg r → r ∉ ws → regMap r ∉ W) (hW : 5#5 ∉ W ∧ 28#5 ∉ W ∧ 3#5 ∉ W ∧ 4#5 ∉ W) : (viewR s).Kept (viewR s') ws := by
  refine ⟨fun r hr hn => k _ (h0 r hr hn), ⟨?_, ?_, fun b => ?_⟩, ?_, hf⟩
  · simp only [viewR, Rv.zeroFlag, k _ hW.1]
  · simp only [viewR, Rv.varFlag, k _ hW.2.1]
  · simp only [viewR, Rv.carryFlag, k _ hW.2.1]
  · simp only [viewR, k _ hW.2.2.1, k _ hW.2.2.2]

theorem addr_R (s : St) (b i : Nat) (w : BitVec 64) : ea s.core b i w = (viewR s).addr b i w := Rv.addr_eq s b i w

/-- **C71, loads on RV64**, with and without the extensions. -/
theorem c71_riscv_load (cfg : Cfg) (r1 r2 b i : Nat) (w : BitVec 64) (s : St) (h1 : UserReg r1) (h2 : UserReg r2) (hne : r1 ≠ r2) (hm : MemOk b i w) :
    ∃ s', run (emitMemPair cfg false r1 r2 b i w) s = some s' ∧ Loaded r1 r2 b i w (viewR s) (viewR s') := by
  obtain ⟨s', hr, g1, g2, g3⟩ := pair_load (cfg := cfg) (c := s.core) (w := w) hm.1 hm.2.1 h1 h2 hne s rfl
  refine ⟨s', hr, ?_, ?_, g3.2.1, kept_R (W := [6#5, 7#5, regMap r1, regMap r2]) g3.1 g3.2.2 ?_ ?_⟩
  · rw [addr_R] at g1; exact g1
  · rw [addr_R] at g2; exact g2
  · intro r hr hn
    simp only [List.mem_cons, List.not_mem_nil, or_false, not_or] at hn ⊢
    exact ⟨(user_ne hr.2).2.2.1, (user_ne hr.2).2.2.2.1, fun h => hn.1 (user_inj _ _ hr h1 h), fun h => hn.2 (user_inj _ _ hr h2 h)⟩
  · have a1 := user_ne h1.2; have a2 := user_ne h2.2
    have b1 := user_fixed h1; have b2 := user_fixed h2
    simp [a1.2.1.symm, a1.2.2.2.2.symm, a2.2.1.symm, a2.2.2.2.2.symm, b1.1.symm, b1.2.symm, b2.1.symm, b2.2.symm]

/-- **C71, stores on RV64.** -/
theorem c71_riscv_store (cfg : Cfg) (r1 r2 b i : Nat) (w : BitVec 64) (s : St) (h1 : UserReg r1) (h2 : UserReg r2) (hm : MemOk b i w) :
    ∃ s', run (emitMemPair cfg true r1 r2 b i w) s = some s' ∧ Stored r1 r2 b i w (viewR s) (viewR s') := by
  obtain ⟨s', hr, c1, g1, g2⟩ := pair_store (cfg := cfg) (c := s.core) (w := w) hm.1 hm.2.1 h1.2 h2.2 s rfl
  have gx : ∀ q, s'.rd q = c1.x q := fun q => congrFun (congrArg Core.x g2) q
  have gm : s'.mem = _ := congrArg Core.mem g2
  have gf : s'.f = _ := congrArg Core.f g2
  refine ⟨_, hr, ?_, kept_R (W := [6#5, 7#5]) (fun q hq => (gx q).trans (g1.1 q hq)) (gf.trans g1.2.2) ?_ (by decide)⟩
  · exact gm.trans (by rw [addr_R]; rfl)
  · intro r hr _
    simp [(user_ne hr.2).2.2.1, (user_ne hr.2).2.2.2.1]

end

/-! ## The hypotheses can be met -/

/-- `{R0, R1} = [R0 + 0x17f8]`: the base is the first register, and the second word is at an offset whose low part has changed its sign. -/
example : ∃ s', Verif.LA.run (Verif.LA.emitMemPair false 1 2 1 0 0x17f8#64) (C62.demo 0x1000#64 5#64 0#64 0#64 0#64 0x2800#64 0x77#8) = some s' ∧
    s'.x (Verif.Imm.Loong.regMap 1) = 0#64 ∧ s'.x (Verif.Imm.Loong.regMap 2) = 0x77#64 := by
  obtain ⟨s', hr, h⟩ := c71_loong_load 1 2 1 0 0x17f8#64 (C62.demo 0x1000#64 5#64 0#64 0#64 0#64 0x2800#64 0x77#8)
    ⟨by decide, by decide⟩ ⟨by decide, by decide⟩ (by decide) ⟨by decide, by decide, fun h => absurd rfl h⟩
  exact ⟨s', hr, h.first.trans (by decide +kernel), h.second.trans (by decide +kernel)⟩

/-- `[R0 + (R1 << 3)] = {R1, R0}` on RV64. -/
example : ∃ s', Verif.RV.run (Verif.RV.emitMemPair ⟨true, true, true⟩ true 2 1 1 2 3#64) (C24.st 0x100#64 0x10#64) = some s' ∧
    s'.mem 0x180#64 = 0x10#8 ∧ s'.mem 0x189#64 = 1#8 := by
  obtain ⟨s', hr, h⟩ := c71_riscv_store ⟨true, true, true⟩ 2 1 1 2 3#64 (C24.st 0x100#64 0x10#64)
    ⟨by decide, by decide⟩ ⟨by decide, by decide⟩ ⟨by decide, by decide, fun _ => by decide⟩
  have hm := h.mem
  refine ⟨s', hr, ?_, ?_⟩
  · exact (congrFun hm _).trans (by decide +kernel)
  · exact (congrFun hm _).trans (by decide +kernel)

end Verif.Props.C71
