import Verif.Loong.OpAddr
import Verif.Props.C70

/-!
# C74: sljit_emit_op_addr with all destinations and operations on LoongArch64

The result is stated with `Verif.Props.C62.Result`: what the destination holds, and that nothing else has changed.
-/

namespace Verif.Props.C74
open Verif.LA
open Verif.RV (Opd)
open Verif.Props.C62 (UserReg Dst Result value zeroFlag varFlag demo)
open Verif.Imm.Loong (regMap)

/-- The operations of sljit_emit_op_addr (sljitLir.h:2404-2411). -/
inductive AddrOp
  | mov | movAbs | addAbs
  deriving DecidableEq

/-- What the destination holds at the end; `addr` is the address of the label.  On this processor code has the same address for reading and for jumps. -/
def wanted (o : AddrOp) (old addr : BitVec 64) : BitVec 64 :=
  match o with
  | .mov | .movAbs => addr
  | .addAbs => old + addr

/-- The words of the operation (`emitOpAddr` only looks whether it is SLJIT_ADD_ABS_ADDR). -/
def code (o : AddrOp) (dst : Opd) (a addr : BitVec 64) : Option Emit := emitOpAddr (decide (o = .addAbs)) dst a addr

/-- Where the address is loaded: behind the load of a destination in memory. -/
def place (o : AddrOp) (dst : Opd) (a : BitVec 64) : BitVec 64 := opAddrAt (decide (o = .addAbs)) dst a

/-- **C74**, partial: sljit_emit_op_addr stores the address of the label in the destination, or adds it to the destination, whatever the distance and the
form selected for it; flags, other registers and other memory are kept.  Missing: labels in the last two kilobytes in front of `place + 2^31` (`c74_false`). -/
theorem c74_partial (o : AddrOp) (dst : Opd) (a addr : BitVec 64) (s : Core) (hd : Dst dst)
    (hw : ¬ (0x7ffff800 ≤ (addr - place o dst a).toInt ∧ (addr - place o dst a).toInt ≤ 0x7fffffff)) :
    ∃ e, code o dst a addr = some e ∧ ∀ c, CodeAt c a e → ∃ s', StepsJ c ⟨a, s⟩ ⟨a + BitVec.ofNat 64 (4 * e.length), s'⟩ ∧
      Result false dst (wanted o (value false s dst) addr) s s' ∧ (zeroFlag s' ↔ zeroFlag s) ∧ (varFlag s' ↔ varFlag s) := by
  obtain ⟨e, h1, h2⟩ := emitOpAddr_ok (add := decide (o = .addAbs)) (s := s) hd.ok.1 hd.ok.2 hw
  refine ⟨e, h1, fun c hc => ?_⟩
  obtain ⟨s', r1, r2, r3, r4⟩ := h2 c hc
  refine ⟨s', r1, ?_, by unfold zeroFlag; rw [r3], by unfold varFlag; rw [r4]⟩
  have hv := C62.value_eq ⟨.mov, false, false, .none⟩ s dst
  have e : (if decide (o = AddrOp.addAbs) = true then opdVal .word false s dst + addr else addr) = wanted o (value false s dst) addr := by
    rw [← hv]
    cases o <;> rfl
  rw [e] at r2
  exact C62.Result.of (op := ⟨.mov, false, false, .none⟩) (Or.inl hd) r2

/-- **C74 is violated** in the last two kilobytes: the address is 4 gigabytes too low. -/
theorem c74_false : ¬ ∀ (o : AddrOp) (dst : Opd) (a addr : BitVec 64) (s : Core) (e : Emit), Dst dst → code o dst a addr = some e →
    ∀ c, CodeAt c a e → ∀ s', StepsJ c ⟨a, s⟩ ⟨a + BitVec.ofNat 64 (4 * e.length), s'⟩ → Result false dst (wanted o (value false s dst) addr) s s' := by
  intro h
  have r := C70.c70_mov_false.2 (fun p => if p = 0x100000000#64 then 0x1d000004#32 else 0x2e00084#32) (demo 0#64 0#64 0#64 0#64 0#64 0#64 0#8) ⟨rfl, rfl, trivial⟩
  have := h .mov (.reg 1) 0x100000000#64 0x17ffff800#64 _ [0x1d000004#32, 0x2e00084#32] (show UserReg 1 from ⟨by decide, by decide⟩) (by decide +kernel)
    _ ⟨rfl, rfl, trivial⟩ _ r
  have g := this.reg 1 rfl ⟨by decide, by decide⟩
  rw [show regMap 1 = 4#5 by decide, show wanted .mov (value false (demo 0#64 0#64 0#64 0#64 0#64 0#64 0#8) (.reg 1)) 0x17ffff800#64 = 0x17ffff800#64 from rfl] at g
  simp at g

/-- A memory destination with a displacement which needs several instructions, and a far label. -/
example : ∃ e, code .addAbs (.mem 1 0 0x12345#64) 0x1000#64 0x8000000000001000#64 = some e ∧ ∀ c, CodeAt c 0x1000#64 e → ∃ s',
    StepsJ c ⟨0x1000#64, demo 0x1000#64 0#64 0#64 0#64 0#64 0#64 0#8⟩ ⟨0x1000#64 + BitVec.ofNat 64 (4 * e.length), s'⟩ ∧
    s'.mem = Verif.RV.st64 (demo 0x1000#64 0#64 0#64 0#64 0#64 0#64 0#8).mem 0x13345#64 0x8000000000001000#64 := by
  obtain ⟨e, h1, h2⟩ := c74_partial .addAbs (.mem 1 0 0x12345#64) 0x1000#64 0x8000000000001000#64 (demo 0x1000#64 0#64 0#64 0#64 0#64 0#64 0#8)
    ⟨by decide, by decide, by decide⟩ (by decide +kernel)
  refine ⟨e, h1, fun c hc => ?_⟩
  obtain ⟨s', r1, r2, -⟩ := h2 c hc
  refine ⟨s', r1, r2.mem.trans ?_⟩
  have e1 : C62.addr (demo 0x1000#64 0#64 0#64 0#64 0#64 0#64 0#8) 1 0 0x12345#64 = 0x13345#64 := by decide +kernel
  have e2 : wanted .addAbs (value false (demo 0x1000#64 0#64 0#64 0#64 0#64 0#64 0#8) (.mem 1 0 0x12345#64)) 0x8000000000001000#64 = 0x8000000000001000#64 := by decide +kernel
  simp only [e1, e2, Bool.false_eq_true, if_false]

end Verif.Props.C74
