import Verif.Loong.ConstProof
import Verif.Props.C16
import Verif.Props.C63

/-!
# C69: rewritable constants on LoongArch64

`constVal` of C16 is the documented value of a constant, `ResultW` of C63 the documented effect of storing a value; both do not
depend on the model.
-/

namespace Verif.Props.C69
open Verif.LA
open Verif.RV (ConstOp Opd)
open Verif.Props (constVal)
open Verif.Props.C62 (UserReg Dst zeroFlag varFlag carryFlag demo)
open Verif.Props.C63 (ResultW)
open Verif.Imm.Loong (regMap)

/-- Width of the memory cell a constant is stored to (sljitLir.h:2390-2399). -/
def cellWidth : ConstOp → Nat
  | .u8 => 8
  | .mov32 => 32
  | .s32 | .mov => 64

/-- **C69 (initial value).**  The code of sljit_emit_const gives its destination, a register or a memory cell in any addressing form, the
initial value; nothing else the application can see changes, the flags included. -/
theorem c69_emit_const (op : ConstOp) (dst : Opd) (v : BitVec 64) (s : Core) (hd : Dst dst) :
    ∃ s', run (emitConstant op dst v) s = some s' ∧ ResultW (cellWidth op) dst (constVal op v) s s' := by
  obtain ⟨s', h1, h2⟩ := emitConstant_ok (op := op) (v := v) (c := s) hd.ok.1 hd.ok.2
  refine ⟨s', h1, ?_⟩
  have e1 : C24.bitsOf (constSz op) = cellWidth op := by cases op <;> rfl
  have e2 : cval op v = constVal op v := by cases op <;> rfl
  rw [← e1, ← e2]
  exact C63.resultW hd h2

/-- The register the constant is built in. -/
def target : Opd → Nat
  | .reg r => r
  | _ => TMP_REG2

theorem emit_split (op : ConstOp) (dst : Opd) (hd : Dst dst) : ∃ tail : Emit, ∀ v, emitConstant op dst v = cwords op (target dst) v ++ tail := by
  cases dst with
  | imm u => exact absurd hd (by simp [Dst])
  | reg r => exact ⟨[], fun v => by rw [List.append_nil, ← emitConstReg_words]; rfl⟩
  | mem b i w => exact ⟨emitOpMem (.g (constSz op) false) false TMP_REG2 b i w, fun v => by rw [← emitConstReg_words]; rfl⟩

/-- **C69 (rewriting).**  Start from any memory holding, at `addr`, the code sljit_emit_const produced for the initial value, and apply
sljit_set_const any number of times.  No assertion fails, no word outside of this code changes, and the code - fetched through
the executable mapping at any offset - now stores the last value. -/
theorem c69_set_const (op : ConstOp) (dst : Opd) (v : BitVec 64) (ks : List (BitVec 64)) (m : Code) (addr off : BitVec 64) (hd : Dst dst)
    (hc : CodeAt m addr (emitConstant op dst v)) (hl : 4 * (emitConstant op dst v).length < 2 ^ 64) :
    ∃ m', rewrites m op addr ks = some m' ∧
      (∀ a, (∀ i, i < (emitConstant op dst v).length → a ≠ addr + BitVec.ofNat 64 (4 * i)) → m' a = m a) ∧
      ∀ s, ∃ s', Steps (view m' off) ⟨addr + off, s⟩ ⟨addr + off + BitVec.ofNat 64 (4 * (emitConstant op dst v).length), s'⟩ ∧
        ResultW (cellWidth op) dst (constVal op (ks.getLast?.getD v)) s s' := by
  obtain ⟨tail, ht⟩ := emit_split op dst hd
  have hlen : ∀ k, (emitConstant op dst k).length = (cwords op (target dst) 0#64).length + tail.length := by
    intro k; rw [ht, List.length_append, cwords_length op _ k 0#64]
  rw [ht, CodeAt_append] at hc
  obtain ⟨m', h1, h2, h3⟩ := rewrites_ok op addr (target dst) ks v m hc.1
  have htail : CodeAt m' (addr + BitVec.ofNat 64 (4 * (cwords op (target dst) v).length)) tail := by
    refine CodeAt_congr ?_ hc.2
    intro i hi
    refine h3 _ ?_
    intro j hj e
    rw [cwords_length op _ v 0#64] at e
    rw [hlen] at hl
    generalize (cwords op (target dst) 0#64).length = n at *
    have e2 : BitVec.ofNat 64 (4 * n) + BitVec.ofNat 64 (4 * i) = BitVec.ofNat 64 (4 * j) := by
      rw [BitVec.add_assoc] at e
      exact (BitVec.add_right_inj addr).mp e
    have e3 := congrArg BitVec.toNat e2
    simp only [BitVec.toNat_add, BitVec.toNat_ofNat] at e3
    omega
  have hall : CodeAt m' addr (emitConstant op dst (ks.getLast?.getD v)) := by
    rw [ht, CodeAt_append]
    refine ⟨h2, ?_⟩
    rw [cwords_length op _ _ v]; exact htail
  refine ⟨m', h1, ?_, ?_⟩
  · intro a ha
    refine h3 a fun i hi => ha i ?_
    rw [hlen]; omega
  · intro s
    obtain ⟨s', r, e⟩ := c69_emit_const op dst (ks.getLast?.getD v) s hd
    refine ⟨s', ?_, e⟩
    have := steps_of_run (CodeAt_view (off := off) hall) r
    rw [hlen] at this
    rw [hlen]; exact this

/-! ## The hypotheses can be met -/

/-- A word constant in `[R0 + 0x12345]`: 5, then -1, then 0x123456789abcdef0. -/
example : ∃ m', rewrites (fun a => ((emitConstant .mov (.mem 1 0 0x12345#64) 5#64)[(a.toNat - 0x1000) / 4]?).getD 0#32) .mov 0x1000#64
      [-1#64, 0x123456789abcdef0#64] = some m' ∧
    ∃ s', Steps (view m' 0x100000#64) ⟨0x101000#64, demo 0x1000#64 0#64 0#64 0#64 0#64 0#64 0#8⟩ s' ∧
      Verif.RV.ld64 s'.core.mem 0x13345#64 = 0x123456789abcdef0#64 := by
  obtain ⟨m', h1, -, h3⟩ := c69_set_const .mov (.mem 1 0 0x12345#64) 5#64 [-1#64, 0x123456789abcdef0#64]
    (fun a => ((emitConstant .mov (.mem 1 0 0x12345#64) 5#64)[(a.toNat - 0x1000) / 4]?).getD 0#32) 0x1000#64 0x100000#64
    ⟨by decide, by decide, fun h => absurd rfl h⟩
    (by
      have : emitConstant .mov (.mem 1 0 0x12345#64) 5#64 = [0x14000001#32, 0x16000001#32, 0x3000021#32, 0x3801421#32, 0x1400024d#32, 0x38d15ad#32, 0x381c3481#32] := by
        decide +kernel
      rw [this]
      simp only [CodeAt]
      decide +kernel)
    (by decide +kernel)
  obtain ⟨s', r, q⟩ := h3 (demo 0x1000#64 0#64 0#64 0#64 0#64 0#64 0#8)
  refine ⟨m', h1, _, r, ?_⟩
  have hm := q.mem
  simp only [] at hm
  rw [hm]
  decide +kernel

end Verif.Props.C69
