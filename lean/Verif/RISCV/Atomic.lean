import Verif.RISCV.Select

/-!
# Atomic operations on RV64 (model of sljitNativeRISCV_common.c:3901-3971)

As in `Verif/Loong/Atomic`: other threads may change the memory before every instruction and at the end, and the log holds the memory updates of the
own thread.  Only lr and sc occur in this code; the machine of this file has no other instructions.
-/

namespace Verif.RV

/-- A thread: its state and the location of its last lr (address, size) as long as it is reserved. -/
structure ThSt where
  st : St
  res : Option (BitVec 64 × Sz)

/-- lr.{w,d} and sc.{w,d} (RISC-V unprivileged specification, "Zalrsc"). -/
inductive AInst
  | lr (sz : Sz) (rd rs1 : Reg)
  | sc (sz : Sz) (rd rs1 rs2 : Reg)
  deriving DecidableEq, Repr

/-- Their opcodes; the bits aq and rl may have any value. -/
def decAt (w : BitVec 32) : Option AInst :=
  let sz : Option Sz := if fF3 w = 2#3 then some .int else if fF3 w = 3#3 then some .word else none
  if fOpc w ≠ 0x2f#7 then none
  else if (fF7 w).extractLsb' 2 5 = 2#5 ∧ fRs2 w = 0#5 then sz.map fun z => .lr z (fRd w) (fRs1 w)
  else if (fF7 w).extractLsb' 2 5 = 3#5 then sz.map fun z => .sc z (fRd w) (fRs1 w) (fRs2 w)
  else none

/-- What other threads may do: change the memory; a reservation is only kept when the reserved cell has the same value. -/
def Interf (s s' : ThSt) : Prop :=
  (∃ m, s'.st = { s.st with mem := m }) ∧
  (s'.res = none ∨ s'.res = s.res ∧ ∀ a sz, s.res = some (a, sz) → (ldOp sz true).eval s'.st.mem a = (ldOp sz true).eval s.st.mem a)

/-- One instruction.  sc writes zero when it succeeds, and otherwise a code which is not zero ("portable software should only assume the failure code
will be non-zero"). -/
inductive StepA : BitVec 32 → ThSt → ThSt → List ((BitVec 64 → BitVec 8) × (BitVec 64 → BitVec 8)) → Prop
  | lr {w sz d a s} : decAt w = some (.lr sz d a) →
      StepA w s ⟨(s.st.wr d ((ldOp sz true).eval s.st.mem (s.st.rd a))).adv 4#64, some (s.st.rd a, sz)⟩ []
  | scOk {w sz d a b s} : decAt w = some (.sc sz d a b) → s.res = some (s.st.rd a, sz) →
      StepA w s ⟨({ s.st with mem := (stOp sz).eval s.st.mem (s.st.rd a) (s.st.rd b) }.wr d 0#64).adv 4#64, none⟩
        [(s.st.mem, (stOp sz).eval s.st.mem (s.st.rd a) (s.st.rd b))]
  | scFail {w sz d a b s} (code : BitVec 64) : decAt w = some (.sc sz d a b) → code ≠ 0#64 → StepA w s ⟨(s.st.wr d code).adv 4#64, none⟩ []

/-- Execution of straight line code among other threads. -/
inductive ExecA : List (BitVec 16) → ThSt → ThSt → List ((BitVec 64 → BitVec 8) × (BitVec 64 → BitVec 8)) → Prop
  | nil {s s'} : Interf s s' → ExecA [] s s' []
  | cons {lo hi : BitVec 16} {rest s s1 s2 s' l l'} : Interf s s1 → isC lo = false → StepA (hi.setWidth 32 <<< 16 ||| lo.setWidth 32) s1 s2 l → ExecA rest s2 s' l' →
      ExecA (lo :: hi :: rest) s s' (l ++ l')

/-- LR and SC (sljitNativeRISCV_common.c:312,331). -/
def LR : BitVec 32 := F7 0x8#7 ||| OPC 0x2f#7
@[inherit_doc LR] def SC : BitVec 32 := F7 0xc#7 ||| OPC 0x2f#7

/-- sljit_emit_atomic_load (sljitNativeRISCV_common.c:3901-3933) without SLJIT_ATOMIC_TEST; `atomic` is RISCV_HAS_ATOMIC(200), `useCas` is
SLJIT_ATOMIC_USE_CAS, `none` is SLJIT_ERR_UNSUPPORTED. -/
def emitAtomicLoad (atomic useCas : Bool) (o : Op1C) (dst mem : Nat) : Option (List (BitVec 16)) :=
  if atomic = false ∨ useCas = true then none
  else match o with
    | .mov | .movP => some (w32 (LR ||| 3#32 <<< 12 ||| RD dst ||| RS1 mem))
    | .movS32 | .mov32 => some (w32 (LR ||| 2#32 <<< 12 ||| RD dst ||| RS1 mem))
    | _ => none

/-- sljit_emit_atomic_store (sljitNativeRISCV_common.c:3935-3971) without SLJIT_ATOMIC_TEST; temp_reg is not used. -/
def emitAtomicStore (atomic useCas : Bool) (o : Op1C) (src mem : Nat) : Option (List (BitVec 16)) :=
  if atomic = false ∨ useCas = true then none
  else match o with
    | .mov | .movP => some (w32 (SC ||| 3#32 <<< 12 ||| RD OTHER_FLAG ||| RS1 mem ||| RS2 src))
    | .movS32 | .mov32 => some (w32 (SC ||| 2#32 <<< 12 ||| RD OTHER_FLAG ||| RS1 mem ||| RS2 src))
    | _ => none

end Verif.RV
