import Verif.Loong.MemProof
import Verif.RISCV.Api

/-!
# Atomic operations on LoongArch64 (model of sljitNativeLOONGARCH_64.c:3723-3866)

The machine has other threads: before every instruction (and at the end) they may change the memory in any way (`Interf`).  The effects of the own
thread on the memory are recorded in a log of pairs (memory before, memory after).  Memory is sequentially consistent here; barriers are not modelled.
-/

namespace Verif.LA
open Verif.RV (Sz Op1C LdOp StOp ldOp stOp)
open Verif.Imm.Loong (regMap)

abbrev Mem := BitVec 64 → BitVec 8
abbrev Log := List (Mem × Mem)

/-- A thread: its registers with the memory, and the location of its last ll (address, size) as long as it is reserved. -/
structure ASt where
  core : Core
  res : Option (BitVec 64 × Sz)

/-- Atomic instructions: amcas.{b,h,w,d}, ll.{w,d}, sc.{w,d} (LoongArch Reference Manual, volume 1, 2.2.7). -/
inductive AInst
  | cas (sz : Sz) (rd rj rk : Reg)
  | ll (sz : Sz) (rd rj : Reg) (off : BitVec 64)
  | sc (sz : Sz) (rd rj : Reg) (off : BitVec 64)
  deriving DecidableEq, Repr

/-- amcas is undefined when the register of the old value is also the address or the new value. -/
def amcas (sz : Sz) (d j k : Reg) : Option AInst := if d = j ∨ d = k then none else some (.cas sz d j k)

/-- Their opcodes. -/
def decAt (w : BitVec 32) : Option AInst :=
  let d := fld w 0 5; let j := fld w 5 5; let k := fld w 10 5
  let off := (fld w 10 14).signExtend 64 <<< 2
  if fld w 15 17 = 0x70b0#17 then amcas .byte d j k
  else if fld w 15 17 = 0x70b1#17 then amcas .half d j k
  else if fld w 15 17 = 0x70b2#17 then amcas .int d j k
  else if fld w 15 17 = 0x70b3#17 then amcas .word d j k
  else if fld w 24 8 = 0x20#8 then some (.ll .int d j off)
  else if fld w 24 8 = 0x21#8 then some (.sc .int d j off)
  else if fld w 24 8 = 0x22#8 then some (.ll .word d j off)
  else if fld w 24 8 = 0x23#8 then some (.sc .word d j off)
  else none

/-- The part of a register which is compared, sign extended. -/
def sxt (sz : Sz) (v : BitVec 64) : BitVec 64 :=
  match sz with
  | .byte => (v.setWidth 8).signExtend 64
  | .half => (v.setWidth 16).signExtend 64
  | .int => (v.setWidth 32).signExtend 64
  | .word => v

/-- What other threads may do: change the memory; a reservation is only kept when the reserved cell has the same value. -/
def Interf (s s' : ASt) : Prop :=
  (∃ m, s'.core = s.core.setMem m) ∧
  (s'.res = none ∨ s'.res = s.res ∧ ∀ a sz, s.res = some (a, sz) → (ldOp sz true).eval s'.core.mem a = (ldOp sz true).eval s.core.mem a)

/-- A store of `Inst`. -/
def Inst.isStore : Inst → Bool
  | .store .. | .storex .. => true
  | _ => false

/-- One instruction of the own thread. -/
inductive StepA : BitVec 32 → ASt → ASt → Log → Prop
  | ins {w i s} : decode w = some i → StepA w s ⟨exec i s.core, s.res⟩ (if i.isStore then [(s.core.mem, (exec i s.core).mem)] else [])
  | casEq {w sz d j k s} : decode w = none → decAt w = some (.cas sz d j k) →
      (ldOp sz true).eval s.core.mem (s.core.x j) = sxt sz (s.core.x d) →
      StepA w s ⟨(s.core.setMem ((stOp sz).eval s.core.mem (s.core.x j) (s.core.x k))).wr d ((ldOp sz true).eval s.core.mem (s.core.x j)), s.res⟩
        [(s.core.mem, (stOp sz).eval s.core.mem (s.core.x j) (s.core.x k))]
  | casNe {w sz d j k s} : decode w = none → decAt w = some (.cas sz d j k) →
      (ldOp sz true).eval s.core.mem (s.core.x j) ≠ sxt sz (s.core.x d) →
      StepA w s ⟨s.core.wr d ((ldOp sz true).eval s.core.mem (s.core.x j)), s.res⟩ [(s.core.mem, s.core.mem)]
  | ll {w sz d j off s} : decode w = none → decAt w = some (.ll sz d j off) →
      StepA w s ⟨s.core.wr d ((ldOp sz true).eval s.core.mem (s.core.x j + off)), some (s.core.x j + off, sz)⟩ []
  | scOk {w sz d j off s} : decode w = none → decAt w = some (.sc sz d j off) → s.res = some (s.core.x j + off, sz) →
      StepA w s ⟨(s.core.setMem ((stOp sz).eval s.core.mem (s.core.x j + off) (s.core.x d))).wr d 1#64, none⟩
        [(s.core.mem, (stOp sz).eval s.core.mem (s.core.x j + off) (s.core.x d))]
  | scFail {w sz d j off s} : decode w = none → decAt w = some (.sc sz d j off) → StepA w s ⟨s.core.wr d 0#64, none⟩ []

/-- Execution of straight line code among other threads. -/
inductive ExecA : Emit → ASt → ASt → Log → Prop
  | nil {s s'} : Interf s s' → ExecA [] s s' []
  | cons {w ws s s1 s2 s' l l'} : Interf s s1 → StepA w s1 s2 l → ExecA ws s2 s' l' → ExecA (w :: ws) s s' (l ++ l')

/-! ## The code -/

/-- LL_W, SC_W, LL_D, SC_D, OPC_2RI14 (sljitNativeLOONGARCH_64.c:242-245). -/
def LL_W : BitVec 32 := 0x20#32 <<< 24
@[inherit_doc LL_W] def SC_W : BitVec 32 := 0x21#32 <<< 24
@[inherit_doc LL_W] def LL_D : BitVec 32 := 0x22#32 <<< 24
@[inherit_doc LL_W] def SC_D : BitVec 32 := 0x23#32 <<< 24
/-- AMCAS, OPC_3R (sljitNativeLOONGARCH_64.c:248-251). -/
def AMCAS_B : BitVec 32 := 0x70b0#32 <<< 15
@[inherit_doc AMCAS_B] def AMCAS_H : BitVec 32 := 0x70b1#32 <<< 15
@[inherit_doc AMCAS_B] def AMCAS_W : BitVec 32 := 0x70b2#32 <<< 15
@[inherit_doc AMCAS_B] def AMCAS_D : BitVec 32 := 0x70b3#32 <<< 15

/-- Neither flag, SLJIT_ATOMIC_USE_CAS or SLJIT_ATOMIC_USE_LS (both together are refused by check_sljit_emit_atomic_load). -/
inductive Use | any | cas | ls
  deriving DecidableEq, Repr

/-- sljit_emit_atomic_load (sljitNativeLOONGARCH_64.c:3723-3783) without SLJIT_ATOMIC_TEST; `amcas` is LOONGARCH_SUPPORT_AMCAS, `none` is
SLJIT_ERR_UNSUPPORTED. -/
def emitAtomicLoad (amcas : Bool) (use : Use) (o : Op1C) (dst mem : Nat) : Option Emit :=
  if use = .ls ∨ amcas = false then
    if use = .cas then none
    else match o with
      | .mov | .movP => some (ins (LL_D ||| RD dst ||| RJ mem))
      | .movS32 | .mov32 => some (ins (LL_W ||| RD dst ||| RJ mem))
      | _ => none
  else
    let i := match o with
      | .movS8 => LD_B
      | .movU8 => LD_BU
      | .movS16 => LD_H
      | .movU16 => LD_HU
      | .mov32 | .movS32 => LD_W
      | .movU32 => LD_WU
      | _ => LD_D
    some (ins (i ||| RD dst ||| RJ mem ||| IMM_I12 0#64))

/-- The compare and swap instruction of sljit_emit_atomic_store and `unsign` (sljitNativeLOONGARCH_64.c:3826-3851). -/
def casIns : Op1C → BitVec 32 × Option (BitVec 32)
  | .movS8 => (AMCAS_B, none)
  | .movU8 => (AMCAS_B, some (BSTRPICK_D ||| 7#32 <<< 16))
  | .movS16 => (AMCAS_H, none)
  | .movU16 => (AMCAS_H, some (BSTRPICK_D ||| 15#32 <<< 16))
  | .mov32 | .movS32 => (AMCAS_W, none)
  | .movU32 => (AMCAS_W, some (BSTRPICK_D ||| 31#32 <<< 16))
  | _ => (AMCAS_D, none)

/-- sljit_emit_atomic_store (sljitNativeLOONGARCH_64.c:3785-3870) without SLJIT_ATOMIC_TEST; `stored` is SLJIT_SET_ATOMIC_STORED. -/
def emitAtomicStore (amcas : Bool) (use : Use) (stored : Bool) (o : Op1C) (src mem temp : Nat) : Option Emit :=
  if use = .ls ∨ amcas = false then
    if use = .cas then none
    else match o with
      | .mov | .movP => some (ins (ADD_D ||| RD OTHER_FLAG ||| RJ src ||| RK TMP_ZERO) ++ ins (SC_D ||| RD OTHER_FLAG ||| RJ mem))
      | .movS32 | .mov32 => some (ins (ADD_D ||| RD OTHER_FLAG ||| RJ src ||| RK TMP_ZERO) ++ ins (SC_W ||| RD OTHER_FLAG ||| RJ mem))
      | _ => none
  else
    let (i, unsign) := casIns o
    if stored then
      some (ins (XOR ||| RD TMP_REG3 ||| RJ temp ||| RK TMP_ZERO) ++ (ins (i ||| RD TMP_REG3 ||| RJ mem ||| RK src) ++
        ((match unsign with | some u => ins (u ||| RD TMP_REG3 ||| RJ TMP_REG3) | none => []) ++
        (ins (XOR ||| RD OTHER_FLAG ||| RJ TMP_REG3 ||| RK temp) ++ ins (SLTUI ||| RD OTHER_FLAG ||| RJ OTHER_FLAG ||| IMM_I12 1#64)))))
    else some (ins (i ||| RD temp ||| RJ mem ||| RK src))

end Verif.LA
