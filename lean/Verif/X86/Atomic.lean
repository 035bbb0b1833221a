import Verif.X86.OpStep
import Verif.X86.Ops1

/-!
# Atomic operations of the x86-64 backend

sljit_emit_atomic_load and sljit_emit_atomic_store of sljitNativeX86_common.c for SLJIT_CONFIG_X86_64, and a machine where other threads change the memory
before and after every instruction.
-/

namespace Verif.X86
open Verif.RV (Op1C)

/-! ## The machine -/

/-- Memory, and the memory updates of the own thread: the memory before and after each. -/
abbrev XMem := BitVec 64 → Byte
@[inherit_doc XMem] abbrev XLog := List (XMem × XMem)

/-- What other threads may do. -/
def Interf (s s' : St) : Prop := ∃ m, s' = { s with m := m }

/-- LOCK CMPXCHG rm, r (Intel SDM volume 2A): the accumulator is compared with the operand in memory in one step.  When they are equal the register is stored, otherwise
the accumulator gets the operand.  Whether a 32 bit operation clears the upper half of RAX when the values are equal is left open (`z`). -/
inductive CmpXchg : Inst → St → St → XLog → Prop
  | eq {pre rex op reg rm imm s a n} (z : Bool) : op = 0xb0#8 ∧ n = 1 ∧ byteReg rex reg = false ∨ op = 0xb1#8 ∧ n = opSize pre rex → loc s rm = some (.mem a) →
      rd s.m a n = get s n (.reg 0#4) →
      CmpXchg (.rm pre rex 1 op reg rm imm) s
        { (if z = true ∧ n = 4 then put s 4 (s.r 0#4) (.reg 0#4) else s) with
          m := wr s.m a n (s.r reg), f := (subF ((s.r 0#4).setWidth (8 * n)) ((rd s.m a n).setWidth (8 * n)) false).2 }
        [(s.m, wr s.m a n (s.r reg))]
  | ne {pre rex op reg rm imm s a n} : op = 0xb0#8 ∧ n = 1 ∧ byteReg rex reg = false ∨ op = 0xb1#8 ∧ n = opSize pre rex → loc s rm = some (.mem a) →
      rd s.m a n ≠ get s n (.reg 0#4) →
      CmpXchg (.rm pre rex 1 op reg rm imm) s
        { put s n (rd s.m a n) (.reg 0#4) with f := (subF ((s.r 0#4).setWidth (8 * n)) ((rd s.m a n).setWidth (8 * n)) false).2 }
        [(s.m, s.m)]

/-- One instruction; the rest of the bytes is the second argument. -/
inductive StepX : List Byte → List Byte → St → St → XLog → Prop
  | ins {b bs i r s t} : b ≠ 0xf0#8 → parse (b :: bs) = some (i, r) → exec i s = some t → t.m = s.m → StepX (b :: bs) r s t []
  | str {b bs i r s t} : b ≠ 0xf0#8 → parse (b :: bs) = some (i, r) → exec i s = some t → t.m ≠ s.m → StepX (b :: bs) r s t [(s.m, t.m)]
  | lock {bs i r s t l} : parse bs = some (i, r) → CmpXchg i s t l → StepX (0xf0#8 :: bs) r s t l

/-- Execution of straight line code among other threads. -/
inductive ExecX : List Byte → St → St → XLog → Prop
  | nil {s s'} : Interf s s' → ExecX [] s s' []
  | cons {bs r s s1 s2 s' l l'} : Interf s s1 → StepX bs r s1 s2 l → ExecX r s2 s' l' → ExecX bs s s' (l ++ l')

/-! ## The code -/

/-- sljit_emit_atomic_load, sljitNativeX86_common.c:4937-4952, without SLJIT_ATOMIC_TEST; `ls` is SLJIT_ATOMIC_USE_LS, the outer `none` is SLJIT_ERR_UNSUPPORTED. -/
def emitAtomicLoad (ft : Feat) (win ls : Bool) (o : Op1C) (dst mem : Nat) : Option Code :=
  if ls = true ∨ o = .movS8 ∨ o = .movS16 ∨ o = .movS32 then none
  else some (emitOp1 ft win o (decide (o = .mov32)) (.reg dst) (.mem mem 0 0#64))

/-- sljit_emit_atomic_store, sljitNativeX86_common.c:4954-5089, SLJIT_CONFIG_X86_64, without SLJIT_ATOMIC_TEST. -/
def emitAtomicStore (win ls : Bool) (o : Op1C) (src mem temp : Nat) : Option Code :=
  if ls = true ∨ o = .movS8 ∨ o = .movS16 ∨ o = .movS32 then none
  else
    let swap (r : Nat) : Nat := if temp ≠ R0 ∧ r = R0 then TMP_REG2 else r
    let m32 : Bool := decide (o ≠ .mov ∧ o ≠ .movP)
    some ((if temp ≠ R0 then emitMov win false (.reg TMP_REG2) (.reg R0) +> emitMov win false (.reg R0) (.reg temp) else some []) +>
      (some [0xf0#8] +>
      (ins win m32 { size := 2, halfArg := decide (o = .movU16), pref := if o = .movU16 then 0x66#8 else 0#8, rex := decide (o = .movU8) }
        (.reg (swap src)) (.mem (swap mem) 0 0#64) [0x0f#8, if o = .movU8 then 0xb0#8 else 0xb1#8] +>
      if temp ≠ R0 then emitMov win false (.reg R0) (.reg TMP_REG2) else some [])))

end Verif.X86
