import Verif.A64.Rest

/-!
# Atomic operations on ARM64 (model of sljitNativeARM_64.c:3385-3532)

As in `Verif/Loong/Atomic`: other threads may change the memory before every instruction and at the end, and the log holds the memory updates of the
own thread.  Memory is sequentially consistent here; alignment is not checked.
-/

namespace Verif.A64
open Verif.Imm.A64 (fld)
open Verif.Imm.Arm64 (regMap RD RN TMP_ZERO W_OP)
open Verif (RV.Op1C)

/-! ## The machine (Arm Architecture Reference Manual, DDI 0487; nothing here comes from sljit) -/

abbrev AMem := BitVec 64 → BitVec 8
abbrev ALog := List (AMem × AMem)

/-- A thread: its state and the location (address, size field) of its exclusive monitor as long as it is marked. -/
structure ASt where
  st : St
  res : Option (BitVec 64 × BitVec 2)

/-- LDXR, STXR and CAS with their byte and halfword forms (C6.2). -/
inductive AInst
  | ldxr (size : BitVec 2) (rn rt : BitVec 5)
  | stxr (size : BitVec 2) (rs rn rt : BitVec 5)
  | cas (size : BitVec 2) (rs rn rt : BitVec 5)
  deriving DecidableEq, Repr

/-- STXR is CONSTRAINED UNPREDICTABLE when the status register is also the data or the address. -/
def stxr (size : BitVec 2) (rs rn rt : BitVec 5) : Option AInst := if rs = rt ∨ rs = rn ∧ rn ≠ 31#5 then none else some (.stxr size rs rn rt)

/-- Their encodings (C4.1.94, load/store exclusive and compare and swap, without acquire and release). -/
def decAt (w : BitVec 32) : Option AInst :=
  if fld w 24 6 ≠ 8#6 ∨ fld w 10 6 ≠ 31#6 then none
  else if fld w 22 2 = 1#2 ∧ bit w 21 = false ∧ fld w 16 5 = 31#5 then some (.ldxr (fld w 30 2) (fld w 5 5) (fld w 0 5))
  else if fld w 22 2 = 0#2 ∧ bit w 21 = false then stxr (fld w 30 2) (fld w 16 5) (fld w 5 5) (fld w 0 5)
  else if fld w 22 2 = 2#2 ∧ bit w 21 = true then some (.cas (fld w 30 2) (fld w 16 5) (fld w 5 5) (fld w 0 5))
  else none

/-- The part of a register which is compared. -/
def low (size : BitVec 2) (v : BitVec 64) : BitVec 64 := (v.setWidth (8 * bytes size)).setWidth 64

/-- What other threads may do: change the memory; the monitor is only kept when the marked cell has the same value. -/
def Interf (s s' : ASt) : Prop :=
  (∃ m, s'.st = { s.st with m := m }) ∧
  (s'.res = none ∨ s'.res = s.res ∧ ∀ a z, s.res = some (a, z) → rd s'.st.m a (bytes z) = rd s.st.m a (bytes z))

/-- One instruction.  A store exclusive may always fail.  Whether a compare and swap clears the monitor is not specified. -/
inductive StepA : BitVec 32 → ASt → ASt → ALog → Prop
  | ins {w s t} : step w s.st = some t → t.m = s.st.m → StepA w s ⟨t, s.res⟩ []
  | str {w s t} : step w s.st = some t → t.m ≠ s.st.m → StepA w s ⟨t, none⟩ [(s.st.m, t.m)]
  | ldxr {w z n t s} : decAt w = some (.ldxr z n t) →
      StepA w s ⟨s.st.setX t (rd s.st.m (s.st.r n) (bytes z)), some (s.st.r n, z)⟩ []
  | stxrOk {w z d n t s} : decAt w = some (.stxr z d n t) → s.res = some (s.st.r n, z) →
      StepA w s ⟨{ s.st with m := wr s.st.m (s.st.r n) (s.st.x t) (bytes z) }.setX d 0#64, none⟩ [(s.st.m, wr s.st.m (s.st.r n) (s.st.x t) (bytes z))]
  | stxrFail {w z d n t s} : decAt w = some (.stxr z d n t) → StepA w s ⟨s.st.setX d 1#64, none⟩ []
  | casEq {w z d n t s r} : decAt w = some (.cas z d n t) → r = none ∨ r = s.res → rd s.st.m (s.st.r n) (bytes z) = low z (s.st.x d) →
      StepA w s ⟨{ s.st with m := wr s.st.m (s.st.r n) (s.st.x t) (bytes z) }.setX d (rd s.st.m (s.st.r n) (bytes z)), r⟩
        [(s.st.m, wr s.st.m (s.st.r n) (s.st.x t) (bytes z))]
  | casNe {w z d n t s r} : decAt w = some (.cas z d n t) → r = none ∨ r = s.res → rd s.st.m (s.st.r n) (bytes z) ≠ low z (s.st.x d) →
      StepA w s ⟨s.st.setX d (rd s.st.m (s.st.r n) (bytes z)), r⟩ [(s.st.m, s.st.m)]

/-- Execution of straight line code among other threads. -/
inductive ExecA : List (BitVec 32) → ASt → ASt → ALog → Prop
  | nil {s s'} : Interf s s' → ExecA [] s s' []
  | cons {w ws s s1 s2 s' l l'} : Interf s s1 → StepA w s1 s2 l → ExecA ws s2 s' l' → ExecA (w :: ws) s s' (l ++ l')

/-! ## The code -/

/-- CAS, CASB, CASH, LDXR, LDXRB, LDXRH, STXR, STXRB, STXRH (sljitNativeARM_64.c:86-88, 127-129, 168-170). -/
def CAS : BitVec 32 := 0xc8a07c00#32
@[inherit_doc CAS] def CASB : BitVec 32 := 0x08a07c00#32
@[inherit_doc CAS] def CASH : BitVec 32 := 0x48a07c00#32
@[inherit_doc CAS] def LDXR : BitVec 32 := 0xc85f7c00#32
@[inherit_doc CAS] def LDXRB : BitVec 32 := 0x085f7c00#32
@[inherit_doc CAS] def LDXRH : BitVec 32 := 0x485f7c00#32
@[inherit_doc CAS] def STXR : BitVec 32 := 0xc8007c00#32
@[inherit_doc CAS] def STXRB : BitVec 32 := 0x8007c00#32
@[inherit_doc CAS] def STXRH : BitVec 32 := 0x48007c00#32
/-- STR0 is STRI (sljitNativeARM_64.c:162) and LDR, LDRB, LDRH (sljitNativeARM_64.c:187-189). -/
def STR0 : BitVec 32 := 0xf9000000#32
@[inherit_doc STR0] def LDR : BitVec 32 := STR0 ||| 1#32 <<< 22
@[inherit_doc STR0] def LDRB : BitVec 32 := STRBI ||| 1#32 <<< 22
@[inherit_doc STR0] def LDRH : BitVec 32 := LDRB ||| 1#32 <<< 30

/-- SLJIT_ATOMIC_USE_LS and SLJIT_ATOMIC_USE_CAS; both together are refused by the checks (sljitLir.c:1738,1791). -/
inductive AUse | any | ls | cas deriving DecidableEq, Repr

/-- sljit_emit_atomic_load (sljitNativeARM_64.c:3385-3444) without SLJIT_ATOMIC_TEST; `feat` is __ARM_FEATURE_ATOMICS, `none` is SLJIT_ERR_UNSUPPORTED. -/
def emitAtomicLoad (feat : Bool) (use : AUse) (o : RV.Op1C) (dst mem : Nat) : Option (List (BitVec 32)) :=
  if feat = false ∧ use = .cas then none
  else
    let k : BitVec 32 → List (BitVec 32) := fun ins => [ins ||| RN mem ||| RT dst]
    match o with
    | .movS8 | .movS16 | .movS32 => none
    | .mov32 | .movU32 => some (k (if feat ∧ use ≠ .ls then LDR ^^^ (1#32 <<< 30) else LDXR ^^^ (1#32 <<< 30)))
    | .movU8 => some (k (if feat ∧ use ≠ .ls then LDRB else LDXRB))
    | .movU16 => some (k (if feat ∧ use ≠ .ls then LDRH else LDXRH))
    | _ => some (k (if feat ∧ use ≠ .ls then LDR else LDXR))

/-- The part of sljit_emit_atomic_store with CAS, sljitNativeARM_64.c:3458-3496; cmp = 0 stands for no flag. -/
def emitCas (stored : Bool) (o : RV.Op1C) (src mem temp : Nat) : Option (List (BitVec 32)) :=
  let cmp : BitVec 32 := if stored then (SUBS ^^^ W_OP) ||| RD TMP_ZERO else 0#32
  let k : BitVec 32 → BitVec 32 → List (BitVec 32) := fun ins cmp =>
    (if cmp ≠ 0#32 then [((MOV ^^^ W_OP) ^^^ (cmp &&& W_OP)) ||| RM temp ||| RD TMP_REG2] else []) ++ [ins ||| RM temp ||| RN mem ||| RD src] ++
      (if cmp = 0#32 then [] else [cmp ||| RM TMP_REG2 ||| RN temp])
  match o with
  | .movS8 | .movS16 | .movS32 => none
  | .mov32 | .movU32 => some (k (CAS ^^^ (1#32 <<< 30)) cmp)
  | .movU16 => some (k CASH cmp)
  | .movU8 => some (k CASB cmp)
  | _ => some (k CAS (if cmp ≠ 0#32 then cmp ^^^ W_OP else cmp))

/-- sljit_emit_atomic_store (sljitNativeARM_64.c:3446-3532) without SLJIT_ATOMIC_TEST; `stored` is SLJIT_SET_ATOMIC_STORED. -/
def emitAtomicStore (feat : Bool) (use : AUse) (stored : Bool) (o : RV.Op1C) (src mem temp : Nat) : Option (List (BitVec 32)) :=
  if feat = true ∧ use ≠ .ls then emitCas stored o src mem temp
  else if feat = false ∧ use = .cas then none
  else
    let cmp : BitVec 32 := if stored then (SUBI ^^^ W_OP) ||| 1#32 <<< 29 else 0#32
    let k : BitVec 32 → List (BitVec 32) := fun ins =>
      [ins ||| RM TMP_REG2 ||| RN mem ||| RT src] ++ (if cmp = 0#32 then [] else [cmp ||| RD TMP_ZERO ||| RN TMP_REG2])
    match o with
    | .movS8 | .movS16 | .movS32 => none
    | .mov32 | .movU32 => some (k (STXR ^^^ (1#32 <<< 30)))
    | .movU8 => some (k STXRB)
    | .movU16 => some (k STXRH)
    | _ => some (k STXR)

/-- get_cc for SLJIT_ATOMIC_STORED and SLJIT_ATOMIC_NOT_STORED (`neg`), sljitNativeARM_64.c:2296,2303: the inverted condition. -/
def getCcAt (neg : Bool) : BitVec 4 := if neg then 0x0#4 else 0x1#4

end Verif.A64
