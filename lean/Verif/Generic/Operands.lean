import Verif.Generic.Serialize
import Verif.Generic.Flags

/-!
# Operand checks of the argument checker
-/

namespace Verif.Generic.Operands

/-- Register counts of an architecture (sljitConfigInternal.h:597-735): SLJIT_NUMBER_OF_REGISTERS,
SLJIT_NUMBER_OF_TEMPORARY_REGISTERS, the same for float and vector registers, and SLJIT_SEPARATE_VECTOR_REGISTERS.
x86-32 (virtual registers) and ARM-32/MIPS-32 (register pairs) are not modelled. -/
structure Arch where
  regs : Nat
  tmps : Nat
  fregs : Nat
  ftmps : Nat
  vregs : Nat
  vtmps : Nat
  separate : Bool

/-- sljitConfigInternal.h:714-722. -/
def riscv : Arch := ⟨23, 5, 30, 2, 30, 2, true⟩
/-- sljitConfigInternal.h:654-659. -/
def arm64 : Arch := ⟨26, 3, 30, 2, 30, 2, false⟩

/-- Fields of the compiler which are only there for the argument checks (sljitLir.h:547-549, :646-652). -/
structure Extra where
  vscratches : Int
  vsaveds : Int
  realFscratches : Int
  realFsaveds : Int

/-- The state after sljit_create_compiler (sljitLir.c:540, :575). sljit_deserialize_compiler calls it (sljitSerialize.c:360) and
does not change these fields. -/
def Extra.init : Extra := ⟨-1, -1, -1, -1⟩

/-- The pattern of FUNCTION_CHECK_IS_REG (sljitLir.c:976-979), function_check_is_freg (:1116-1118) and function_check_is_vreg
(:1143-1145): register numbers start with 1, `n` registers, `sc` scratch and `sv` saved, temporaries at `tb`. -/
def isReg (n tb tn : Nat) (sc sv : Int) (r : Int) : Bool :=
  (1 ≤ r && r < 1 + sc) || (n - sv < r && r ≤ n) || ((tb : Int) ≤ r && r < tb + tn)

def Ctx.isReg (a : Arch) (r : Recs) (p : Int) : Bool := Operands.isReg a.regs (a.regs + 2) a.tmps r.scratches.toInt r.saveds.toInt p

/-- function_check_src_mem (sljitLir.c:987-1021). -/
def checkSrcMem (a : Arch) (r : Recs) (p : BitVec 32) (i : BitVec 64) : Bool :=
  if r.scratches = -1 then false
  else if p &&& 0x80#32 = 0 then false
  else if p = 0x80#32 ||| BitVec.ofNat 32 (a.regs + 1) then 0 ≤ i.toInt && i.toInt < r.logicalLocalSize.toInt
  else if ¬ (p &&& 0x7f#32 = 0 ∨ Ctx.isReg a r (p &&& 0x7f#32).toInt) then false
  else if p &&& 0x7f00#32 ≠ 0 ∧ (p &&& 0x7f#32 = 0 ∨ ¬ Ctx.isReg a r ((p >>> 8) &&& 0x7f#32).toInt ∨ i &&& ~~~3#64 ≠ 0) then false
  else p &&& ~~~(0x80#32 ||| 0x7f#32 ||| 0x7f00#32) == 0

/-- function_check_src (sljitLir.c:1026-1038). -/
def checkSrc (a : Arch) (r : Recs) (p : BitVec 32) (i : BitVec 64) : Bool :=
  if r.scratches = -1 then false
  else if Ctx.isReg a r p.toInt then i == 0
  else if p = 0x7f#32 then true
  else checkSrcMem a r p i

/-- function_check_dst (sljitLir.c:1040-1049). -/
def checkDst (a : Arch) (r : Recs) (p : BitVec 32) (i : BitVec 64) : Bool :=
  if r.scratches = -1 then false
  else if Ctx.isReg a r p.toInt then i == 0
  else checkSrcMem a r p i

/-- function_check_is_freg (sljitLir.c:1100-1119). -/
def isFreg (a : Arch) (r : Recs) (e : Extra) (fr : Int) : Bool :=
  if r.scratches = -1 then false
  else if a.separate then isReg a.fregs (a.fregs + 1) a.ftmps r.fscratches.toInt r.fsaveds.toInt fr
  else isReg a.fregs (a.fregs + 1) a.ftmps e.realFscratches e.realFsaveds fr

/-- function_fcheck (sljitLir.c:1124-1133). -/
def checkF (a : Arch) (r : Recs) (e : Extra) (p : BitVec 32) (i : BitVec 64) : Bool :=
  if r.scratches = -1 then false
  else if isFreg a r e p.toInt then i == 0
  else checkSrcMem a r p i

/-- function_check_is_vreg (sljitLir.c:1138-1146). -/
def isVreg (a : Arch) (r : Recs) (e : Extra) (vr : Int) : Bool :=
  if r.scratches = -1 then false
  else isReg a.vregs (a.vregs + 1) a.vtmps e.vscratches e.vsaveds vr

/-- function_vcheck (sljitLir.c:1150-1159). -/
def checkV (a : Arch) (r : Recs) (e : Extra) (p : BitVec 32) (i : BitVec 64) : Bool :=
  if r.scratches = -1 then false
  else if isVreg a r e p.toInt then i == 0
  else checkSrcMem a r p i

/-- The register related fields set by set_emit_enter with update_float_register_count (sljitLir.c:810-857).
`sc`, `sv`: ENTER_GET_REGS, ENTER_GET_FLOAT_REGS and ENTER_GET_VECTOR_REGS of the arguments. -/
def setEnter (a : Arch) (r : Recs) (sc sv local_ lastReturn options : BitVec 32) : Recs × Extra :=
  let f (x : BitVec 32) := (x >>> 8) &&& 0xff#32
  let v (x : BitVec 32) := (x >>> 16) &&& 0xff#32
  let fs := if ¬ a.separate ∧ f sc < v sc then v sc else f sc
  let fv := if ¬ a.separate ∧ f sv < v sv then v sv else f sv
  let fs := if ¬ a.separate ∧ BitVec.ofNat 32 a.fregs < fv + fs then BitVec.ofNat 32 a.fregs - fv else fs
  ({ r with options := options, scratches := sc &&& 0xff#32, saveds := sv &&& 0xff#32, fscratches := fs, fsaveds := fv, lastReturn := lastReturn, logicalLocalSize := local_ },
    ⟨(v sc).toInt, (v sv).toInt, (f sc).toInt, (f sv).toInt⟩)

/-- The register part of check_sljit_emit_enter (sljitLir.c:1428-1445; the same in check_sljit_set_context, :1505-1522).
`nsv`, `nfsv`, `nvsv`: number of saved registers of each kind; `maxLocal`: SLJIT_MAX_LOCAL_SIZE. -/
def checkEnterRegs (a : Arch) (nsv nfsv nvsv maxLocal : Nat) (options sc sv : BitVec 32) (local_ : Int) : Bool :=
  let g (x : BitVec 32) := (x &&& 0xff#32).toNat
  let f (x : BitVec 32) := ((x >>> 8) &&& 0xff#32).toNat
  let v (x : BitVec 32) := ((x >>> 16) &&& 0xff#32).toNat
  (options &&& 3#32).toNat ≤ 3 && (options &&& 3#32).toInt ≤ sv.toInt && sc &&& ~~~0xffffff#32 == 0 && sv &&& ~~~0xffffff#32 == 0 &&
  g sc ≤ a.regs && g sv ≤ nsv && g sc + g sv ≤ a.regs && f sc ≤ a.fregs && f sv ≤ nfsv && f sc + f sv ≤ a.fregs &&
  v sc ≤ a.vregs && v sv ≤ nvsv && v sc + v sv ≤ a.vregs && 0 ≤ local_ && local_ ≤ maxLocal

/-- Operand swapping of the generic sljit_emit_cmp (sljitLir.c:3564-3589). -/
def swapCond (c : BitVec 32) : BitVec 32 :=
  if c = 2#32 then 4#32 else if c = 3#32 then 5#32 else if c = 4#32 then 2#32 else if c = 5#32 then 3#32
  else if c = 6#32 then 8#32 else if c = 7#32 then 9#32 else if c = 8#32 then 6#32 else if c = 9#32 then 7#32 else c

/-- The generic sljit_emit_cmp (sljitLir.c:3536-3609, without the ARM64 part): the operation passed to sljit_emit_op2u with its
operands, and the type passed to sljit_emit_jump.  An operand is (is immediate, value); operands are opaque here. -/
def genericCmp {α : Type} (isImm : α → Bool) (type : BitVec 32) (a b : α) : BitVec 32 × α × α × BitVec 32 :=
  let c := type &&& 0xff#32
  let (c, a, b) := if isImm a ∧ ¬ isImm b then (swapCond c, b, a) else (c, a, b)
  let flags := if c ≤ 1#32 then 0x200#32 else (c &&& 0xfe#32) <<< 10
  (66#32 ||| flags ||| (type &&& 0x100#32), a, b, c ||| (type &&& (0x10000#32 ||| 0x100#32)))

end Verif.Generic.Operands
