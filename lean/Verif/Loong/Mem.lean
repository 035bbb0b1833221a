import Verif.Loong.Ops

/-!
# Memory operands and operand set-up (model of sljitNativeLOONGARCH_64.c:1132-1325 and 1786-1908)

The cache fields of the compiler (`cache_arg`, `cache_argw`) describe the contents of TMP_REG3.  `sljit_sw` subtractions
on offsets are modelled with wrap around (in C they are undefined on overflow).  Float transfers are not modelled.
-/

namespace Verif.LA
open Verif.RV (Op OpC Flag S2 SF Sz Opd Cache OF fits12 toArgwHi nextSame nextW immSwap dstR0)
open Verif.Imm.Loong (loadImmediate)

/-- `flags & MEM_MASK` without LOAD_DATA: an integer size with SIGNED_DATA (sljitNativeLOONGARCH_64.c:871-883). -/
inductive MT
  | g (sz : Sz) (signed : Bool)
  deriving DecidableEq, Repr

/-- data_transfer_insts (sljitNativeLOONGARCH_64.c:1132-1154). -/
def dataTransfer (t : MT) (load : Bool) : BitVec 32 :=
  match t, load with
  | .g .word _, false => ST_D
  | .g .word _, true => LD_D
  | .g .byte _, false => ST_B
  | .g .byte false, true => LD_BU
  | .g .byte true, true => LD_B
  | .g .half _, false => ST_H
  | .g .half false, true => LD_HU
  | .g .half true, true => LD_H
  | .g .int _, false => ST_W
  | .g .int false, true => LD_WU
  | .g .int true, true => LD_W

/-- data_transfer_insts_x (sljitNativeLOONGARCH_64.c:1157-1180). -/
def dataTransferX (t : MT) (load : Bool) : BitVec 32 :=
  match t, load with
  | .g .word _, false => STX_D
  | .g .word _, true => LDX_D
  | .g .byte _, false => STX_B
  | .g .byte false, true => LDX_BU
  | .g .byte true, true => LDX_B
  | .g .half _, false => STX_H
  | .g .half false, true => LDX_HU
  | .g .half true, true => LDX_H
  | .g .int _, false => STX_W
  | .g .int false, true => LDX_WU
  | .g .int true, true => LDX_W

/-- push_mem_inst (sljitNativeLOONGARCH_64.c:1182-1204); `idx` is the offset register, 0 if there is none. -/
def pushMem (t : MT) (load : Bool) (reg base idx : Nat) (off : BitVec 64) : Emit :=
  if idx ≠ 0 then ins (dataTransferX t load ||| RD reg ||| RJ base ||| RK idx)
  else ins (dataTransfer t load ||| RD reg ||| RJ base ||| IMM_I12 off)

/-- The test of getput_arg_fast (sljitNativeLOONGARCH_64.c:1207-1222). -/
def fastArg (idx : Nat) (w : BitVec 64) : Bool := decide (w = 0#64) || (decide (idx = 0) && fits12 w)

/-- can_cache (sljitNativeLOONGARCH_64.c:1228-1243). -/
def canCache (arg : Nat × Nat) (argw : BitVec 64) (next : Nat × Nat) (nextw : BitVec 64) : Bool :=
  if arg.2 ≠ 0 then false
  else if arg = next then fits12 (nextw - argw) || toArgwHi argw == toArgwHi nextw
  else false

/-- What getput_arg emits before its final push_mem_inst, the new cache, and the base register, the offset register and the offset of
that instruction (sljitNativeLOONGARCH_64.c:1246-1301).  `next` is `none` if `next_arg` is not a memory operand. -/
def getputAddr (tmp2 : Bool) (k : Cache) (base idx : Nat) (argw : BitVec 64) (next : Option (Nat × Nat × BitVec 64)) :
    Emit × Cache × Nat × Nat × BitVec 64 :=
  let tmp := if tmp2 then TMP_REG2 else TMP_REG1
  let nextIs := nextSame base idx next
  let nextw := nextW next
  if idx ≠ 0 then
    let argw := argw &&& 3#64
    (if argw ≠ 0#64 then ins (SLLI_D ||| RD TMP_REG3 ||| RJ idx ||| IMM_I12 argw) else [], k, base, TMP_REG3, 0#64)
  else if k.arg = some (base, 0) ∧ fits12 (argw - k.argw) = true then ([], k, TMP_REG3, 0, argw - k.argw)
  else
    let hi := toArgwHi argw
    let (e, kw, off, argw) : Emit × BitVec 64 × BitVec 64 × BitVec 64 :=
      if k.arg = some (0, 0) ∧ fits12 (argw - k.argw) = true then ([], k.argw, argw - k.argw, argw)
      else if next.isSome = true ∧ fits12 (nextw - argw) = true ∧ hi ≠ toArgwHi nextw then
        (loadImmediate TMP_REG3 argw, argw, 0#64, argw)
      else (loadImmediate TMP_REG3 hi, hi, argw &&& 0xfff#64, hi)
    if base = 0 then (e, ⟨some (0, 0), kw⟩, TMP_REG3, 0, off)
    else if nextIs = true ∧ fits12 (nextw - argw) = true then
      (e ++ ins (ADD_D ||| RD TMP_REG3 ||| RJ TMP_REG3 ||| RK base), ⟨some (base, 0), kw⟩, TMP_REG3, 0, off)
    else if off = 0#64 then (e, ⟨some (0, 0), kw⟩, base, TMP_REG3, 0#64)
    else (e ++ ins (ADD_D ||| RD tmp ||| RJ TMP_REG3 ||| RK base), ⟨some (0, 0), kw⟩, tmp, 0, off)

/-- getput_arg (sljitNativeLOONGARCH_64.c:1246-1301): emitted code and new cache. -/
def getputArg (t : MT) (load tmp2 : Bool) (k : Cache) (reg base idx : Nat) (argw : BitVec 64)
    (next : Option (Nat × Nat × BitVec 64)) : Emit × Cache :=
  let (e, k', r, x, off) := getputAddr tmp2 k base idx argw next
  (e ++ pushMem t load reg r x off, k')

/-! ## emit_op -/

/-- A memory operand that getput_arg_fast refuses. -/
def slow : Opd → Bool
  | .mem _ i w => !fastArg i w
  | _ => false

/-- "Source 1" (sljitNativeLOONGARCH_64.c:1834-1850): code and `src1_r`. -/
def emitSrc1 (t : MT) (src1 : Opd) : Emit × Nat :=
  match src1 with
  | .reg r => ([], r)
  | .imm v => if v ≠ 0#64 then (loadImmediate TMP_REG1 v, TMP_REG1) else ([], TMP_ZERO)
  | .mem b i w => (if fastArg i w = true then pushMem t true TMP_REG1 b i w else [], TMP_REG1)

/-- "Source 2" (sljitNativeLOONGARCH_64.c:1853-1879) without SRC2_IMM: code and `src2_r`. -/
def emitSrc2 (t : MT) (tmp : Nat) (src2 : Opd) : Emit × Nat :=
  match src2 with
  | .reg r => ([], r)
  | .imm v => if v ≠ 0#64 then (loadImmediate tmp v, tmp) else ([], TMP_ZERO)
  | .mem b i w => (if fastArg i w = true then pushMem t true tmp b i w else [], tmp)

/-- getput_arg for a load, with a whole operand. -/
def loadSlow (t : MT) (tmp2 : Bool) (k : Cache) (reg : Nat) (src next : Opd) : Emit × Cache :=
  match src with
  | .mem b i w => getputArg t true tmp2 k reg b i w next.memArg
  | _ => ([], k)

/-- can_cache with whole operands. -/
def canCacheO (a b : Opd) : Bool :=
  match a, b with
  | .mem b1 i1 w1, .mem b2 i2 w2 => canCache (b1, i1) w1 (b2, i2) w2
  | _, _ => false

/-- The slow loads (sljitNativeLOONGARCH_64.c:1882-1895). -/
def emitSlow (t : MT) (k : Cache) (dst src1 src2 : Opd) (src1R tmp : Nat) : Emit × Cache :=
  match slow src1, slow src2 with
  | true, true =>
    if slow dst = true ∧ canCacheO src2 src1 = false ∧ canCacheO src2 dst = true then
      let (e1, k1) := loadSlow t false k TMP_REG1 src1 src2
      let (e2, k2) := loadSlow t true k1 TMP_REG2 src2 dst
      (e1 ++ e2, k2)
    else
      let (e1, k1) := loadSlow t false k TMP_REG2 src2 src1
      let (e2, k2) := loadSlow t false k1 TMP_REG1 src1 dst
      (e1 ++ e2, k2)
  | true, false => loadSlow t false k TMP_REG1 src1 dst
  | false, true => loadSlow t (decide (src1R = TMP_REG1)) k tmp src2 dst
  | false, false => ([], k)

/-- The store at the end of emit_op (sljitNativeLOONGARCH_64.c:1899-1905). -/
def emitStore (t : MT) (k : Cache) (dstR : Nat) (dst : Opd) : Emit :=
  match dst with
  | .mem b i w =>
    if fastArg i w = true then pushMem t false dstR b i w else (getputArg t false false k dstR b i w none).1
  | _ => []

/-- emit_op (sljitNativeLOONGARCH_64.c:1786-1908).  `dst = .reg 0` is the unused destination; the cache is reset on entry
unless ALT_KEEP_CACHE is set, so it is an argument here.  The operand swap (:1817-1831) and `dst_r` (:1795, 1805-1815) are the same
as on RISC-V (`Verif.RV.immSwap`, `Verif.RV.dstR0`; I12_MIN, I12_MAX are SIMM_MIN, SIMM_MAX there). -/
def emitOp (op : Op) (t : MT) (fl : OF) (k : Cache) (dst src1 src2 : Opd) : Emit :=
  let unused := decide (dst = .reg 0)
  let regDest := dst.isReg && !unused
  let dstR0 := dstR0 dst
  let tmp := if regDest = true ∧ fl.moveOp = true then dstR0
    else if op.code.isOp2 = true ∧ src1.isReg = true then TMP_REG1 else TMP_REG2
  let (si, src1, src2) := immSwap fl src1 src2
  let (e1, src1R) := emitSrc1 t src1
  match si with
  | some v =>
    let (e2, k) := emitSlow t k dst src1 (.imm v) src1R tmp
    e1 ++ (e2 ++ (emitSingle op ⟨unused, regDest, false⟩ dstR0 src1R (.imm v) ++ emitStore t k dstR0 dst))
  | none =>
    let (e2, src2R) := emitSrc2 t tmp src2
    let zero := decide (src2 = .imm 0#64) && fl.moveOp
    let dstR := if fl.moveOp = true ∧ regDest = false ∧ src2.isReg = true then src2R
      else if zero = true ∧ dst.isMem = true then 0 else dstR0
    let op := if zero = true ∧ dst.isMem = false then { op with code := .mov, is32 := false, setZ := false, flag := .none } else op
    let (e3, k) := emitSlow t k dst src1 src2 src1R tmp
    e1 ++ (e2 ++ (e3 ++ (emitSingle op ⟨unused, regDest, src2.isReg⟩ dstR src1R (.reg src2R) ++
      emitStore t k dstR dst)))

end Verif.LA
