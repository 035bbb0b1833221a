import Verif.Loong.Api1
import Verif.Loong.MemProof

/-!
# sljit_emit_mem on LoongArch64 (model of sljitNativeLOONGARCH_64.c:3193-3246 and sljitLir.c:3382-3391)

SLJIT_MEM_UNALIGNED and the SLJIT_MEM_ALIGNED flags do not change the emitted code.  `memw + 0x800` wraps around in the model
(in C it is undefined when it overflows).  The assertion about `memw` is not modelled: it does not change the code.
-/

namespace Verif.LA
open Verif.RV (Opd Sz Op1C toArgwHi)
open Verif.Imm.Loong (loadImmediate)

/-- The address computation for a register pair: code, `mem` as a register and `memw` afterwards
(sljitNativeLOONGARCH_64.c:3205-3233). -/
def pairAddr (b i : Nat) (w : BitVec 64) : Emit × Nat × BitVec 64 :=
  if i ≠ 0 then
    let s := w &&& 3#64
    ((if s ≠ 0#64 then ins (SLLI_D ||| RD TMP_REG1 ||| RJ i ||| IMM_I12 s) ++ ins (ADD_D ||| RD TMP_REG1 ||| RJ TMP_REG1 ||| RK b)
      else ins (ADD_D ||| RD TMP_REG1 ||| RJ b ||| RK i)), TMP_REG1, 0#64)
  else if 0x7ff - 8 < w.toInt ∨ w.toInt < -0x800 then
    let near : Bool := decide (((w + 0x800#64) &&& 0xfff#64).toNat ≤ 0xfff - 8)
    (loadImmediate TMP_REG1 (if near then toArgwHi w else w) ++
      (if b ≠ 0 then ins (ADD_D ||| RD TMP_REG1 ||| RJ TMP_REG1 ||| RK b) else []),
     TMP_REG1, if near then w &&& 0xfff#64 else 0#64)
  else ([], b, w &&& 0xfff#64)

/-- sljit_emit_mem for a register pair (sljitNativeLOONGARCH_64.c:3193-3246). -/
def emitMemPair (store : Bool) (r1 r2 b i : Nat) (w : BitVec 64) : Emit :=
  let (e, m, o) := pairAddr b i w
  let o2 := (o + 8#64) &&& 0xfff#64
  if store = false ∧ m = r1 then
    e ++ (pushMem (.g .word false) true r2 m 0 o2 ++ pushMem (.g .word false) true r1 m 0 o)
  else
    e ++ (pushMem (.g .word false) (!store) r1 m 0 o ++ pushMem (.g .word false) (!store) r2 m 0 o2)

/-- sljit_emit_mem for one register: sljit_emit_mem_unaligned (sljitLir.c:3382-3391). -/
def emitMem1 (store : Bool) (o : Op1C) (is32 : Bool) (r b i : Nat) (w : BitVec 64) : Emit :=
  if store then emitOp1 o is32 (.mem b i w) (.reg r) else emitOp1 o is32 (.reg r) (.mem b i w)

end Verif.LA
