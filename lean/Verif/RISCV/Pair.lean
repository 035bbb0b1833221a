import Verif.RISCV.MemProof

/-!
# Register pairs in memory on RV64 (model of sljitNativeRISCV_common.c:3845-3897)

SLJIT_MEM_UNALIGNED and the SLJIT_MEM_ALIGNED flags do not change the emitted code.  `memw + 0x800` wraps around in the model
(in C it is undefined when it overflows).  The assertion about `memw` is not modelled: it does not change the code.
-/

namespace Verif.RV

/-- The address computation for a register pair: code, `mem` as a register and `memw` afterwards
(sljitNativeRISCV_common.c:3857-3884). -/
def pairAddr (cfg : Cfg) (b i : Nat) (w : BitVec 64) : Emit × Nat × BitVec 64 :=
  if i ≠ 0 then
    let s := w &&& 3#64
    ((if s ≠ 0#64 then w32 (SLLI ||| RD TMP_REG1 ||| RS1 i ||| IMM_I s) ++ w32 (ADD ||| RD TMP_REG1 ||| RS1 TMP_REG1 ||| RS2 b)
      else w32 (ADD ||| RD TMP_REG1 ||| RS1 b ||| RS2 i)), TMP_REG1, 0#64)
  else if 0x7ff - 8 < w.toInt ∨ w.toInt < -0x800 then
    let near : Bool := decide (((w + 0x800#64) &&& 0xfff#64).toNat ≤ 0xfff - 8)
    (loadImm cfg TMP_REG1 (if near then toArgwHi w else w) TMP_REG3 ++
      (if b ≠ 0 then w32 (ADD ||| RD TMP_REG1 ||| RS1 TMP_REG1 ||| RS2 b) else []),
     TMP_REG1, if near then w &&& 0xfff#64 else 0#64)
  else ([], b, w &&& 0xfff#64)

/-- sljit_emit_mem for a register pair (sljitNativeRISCV_common.c:3845-3897). -/
def emitMemPair (cfg : Cfg) (store : Bool) (r1 r2 b i : Nat) (w : BitVec 64) : Emit :=
  let (e, m, o) := pairAddr cfg b i w
  let o2 := (o + 8#64) &&& 0xfff#64
  if store = false ∧ m = r1 then
    e ++ (pushMem cfg (.g .word false) true r2 m o2 ++ pushMem cfg (.g .word false) true r1 m o)
  else
    e ++ (pushMem cfg (.g .word false) (!store) r1 m o ++ pushMem cfg (.g .word false) (!store) r2 m o2)

end Verif.RV
