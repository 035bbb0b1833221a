import Verif.Util.Page

/-!
# `struct sljit_stack` (sljit_src/sljitUtils.c:171-343)
-/

namespace Verif.Util

/-- `struct sljit_stack` (sljit_src/sljitLir.h, fields `top`, `end`, `start`, `min_start`). -/
structure Stack where
  top : BitVec 64
  fin : BitVec 64
  start : BitVec 64
  minStart : BitVec 64
  deriving DecidableEq

/-- `sljit_allocate_stack`, POSIX version (sljitUtils.c:239-292).  `mallocOk`: the descriptor could be allocated;
`mmap n` is the answer of the system to a request of `n` bytes (`none`: MAP_FAILED). -/
def allocStack (mask startSize maxSize : BitVec 64) (mallocOk : Bool) (mmap : BitVec 64 → Option (BitVec 64)) : Option Stack :=
  if startSize > maxSize ∨ startSize < 1 then none
  else if mallocOk = false then none
  else
    let maxSize := (maxSize + mask) &&& ~~~mask
    match mmap maxSize with
    | none => none
    | some p => some { minStart := p, fin := p + maxSize, start := p + maxSize - startSize, top := p + maxSize }

/-- `sljit_stack_resize`, POSIX version (sljitUtils.c:296-336).  The first component is `none` when NULL is returned (the
stack does not change).  The second one lists the ranges (address, length) given to `madvise`. -/
def resizeStack (mask : BitVec 64) (s : Stack) (new : BitVec 64) : Option Stack × List (BitVec 64 × BitVec 64) :=
  if new < s.minStart ∨ new ≥ s.fin then (none, [])
  else
    let adv :=
      if s.start < new then
        let alignedNew := new &&& ~~~mask
        let alignedOld := s.start &&& ~~~mask
        if alignedNew > alignedOld then [(alignedOld, alignedNew - alignedOld)] else []
      else []
    (some { s with start := new }, adv)

/-- `sljit_allocate_stack` and `sljit_stack_resize` with SLJIT_UTIL_SIMPLE_STACK_ALLOCATION (sljitUtils.c:175-200, 209-215). -/
def allocStackSimple (startSize maxSize : BitVec 64) (mallocOk : Bool) (malloc : BitVec 64 → Option (BitVec 64)) : Option Stack :=
  if startSize > maxSize ∨ startSize < 1 then none
  else if mallocOk = false then none
  else
    match malloc maxSize with
    | none => none
    | some p => some { minStart := p, fin := p + maxSize, start := p + maxSize - startSize, top := p + maxSize }

/-- See `allocStackSimple`. -/
def resizeStackSimple (s : Stack) (new : BitVec 64) : Option Stack :=
  if new < s.minStart ∨ new ≥ s.fin then none else some { s with start := new }

/-- Windows version: a stack and the set of addresses which are committed (accessible). -/
structure WinStack where
  s : Stack
  committed : Nat → Prop

/-- `sljit_stack_resize`, Windows version (sljitUtils.c:296-336).  `ok`: `VirtualAlloc` or `VirtualFree` succeeds. -/
def resizeStackWin (mask : BitVec 64) (w : WinStack) (new : BitVec 64) (ok : Bool) : Option WinStack :=
  if new < w.s.minStart ∨ new ≥ w.s.fin then none
  else
    let alignedNew := new &&& ~~~mask
    let alignedOld := w.s.start &&& ~~~mask
    if alignedNew ≠ alignedOld then
      if ok = false then none
      else if alignedNew < alignedOld then
        let n := alignedOld - alignedNew
        some ⟨{ w.s with start := new }, fun a => w.committed a ∨ (alignedNew.toNat ≤ a ∧ a < alignedNew.toNat + n.toNat)⟩
      else
        let n := alignedNew - alignedOld
        some ⟨{ w.s with start := new }, fun a => w.committed a ∧ ¬ (alignedOld.toNat ≤ a ∧ a < alignedOld.toNat + n.toNat)⟩
    else some ⟨{ w.s with start := new }, w.committed⟩

/-- `sljit_allocate_stack`, Windows version (sljitUtils.c:239-292).  Reserved memory is not committed. -/
def allocStackWin (mask startSize maxSize : BitVec 64) (mallocOk : Bool) (reserve : BitVec 64 → Option (BitVec 64)) (ok : Bool) :
    Option WinStack :=
  if startSize > maxSize ∨ startSize < 1 then none
  else if mallocOk = false then none
  else
    let maxSize := (maxSize + mask) &&& ~~~mask
    match reserve maxSize with
    | none => none
    | some p =>
      resizeStackWin mask ⟨{ minStart := p, fin := p + maxSize, start := p + maxSize, top := p + maxSize }, fun _ => False⟩
        (p + maxSize - startSize) ok

end Verif.Util
