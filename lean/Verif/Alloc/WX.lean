import Verif.Util.Page

/-!
# The W^X executable allocator (sljit_src/allocator_src/sljitWXExecAllocatorPosix.c)

Every block is a mapping of its own.  The first word of the mapping holds its size.
-/

namespace Verif.Alloc.WX

open Verif.Util

/-- Allocator state: the static variable `wx_block` (-1: unknown, 0: allowed, 1: blocked) and memory, by word address. -/
structure St where
  wx : Int
  mem : BitVec 64 → BitVec 64

/-- What a call did: `none` or the mapping obtained from the system and the mapping given back. -/
structure Effect where
  mapped : List (BitVec 64 × BitVec 64) := []
  unmapped : List (BitVec 64 × BitVec 64) := []

/-- `sljit_malloc_exec` (sljitWXExecAllocatorPosix.c:79-112).  `mmap n`: answer of the system to a request of `n` bytes;
`exec`, `rw`: results of the two `mprotect` calls of `generic_check_is_wx_block` (:71-77), true on success. -/
def malloc (s : St) (size : BitVec 64) (mmap : BitVec 64 → Option (BitVec 64)) (exec rw : Bool) : St × BitVec 64 × Effect :=
  if s.wx > 0 then (s, 0, {})
  else
    let size := size + 8
    match mmap size with
    | none => (s, 0, {})
    | some p =>
      let blocked : Bool := if exec then !rw else true
      let s := if s.wx < 0 then { s with wx := if blocked then 1 else 0 } else s
      if s.wx > 0 then (s, 0, { mapped := [(p, size)], unmapped := [(p, size)] })
      else ({ s with mem := fun a => if a = p then size else s.mem a }, p + 8, { mapped := [(p, size)] })

/-- `sljit_free_exec` (sljitWXExecAllocatorPosix.c:117-121): the range given to `munmap`. -/
def free (s : St) (ptr : BitVec 64) : BitVec 64 × BitVec 64 := (ptr - 8, s.mem (ptr - 8))

/-- `sljit_update_wx_flags` (sljitWXExecAllocatorPosix.c:123-136): the range (address, length) given to `mprotect`. -/
def updateRange (mask start fin : BitVec 64) : BitVec 64 × BitVec 64 :=
  let start := start &&& ~~~mask
  let fin := (fin + mask) &&& ~~~mask
  (start, fin - start)

end Verif.Alloc.WX
