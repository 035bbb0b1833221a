/-!
# The executable memory allocator (model of sljit_src/allocator_src/sljitExecAllocatorCore.c)

Memory is word addressed: `mem a` is the machine word stored at byte address `a` (the code only uses addresses which
are divisible by the word size).  Addresses and sizes are `Nat`; size arithmetic which can wrap around in the C code is
written with an explicit `% W`.  Pointer arithmetic is exact: it only happens inside of chunks, and the operating
system never returns a chunk which wraps around (see `Verif.Alloc.World`).  Locking is not modelled: each function
holds the allocator lock for its whole body, so calls are atomic.  `SLJIT_UPDATE_WX_FLAGS` has no effect on the data.
-/

namespace Verif.Alloc

/-- 2^64: `sljit_uw` is 64 bit. -/
abbrev W : Nat := 18446744073709551616

/-- Build configuration: `hs` is `sizeof(struct block_header)` (16, or 24 with SLJIT_HAS_EXECUTABLE_OFFSET),
`ch` is CHUNK_HEADER_SIZE (sljitExecAllocatorCore.c:77-107). -/
structure Cfg where
  hs : Nat
  ch : Nat

/-- The configurations which exist: no chunk header (Posix, Windows, ...), or a one pointer chunk header together with
the executable offset (sljitProtExecAllocatorPosix.c:39-45, sljitProtExecAllocatorNetBSD.c). -/
def Cfg.Ok (c : Cfg) : Prop := (c.hs = 16 ∧ c.ch = 0) ∨ (c.hs = 24 ∧ c.ch = 8)

/-- Static variables and the memory (sljitExecAllocatorCore.c:119-121). -/
structure ASt where
  mem : Nat → Nat
  free : Nat
  allocated : Nat
  total : Nat

/-- Store of one word. -/
def st (m : Nat → Nat) (a v : Nat) : Nat → Nat := fun x => if x = a then v else m x

/-- Field addresses of `struct block_header` and `struct free_block` (sljitExecAllocatorCore.c:94-107). -/
def hSize (p : Nat) : Nat := p
def hPrev (p : Nat) : Nat := p + 8
def hOff (p : Nat) : Nat := p + 16
def fNext (c : Cfg) (p : Nat) : Nat := p + c.hs
def fPrev (c : Cfg) (p : Nat) : Nat := p + c.hs + 8
def fSize (c : Cfg) (p : Nat) : Nat := p + c.hs + 16

/-- Store to `executable_offset`, present only with SLJIT_HAS_EXECUTABLE_OFFSET. -/
def stOff (c : Cfg) (m : Nat → Nat) (p v : Nat) : Nat → Nat := if c.hs = 24 then st m (hOff p) v else m

/-- `ALIGN_SIZE` (sljitExecAllocatorCore.c:115); `& ~7` is written as division. -/
def alignSize (c : Cfg) (size : Nat) : Nat := (size + c.hs + 7) % W / 8 * 8

/-- `CHUNK_EXTRA_SIZE` (sljitExecAllocatorCore.c:116). -/
def extra (c : Cfg) : Nat := c.hs + c.ch

/-- `sljit_insert_free_block` (sljitExecAllocatorCore.c:123-133). -/
def insertFree (c : Cfg) (s : ASt) (fb size : Nat) : ASt :=
  let m := st s.mem (hSize fb) 0
  let m := st m (fSize c fb) size
  let m := st m (fNext c fb) s.free
  let m := st m (fPrev c fb) 0
  let m := if s.free ≠ 0 then st m (fPrev c s.free) fb else m
  { s with mem := m, free := fb }

/-- `sljit_remove_free_block` (sljitExecAllocatorCore.c:135-146). -/
def removeFree (c : Cfg) (s : ASt) (fb : Nat) : ASt :=
  let m := s.mem
  let m := if m (fNext c fb) ≠ 0 then st m (fPrev c (m (fNext c fb))) (m (fPrev c fb)) else m
  if m (fPrev c fb) ≠ 0 then
    { s with mem := st m (fNext c (m (fPrev c fb))) (m (fNext c fb)) }
  else
    { s with mem := m, free := m (fNext c fb) }

/-- The search loop of `sljit_malloc_exec` (sljitExecAllocatorCore.c:170-198): first free block with enough space, 0 if
there is none.  `fuel` bounds the number of iterations; `none` when it runs out. -/
def findFree (c : Cfg) (m : Nat → Nat) (size : Nat) : Nat → Nat → Option Nat
  | _, 0 => some 0
  | 0, _ + 1 => none
  | n + 1, fb => if m (fSize c fb) ≥ size then some fb else findFree c m size n (m (fNext c fb))

/-- Body of the search loop when a block is found (sljitExecAllocatorCore.c:172-196).  Returns the new state and
`MEM_START(header)`. -/
def takeFree (c : Cfg) (s : ASt) (fb size : Nat) : ASt × Nat :=
  let chunk := s.mem (fSize c fb)
  if chunk > (size + 64) % W then
    let chunk := chunk - size
    let m := st s.mem (fSize c fb) chunk
    let header := fb + chunk
    let m := st m (hPrev header) chunk
    let m := stOff c m header (m (hOff fb))
    let m := st m (hPrev (header + size)) size
    let m := st m (hSize header) size
    ({ s with mem := m, allocated := (s.allocated + size) % W }, header + c.hs)
  else
    let s := removeFree c s fb
    ({ s with mem := st s.mem (hSize fb) chunk, allocated := (s.allocated + chunk) % W }, fb + c.hs)

/-- Chunk size requested from the system (sljitExecAllocatorCore.c:200); CHUNK_SIZE is 0x10000 and `& CHUNK_MASK` is
written as division. -/
def chunkSize (c : Cfg) (size : Nat) : Nat := (size + extra c + 0x10000 - 1) % W / 0x10000 * 0x10000

/-- Second part of `sljit_malloc_exec`, after `alloc_chunk` returned `base` (sljitExecAllocatorCore.c:208-249).
`eoff` is `chunk_header->executable - chunk_header`. -/
def newChunk (c : Cfg) (s : ASt) (base eoff size : Nat) : ASt × Nat :=
  let chunk := (chunkSize c size + W - extra c) % W
  let total := (s.total + chunk) % W
  let header := base + c.ch
  let m := st s.mem (hPrev header) 0
  let m := stOff c m header eoff
  if chunk > (size + 64) % W then
    let allocated := (s.allocated + size) % W
    let m := st m (hSize header) size
    let chunk := chunk - size
    let fb := header + size
    let m := st m (hPrev fb) size
    let m := stOff c m fb eoff
    let s := insertFree c { s with mem := m, allocated := allocated, total := total } fb chunk
    let next := fb + chunk
    let m := st s.mem (hSize next) 1
    let m := st m (hPrev next) chunk
    let m := stOff c m next eoff
    ({ s with mem := m }, header + c.hs)
  else
    let allocated := (s.allocated + chunk) % W
    let m := st m (hSize header) chunk
    let next := header + chunk
    let m := st m (hSize next) 1
    let m := st m (hPrev next) chunk
    let m := stOff c m next eoff
    ({ s with mem := m, allocated := allocated, total := total }, header + c.hs)

/-- Size of the block which is searched for (sljitExecAllocatorCore.c:165-167). -/
def reqSize (c : Cfg) (size : Nat) : Nat := alignSize c (if size < 64 - c.hs then 64 - c.hs else size)

/-- Answer of the operating system: address of the new chunk, its executable offset, and the contents of the chunk. -/
structure OsChunk where
  base : Nat
  eoff : Nat
  data : Nat → Nat

/-- Memory of the range `[a, a + n)` is replaced. -/
def havoc (m : Nat → Nat) (a n : Nat) (data : Nat → Nat) : Nat → Nat :=
  fun x => if a ≤ x ∧ x < a + n then data x else m x

/-- Result of `sljit_malloc_exec`: new state, the returned pointer (0: NULL), and the list of the chunks (address, size)
obtained from the system during the call. -/
structure MallocRes where
  s : ASt
  ptr : Nat
  mapped : List (Nat × Nat)

/-- `sljit_malloc_exec` (sljitExecAllocatorCore.c:148-249).  `os n` is the answer of `alloc_chunk(n)` (`none`: NULL).
`none`: `fuel` was too small. -/
def mallocExec (c : Cfg) (fuel : Nat) (s : ASt) (size : Nat) (os : Nat → Option OsChunk) : Option MallocRes :=
  let size := reqSize c size
  match findFree c s.mem size fuel s.free with
  | none => none
  | some 0 =>
    let chunk := chunkSize c size
    match os chunk with
    | none => some ⟨s, 0, []⟩
    | some o =>
      let r := newChunk c { s with mem := havoc s.mem o.base chunk o.data } o.base o.eoff size
      some ⟨r.1, r.2, [(o.base, chunk)]⟩
  | some (fb + 1) =>
    let r := takeFree c s (fb + 1) size
    some ⟨r.1, r.2, []⟩

/-- Result of an operation which can give chunks back to the system: `unmapped` lists (address, size). -/
structure FreeRes where
  s : ASt
  unmapped : List (Nat × Nat)

/-- `free_chunk` (e.g. sljitExecAllocatorPosix.c, sljitProtExecAllocatorPosix.c:186-192): the chunk starts CHUNK_HEADER_SIZE
bytes before its first block.  Its memory is gone: it may hold anything (`junk`) afterwards. -/
def freeChunk (c : Cfg) (s : ASt) (fb size : Nat) (junk : Nat → Nat) : ASt :=
  { s with mem := havoc s.mem (fb - c.ch) size junk }

/-- First half of `sljit_free_exec` (sljitExecAllocatorCore.c:256-278): the block becomes free and is merged with a free
block before it.  Returns the address of the free block.  The C code computes `header - prev_size`. -/
def freePrev (c : Cfg) (s : ASt) (header : Nat) : ASt × Nat :=
  let s := { s with allocated := (s.allocated + W - s.mem (hSize header) % W) % W }
  let fb := header - s.mem (hPrev header)
  if s.mem (hSize fb) = 0 then
    let m := st s.mem (fSize c fb) ((s.mem (fSize c fb) + s.mem (hSize header)) % W)
    let header := fb + m (fSize c fb)
    let m := st m (hPrev header) (m (fSize c fb))
    ({ s with mem := m }, fb)
  else
    (insertFree c s header (s.mem (hSize header)), header)

/-- Merge with a free block after it (sljitExecAllocatorCore.c:280-286). -/
def freeNext (c : Cfg) (s : ASt) (fb : Nat) : ASt :=
  let header := fb + s.mem (fSize c fb)
  if s.mem (hSize header) = 0 then
    let m := st s.mem (fSize c fb) ((s.mem (fSize c fb) + s.mem (fSize c header)) % W)
    let s := removeFree c { s with mem := m } header
    let header := fb + s.mem (fSize c fb)
    { s with mem := st s.mem (hPrev header) (s.mem (fSize c fb)) }
  else s

/-- Release of an unused chunk (sljitExecAllocatorCore.c:288-296). -/
def freeTail (c : Cfg) (s : ASt) (fb : Nat) (junk : Nat → Nat) : FreeRes :=
  let header := fb + s.mem (fSize c fb)
  if s.mem (hPrev fb) = 0 ∧ s.mem (hSize header) = 1 then
    let size := s.mem (fSize c fb)
    if (s.total + W - size % W) % W > (s.allocated * 3) % W / 2 then
      let s := { s with total := (s.total + W - size % W) % W }
      let s := removeFree c s fb
      let n := (s.mem (fSize c fb) + extra c) % W
      ⟨freeChunk c s fb n junk, [(fb - c.ch, n)]⟩
    else ⟨s, []⟩
  else ⟨s, []⟩

/-- `sljit_free_exec` (sljitExecAllocatorCore.c:251-300).  `ptr` is the writable address of the block.  With
SLJIT_HAS_EXECUTABLE_OFFSET the C function receives the executable alias of this address and subtracts
`executable_offset`, see `execOffset`. -/
def freeExec (c : Cfg) (s : ASt) (ptr : Nat) (junk : Nat → Nat) : FreeRes :=
  let r := freePrev c s (ptr - c.hs)
  freeTail c (freeNext c r.1 r.2) r.2 junk

/-- `sljit_exec_offset` / the executable offset used by `sljit_free_exec` (sljitExecAllocatorCore.c:258, :331-336). -/
def execOffset (c : Cfg) (s : ASt) (ptr : Nat) : Nat := s.mem (hOff (ptr - c.hs))

/-- The loop of `sljit_free_unused_memory_exec` (sljitExecAllocatorCore.c:310-321). -/
def freeUnusedLoop (c : Cfg) (junk : Nat → Nat) : Nat → FreeRes → Nat → Option FreeRes
  | _, r, 0 => some r
  | 0, _, _ + 1 => none
  | n + 1, r, fb =>
    let s := r.s
    let next := s.mem (fNext c fb)
    if s.mem (hPrev fb) = 0 ∧ s.mem (hSize (fb + s.mem (fSize c fb))) = 1 then
      let size := s.mem (fSize c fb)
      let s := { s with total := (s.total + W - size % W) % W }
      let s := removeFree c s fb
      let n' := (s.mem (fSize c fb) + extra c) % W
      freeUnusedLoop c junk n ⟨freeChunk c s fb n' junk, r.unmapped ++ [(fb - c.ch, n')]⟩ next
    else
      freeUnusedLoop c junk n r next

/-- `sljit_free_unused_memory_exec` (sljitExecAllocatorCore.c:302-326). -/
def freeUnused (c : Cfg) (fuel : Nat) (s : ASt) (junk : Nat → Nat) : Option FreeRes :=
  freeUnusedLoop c junk fuel ⟨s, []⟩ s.free

end Verif.Alloc
