/-!
# Memory of the compiler (model of sljitLir.c:485-625, :676-748)

Heap blocks are identified by numbers which are never reused (so a second free of the same block, or a use after free, is
visible): `malloc` returns memory which is disjoint from every other block.  Only the first words of a block are special:
`next` and `used` are the fields of `struct sljit_memory_fragment` (sljitLir.h:467-472), `data` is its `memory` array (for
the compiler structure they are unused; its fields are in `Comp`).  The answers of SLJIT_MALLOC are an arbitrary oracle.
Access to a block which is not live, freeing such a block and writing outside of a block are the outcome `none`.
Modelled configuration: 64 bit, not SLJIT_CONFIG_ARM_V6 (no constant pool).
-/

namespace Verif.Generic

abbrev Byte := BitVec 8

/-- A heap block: its size in bytes, and its contents seen as a `struct sljit_memory_fragment`. -/
structure Blk where
  size : Nat
  next : Option Nat
  used : Nat
  data : Nat → Byte

/-- The heap; `cnt` is the next block number, `calls` the number of calls of SLJIT_MALLOC so far. -/
structure Heap where
  blks : Nat → Option Blk
  cnt : Nat
  calls : Nat

/-- The environment: which calls of SLJIT_MALLOC fail, and what new memory contains. -/
structure Oracle where
  fails : Nat → Bool
  junk : Nat → Blk

/-- SLJIT_MALLOC. -/
def Heap.malloc (o : Oracle) (h : Heap) (size : Nat) : Heap × Option Nat :=
  if o.fails h.calls then ({ h with calls := h.calls + 1 }, none)
  else ({ blks := fun i => if i = h.cnt then some { o.junk h.calls with size := size } else h.blks i, cnt := h.cnt + 1, calls := h.calls + 1 },
    some h.cnt)

/-- SLJIT_FREE. -/
def Heap.free (h : Heap) (i : Nat) : Option Heap :=
  (h.blks i).map fun _ => { h with blks := fun j => if j = i then none else h.blks j }

/-- A store to a live block. -/
def Heap.set (h : Heap) (i : Nat) (b : Blk) : Heap := { h with blks := fun j => if j = i then some b else h.blks j }

/-- BUF_SIZE, ABUF_SIZE (sljitLir.c:113-118, 64 bit) and the offset of `memory`. -/
notation "BUF_SIZE" => (4096 : Nat)
notation "ABUF_SIZE" => (4096 : Nat)
notation "FRAG_HEADER" => (16 : Nat)

/-- Error codes (sljitLir.h: SLJIT_SUCCESS .. SLJIT_ERR_BAD_ARGUMENT). -/
notation "ERR_COMPILED" => (1 : Int)
notation "ERR_ALLOC_FAILED" => (2 : Int)
notation "ERR_EX_ALLOC_FAILED" => (3 : Int)
notation "ERR_BAD_ARGUMENT" => (5 : Int)

/-- The fields of `struct sljit_compiler` used here; `self` is the block of the structure. -/
structure Comp where
  self : Nat
  error : Int
  buf : Nat
  abuf : Nat

/-- A pointer into the `memory` array of a block. -/
structure Ptr where
  blk : Nat
  off : Nat
  deriving DecidableEq

/-- sljit_create_compiler (sljitLir.c:485-588): the allocations and the list heads. -/
def create (o : Oracle) (h : Heap) : Option (Heap × Option Comp) :=
  match h.malloc o 1024 with
  | (h, none) => some (h, none)
  | (h, some self) =>
    let (h, buf) := h.malloc o BUF_SIZE
    let (h, abuf) := h.malloc o ABUF_SIZE
    match buf, abuf with
    | some buf, some abuf =>
      (h.blks buf).bind fun b =>
      let h := h.set buf { b with next := none, used := 0 }
      (h.blks abuf).bind fun b =>
      let h := h.set abuf { b with next := none, used := 0 }
      some (h, some ⟨self, 0, buf, abuf⟩)
    | buf, abuf =>
      (match buf with | some i => h.free i | none => some h).bind fun h =>
      (match abuf with | some i => h.free i | none => some h).bind fun h =>
      (h.free self).bind fun h => some (h, none)

/-- One of the two loops of sljit_free_compiler (sljitLir.c:598-603).  `n` bounds the number of iterations; `none` if it is
not sufficient. -/
def freeChain : Nat → Heap → Option Nat → Option Heap
  | _, h, none => some h
  | 0, _, some _ => none
  | n + 1, h, some i => (h.blks i).bind fun b => (h.free i).bind fun h => freeChain n h b.next

/-- sljit_free_compiler (sljitLir.c:591-617). -/
def freeCompiler (h : Heap) (c : Comp) : Option Heap :=
  (freeChain h.cnt h (some c.buf)).bind fun h =>
  (freeChain h.cnt h (some c.abuf)).bind fun h => h.free c.self

/-- The common part of ensure_buf and ensure_abuf (sljitLir.c:676-714): `cap` is the size of a fragment, `head` the current
one.  Result: the new head and the returned pointer. -/
def ensure (o : Oracle) (h : Heap) (cap head size : Nat) : Option (Heap × Nat × Option Ptr) :=
  (h.blks head).bind fun b =>
  if b.used + size ≤ cap - FRAG_HEADER then
    some (h.set head { b with used := b.used + size }, head, some ⟨head, b.used⟩)
  else
    match h.malloc o cap with
    | (h, none) => some (h, head, none)
    | (h, some i) =>
      (h.blks i).bind fun b => some (h.set i { b with next := some head, used := size }, i, some ⟨i, 0⟩)

/-- ensure_buf (sljitLir.c:676-695). -/
def ensureBuf (o : Oracle) (h : Heap) (c : Comp) (size : Nat) : Option (Heap × Comp × Option Ptr) :=
  (ensure o h BUF_SIZE c.buf size).map fun (h, head, p) =>
    (h, { c with buf := head, error := if p.isSome then c.error else ERR_ALLOC_FAILED }, p)

/-- ensure_abuf (sljitLir.c:697-714). -/
def ensureAbuf (o : Oracle) (h : Heap) (c : Comp) (size : Nat) : Option (Heap × Comp × Option Ptr) :=
  (ensure o h ABUF_SIZE c.abuf size).map fun (h, head, p) =>
    (h, { c with abuf := head, error := if p.isSome then c.error else ERR_ALLOC_FAILED }, p)

/-- Writing bytes through a pointer. -/
def Heap.store (h : Heap) (p : Ptr) (bs : List Byte) : Option Heap :=
  (h.blks p.blk).bind fun b =>
    if FRAG_HEADER + p.off + bs.length ≤ b.size then
      some (h.set p.blk { b with data := fun k => if p.off ≤ k ∧ k < p.off + bs.length then bs.getD (k - p.off) 0 else b.data k })
    else none

/-- Reading bytes through a pointer. -/
def Heap.load (h : Heap) (p : Ptr) (n : Nat) : Option (List Byte) :=
  (h.blks p.blk).bind fun b =>
    if FRAG_HEADER + p.off + n ≤ b.size then some ((List.range n).map fun k => b.data (p.off + k)) else none

/-- sljit_alloc_memory (sljitLir.c:716-730). -/
def allocMemory (o : Oracle) (h : Heap) (c : Comp) (size : Int) : Option (Heap × Comp × Option Ptr) :=
  if c.error ≠ 0 then some (h, c, none)
  else if size ≤ 0 ∨ size > 128 then some (h, c, none)
  else ensureAbuf o h c ((size.toNat + 7) / 8 * 8)

/-- reverse_buf (sljitLir.c:732-746): the loop, `n` bounds the number of iterations. -/
def reverseLoop : Nat → Heap → (buf prev : Option Nat) → Option (Heap × Option Nat)
  | _, h, none, prev => some (h, prev)
  | 0, _, some _, _ => none
  | n + 1, h, some i, prev =>
    (h.blks i).bind fun b => reverseLoop n (h.set i { b with next := prev }) b.next (some i)

/-- The traversal of the fragments by sljit_generate_code (e.g. sljitNativeRISCV_common.c:919-982). -/
def readChain : Nat → Heap → Option Nat → Option (List Byte)
  | _, _, none => some []
  | 0, _, some _ => none
  | n + 1, h, some i =>
    (h.blks i).bind fun b => (h.load ⟨i, 0⟩ b.used).bind fun bs => (readChain n h b.next).map (bs ++ ·)

/-- What an emit function does with the memory: a piece of code (`ensure_buf` and filling it), a label, jump or constant
record (`ensure_abuf` and filling it). -/
inductive Push
  | ins (bs : List Byte)
  | record (bs : List Byte)

/-- Calls of the API.  `emit bad ps`: an emit function; `bad` if the arguments are rejected by CHECK, `ps` is what it
pushes.  `write k off bs`: the client writes to the memory which the `k`th successful sljit_alloc_memory returned.
`generate exec`: sljit_generate_code; `exec` if the executable memory can be allocated. -/
inductive Op
  | emit (bad : Bool) (ps : List Push)
  | alloc (size : Int)
  | write (k off : Nat) (bs : List Byte)
  | memError
  | generate (bad exec : Bool)

/-- What a call returned: an error code, or a pointer. -/
inductive Ret
  | code (e : Int)
  | ptr (p : Option Ptr)
  | nothing
  deriving DecidableEq

/-- What happened so far, newest first: code pieces, records, client memory, and the code read by a code generation. -/
inductive Ev
  | ins (p : Ptr) (bs : List Byte)
  | record (p : Ptr) (bs : List Byte)
  | mem (p : Ptr) (size : Nat)
  | gen (code : List Byte)

structure St where
  h : Heap
  c : Comp
  log : List Ev

/-- The client memory, oldest first. -/
def mems : List Ev → List (Ptr × Nat)
  | [] => []
  | .mem p n :: l => mems l ++ [(p, n)]
  | _ :: l => mems l

/-- The pushes of one emit function; it returns at the first failure (FAIL_IF / PTR_FAIL_IF). -/
def pushAll (o : Oracle) : St → List Push → Option St
  | s, [] => some s
  | s, .ins bs :: ps =>
    (ensureBuf o s.h s.c bs.length).bind fun (h, c, p) =>
    match p with
    | none => some { s with h := h, c := c }
    | some p => (h.store p bs).bind fun h => pushAll o ⟨h, c, .ins p bs :: s.log⟩ ps
  | s, .record bs :: ps =>
    (ensureAbuf o s.h s.c bs.length).bind fun (h, c, p) =>
    match p with
    | none => some { s with h := h, c := c }
    | some p => (h.store p bs).bind fun h => pushAll o ⟨h, c, .record p bs :: s.log⟩ ps

/-- One API call. -/
def step (o : Oracle) (s : St) : Op → Option (St × Ret)
  | .emit bad ps =>
    -- CHECK_ERROR (sljitLir.c:43-47), CHECK (:420-427)
    if s.c.error ≠ 0 then some (s, .code s.c.error)
    else if bad then some ({ s with c := { s.c with error := ERR_BAD_ARGUMENT } }, .code ERR_BAD_ARGUMENT)
    else (pushAll o s ps).map fun s => (s, .code s.c.error)
  | .alloc size =>
    (allocMemory o s.h s.c size).map fun (h, c, p) =>
      (⟨h, c, match p with | some p => .mem p ((size.toNat + 7) / 8 * 8) :: s.log | none => s.log⟩, .ptr p)
  | .write k off bs =>
    match (mems s.log)[k]? with
    | none => some (s, .nothing)
    | some (p, n) =>
      if off + bs.length ≤ n then (s.h.store ⟨p.blk, p.off + off⟩ bs).map fun h => ({ s with h := h }, .nothing)
      else some (s, .nothing)
  | .memError =>
    -- sljit_set_compiler_memory_error (sljitLir.c:619-623)
    some ({ s with c := { s.c with error := if s.c.error = 0 then ERR_ALLOC_FAILED else s.c.error } }, .nothing)
  | .generate bad exec =>
    -- sljit_generate_code (sljitNativeRISCV_common.c:884-1050)
    if s.c.error ≠ 0 then some (s, .ptr none)
    else if bad then some ({ s with c := { s.c with error := ERR_BAD_ARGUMENT } }, .ptr none)
    else
      (reverseLoop s.h.cnt s.h (some s.c.buf) none).bind fun (h, head) =>
      head.bind fun head =>
      if exec then
        (readChain h.cnt h (some head)).bind fun code =>
        some (⟨h, { s.c with buf := head, error := ERR_COMPILED }, .gen code :: s.log⟩, .ptr (some ⟨0, 0⟩))
      else some ({ s with h := h, c := { s.c with buf := head, error := ERR_EX_ALLOC_FAILED } }, .ptr none)

/-- A sequence of calls and what they returned. -/
def run (o : Oracle) : St → List Op → Option (St × List Ret)
  | s, [] => some (s, [])
  | s, op :: ops => (step o s op).bind fun (s, r) => (run o s ops).map fun (s, rs) => (s, r :: rs)

end Verif.Generic
