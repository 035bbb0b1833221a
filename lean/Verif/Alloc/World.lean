import Verif.Alloc.Model

/-!
# Histories of the executable allocator

The specification level of C01-C06: what a client and the operating system can observe.  Nothing in this file mentions
headers, free lists or any other internal structure of the allocator.
-/

namespace Verif.Alloc

/-- State of the process: allocator variables and memory, the blocks which the client owns (pointer, requested size),
and the chunks which are mapped (address, size). -/
structure World where
  s : ASt
  live : List (Nat × Nat)
  mapped : List (Nat × Nat)

/-- Request sizes which are not absurdly large: at most 2^64 - 128. -/
def Sane (n : Nat) : Prop := n + 128 ≤ W

/-- The answer of the system to a request of `n` bytes is usable: above the first page, 8 byte aligned, does not wrap around, and is
disjoint from all memory which is already mapped. -/
def OsOk (mapped : List (Nat × Nat)) (n : Nat) (o : OsChunk) : Prop :=
  4096 ≤ o.base ∧ o.base % 8 = 0 ∧ o.base + n ≤ W ∧ ∀ k ∈ mapped, o.base + n ≤ k.1 ∨ k.1 + k.2 ≤ o.base

/-- Addresses which belong to the client: its blocks, and everything outside of the chunks. -/
def ClientOwns (w : World) (a : Nat) : Prop :=
  (∃ k ∈ w.live, k.1 ≤ a ∧ a < k.1 + k.2) ∨ ∀ k ∈ w.mapped, a < k.1 ∨ k.1 + k.2 ≤ a

/-- One event in the life of the process.  `os 0 = none`: the system does not map empty areas (POSIX `mmap` fails with
EINVAL when the length is zero). -/
inductive Step (c : Cfg) : World → World → Prop
  | malloc (w : World) (fuel n : Nat) (os : Nat → Option OsChunk) (r : MallocRes) (hn : Sane n)
      (hos : ∀ k o, os k = some o → OsOk w.mapped k o) (hos0 : os 0 = none) (h : mallocExec c fuel w.s n os = some r) :
      Step c w ⟨r.s, if r.ptr = 0 then w.live else (r.ptr, n) :: w.live, r.mapped ++ w.mapped⟩
  | free (w : World) (junk : Nat → Nat) (p n : Nat) (h : (p, n) ∈ w.live) :
      Step c w ⟨(freeExec c w.s p junk).s, w.live.erase (p, n), w.mapped.filter (· ∉ (freeExec c w.s p junk).unmapped)⟩
  | freeUnused (w : World) (junk : Nat → Nat) (fuel : Nat) (r : FreeRes) (h : freeUnused c fuel w.s junk = some r) :
      Step c w ⟨r.s, w.live, w.mapped.filter (· ∉ r.unmapped)⟩
  | client (w : World) (m' : Nat → Nat) (h : ∀ a, ¬ ClientOwns w a → m' a = w.s.mem a) :
      Step c w ⟨{ w.s with mem := m' }, w.live, w.mapped⟩

/-- The state of a process which has just been started: the static variables are zero (sljitExecAllocatorCore.c:119-121). -/
def World.init (m : Nat → Nat) : World := ⟨⟨m, 0, 0, 0⟩, [], []⟩

/-- Reachable states. -/
inductive Reach (c : Cfg) : World → Prop
  | init (m : Nat → Nat) : Reach c (World.init m)
  | step {w w' : World} (h : Reach c w) (hs : Step c w w') : Reach c w'

/-- A block as seen by somebody who inspects a chunk in memory. -/
structure Seen where
  addr : Nat
  size : Nat
  used : Bool
  deriving DecidableEq

/-- Inspecting a chunk in memory, block by block, from address `p` to the terminator at address `e`.  The first word of
a block is its size; 0 marks a free block, whose size is stored after the links, and 1 marks the terminator
(the layout documented in sljitExecAllocatorCore.c:30-75). -/
inductive Walk (c : Cfg) (m : Nat → Nat) : Nat → List Seen → Nat → Prop
  | stop (p : Nat) : m p = 1 → Walk c m p [] p
  | free (p : Nat) (l : List Seen) (e : Nat) : m p = 0 → Walk c m (p + m (p + c.hs + 16)) l e →
      Walk c m p (⟨p, m (p + c.hs + 16), false⟩ :: l) e
  | used (p : Nat) (l : List Seen) (e : Nat) : m p ≠ 0 → m p ≠ 1 → Walk c m (p + m p) l e →
      Walk c m p (⟨p, m p, true⟩ :: l) e

/-- No two neighbouring blocks are both free. -/
def NoAdjFree : List Seen → Prop
  | [] => True
  | [_] => True
  | x :: y :: t => (x.used = true ∨ y.used = true) ∧ NoAdjFree (y :: t)

end Verif.Alloc
