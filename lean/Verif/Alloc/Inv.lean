import Verif.Alloc.Model
import Mathlib.Tactic.SplitIfs
import Mathlib.Tactic.ByContra

/-!
# Ghost description of the allocator's data structure

`B` maps the address of every block header to a description of the block.  `Geo` describes the block structure alone,
`MemOk` and `Chain` relate it to the memory.
-/

namespace Verif.Alloc

inductive Kind | used | free | term deriving DecidableEq, Repr

structure Blk where
  kind : Kind
  size : Nat
  prev : Nat
  off : Nat

/-- A chunk obtained from the system. -/
structure Chunk where
  base : Nat
  size : Nat
  off : Nat
  deriving DecidableEq

abbrev Blocks := Nat → Option Blk

def upd (B : Blocks) (p : Nat) (x : Option Blk) : Blocks := fun q => if q = p then x else B q

@[simp] theorem upd_same (B : Blocks) (p x) : upd B p x p = x := by simp [upd]
theorem upd_ne (B : Blocks) (p x q) (h : q ≠ p) : upd B p x q = B q := by simp [upd, h]

/-- Bytes occupied by a block: a terminator is only a header. -/
def ext (c : Cfg) (b : Blk) : Nat := if b.kind = .term then c.hs else b.size

/-- Well formed block structure. -/
structure Geo (c : Cfg) (B : Blocks) (cs : List Chunk) : Prop where
  dis : ∀ p b q b', B p = some b → B q = some b' → p < q → p + ext c b ≤ q
  size : ∀ p b, B p = some b → b.kind ≠ .term → 64 ≤ b.size ∧ b.size % 8 = 0
  align : ∀ p b, B p = some b → p % 8 = 0 ∧ 0 < p
  next : ∀ p b, B p = some b → b.kind ≠ .term → ∃ b', B (p + b.size) = some b' ∧ b'.prev = b.size ∧ b'.off = b.off
  prev : ∀ p b, B p = some b → b.prev ≠ 0 → ∃ q b', B q = some b' ∧ b'.kind ≠ .term ∧ b'.size = b.prev ∧ q + b.prev = p
  term : ∀ p b, B p = some b → b.kind = .term → b.prev ≠ 0
  first : ∀ p b, B p = some b → b.prev = 0 → ∃ k ∈ cs, p = k.base + c.ch
  start : ∀ k ∈ cs, ∃ b, B (k.base + c.ch) = some b ∧ b.prev = 0
  inside : ∀ p b, B p = some b → ∃ k ∈ cs, k.base + c.ch ≤ p ∧ p + ext c b ≤ k.base + k.size ∧ b.off = k.off ∧
    (b.kind = .term → p + c.hs = k.base + k.size)
  cdis : ∀ k ∈ cs, ∀ k' ∈ cs, k ≠ k' → k.base + k.size ≤ k'.base ∨ k'.base + k'.size ≤ k.base
  cfit : ∀ k ∈ cs, 0 < k.size ∧ k.base + k.size ≤ W ∧ 4096 ≤ k.base
  nodup : cs.Nodup

/-- No two adjacent free blocks. -/
def NoCoal (B : Blocks) : Prop :=
  ∀ p b b', B p = some b → b.kind = .free → B (p + b.size) = some b' → b'.kind ≠ .free

/-- Contents of the size word of a header. -/
def Blk.tag (b : Blk) : Nat := match b.kind with | .used => b.size | .free => 0 | .term => 1

/-- The headers in memory describe `B`. -/
structure MemOk (c : Cfg) (m : Nat → Nat) (B : Blocks) : Prop where
  tag : ∀ p b, B p = some b → m (hSize p) = b.tag
  prev : ∀ p b, B p = some b → m (hPrev p) = b.prev
  off : ∀ p b, B p = some b → c.hs = 24 → m (hOff p) = b.off
  fsize : ∀ p b, B p = some b → b.kind = .free → m (fSize c p) = b.size

/-- First element of the list, NULL for the empty list. -/
def hd : List Nat → Nat
  | [] => 0
  | p :: _ => p

/-- The doubly linked list of free blocks, starting after `prev`. -/
def Chain (c : Cfg) (m : Nat → Nat) : Nat → List Nat → Prop
  | _, [] => True
  | prev, p :: t => m (fNext c p) = hd t ∧ m (fPrev c p) = prev ∧ Chain c m p t

/-- `fl` lists exactly the free blocks. -/
structure FlOk (B : Blocks) (fl : List Nat) : Prop where
  nodup : fl.Nodup
  mem : ∀ p, p ∈ fl ↔ ∃ b, B p = some b ∧ b.kind = .free

variable {c : Cfg} {B : Blocks} {cs : List Chunk}

theorem Cfg.Ok.cases (hc : c.Ok) : (c.hs = 16 ∧ c.ch = 0) ∨ (c.hs = 24 ∧ c.ch = 8) := hc

theorem Geo.ext_pos (hc : c.Ok) (g : Geo c B cs) {p b} (h : B p = some b) : c.hs ≤ ext c b := by
  unfold ext
  split
  · exact Nat.le_refl _
  · next hk => have := (g.size p b h hk).1; rcases hc with h | h <;> omega

/-- Two blocks at different addresses do not overlap. -/
theorem Geo.apart (g : Geo c B cs) {p b q b'} (h : B p = some b) (h' : B q = some b') (hne : p ≠ q) :
    p + ext c b ≤ q ∨ q + ext c b' ≤ p := by
  rcases Nat.lt_or_gt_of_ne hne with hl | hl
  · exact .inl (g.dis p b q b' h h' hl)
  · exact .inr (g.dis q b' p b h' h hl)

/-- A chunk is determined by an address inside of it. -/
theorem Geo.chunk_eq (g : Geo c B cs) {k k' : Chunk} {a : Nat} (hk : k ∈ cs) (hk' : k' ∈ cs)
    (h : k.base ≤ a ∧ a < k.base + k.size) (h' : k'.base ≤ a ∧ a < k'.base + k'.size) : k = k' := by
  by_contra hne
  rcases g.cdis k hk k' hk' hne with h1 | h1 <;> omega

end Verif.Alloc
