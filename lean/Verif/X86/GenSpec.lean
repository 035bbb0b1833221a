import Verif.X86.Gen
import Verif.X86.Mach

/-!
# Code generation on x86-64: what an emitted program is, and what the generated code has to do (specification side)

Conditions on the items which every sequence of API calls satisfies, plus the exclusions of the known defects.
-/

namespace Verif.X86

/-- Number of labels. -/
def Prog.labels : List Item → Nat
  | [] => 0
  | .label :: is => Prog.labels is + 1
  | .alabel _ :: is => Prog.labels is + 1
  | _ :: is => Prog.labels is

/-- Targets: an existing label or any address. -/
def Tgt.Ok (nl : Nat) : Tgt → Prop
  | .label n => n < nl
  | .addr _ => True

/-- Items: no empty pieces, a jump type of the API (sljitLir.h:1720-1816), a register of the API or a temporary one. -/
def Item.Ok (nl : Nat) : Item → Prop
  | .bytes bs => bs ≠ []
  | .label => True
  | .alabel al => 1 ≤ al
  | .const bs => bs ≠ []
  | .jump j => j.type < 40 ∧ j.tgt.Ok nl
  | .mov reg t => 1 ≤ reg ∧ reg ≤ 16 ∧ t.Ok nl

/-- A lower bound of the size of the code generated for an item (of the space reserved for an aligned label). -/
def Item.least : Item → Nat
  | .jump _ => 2
  | .mov .. => 5
  | i => i.size

def leasts : List Item → Nat
  | [] => 0
  | i :: is => i.least + leasts is

/-- A program: well formed items, and no label directly after another one (sljit_emit_label returns the existing label).
Two defects are excluded (`c49_label_after_mov_false`, `c49_mov_at_end_false`): a move address is not directly followed by a label,
and at least 5 bytes follow it. -/
def Prog.Ok (nl : Nat) : List Item → Prop
  | [] => True
  | .mov reg t :: is => Item.Ok nl (.mov reg t) ∧ Item.isLabel is = false ∧ 5 ≤ leasts is ∧ Prog.Ok nl is
  | .label :: is => Item.isLabel is = false ∧ Prog.Ok nl is
  | i :: is => i.Ok nl ∧ Prog.Ok nl is

/-- The place of the code in memory: the code is smaller than 2 gigabytes (up to 16 bytes), and neither of its mappings wraps around. -/
def Room (items : List Item) (base off : BitVec 64) : Prop :=
  usize items + 16 < 2 ^ 31 ∧ base.toNat + usize items < 2 ^ 64 ∧ (base + off).toNat + usize items < 2 ^ 64

/-- Two defects (`c49_jump_edge_false`, `c49_cond_edge_false`, `c49_mov_edge_false`) exclude target addresses whose distance
from the code is just at the edge of what 32 bits can represent. -/
def NoEdge (a0 : BitVec 64) (n : Nat) : Item → Prop
  | .jump ⟨type, _, .addr t⟩ => ∀ i, i ≤ n →
      (JUMP ≤ type → t ≠ a0 + BitVec.ofNat 64 i + 0x80000005#64) ∧ (type < JUMP → t ≠ a0 + BitVec.ofNat 64 i - 0x7ffffffb#64)
  | .mov _ (.addr t) => ∀ i, i ≤ n → ∀ k, k ≤ 2 → t ≠ a0 + BitVec.ofNat 64 i + 10#64 + (0x7fffffff#64 - BitVec.ofNat 64 k)
  | _ => True

/-! ## What the generated code has to do -/

/-- When a conditional jump is taken, in terms of the flags which the compare instructions leave (the floating point compare
instructions set the carry and zero flags; their parity flag is not covered).  `none`: depends on a flag which is undefined. -/
def taken (type : Nat) (f : Flags) : Option Bool :=
  (match type / 2 with
    | 0 | 7 | 8 | 15 => f.zf
    | 1 | 6 | 9 | 16 | 17 => f.cf
    | 2 | 10 | 13 | 14 => f.cf.bind fun c => f.zf.map fun z => !(c || z)
    | 3 => f.sf.bind fun s => f.of.map fun o => s != o
    | 4 => f.zf.bind fun z => f.sf.bind fun s => f.of.map fun o => !z && (s == o)
    | 5 => f.of
    | _ => none).map fun b => if type % 2 = 1 then !b else b

/-- Execution reaches `b`; registers outside `W`, memory and flags do not change. -/
def Goes (c : IMem) (W : List (BitVec 4)) (p : PSt) (b : BitVec 64) (Q : PSt → Prop) : Prop :=
  ∃ p', PSteps c p p' ∧ p'.pc = b ∧ (∀ q, q ∉ W → p'.s.r q = p.s.r q) ∧ p'.s.m = p.s.m ∧ p'.s.f = p.s.f ∧ Q p'

/-- A jump of length `n` at `p.pc`: a conditional one goes to `t` if it is taken and continues after itself otherwise, an unconditional
one goes to `t`, a call goes to `t` and leaves the return address on the stack.  Only TMP_REG2 may change. -/
def JumpDoes (c : IMem) (win : Bool) (type : Nat) (t : BitVec 64) (n : Nat) (p : PSt) : Prop :=
  if type < JUMP then ∀ b, taken type p.s.f = some b → Goes c [num win TMP_REG2] p (if b then t else p.pc + BitVec.ofNat 64 n) fun _ => True
  else if type = JUMP then Goes c [num win TMP_REG2] p t fun _ => True
  else ∃ p', PSteps c p p' ∧ p'.pc = t ∧ (∀ q, q ≠ num win TMP_REG2 → q ≠ 4#4 → p'.s.r q = p.s.r q) ∧ p'.s.f = p.s.f ∧
    p'.s.r 4#4 = p.s.r 4#4 - 8#64 ∧ p'.s.m = wr p.s.m (p.s.r 4#4 - 8#64) 8 (p.pc + BitVec.ofNat 64 n)

/-- Where the target is. -/
def tgtOf (laddr : List (BitVec 64)) : Tgt → BitVec 64
  | .label n => laddr.getD n 0#64
  | .addr a => a

/-- The program `items` is at address `a` of instruction memory: its pieces follow each other, labels have the addresses `laddr`
(from index `li` on), `caddr` are the (writable) addresses after the constants, `jaddr` the positions of the jump records relative to
the (executable) address `a0`, and
* plain instructions and constants are stored unchanged,
* an aligned label has an aligned (writable) address, and the code in front of it continues at it,
* a jump does what a jump to its target has to do (`JumpDoes`),
* a rewritable jump does this for any target `t'`, provided that `t'` is stored at the position of its record,
* a move address loads the address of its target. -/
def Placed (c : IMem) (win : Bool) (off a0 : BitVec 64) (laddr : List (BitVec 64)) : List Item → (a : BitVec 64) → (li : Nat) →
    (caddr : List (BitVec 64)) → (jaddr : List Nat) → (fin : BitVec 64) → Prop
  | [], a, li, ca, ja, fin => a = fin ∧ li = laddr.length ∧ ca = [] ∧ ja = []
  | .bytes bs :: is, a, li, ca, ja, fin => BytesAt c a bs ∧ Placed c win off a0 laddr is (a + BitVec.ofNat 64 bs.length) li ca ja fin
  | .const bs :: is, a, li, ca, ja, fin => BytesAt c a bs ∧
      ∃ ca', ca = (a + BitVec.ofNat 64 bs.length - off) :: ca' ∧ Placed c win off a0 laddr is (a + BitVec.ofNat 64 bs.length) li ca' ja fin
  | .label :: is, a, li, ca, ja, fin => laddr[li]? = some a ∧ Placed c win off a0 laddr is a (li + 1) ca ja fin
  | .alabel al :: is, a, li, ca, ja, fin => ∃ b, laddr[li]? = some b ∧ (b - off).toNat % 2 ^ al = 0 ∧
      (∀ p : PSt, p.pc = a → Goes c [] p b fun _ => True) ∧ Placed c win off a0 laddr is b (li + 1) ca ja fin
  | .jump j :: is, a, li, ca, ja, fin => ∃ n x ja', ja = x :: ja' ∧
      (∀ p : PSt, p.pc = a → JumpDoes c win j.type (tgtOf laddr j.tgt) n p) ∧
      (j.rew = true → ∃ pre post, a0 + BitVec.ofNat 64 x = a + BitVec.ofNat 64 pre.length ∧
        BytesAt c a (pre ++ toLe 8 (tgtOf laddr j.tgt) ++ post) ∧
        ∀ (c' : IMem) (t' : BitVec 64), BytesAt c' a (pre ++ toLe 8 t' ++ post) → ∀ p : PSt, p.pc = a → JumpDoes c' win j.type t' n p) ∧
      Placed c win off a0 laddr is (a + BitVec.ofNat 64 n) li ca ja' fin
  | .mov reg t :: is, a, li, ca, ja, fin => ∃ n x ja', ja = x :: ja' ∧
      (∀ p : PSt, p.pc = a → Goes c [num win reg] p (a + BitVec.ofNat 64 n) fun p' => p'.s.r (num win reg) = tgtOf laddr t) ∧
      Placed c win off a0 laddr is (a + BitVec.ofNat 64 n) li ca ja' fin

end Verif.X86
