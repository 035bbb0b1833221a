import Verif.A64.Gen
import Verif.A64.Mach

/-!
# Code generation on ARM64: what an emitted program is, and what the generated code has to do (specification side)

Conditions on the items which every sequence of API calls satisfies, plus the exclusion of a known defect.
-/

namespace Verif.A64
open Verif.Imm.Arm64 (regMap)

/-- Number of labels. -/
def Prog.labels : List Item → Nat
  | [] => 0
  | .label :: is => Prog.labels is + 1
  | .alabel _ :: is => Prog.labels is + 1
  | _ :: is => Prog.labels is

/-- Targets: an existing label or any address. -/
def Tgt.Ok (nl : Nat) : Tgt → Prop
  | .label n => n < nl
  | .addr _ => True

/-- Targets of jumps are instructions. -/
def Tgt.Aligned : Tgt → Prop
  | .label _ => True
  | .addr t => t.toNat % 4 = 0

/-- The condition codes of get_cc are those below 14. -/
def Skip.Ok : Skip → Prop
  | .cc c => c.toNat < 14
  | .cbz .. => True

/-- Items: no empty pieces; calls are not conditional; a register which is neither SP nor the zero register. -/
def Item.Ok (nl : Nat) : Item → Prop
  | .code ws => ws ≠ []
  | .label => True
  | .alabel al => 3 ≤ al
  | .const ws => ws ≠ []
  | .jump j => j.tgt.Ok nl ∧ j.tgt.Aligned ∧ ∀ k, j.skip = some k → k.Ok ∧ j.call = false
  | .mov reg t => regMap reg ≠ 31#5 ∧ t.Ok nl

/-- The next item is a label. -/
def Item.isLabel : List Item → Bool
  | .label :: _ => true
  | _ => false

/-- A program: well formed items, and no label directly after another one (sljit_emit_label returns the existing label).
A defect is excluded (`c53_cond_at_end_false`): some code follows every conditional jump. -/
def Prog.Ok (nl : Nat) : List Item → Prop
  | [] => True
  | .label :: is => Item.isLabel is = false ∧ Prog.Ok nl is
  | .alabel al :: is => Item.Ok nl (.alabel al) ∧ Item.isLabel is = false ∧ Prog.Ok nl is
  | .jump j :: is => Item.Ok nl (.jump j) ∧ (j.skip.isSome = true → 0 < usize is) ∧ Prog.Ok nl is
  | i :: is => i.Ok nl ∧ Prog.Ok nl is

/-- The place of the code in memory: both mappings consist of aligned words and do not wrap around (code of more than 2^60 bytes
is excluded). -/
def Room (items : List Item) (base off : BitVec 64) : Prop :=
  0 < usize items ∧ usize items < 2 ^ 58 ∧ base.toNat % 4 = 0 ∧ off.toNat % 4 = 0 ∧
  base.toNat + 4 * usize items < 2 ^ 64 ∧ (base + off).toNat + 4 * usize items < 2 ^ 64

/-! ## What the generated code has to do -/

/-- When the jump is taken: when the branch in front of it does not skip it. -/
def taken (j : JInfo) (s : St) : Bool :=
  match j.skip with
  | none => true
  | some (.cc c) => !cond c s.f
  | some (.cbz w32 eq reg) =>
    if eq then decide (lo (!w32) (s.x (regMap reg)) = 0#_) else decide (lo (!w32) (s.x (regMap reg)) ≠ 0#_)

/-- Execution reaches `b`; registers outside `W`, vector registers, memory and flags do not change. -/
def Goes (c : IMem) (W : List (BitVec 5)) (p : PSt) (b : BitVec 64) (Q : PSt → Prop) : Prop :=
  ∃ p', PSteps c p p' ∧ p'.pc = b ∧ (∀ q, q ∉ W → p'.s.r q = p.s.r q) ∧ p'.s.m = p.s.m ∧ p'.s.f = p.s.f ∧ p'.v = p.v ∧ Q p'

/-- A jump of `n` words at `p.pc`: a conditional one goes to `t` if it is taken and continues after itself otherwise, an unconditional
one goes to `t`, a call goes to `t` with the return address in X30.  Only X10 (TMP_REG2) may change otherwise. -/
def JumpDoes (c : IMem) (j : JInfo) (t : BitVec 64) (n : Nat) (p : PSt) : Prop :=
  if j.call then Goes c [10#5, 30#5] p t fun p' => p'.s.r 30#5 = p.pc + BitVec.ofNat 64 (4 * n)
  else Goes c [10#5] p (if taken j p.s then t else p.pc + BitVec.ofNat 64 (4 * n)) fun _ => True

/-- Where the target is. -/
def tgtOf (laddr : List (BitVec 64)) : Tgt → BitVec 64
  | .label n => laddr.getD n 0#64
  | .addr a => a

/-- The program `items` is at address `a` of instruction memory: its pieces follow each other, labels have the addresses `laddr`
(from index `li` on), `caddr` are the (writable) addresses of the constants, `jaddr` the positions of the jump records relative to
the (executable) address `a0`, and
* plain instructions and constants are stored unchanged,
* an aligned label has an aligned (writable) address, and the code in front of it continues at it,
* a jump does what a jump to its target has to do (`JumpDoes`),
* a rewritable jump does this for any target `t'`, after sljit_set_jump_addr has stored its four words at the position of the record,
* a move address loads the address of its target. -/
def Placed (c : IMem) (off a0 : BitVec 64) (laddr : List (BitVec 64)) : List Item → (a : BitVec 64) → (li : Nat) →
    (caddr : List (BitVec 64)) → (jaddr : List Nat) → (fin : BitVec 64) → Prop
  | [], a, li, ca, ja, fin => a = fin ∧ li = laddr.length ∧ ca = [] ∧ ja = []
  | .code ws :: is, a, li, ca, ja, fin => WordsAt c a ws ∧ Placed c off a0 laddr is (a + BitVec.ofNat 64 (4 * ws.length)) li ca ja fin
  | .const ws :: is, a, li, ca, ja, fin => WordsAt c a ws ∧
      ∃ ca', ca = (a - off) :: ca' ∧ Placed c off a0 laddr is (a + BitVec.ofNat 64 (4 * ws.length)) li ca' ja fin
  | .label :: is, a, li, ca, ja, fin => laddr[li]? = some a ∧ Placed c off a0 laddr is a (li + 1) ca ja fin
  | .alabel al :: is, a, li, ca, ja, fin => ∃ b, laddr[li]? = some b ∧ (b - off).toNat % 2 ^ al = 0 ∧
      (∀ p : PSt, p.pc = a → Goes c [] p b fun _ => True) ∧ Placed c off a0 laddr is b (li + 1) ca ja fin
  | .jump j :: is, a, li, ca, ja, fin => ∃ n x ja', ja = x :: ja' ∧
      (∀ p : PSt, p.pc = a → JumpDoes c j (tgtOf laddr j.tgt) n p) ∧
      (j.rew = true → ∃ pre w mid post, a0 + BitVec.ofNat 64 (4 * x) = a + BitVec.ofNat 64 (4 * pre.length) ∧
        WordsAt c a (pre ++ w :: mid ++ post) ∧ mid.length = 3 ∧
        ∀ (c' : IMem) (t' : BitVec 64), WordsAt c' a (pre ++ setJumpAddr w t' ++ post) → ∀ p : PSt, p.pc = a → JumpDoes c' j t' n p) ∧
      Placed c off a0 laddr is (a + BitVec.ofNat 64 (4 * n)) li ca ja' fin
  | .mov reg t :: is, a, li, ca, ja, fin => ∃ n x ja', ja = x :: ja' ∧
      (∀ p : PSt, p.pc = a → Goes c [regMap reg] p (a + BitVec.ofNat 64 (4 * n)) fun p' => p'.s.r (regMap reg) = tgtOf laddr t) ∧
      Placed c off a0 laddr is (a + BitVec.ofNat 64 (4 * n)) li ca ja' fin

end Verif.A64
