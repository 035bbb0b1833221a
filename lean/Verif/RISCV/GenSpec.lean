import Verif.RISCV.Gen
import Verif.RISCV.Exec

/-!
# Code generation: what an emitted program looks like (specification side)

Conditions on the items which every sequence of API calls satisfies, plus the exclusions of the known defects.
-/

namespace Verif.RV

/-- The 52 bit address window which load_addr_to_reg mishandles (see DESIGN.md, findings). -/
def badWindow (a : BitVec 64) : Prop := 0x7fffffffff800 ≤ a.toNat ∧ a.toNat ≤ 0x7ffffffffffff

/-- Targets: an existing label, or an (even) code address. -/
def Tgt.Ok (nl : Nat) : Tgt → Prop
  | .label n => n < nl
  | .addr a => a &&& 1#64 = 0#64 ∧ ¬ badWindow a

/-- Branches: the six conditions; compressed branches need the C extension and a register among x8-x15. -/
def Br.Ok (cfg : Cfg) : Br → Prop
  | .none => True
  | .b32 f3 _ _ => (decBr f3).isSome = true
  | .b16 _ r => cfg.c = true ∧ C_IS_R3 r = true

/-- Items: no empty pieces, calls are unconditional, `mov` loads a register other than the temporary one, without the C
extension every instruction has 32 bits, compressed conditional jumps go to labels. -/
def Item.Ok (cfg : Cfg) (nl : Nat) : Item → Prop
  | .code hs => hs ≠ [] ∧ (cfg.c = false → hs.length % 2 = 0)
  | .label => True
  | .alabel al => (if cfg.c then 2 else 3) ≤ al ∧ al < 60
  | .const hs => hs ≠ [] ∧ (cfg.c = false → hs.length % 2 = 0)
  | .jump j => j.br.Ok cfg ∧ (j.call = true → j.br = .none) ∧ j.tgt.Ok nl ∧
      (j.br.cond16 = true → j.rew = true ∨ ∃ n, j.tgt = .label n)
  | .mov reg t => t.Ok nl ∧ reg < 30 ∧ regMap reg ≠ 0#5 ∧ regMap reg ≠ 7#5

/-- A program: well formed items, and no label directly after another one (sljit_emit_label returns the existing label). -/
def Prog.Ok (cfg : Cfg) (nl : Nat) : List Item → Prop
  | [] => True
  | .label :: is => Item.isLabel is = false ∧ Prog.Ok cfg nl is
  | .alabel al :: is => Item.Ok cfg nl (.alabel al) ∧ Item.isLabel is = false ∧ Prog.Ok cfg nl is
  | i :: is => i.Ok cfg nl ∧ Prog.Ok cfg nl is

/-- Every conditional jump is followed by some code. -/
def Prog.Tail : List Item → Prop
  | [] => True
  | .jump j :: is => (j.br.cond = true → ∃ i ∈ is, i ≠ .label) ∧ Prog.Tail is
  | _ :: is => Prog.Tail is

/-- Number of labels. -/
def Prog.labels : List Item → Nat
  | [] => 0
  | .label :: is => Prog.labels is + 1
  | .alabel _ :: is => Prog.labels is + 1
  | _ :: is => Prog.labels is

/-- The last item is a label. -/
def Prog.endsInLabel (items : List Item) : Prop := ∃ i, items.getLast? = some i ∧ (i = .label ∨ ∃ al, i = .alabel al)

/-! ## What the generated code has to do -/

/-- The branch in front of the jump skips it. -/
def Br.skips (b : Br) (s : St) : Bool :=
  match b with
  | .none => false
  | .b32 f3 x y => match decBr f3 with | some o => o.eval (s.rd (regMap x)) (s.rd (regMap y)) | .none => false
  | .b16 ne r => if ne then s.rd (regMap r) != 0#64 else s.rd (regMap r) == 0#64

/-- What a jump does: it is taken unless the branch in front of it skips it. Only TMP_REG1 (x6), TMP_REG3 (x7) and, for a
call, the return address register (x1) may change. `n` is the length of the jump in half words. -/
def JumpDoes (code : Code) (j : JInfo) (t : BitVec 64) (n : Nat) (s : St) : Prop :=
  ∃ s', Steps code s s' ∧ s'.pc = (if j.br.skips s then s.pc + BitVec.ofNat 64 (2 * n) else t) ∧
    (j.call = true → s'.rd 1#5 = s.pc + BitVec.ofNat 64 (2 * n)) ∧
    (∀ q, q ≠ 6#5 → q ≠ 7#5 → (j.call = true → q ≠ 1#5) → s'.rd q = s.rd q) ∧ s'.mem = s.mem ∧ s'.f = s.f

/-- The executable copy of the `len` half words of `m` is at `base + off` in instruction memory. -/
def Loaded (code : Code) (base off : BitVec 64) (m : HMem) (len : Nat) : Prop :=
  ∀ k, k < len → code (base + off + BitVec.ofNat 64 (2 * k)) = m k

/-- `laddr` says where the labels are. -/
def tgtOf (laddr : List (BitVec 64)) : Tgt → BitVec 64
  | .label n => laddr.getD n 0#64
  | .addr a => a

/-- Starting at `a`, execution reaches `b` and changes nothing but the registers in `W`. -/
def Reaches (code : Code) (W : List Reg) (s : St) (b : BitVec 64) (Q : St → Prop) : Prop :=
  ∃ s', Steps code s s' ∧ s'.pc = b ∧ Keep W s s' ∧ Q s'

/-- The program `items` is placed at address `a` of instruction memory: its pieces follow each other, labels have the
addresses `laddr` (from index `li` on), constants are at the (writable) addresses `caddr`, and
* plain instructions and constants are stored unchanged,
* an aligned label has an aligned (writable) address and is reached by falling through from the code before it,
* a jump goes to its target, unless the branch in front of it skips it; then it continues with the next piece,
* a move address loads the address of its target. -/
def Placed (code : Code) (off : BitVec 64) (laddr : List (BitVec 64)) : List Item → (a : BitVec 64) → (li : Nat) →
    (caddr : List (BitVec 64)) → (fin : BitVec 64) → Prop
  | [], a, li, caddr, fin => a = fin ∧ li = laddr.length ∧ caddr = []
  | .code hs :: is, a, li, ca, fin => CodeAt code a hs ∧ Placed code off laddr is (a + BitVec.ofNat 64 (2 * hs.length)) li ca fin
  | .const hs :: is, a, li, ca, fin => CodeAt code a hs ∧
      ∃ ca', ca = (a - off) :: ca' ∧ Placed code off laddr is (a + BitVec.ofNat 64 (2 * hs.length)) li ca' fin
  | .label :: is, a, li, ca, fin => laddr.getD li 0#64 = a ∧ Placed code off laddr is a (li + 1) ca fin
  | .alabel al :: is, a, li, ca, fin => (laddr.getD li 0#64 - off).toNat % 2 ^ al = 0 ∧
      (∀ s : St, s.pc = a → Reaches code [] s (laddr.getD li 0#64) fun _ => True) ∧
      Placed code off laddr is (laddr.getD li 0#64) (li + 1) ca fin
  | .jump j :: is, a, li, ca, fin => ∃ n, (∀ s : St, s.pc = a → JumpDoes code j (tgtOf laddr j.tgt) n s) ∧
      (j.rew = true → n = j.br.words.length + 12 ∧
        CodeAt code (a + BitVec.ofNat 64 (2 * j.br.words.length)) (loadAddr .full (if j.call then .call else .jump) (tgtOf laddr j.tgt) (a + BitVec.ofNat 64 (2 * j.br.words.length)))) ∧
      Placed code off laddr is (a + BitVec.ofNat 64 (2 * n)) li ca fin
  | .mov reg t :: is, a, li, ca, fin => ∃ n,
      (∀ s : St, s.pc = a → Reaches code [regMap reg, 7#5] s (a + BitVec.ofNat 64 (2 * n)) fun s' => s'.rd (regMap reg) = tgtOf laddr t) ∧
      Placed code off laddr is (a + BitVec.ofNat 64 (2 * n)) li ca fin

end Verif.RV
