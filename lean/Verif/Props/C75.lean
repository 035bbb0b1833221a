import Verif.RISCV.OpAddr
import Verif.Props.C18
import Verif.Props.C74
import Verif.Props.RvSpec

/-!
# C75: sljit_emit_op_addr with all destinations and operations on RV64, through code generation

`emitOpAddr` gives the pieces of the program, `generate` is sljit_generate_code (C18), and `Placed` says where the pieces are in instruction memory.
-/

namespace Verif.Props.C75
open Verif.RV hiding Done
open Verif.Props.Rv (Dst Result value UserReg)
open Verif.Props.C74 (AddrOp wanted)

/-- The pieces of the operation (`emitOpAddr` only looks whether it is SLJIT_ADD_ABS_ADDR). -/
def pieces (cfg : Cfg) (o : AddrOp) (dst : Opd) (t : Tgt) : List Item := emitOpAddr cfg (decide (o = .addAbs)) dst t

/-- What the operation does, when it starts at `a` and ends at `a'`. -/
def Stores (code : Code) (o : AddrOp) (dst : Opd) (addr a a' : BitVec 64) : Prop :=
  ∀ s : St, s.pc = a → ∃ s', Steps code s s' ∧ s'.pc = a' ∧ Result false dst (wanted o (value false s dst) addr) s s' ∧
    s'.rd 5#5 = s.rd 5#5 ∧ s'.rd 28#5 = s.rd 28#5

theorem stores {code : Code} {off : BitVec 64} {laddr ca : List (BitVec 64)} {cfg : Cfg} {o : AddrOp} {dst : Opd} {t : Tgt} {is : List Item} {a fin : BitVec 64} {li : Nat}
    (hd : Dst dst) (h : Placed code off laddr (pieces cfg o dst t ++ is) a li ca fin) :
    ∃ a', Placed code off laddr is a' li ca fin ∧ Stores code o dst (tgtOf laddr t) a a' := by
  obtain ⟨a', h1, h2⟩ := emitOpAddr_ok hd.ok.1 hd.ok.2 h
  refine ⟨a', h1, fun s hs => ?_⟩
  obtain ⟨s', r1, r2, r3, r4, r5⟩ := h2 s hs
  refine ⟨s', r1, r2, ?_, r4, r5⟩
  have hv := Rv.value_eq ⟨.mov, false, false, .none⟩ s dst
  have e : (if decide (o = AddrOp.addAbs) = true then opdVal .word false s.core dst + tgtOf laddr t else tgtOf laddr t) = wanted o (value false s dst) (tgtOf laddr t) := by
    rw [← hv]
    cases o <;> rfl
  rw [e] at r3
  exact Rv.Result.of (op := ⟨.mov, false, false, .none⟩) (Or.inl hd) r3

/-- **C75 (constant targets)**, partial: wherever sljit_emit_op_addr is in a program, the generated code stores the target set by sljit_set_target into the
destination, or adds it, and continues with the code emitted after it; flags, other registers and other memory are kept.  Missing: as for C18, addresses
in the window of `c18_window_false` and programs which end in a label or a conditional jump. -/
theorem c75_addr_partial (cfg : Cfg) (items before after : List Item) (o : AddrOp) (dst : Opd) (addr : BitVec 64) (base off : BitVec 64) (m0 : HMem)
    (hp : Prog.Ok cfg (Prog.labels items) items) (ht : Prog.Tail items) (hr : Room cfg items base off) (hend : off = 0#64 ∨ ¬ Prog.endsInLabel items)
    (hi : items = before ++ (pieces cfg o dst (.addr addr) ++ after)) (hd : Dst dst) :
    ∃ r, generate cfg items base off m0 = some r ∧ ∀ code, Loaded code base off r.m r.len → ∃ a a' ca,
      Placed code off r.laddr (pieces cfg o dst (.addr addr) ++ after) a (Prog.labels before) ca (base + off + BitVec.ofNat 64 (2 * r.len)) ∧
      Placed code off r.laddr after a' (Prog.labels before) ca (base + off + BitVec.ofNat 64 (2 * r.len)) ∧ Stores code o dst addr a a' := by
  obtain ⟨r, h1, -, -, h4⟩ := generate_spec cfg items base off m0 hp ht hr hend
  refine ⟨r, h1, fun code hc => ?_⟩
  obtain ⟨a, ca, pj⟩ := placed_suffix before (hi ▸ h4 code hc)
  rw [Nat.zero_add] at pj
  obtain ⟨a', k1, k2⟩ := stores hd pj
  exact ⟨a, a', ca, pj, k1, k2⟩

/-- **C75 (labels)**, partial: for a label set by sljit_set_label, the address is the one where the code emitted after the label is.  Missing: as for
`c75_addr_partial`. -/
theorem c75_label_partial (cfg : Cfg) (items before after before' after' : List Item) (l : Item) (o : AddrOp) (dst : Opd) (base off : BitVec 64) (m0 : HMem)
    (hp : Prog.Ok cfg (Prog.labels items) items) (ht : Prog.Tail items) (hr : Room cfg items base off) (hend : off = 0#64 ∨ ¬ Prog.endsInLabel items)
    (hl : items = before' ++ l :: after') (hlab : l = .label ∨ ∃ al, l = .alabel al)
    (hi : items = before ++ (pieces cfg o dst (.label (Prog.labels before')) ++ after)) (hd : Dst dst) :
    ∃ r, generate cfg items base off m0 = some r ∧ ∀ code, Loaded code base off r.m r.len → ∃ a a' al ca ca',
      Placed code off r.laddr (pieces cfg o dst (.label (Prog.labels before')) ++ after) a (Prog.labels before) ca (base + off + BitVec.ofNat 64 (2 * r.len)) ∧
      Placed code off r.laddr after a' (Prog.labels before) ca (base + off + BitVec.ofNat 64 (2 * r.len)) ∧
      Placed code off r.laddr after' al (Prog.labels before' + 1) ca' (base + off + BitVec.ofNat 64 (2 * r.len)) ∧ Stores code o dst al a a' := by
  obtain ⟨r, h1, -, -, h4⟩ := generate_spec cfg items base off m0 hp ht hr hend
  refine ⟨r, h1, fun code hc => ?_⟩
  obtain ⟨a, ca, pj⟩ := placed_suffix before (hi ▸ h4 code hc)
  obtain ⟨al, ca', pl⟩ := placed_suffix before' (hl ▸ h4 code hc)
  rw [Nat.zero_add] at pj pl
  obtain ⟨a', k1, k2⟩ := stores hd pj
  rcases hlab with rfl | ⟨k, rfl⟩
  · obtain ⟨q1, q2⟩ := pl
    exact ⟨a, a', al, ca, ca', pj, k1, q2, by rw [← q1]; exact k2⟩
  · exact ⟨a, a', _, ca, ca', pj, k1, pl.2.2, k2⟩

/-! ## A program which meets the conditions -/

def cfg : Cfg := ⟨true, false, false⟩
/-- The address of a label in front is added to a memory cell. -/
def items : List Item := [.code (w32 NOP), .label, .code (w16 C_NOP)] ++ (pieces cfg .addAbs (.mem 1 0 0x12345#64) (.label 0) ++ [.code (w32 NOP)])

/-- The pieces of the operation in `items`. -/
theorem items_eq : ∃ x y : Emit, x ≠ [] ∧ y ≠ [] ∧ items = [.code (w32 NOP), .label, .code (w16 C_NOP), .code x, .mov TMP_REG1 (.label 0), .code y, .code (w32 NOP)] := by
  refine ⟨emitOpMem cfg (.g .word false) true TMP_REG2 1 0 0x12345#64,
    w16 (C_ADD ||| C_RD TMP_REG2 ||| C_RS2 TMP_REG1) ++ emitOpMem cfg (.g .word false) false TMP_REG2 1 0 0x12345#64, by decide +kernel, by decide +kernel, ?_⟩
  have h1 : emitOpMem cfg (.g .word false) true TMP_REG2 1 0 0x12345#64 ≠ [] := by decide +kernel
  have h2 : w16 (C_ADD ||| C_RD TMP_REG2 ||| C_RS2 TMP_REG1) ++ emitOpMem cfg (.g .word false) false TMP_REG2 1 0 0x12345#64 ≠ [] := by decide +kernel
  have e : pieces cfg .addAbs (.mem 1 0 0x12345#64) (.label 0) = codeItem (emitOpMem cfg (.g .word false) true TMP_REG2 1 0 0x12345#64) ++
    .mov TMP_REG1 (.label 0) :: codeItem (w16 (C_ADD ||| C_RD TMP_REG2 ||| C_RS2 TMP_REG1) ++ emitOpMem cfg (.g .word false) false TMP_REG2 1 0 0x12345#64) := rfl
  unfold items
  rw [e, codeItem, codeItem, if_neg h1, if_neg h2]
  rfl

theorem size_items : usize cfg items ≤ 200 := by decide +kernel

example (m0 : HMem) : ∃ r, generate cfg items 0x10000#64 0x1000#64 m0 = some r ∧ ∀ code, Loaded code 0x10000#64 0x1000#64 r.m r.len → ∃ a a' al ca ca',
      Placed code 0x1000#64 r.laddr (pieces cfg .addAbs (.mem 1 0 0x12345#64) (.label 0) ++ [.code (w32 NOP)]) a 1 ca (0x11000#64 + BitVec.ofNat 64 (2 * r.len)) ∧
      Placed code 0x1000#64 r.laddr [.code (w32 NOP)] a' 1 ca (0x11000#64 + BitVec.ofNat 64 (2 * r.len)) ∧
      Placed code 0x1000#64 r.laddr (.code (w16 C_NOP) :: (pieces cfg .addAbs (.mem 1 0 0x12345#64) (.label 0) ++ [.code (w32 NOP)])) al 1 ca'
        (0x11000#64 + BitVec.ofNat 64 (2 * r.len)) ∧ Stores code .addAbs (.mem 1 0 0x12345#64) al a a' := by
  have hs := size_items
  refine c75_label_partial cfg items [.code (w32 NOP), .label, .code (w16 C_NOP)] [.code (w32 NOP)] [.code (w32 NOP)]
    (.code (w16 C_NOP) :: (pieces cfg .addAbs (.mem 1 0 0x12345#64) (.label 0) ++ [.code (w32 NOP)])) .label .addAbs (.mem 1 0 0x12345#64) 0x10000#64 0x1000#64 m0 ?_ ?_
    ⟨by omega, by simp; omega, by decide, by decide, ?_⟩ (.inr ?_) rfl (.inl rfl) rfl ⟨by decide, by decide⟩
  · obtain ⟨x, y, hx, hy, e⟩ := items_eq
    rw [e]
    have n1 : w32 NOP ≠ [] := by decide
    have n2 : w16 C_NOP ≠ [] := by decide
    simp only [Prog.Ok, Prog.labels, Item.Ok, Tgt.Ok]
    exact ⟨⟨n1, by decide⟩, rfl, ⟨n2, fun h => by cases h⟩, ⟨hx, fun h => by cases h⟩, ⟨by decide, by decide, by decide, by decide⟩, ⟨hy, fun h => by cases h⟩,
      ⟨n1, by decide⟩, trivial⟩
  · obtain ⟨x, y, hx, hy, e⟩ := items_eq
    rw [e]
    trivial
  · intro x hx
    have : (0x10000#64 + BitVec.ofNat 64 (2 * x) + 0x1000#64).toNat = 0x11000 + 2 * x := by
      rw [BitVec.toNat_add, BitVec.toNat_add, BitVec.toNat_ofNat]; simp; omega
    simp only [badWindow, this]; omega
  · obtain ⟨x, y, hx, hy, e⟩ := items_eq
    rw [e]
    rintro ⟨i, hi, h⟩
    simp only [List.getLast?_cons_cons, List.getLast?_singleton, Option.some.injEq] at hi
    subst hi
    rcases h with h | ⟨_, h⟩ <;> cases h

end Verif.Props.C75
