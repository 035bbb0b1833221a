import Verif.X86.OpAddr
import Verif.Props.C46
import Verif.Props.C49
import Verif.Props.C74

/-!
# C79: sljit_emit_op_addr with all destinations and operations on x86-64, through code generation

`emitOpAddr` gives the pieces of the program, `generate` is sljit_generate_code (C49), and `Placed` says where the pieces are in instruction memory.  The operation is
documented not to modify flags (sljitLir.h:2413-2414).
-/

namespace Verif.Props.C79
open Verif.X86
open Verif.Props.C46 (Dest Written value)
open Verif.Props.C74 (AddrOp wanted)

/-- The pieces of the operation (`emitOpAddr` only looks whether it is SLJIT_ADD_ABS_ADDR). -/
def pieces (win : Bool) (o : AddrOp) (dst : Opd) (t : Tgt) : Option (List Item) := emitOpAddr win (decide (o = .addAbs)) dst t

/-- What the operation does, when it starts at `a` and ends at `a'`: the destination gets the address or is increased by it; other registers of the user, the stack
pointer and other memory are kept; flags are kept unless the address is added. -/
def Stores (c : IMem) (win : Bool) (o : AddrOp) (dst : Opd) (addr a a' : BitVec 64) : Prop :=
  ∀ p : PSt, p.pc = a → ∃ p', PSteps c p p' ∧ p'.pc = a' ∧ Written win p.s p'.s (some dst) (wanted o (value win p.s 64 dst) addr) ∧ (o ≠ .addAbs → p'.s.f = p.s.f)

theorem val_eq {win : Bool} {s : St} {dst : Opd} : opv win false s dst = value win s 64 dst := by
  rw [show value win s 64 dst = lo false (opv win false s dst) from C46.value_lo win s false dst]
  exact (BitVec.setWidth_eq _).symm

theorem placedStores {c : IMem} {win : Bool} {off a0 : BitVec 64} {laddr ca : List (BitVec 64)} {ja : List Nat} {o : AddrOp} {dst : Opd} {t : Tgt} {its is : List Item} {a fin : BitVec 64} {li : Nat}
    (hd : Dest dst) (hi : pieces win o dst t = some its) (h : Placed c win off a0 laddr (its ++ is) a li ca ja fin) :
    ∃ a' ja', Placed c win off a0 laddr is a' li ca ja' fin ∧ Stores c win o dst (tgtOf laddr t) a a' ∧
      (o = .addAbs → ∀ p : PSt, p.pc = a → ∃ p', PSteps c p p' ∧ p'.pc = a' ∧ p'.s.f = (addF (value win p.s 64 dst) (tgtOf laddr t) false).2) := by
  obtain ⟨its', e, k⟩ := emitOpAddr_ok (c := c) (win := win) (off := off) (a0 := a0) (laddr := laddr) (fin := fin) (add := decide (o = .addAbs)) (t := t) (C46.dest_dst hd)
  rw [pieces, e] at hi
  cases hi
  obtain ⟨a', ja', h1, h2⟩ := k h
  refine ⟨a', ja', h1, fun p hp => ?_, fun ho p hp => ?_⟩
  · obtain ⟨p', r1, r2, r3, r4⟩ := h2 p hp
    refine ⟨p', r1, r2, ?_, fun ho => by rw [r4, if_neg (by simpa using ho)]⟩
    have e : (if decide (o = AddrOp.addAbs) = true then opv win false p.s dst + tgtOf laddr t else tgtOf laddr t) = up false (wanted o (value win p.s 64 dst) (tgtOf laddr t)) := by
      rw [val_eq, show up false (wanted o (value win p.s 64 dst) (tgtOf laddr t)) = wanted o (value win p.s 64 dst) (tgtOf laddr t) from BitVec.setWidth_eq _]
      cases o <;> rfl
    rw [e] at r3
    exact C46.written (m32 := false) r3 (fun d e => by cases e; obtain ⟨h1, h2⟩ := hd; exact ⟨h1, by omega⟩)
  · obtain ⟨p', r1, r2, -, r4⟩ := h2 p hp
    exact ⟨p', r1, r2, by rw [r4, if_pos (by simpa using ho), val_eq]⟩

/-- **C79 (the pieces)**: code is emitted for every operation, destination and target. -/
theorem c79_emitted (win : Bool) (o : AddrOp) (dst : Opd) (t : Tgt) (hd : Dest dst) : ∃ its, pieces win o dst t = some its := by
  obtain ⟨its, e, -⟩ := emitOpAddr_ok (c := fun _ => 0#8) (win := win) (off := 0#64) (a0 := 0#64) (laddr := []) (fin := 0#64) (add := decide (o = .addAbs)) (t := t) (C46.dest_dst hd)
  exact ⟨its, e⟩

/-- **C79 (constant targets)**, partial: wherever sljit_emit_op_addr is in a program, the generated code stores the target set by sljit_set_target into the
destination, or adds it, and continues with the code emitted after it.  Missing: the flags for SLJIT_ADD_ABS_ADDR, which are not kept (`c79_flags_false`), and the programs
and addresses for which C49 fails. -/
theorem c79_addr_partial (win : Bool) (items before its after : List Item) (o : AddrOp) (dst : Opd) (addr : BitVec 64) (base off : BitVec 64)
    (hp : Prog.Ok (Prog.labels items) items) (hr : X86.Room items base off) (hne : ∀ i ∈ items, NoEdge (base + off) (usize items) i)
    (hs : pieces win o dst (.addr addr) = some its) (hi : items = before ++ (its ++ after)) (hd : Dest dst) :
    ∃ r, generate win items base off = some r ∧ ∀ c, BytesAt c (base + off) r.code → ∃ a a' ca ja ja',
      Placed c win off (base + off) r.laddr (its ++ after) a (Prog.labels before) ca ja (base + off + BitVec.ofNat 64 r.code.length) ∧
      Placed c win off (base + off) r.laddr after a' (Prog.labels before) ca ja' (base + off + BitVec.ofNat 64 r.code.length) ∧ Stores c win o dst addr a a' := by
  obtain ⟨r, h1, -, -, h4⟩ := C49.c49_partial win items base off hp hr hne
  refine ⟨r, h1, fun c hc => ?_⟩
  obtain ⟨a, ca, ja, pj⟩ := placed_suffixW before (hi ▸ h4 c hc)
  rw [Nat.zero_add] at pj
  obtain ⟨a', ja', k1, k2, -⟩ := placedStores hd hs pj
  exact ⟨a, a', ca, ja, ja', pj, k1, k2⟩

/-- **C79 (labels)**, partial: for a label set by sljit_set_label, the address is the one where the code emitted after the label is.  Missing: as for
`c79_addr_partial`. -/
theorem c79_label_partial (win : Bool) (items before its after before' after' : List Item) (l : Item) (o : AddrOp) (dst : Opd) (base off : BitVec 64)
    (hp : Prog.Ok (Prog.labels items) items) (hr : X86.Room items base off) (hne : ∀ i ∈ items, NoEdge (base + off) (usize items) i)
    (hl : items = before' ++ l :: after') (hlab : l = .label ∨ ∃ al, l = .alabel al)
    (hs : pieces win o dst (.label (Prog.labels before')) = some its) (hi : items = before ++ (its ++ after)) (hd : Dest dst) :
    ∃ r, generate win items base off = some r ∧ ∀ c, BytesAt c (base + off) r.code → ∃ a a' al ca ja ja' cl jl,
      Placed c win off (base + off) r.laddr (its ++ after) a (Prog.labels before) ca ja (base + off + BitVec.ofNat 64 r.code.length) ∧
      Placed c win off (base + off) r.laddr after a' (Prog.labels before) ca ja' (base + off + BitVec.ofNat 64 r.code.length) ∧
      Placed c win off (base + off) r.laddr after' al (Prog.labels before' + 1) cl jl (base + off + BitVec.ofNat 64 r.code.length) ∧ Stores c win o dst al a a' := by
  obtain ⟨r, h1, -, -, h4⟩ := C49.c49_partial win items base off hp hr hne
  refine ⟨r, h1, fun c hc => ?_⟩
  obtain ⟨a, ca, ja, pj⟩ := placed_suffixW before (hi ▸ h4 c hc)
  obtain ⟨al, cl, jl, pl⟩ := placed_suffixW before' (hl ▸ h4 c hc)
  rw [Nat.zero_add] at pj pl
  obtain ⟨a', ja', k1, k2, -⟩ := placedStores hd hs pj
  have key : ∀ b, r.laddr[Prog.labels before']? = some b → tgtOf r.laddr (.label (Prog.labels before')) = b := by
    intro b hb
    simp only [tgtOf, List.getD_eq_getElem?_getD, hb, Option.getD_some]
  rcases hlab with rfl | ⟨k, rfl⟩
  · obtain ⟨q1, q2⟩ := pl
    exact ⟨a, a', al, ca, ja, ja', cl, jl, pj, k1, q2, by rw [← key _ q1]; exact k2⟩
  · obtain ⟨b, q1, -, -, q2⟩ := pl
    exact ⟨a, a', b, ca, ja, ja', cl, jl, pj, k1, q2, by rw [← key _ q1]; exact k2⟩

/-- All registers and the memory are zero. -/
def zero (pc : BitVec 64) : PSt := ⟨⟨fun _ => 0#64, fun _ => 0#8, ⟨some false, some true, some false, some false⟩⟩, pc⟩

theorem rd_zero (a : BitVec 64) (n : Nat) : rd (fun _ => 0#8) a n = 0#64 := by
  induction n generalizing a with
  | zero => rfl
  | succ n ih => simp [rd, ih]

theorem zero_val (win : Bool) (pc : BitVec 64) (dst : Opd) (hd : Dest dst) : value win (zero pc).s 64 dst = 0#64 := by
  cases dst with
  | imm _ => exact absurd hd id
  | reg r => rfl
  | mem b o d => simp only [value, zero, rd_zero]; rfl

/-- **C79, the flags**: SLJIT_ADD_ABS_ADDR is compiled to an add instruction, so contrary to the documentation it modifies the flags.  Whatever the program, the destination
and the target (unless it is zero) are, there is a state where SLJIT_EQUAL holds before the operation and does not hold after it. -/
theorem c79_flags_false (c : IMem) (win : Bool) (off a0 : BitVec 64) (laddr ca : List (BitVec 64)) (ja : List Nat) (dst : Opd) (t : Tgt) (its after : List Item) (a fin : BitVec 64) (li : Nat)
    (hd : Dest dst) (hs : pieces win .addAbs dst t = some its) (h : Placed c win off a0 laddr (its ++ after) a li ca ja fin) (ht : tgtOf laddr t ≠ 0#64) :
    ∃ a' ja' p p', Placed c win off a0 laddr after a' li ca ja' fin ∧ p.pc = a ∧ PSteps c p p' ∧ p'.pc = a' ∧
      C46.cond (jumpCode .equal false) p.s.f = some true ∧ C46.cond (jumpCode .equal false) p'.s.f = some false := by
  obtain ⟨a', ja', k1, -, k3⟩ := placedStores hd hs h
  obtain ⟨p', r1, r2, r3⟩ := k3 rfl (zero a) rfl
  refine ⟨a', ja', zero a, p', k1, rfl, r1, r2, by rw [C46.cond_z]; rfl, ?_⟩
  rw [C46.cond_z, r3, zero_val win a dst hd]
  have : (0#64 + tgtOf laddr t + (BitVec.ofBool false).setWidth 64 == 0#64) = false := by
    rw [beq_eq_false_iff_ne]
    intro e
    apply ht
    simpa using e
  simp only [addF, zs, this]
  rfl

/-! ## A program which meets the conditions -/

/-- The address of a label in front is added to a memory cell. -/
def its : List Item := (pieces false .addAbs (.mem 1 0 0x12345#64) (.label 0)).getD []
@[inherit_doc its] def items : List Item := [.bytes [0x90#8], .label, .bytes [0x90#8]] ++ (its ++ [.bytes (List.replicate 8 0x90#8)])

theorem its_eq : pieces false .addAbs (.mem 1 0 0x12345#64) (.label 0) = some its := by
  obtain ⟨x, e⟩ := c79_emitted false .addAbs (.mem 1 0 0x12345#64) (.label 0) ⟨by decide, by decide, by decide⟩
  rw [its, e]; rfl

theorem items_ok : Prog.Ok (Prog.labels items) items ∧ X86.Room items 0x10000#64 0x7f0000000000#64 ∧ its.length = 2 := by decide +kernel

/-- The bytes after the move. -/
def bytesOf : List Item → List (BitVec 8)
  | [_, .bytes b] => b
  | _ => []

theorem its_shape : ∃ bs, its = [.mov TMP_REG1 (.label 0), .bytes bs] := ⟨bytesOf its, by decide +kernel⟩

theorem items_edge : ∀ i ∈ items, NoEdge (0x10000#64 + 0x7f0000000000#64) (usize items) i := by
  obtain ⟨bs, e⟩ := its_shape
  intro i hi
  rw [items, e] at hi
  simp only [List.cons_append, List.nil_append, List.mem_cons, List.not_mem_nil, or_false] at hi
  rcases hi with rfl | rfl | rfl | rfl | rfl | rfl <;> exact trivial

example : ∃ r, generate false items 0x10000#64 0x7f0000000000#64 = some r ∧ ∀ c, BytesAt c 0x7f0000010000#64 r.code → ∃ a a' al, Stores c false .addAbs (.mem 1 0 0x12345#64) al a a' := by
  obtain ⟨r, h1, h2⟩ := c79_label_partial false items [.bytes [0x90#8], .label, .bytes [0x90#8]] its [.bytes (List.replicate 8 0x90#8)] [.bytes [0x90#8]]
    (.bytes [0x90#8] :: (its ++ [.bytes (List.replicate 8 0x90#8)])) .label .addAbs (.mem 1 0 0x12345#64)
    0x10000#64 0x7f0000000000#64 items_ok.1 items_ok.2.1 items_edge rfl (.inl rfl) its_eq rfl ⟨by decide, by decide, by decide⟩
  refine ⟨r, h1, fun c hc => ?_⟩
  obtain ⟨a, a', al, -, -, -, -, -, -, -, -, h⟩ := h2 c hc
  exact ⟨a, a', al, h⟩

/-- The condition of `c79_flags_false` is met by generated code with the constant 1 as target: SLJIT_R1 is increased by 1. -/
def its1 : List Item := (pieces false .addAbs (.reg 2) (.addr 1#64)).getD []
@[inherit_doc its1] def items1 : List Item := its1 ++ [.bytes (List.replicate 8 0x90#8)]

theorem flags_demo : ∃ r, generate false items1 0x10000#64 0#64 = some r ∧ ∀ c, BytesAt c 0x10000#64 r.code → ∃ p p', PSteps c p p' ∧ p.pc = 0x10000#64 ∧
    C46.cond (jumpCode .equal false) p.s.f = some true ∧ C46.cond (jumpCode .equal false) p'.s.f = some false := by
  obtain ⟨x, e⟩ := c79_emitted false .addAbs (.reg 2) (.addr 1#64) ⟨by decide, by decide⟩
  have e1 : pieces false .addAbs (.reg 2) (.addr 1#64) = some its1 := by rw [its1, e]; rfl
  obtain ⟨bs, e2⟩ : ∃ bs, its1 = [.mov TMP_REG2 (.addr 1#64), .bytes bs] := ⟨bytesOf its1, by decide +kernel⟩
  have hu : usize items1 ≤ 100 := by decide +kernel
  obtain ⟨r, h1, -, -, h4⟩ := C49.c49_partial false items1 0x10000#64 0#64 (by decide +kernel) (by decide +kernel) (by
    intro i hi
    rw [items1, e2] at hi
    simp only [List.cons_append, List.nil_append, List.mem_cons, List.not_mem_nil, or_false] at hi
    rcases hi with rfl | rfl | rfl
    · intro i hi k hk
      bv_omega
    · exact trivial
    · exact trivial)
  refine ⟨r, h1, fun c hc => ?_⟩
  obtain ⟨-, -, p, p', -, k1, k2, -, k3, k4⟩ := c79_flags_false c false 0#64 _ _ _ _ (.reg 2) (.addr 1#64) its1 _ _ _ _ ⟨by decide, by decide⟩ e1 (h4 c hc) (show 1#64 ≠ 0#64 by decide)
  exact ⟨p, p', k2, k1, k3, k4⟩

end Verif.Props.C79
