import Verif.X86.GenLay

/-!
# C49: code generation on x86-64

The specification side is `Placed` (X86/GenSpec.lean), which only talks about executions of an instruction memory (X86/Mach.lean).
-/

namespace Verif.Props.C49
open Verif.X86

/-- sljit_generate_code on x86-64: for every program, every place in memory and every executable offset, the stores stay inside the
buffer which was requested (`some`), the requested buffer is never larger than the emitted size, and the generated code is the program:
pieces follow each other, labels have the addresses of the pieces after them, every jump goes to its target, rewritable jumps go to
whatever target is stored in them, move addresses load the address of their target, aligned labels are aligned.
Missing from the full statement: the cases excluded by `Prog.Ok` and `NoEdge`, on which it is false (below). -/
theorem c49_partial (win : Bool) (items : List Item) (base off : BitVec 64) (hp : Prog.Ok (Prog.labels items) items)
    (hr : Room items base off) (hne : ∀ i ∈ items, NoEdge (base + off) (usize items) i) :
    ∃ r, generate win items base off = some r ∧ r.code.length ≤ r.alloc ∧ r.alloc ≤ usize items ∧
      ∀ c, BytesAt c (base + off) r.code →
        Placed c win off (base + off) r.laddr items (base + off) 0 r.caddr r.jaddr (base + off + BitVec.ofNat 64 r.code.length) :=
  generate_ok win items base off hp hr hne

/-! ## A program which meets the hypotheses -/

/-- A loop with a backward and a forward conditional jump, a rewritable jump, a call to a far address, two move addresses, an aligned label. -/
def demo : List Item :=
  [.label, .bytes [0x48#8, 0x83#8, 0xc0#8, 0x01#8], .jump ⟨0, false, .label 1⟩, .jump ⟨36, true, .label 0⟩, .bytes (List.replicate 200 0x90#8), .label,
   .jump ⟨38, false, .addr 0x123456789abc#64⟩, .mov 2 (.label 2), .mov 3 (.addr 0x7000#64), .jump ⟨7, false, .label 0⟩, .alabel 4,
   .const [0x48#8, 0xb8#8, 1#8, 0#8, 0#8, 0#8, 0#8, 0#8, 0#8, 0#8], .bytes [0xc3#8]]

instance (nl : Nat) (t : Tgt) : Decidable (t.Ok nl) := by cases t <;> simp only [Tgt.Ok] <;> infer_instance
instance (nl : Nat) (i : Item) : Decidable (i.Ok nl) := by cases i <;> simp only [Item.Ok] <;> infer_instance

instance decOk (nl : Nat) : ∀ is : List Item, Decidable (Prog.Ok nl is)
  | [] => isTrue trivial
  | .mov reg t :: is =>
    have := decOk nl is
    by simp only [Prog.Ok]; infer_instance
  | .label :: is =>
    have := decOk nl is
    by simp only [Prog.Ok]; infer_instance
  | .bytes _ :: is => have := decOk nl is; by simp only [Prog.Ok]; infer_instance
  | .alabel _ :: is => have := decOk nl is; by simp only [Prog.Ok]; infer_instance
  | .const _ :: is => have := decOk nl is; by simp only [Prog.Ok]; infer_instance
  | .jump _ :: is => have := decOk nl is; by simp only [Prog.Ok]; infer_instance

instance (items : List Item) (base off : BitVec 64) : Decidable (Room items base off) := by simp only [Room]; infer_instance

theorem demo_ok : Prog.Ok (Prog.labels demo) demo ∧ Room demo 0x10000#64 0x7f0000000000#64 := by decide +kernel

theorem demo_edge : ∀ i ∈ demo, NoEdge (0x10000#64 + 0x7f0000000000#64) (usize demo) i := by
  intro i hi
  have hu : usize demo ≤ 400 := by decide +kernel
  simp only [demo, List.mem_cons, List.not_mem_nil, or_false] at hi
  rcases hi with rfl | rfl | rfl | rfl | rfl | rfl | rfl | rfl | rfl | rfl | rfl | rfl | rfl
  all_goals simp only [NoEdge]
  · intro i hi
    refine ⟨fun _ h => ?_, fun h => absurd h (by decide)⟩
    have h : 0x123456789abc#64 = 0x7f0080010005#64 + BitVec.ofNat 64 i := by rw [h]; bv_omega
    have := congrArg BitVec.toNat h
    simp only [BitVec.toNat_add, BitVec.toNat_ofNat] at this
    omega
  · intro i hi k hk h
    have h : 0x7000#64 + BitVec.ofNat 64 k = 0x7f0080010009#64 + BitVec.ofNat 64 i := by
      rw [h]; generalize BitVec.ofNat 64 i = x; generalize BitVec.ofNat 64 k = y; bv_omega
    have := congrArg BitVec.toNat h
    simp only [BitVec.toNat_add, BitVec.toNat_ofNat] at this
    omega

/-- The forward jump over 200 bytes takes 6 bytes, the others 2; the far call keeps 13, the second move address 5. -/
theorem demo_run : (generate false demo 0x10000#64 0x7f0000000000#64).map (fun r => (r.code.length, r.alloc, r.laddr)) =
    some (267, 280, [0x7f0000010000#64, 0x7f00000100df#64, 0x7f0000010100#64]) := by decide +kernel

/-! ## The excluded cases -/

/-- A move address directly followed by a label: reduce_code_size processes the label first, so the bytes saved by the move address are
not subtracted from the position of the label.  The jump back to the label looks shorter than it is, and the code does not fit
into the buffer requested from the allocator. -/
theorem c49_label_after_mov_false : ∃ items base, (∀ i ∈ items, Item.Ok (Prog.labels items) i) ∧ Room items base 0#64 ∧
    (∀ i ∈ items, NoEdge (base + 0#64) (usize items) i) ∧ generate false items base 0#64 = none := by
  refine ⟨[.mov 1 (.label 0), .label, .bytes (List.replicate 127 0x90#8), .jump ⟨36, false, .label 0⟩], 0x10000#64, by decide +kernel, by decide +kernel, ?_, by decide +kernel⟩
  simp [NoEdge]

/-- A move address near the end of the code: the 10 bytes of the full load are copied before they are replaced by a shorter one. -/
theorem c49_mov_at_end_false : ∃ items base, (∀ i ∈ items, Item.Ok (Prog.labels items) i) ∧ Room items base 0#64 ∧ generate false items base 0#64 = none :=
  ⟨[.mov 1 (.addr 0x1000#64), .bytes [0xc3#8]], 0x10000#64, by decide +kernel, by decide +kernel, by decide +kernel⟩

/-- detect_near_jump_type measures the distance of an unconditional jump from an instruction which is one byte too long: the
distance to this target needs 33 bits, and the jump goes 4 gigabytes below it. -/
theorem c49_jump_edge_false : ∃ items base t r, Prog.Ok (Prog.labels items) items ∧ Room items base 0#64 ∧
    items = [.jump ⟨36, false, .addr t⟩] ∧ generate false items base 0#64 = some r ∧
    ∀ c p, p.pc = base → BytesAt c p.pc r.code → step c p = some ⟨p.s, t - 0x100000000#64⟩ := by
  refine ⟨_, 0x200000000#64, 0x280000005#64, ⟨[0xe9#8, 0#8, 0#8, 0#8, 0x80#8], [], [], [1], 13⟩, ?_, ?_, rfl, by decide +kernel, fun c p hp hb => ?_⟩
  · decide +kernel
  · decide +kernel
  · have := jmp32_step (c := c) (p := p) (d := 0xffffffff80000000#64) hb (by decide)
    rw [this, hp]; rfl

/-- The same for a conditional jump, whose distance is measured from an instruction which is one byte too short. -/
theorem c49_cond_edge_false : ∃ items base t r, Prog.Ok (Prog.labels items) items ∧ Room items base 0#64 ∧
    items = [.jump ⟨0, false, .addr t⟩] ∧ generate false items base 0#64 = some r ∧
    ∀ c p, p.pc = base → BytesAt c p.pc r.code → p.s.f.zf = some true → step c p = some ⟨p.s, t + 0x100000000#64⟩ := by
  refine ⟨_, 0x100000000#64, 0x80000005#64, ⟨[0x0f#8, 0x84#8, 0xff#8, 0xff#8, 0xff#8, 0x7f#8], [], [], [2], 11⟩, ?_, ?_, rfl, by decide +kernel, fun c p hp hb hf => ?_⟩
  · decide +kernel
  · decide +kernel
  · have := jcc32_step (c := c) (p := p) (op := 0x84#8) (d := 0x7fffffff#64) (b := true) (by decide) hb (by decide) (by
      show ccF 4#4 p.s.f = some true
      simp only [ccF, hf]; rfl)
    rw [this, hp]; rfl

/-- A move address whose target is just below 2 gigabytes away: its distance is measured from the end of a 10 byte instruction, and the
instruction actually used has 7 bytes. -/
theorem c49_mov_edge_false : ∃ items base t r, Prog.Ok (Prog.labels items) items ∧ Room items base 0#64 ∧
    items = .mov 1 (.addr t) :: List.replicate 5 (.bytes [0x90#8]) ∧ generate false items base 0#64 = some r ∧
    ∀ c p, p.pc = base → BytesAt c p.pc r.code → ∃ p', step c p = some p' ∧ p'.s.r (num false 1) = t - 0x100000000#64 := by
  refine ⟨_, 0x200000000#64, 0x280000009#64, ⟨[0x48#8, 0x8d#8, 0x05#8, 2#8, 0#8, 0#8, 0x80#8, 0x90#8, 0x90#8, 0x90#8, 0x90#8, 0x90#8], [], [], [7], 15⟩,
    ?_, ?_, rfl, by decide +kernel, fun c p hp hb => ?_⟩
  · decide +kernel
  · decide +kernel
  · have := lea_step (c := c) (p := p) (rex := 0x48#8) (m := 5#8) (d := 0xffffffff80000002#64) (by decide) (by decide) (by decide) (by decide)
      ((BytesAt.append (x := [_, _, _, _, _, _, _]) (y := [_, _, _, _, _])).1 hb).1 (by decide)
    refine ⟨_, this, ?_⟩
    rw [hp]; rfl

end Verif.Props.C49
