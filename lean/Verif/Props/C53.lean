import Verif.A64.GenLay
import Verif.A64.Const

/-!
# C53: code generation on ARM64

The specification side is `Placed` (A64/GenSpec.lean), which only talks about executions of an instruction memory (A64/Mach.lean).
-/

namespace Verif.Props.C53
open Verif.A64
open Verif.Imm.Arm64 (regMap)

/-- sljit_generate_code on ARM64: for every program, every place in memory and every executable offset, the stores stay inside the
buffer which was requested (`some`), the requested buffer is never larger than the emitted size, and the generated code is the program:
pieces follow each other, labels have the addresses of the pieces after them, every jump goes to its target, rewritable jumps go to
whatever target sljit_set_jump_addr stores in them, move addresses load the address of their target, aligned labels are aligned.
Missing from the full statement: programs which end with a conditional jump (`Prog.Ok`), for which it is false (below). -/
theorem c53_partial (items : List Item) (base off : BitVec 64) (hp : Prog.Ok (Prog.labels items) items) (hr : Room items base off) :
    ∃ r, generate items base off = some r ∧ r.code.length ≤ r.alloc ∧ r.alloc ≤ usize items ∧
      ∀ c, WordsAt c (base + off) r.code →
        Placed c off (base + off) r.laddr items (base + off) 0 r.caddr r.jaddr (base + off + BitVec.ofNat 64 (4 * r.code.length)) :=
  generate_ok items base off hp hr

/-- sljit_set_jump_addr may be repeated: what is stored depends on the last target only. -/
theorem c53_rewrite_again (w : BitVec 32) (t t' : BitVec 64) : ∃ w' mid, setJumpAddr w t = w' :: mid ∧ mid.length = 3 ∧ setJumpAddr w' t' = setJumpAddr w t' := by
  have h : ∀ t, setJumpAddr w t = movzk ((w.setWidth 5).setWidth 32) t 4 := fun t => setJumpAddr_movzk w (w.setWidth 5) (by bits []) t
  refine ⟨_, _, rfl, rfl, ?_⟩
  rw [h t']
  exact setJumpAddr_movzk _ (w.setWidth 5) (by bits [Verif.Imm.Arm64.MOVZ]) t'

/-- What a constant has to be after it is loaded: SLJIT_MOV_U8 supports the range -256..255, SLJIT_MOV32 defines the low half. -/
def Loads (op : COp) (v x : BitVec 64) : Prop :=
  match op with
  | .u8 => -256 ≤ v.toInt → v.toInt ≤ 255 → x = v
  | .w32 => x.setWidth 32 = v.setWidth 32
  | .s32 => x.toInt = (v.setWidth 32).toInt
  | .word => x = v

theorem sext9 (u : BitVec 64) (h1 : -256 ≤ u.toInt) (h2 : u.toInt ≤ 255) : (u.setWidth 9).signExtend 64 = u := by
  apply BitVec.eq_of_toInt_eq
  have e : (u.setWidth 9).toInt = u.toInt := by
    rw [BitVec.toInt_setWidth]
    have h := BitVec.toInt_bmod_cancel u
    have : (u.toNat : Int).bmod (2 ^ 9) = u.toInt.bmod (2 ^ 9) := by
      rw [BitVec.toInt_eq_toNat_bmod, Int.bmod_bmod_of_dvd (by decide)]
    rw [this]
    exact Int.bmod_eq_of_le (by simpa using h1) (by simp; omega)
  rw [BitVec.toInt_signExtend_of_le (by decide), e]

/-- sljit_emit_const and any number of calls of sljit_set_const: wherever the words are, their execution loads the last constant into the
register, and changes nothing else. -/
theorem c53_const (op : COp) (reg : Nat) (hr : regMap reg ≠ 31#5) (v : BitVec 64) (vs : List (BitVec 64)) :
    ∃ ws, vs.foldlM (setConst op) (emitConst op reg v) = some ws ∧ ws.length = (emitConst op reg v).length ∧
      ∀ c p, WordsAt c p.pc ws → Goes c [regMap reg] p (p.pc + BitVec.ofNat 64 (4 * ws.length)) fun p' =>
        Loads op ((v :: vs).getLast (by simp)) (p'.s.r (regMap reg)) := by
  have hl : ∀ u, (emitConst op reg u).length = (emitConst op reg v).length := by intro u; cases op <;> simp [emitConst, movzk_len]
  have hf : ∀ (vs : List (BitVec 64)) u, vs.foldlM (setConst op) (emitConst op reg u) = some (emitConst op reg ((u :: vs).getLast (by simp))) := by
    intro vs
    induction vs with
    | nil => intro u; simp [pure]
    | cons x vs ih =>
      intro u
      rw [List.foldlM_cons, setConst_emit]
      simp only [List.getLast_cons_cons]
      exact (Option.bind_some _ _).trans (ih x)
  refine ⟨_, hf vs v, hl _, fun c p hw => ?_⟩
  generalize (v :: vs).getLast _ = u at *
  have st := psteps_runs _ hw (emitConst_run op reg hr u p.s)
  obtain ⟨p', g1, g2, g3, g4, g5, g6, g7⟩ := goes_set st
  refine ⟨p', g1, g2, g3, g4, g5, g6, ?_⟩
  show Loads op u (p'.s.r (regMap reg))
  rw [g7]
  cases op
  · exact sext9 u
  · simp [Loads, constCast]
  · simp [Loads, constCast, BitVec.toInt_signExtend_of_le]
  · simp [Loads]

theorem c53_const_demo : ∃ ws, [-1#64, 0x7fffffff#64].foldlM (setConst .s32) (emitConst .s32 1 5#64) = some ws ∧
    ws = [0xd29fffe0#32, 0xf2afffe0#32] := ⟨_, rfl, by decide +kernel⟩

/-! ## A program which meets the hypotheses -/

/-- A loop with a backward and a forward conditional jump (the second one on a register and directly in front of its label), a rewritable
jump, a call to a far address, three move addresses, a constant and an aligned label. -/
def demo : List Item :=
  [.label, .code [0x91000400#32], .jump ⟨some (.cc 1#4), false, false, .label 1⟩, .jump ⟨none, false, true, .label 0⟩,
   .code (List.replicate 70 NOP), .jump ⟨some (.cbz true true 1), false, false, .label 1⟩, .label,
   .jump ⟨none, true, false, .addr 0x123456789abc#64⟩, .mov 2 (.label 2), .mov 3 (.addr 0x7000#64), .mov 4 (.addr 0x7f0000200000#64),
   .jump ⟨some (.cc 11#4), false, true, .label 0⟩, .alabel 4, .const (emitConst .word 1 77#64), .code [0xd65f03c0#32]]

instance (nl : Nat) (t : Tgt) : Decidable (t.Ok nl) := by cases t <;> simp only [Tgt.Ok] <;> infer_instance
instance (t : Tgt) : Decidable t.Aligned := by cases t <;> simp only [Tgt.Aligned] <;> infer_instance
instance (k : Skip) : Decidable k.Ok := by cases k <;> simp only [Skip.Ok] <;> infer_instance
instance (o : Option Skip) (P : Prop) [Decidable P] : Decidable (∀ k, o = some k → k.Ok ∧ P) :=
  match o with
  | none => isTrue (by simp)
  | some k => if h : k.Ok ∧ P then isTrue (by intro k' e; cases e; exact h) else isFalse fun f => h (f k rfl)
instance (nl : Nat) (i : Item) : Decidable (i.Ok nl) := by cases i <;> simp only [Item.Ok] <;> infer_instance

instance decOk (nl : Nat) : ∀ is : List Item, Decidable (Prog.Ok nl is)
  | [] => isTrue trivial
  | .mov reg t :: is => have := decOk nl is; by simp only [Prog.Ok]; infer_instance
  | .label :: is => have := decOk nl is; by simp only [Prog.Ok]; infer_instance
  | .code _ :: is => have := decOk nl is; by simp only [Prog.Ok]; infer_instance
  | .alabel _ :: is => have := decOk nl is; by simp only [Prog.Ok]; infer_instance
  | .const _ :: is => have := decOk nl is; by simp only [Prog.Ok]; infer_instance
  | .jump _ :: is => have := decOk nl is; by simp only [Prog.Ok]; infer_instance

instance (items : List Item) (base off : BitVec 64) : Decidable (Room items base off) := by simp only [Room]; infer_instance

theorem demo_ok : Prog.Ok (Prog.labels demo) demo ∧ Room demo 0x10000#64 0x7f0000000000#64 := by decide +kernel

/-- The conditional jumps take one word each, the rewritable one five, the far call four. -/
theorem demo_run : (generate demo 0x10000#64 0x7f0000000000#64).map (fun r => (r.code.length, r.alloc, r.laddr)) =
    some (101, 102, [0x7f0000010000#64, 0x7f0000010138#64, 0x7f0000010180#64]) := by decide +kernel

/-! ## The excluded case -/

/-- A conditional jump at the end of the code: reduce_code_size counts a single word for it, but the loop of sljit_generate_code copies
the branch instruction of the jump behind this word before generate_jump_or_mov_addr gives it up: a store past the buffer. -/
theorem c53_cond_at_end_false : ∃ items base, (∀ i ∈ items, Item.Ok (Prog.labels items) i) ∧ Room items base 0#64 ∧ generate items base 0#64 = none :=
  ⟨[.label, .code [0x91000400#32], .jump ⟨some (.cc 1#4), false, false, .label 0⟩], 0x10000#64, by decide +kernel, by decide +kernel, by decide +kernel⟩

/-- The same with a label behind the jump. -/
theorem c53_cond_label_at_end_false : ∃ items base, (∀ i ∈ items, Item.Ok (Prog.labels items) i) ∧ Room items base 0#64 ∧ generate items base 0#64 = none :=
  ⟨[.code [0x91000400#32], .jump ⟨some (.cbz false true 1), false, false, .label 0⟩, .label], 0x10000#64, by decide +kernel, by decide +kernel, by decide +kernel⟩

end Verif.Props.C53
