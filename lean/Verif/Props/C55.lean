import Verif.AProg.Linked
import Verif.Props.C48
import Verif.Props.C53

/-!
# C55: a whole function on ARM64 does what its API calls say

The specification is the interpreter of `Verif.Prog.Lir`, which C48 uses for RV64 and C52 for x86-64; the code is what `compile` and `generate`
put into memory, and the machine fetches, decodes and executes words (A64/Mach.lean).
-/

namespace Verif.Props.C55
open Verif.A64 hiding cond moved DstOk
open Verif.Props Verif.ALir
open Verif.Imm.Arm64 (regMap)
open Verif.Lir (Val nlab)
open Verif.XLir (Holds)

/-- The sljit register that holds the n-th argument when the body starts (sljitLir.h:380-410): S0, S1, …, or, with the scratch register types
(`true`), the scratch register with the number of the argument.  Registers are numbered as in `Verif.Lir` (S0 is 23). -/
def argReg (args : List Bool) (n : Nat) : Nat := if args[n]?.getD false then 1 + n else 23 - (args.take n).count false

/-- The state in which the body starts: arguments, the address of the local variables, memory as at entry, no flags.  The local variables are above the
frame record of the calling convention. -/
def start (F : Nat) (args : List Bool) (vals : List Val) (sp : BitVec 64) (m : BitVec 64 → BitVec 8) : Lir.LSt where
  reg r := if r = 24 then some (.w (sp - BitVec.ofNat 64 F + 16#64))
    else ((List.range args.length).find? fun n => argReg args n == r).bind (vals[·]?)
  mem := m
  z := none
  v := none

/-- The caller passes the arguments in x0, x1, x2, x3; the upper half of a register with a 32 bit argument is undefined. -/
def Passed (args : List Bool) (vals : List Val) (s : St) : Prop :=
  ∀ n v, n < args.length → vals[n]? = some v → Holds v (s.r (BitVec.ofNat 5 n))

/-- sljit_emit_call and sljit_emit_icall (they are the subject of C56). -/
def isCall : Lir.Ins → Bool
  | .call .. => true
  | _ => false

/-- A function body: covered calls, no call of a function, existing labels, and execution does not run off its end. -/
structure WellFormed (p : Frame) (P : List Lir.Ins) : Prop where
  ins : AllOk p .none P
  calls : ∀ i ∈ P, isCall i = false
  target : ∀ i ∈ P, ∀ k, i.target = some k → k < nlab P
  last : ∃ P' i, P = P' ++ [i] ∧ Leaves i

variable {p : Frame} {args : List Bool} {P : List Lir.Ins}

/-! ## The start -/

theorem arg_dest (h : C54.Legal p false args) {n : Nat} (hn : n < args.length) : ar p (argReg args n) = C54.argDest args n := by
  have hc := h.count
  have hs := h.sav
  have ha := h.args
  simp only [Bool.false_eq_true, if_false] at ha
  unfold argReg C54.argDest
  cases hg : args[n]?.getD false
  · simp only [Bool.false_eq_true, if_false]
    have h0 : args[n]? = some false := by
      rw [List.getElem?_eq_getElem hn] at hg ⊢
      exact congrArg some hg
    have h1 := C54.count_take args n h0
    simp only [ar]
    rw [if_neg (by omega), if_pos (by omega)]
    omega
  · simp only [if_true]
    simp only [ar]
    rw [if_neg (by omega), if_neg (by omega)]

theorem start_inv (h : C54.Legal p false args) {m0 m1 : MSt} (he : C54.Entered p false args p.total m0 m1)
    {vals : List Val} (hv : Passed args vals m0.s) : Inv p p.total m1 (start p.total args vals (m0.s.r 31#5) m0.s.m) m1.s := by
  refine ⟨⟨rfl, fun _ _ _ _ => rfl, fun _ _ _ _ => rfl, fun _ _ _ => rfl⟩, ?_, ?_⟩
  · intro r hr v hreg
    simp only [start] at hreg
    by_cases h24 : r = 24
    · rw [if_pos h24] at hreg
      rw [h24, ← Option.some.inj hreg, mval, if_pos rfl, show regMap (ar p 24) = 31#5 by simp only [ar, if_true]; decide, he.sp]; rfl
    rw [if_neg h24] at hreg
    obtain ⟨n, e1, e2⟩ := Option.bind_eq_some_iff.mp hreg
    have hn : n < args.length := List.mem_range.mp (List.mem_of_find?_eq_some e1)
    have hr' : argReg args n = r := by simpa using List.find?_some e1
    rw [mval, if_neg h24, ← hr', arg_dest h hn, he.argv rfl n hn, BitVec.add_zero]
    exact hv n v hn e2
  · intro a ha
    refine he.mem a ?_
    simp only [priv, decide_eq_false_iff_not, not_and_or, Nat.not_le, Nat.not_lt] at ha
    omega

/-! ## The items -/

/-- A compiler with one function. -/
def ctx : Ctx := ⟨0, fun _ => .label 0⟩

/-- What code generation has done with a function. -/
theorem compiled (hp : Regs p) (hw : WellFormed p P) :
    ∃ items, compile p args P = some items ∧
    ∀ base off, A64.Room items base off → ∃ r, generate items base off = some r ∧ ∀ c, WordsAt c (base + off) r.code → ∃ laddr ca ja,
      Placed c off (base + off) laddr (piece (emitEnter p false args) ++ compT ctx p .none P) (base + off) 0 ca ja (base + off + BitVec.ofNat 64 (4 * r.code.length)) := by
  have hraw : raw p args P = some (piece (emitEnter p false args) ++ compT ctx p .none P) := by
    rw [raw, comp_eq hp _ hw.ins]; rfl
  have a4 : CondOk (piece (emitEnter p false args) ++ compT ctx p .none P) := by
    obtain ⟨P', i, e, hl⟩ := hw.last
    have hi := hw.ins
    rw [e] at hi
    obtain ⟨x, e1, e2, e3⟩ := last_item (u := ctx) hp (AllOk.mid P' hi) hl
    rw [e, compT_append, ← List.append_assoc]
    rw [show compT ctx p (stOf p .none P') [i] = itemsT ctx p (stOf p .none P') i ++ [] from rfl, e1]
    exact CondOk.last e2 e3 _
  have a2 : Prog.labels (piece (emitEnter p false args) ++ compT ctx p .none P) = nlab P := by rw [labels_append, labels_piece, labels_comp, Nat.zero_add]
  have a3 : ∀ i ∈ piece (emitEnter p false args) ++ compT ctx p .none P, Plain (nlab P) i := by
    intro i hi
    rcases List.mem_append.mp hi with hi | hi
    · exact plain_piece hi
    · refine comp_plain hw.ins (fun i hi k hk => ?_) (fun i hi => ?_) i hi
      · rw [show ctx.lb = 0 from rfl, Nat.zero_add]; exact hw.target i hi k hk
      · have := hw.calls i hi
        cases i with
        | call => cases this
        | _ => trivial
  refine ⟨_, by rw [compile, hraw]; rfl, fun base off hr => ?_⟩
  obtain ⟨r, g1, g2⟩ := linked a2 a3 a4 hr
  refine ⟨r, g1, fun c hc => ?_⟩
  obtain ⟨laddr, ca, ja, -, hpl⟩ := g2 c hc
  exact ⟨laddr, ca, ja, hpl⟩

/-! ## The theorem -/

/-- **C55.**  A function is made with sljit_emit_enter, the calls `P` and sljit_generate_code; the words of the code are in memory, the machine is at the
first of them, the stack is aligned and the arguments are passed by the calling convention.  The frame has a size `F` that is aligned and large enough, and

* whatever the calls compute according to their description (`Steps` of the interpreter), the machine computes: at every point of the program
  that the interpreter reaches, the machine state agrees on the registers and the memory of the program;
* when the program returns, the machine arrives at the return address with the result in x0, with the stack pointer, the frame pointer and the callee
  saved registers (x19-x28, d8-d15) as they were, and with the memory that the program left, but for the private part of the stack frame.

There is no bound on the size of the program (below 2^60 bytes of code), the number of steps or the values.  Partial: the calls of `InsOk`, at most
23 registers (`Regs`). -/
theorem c55_partial (hl : C54.Legal p false args) (hp : Regs p) (hw : WellFormed p P) :
    ∃ F, C54.FrameSize p F ∧ ∃ items, compile p args P = some items ∧ ∀ base off, A64.Room items base off →
      ∃ r, generate items base off = some r ∧
      ∀ (c : IMem) (m0 : MSt) (vals : List Val), WordsAt c (base + off) r.code → C54.Aligned m0 → Passed args vals m0.s →
        let pr := priv p F (m0.s.r 31#5 - BitVec.ofNat 64 F)
        let l0 := start F args vals (m0.s.r 31#5) m0.s.m
        (∀ rest l, Lir.Steps pr P (.run P l0) (.run rest l) → ∃ t, PSteps c ⟨m0.s, m0.v, base + off⟩ t ∧
          (∀ q, Decl p q → ∀ v, l.reg q = some v → Holds v (t.s.r (regMap (ar p q)))) ∧ ∀ a, pr a = false → t.s.m a = l.mem a) ∧
        (∀ v m, Lir.Steps pr P (.run P l0) (.done v m) → ∃ t, PSteps c ⟨m0.s, m0.v, base + off⟩ t ∧ Final p F m0 v m t) := by
  refine ⟨p.total, C54.frameSize hl, ?_⟩
  obtain ⟨items, hc, g⟩ := compiled (args := args) hp hw
  refine ⟨items, hc, fun base off hr => ?_⟩
  obtain ⟨r, g1, g2⟩ := g base off hr
  refine ⟨r, g1, fun c m0 vals hld hal hpass => ?_⟩
  obtain ⟨laddr, ca, ja, hpl⟩ := g2 c hld
  obtain ⟨c1, c2⟩ := placed_piece hpl
  obtain ⟨m1, e2, he, hs⟩ := C54.entered hl m0 hal
  have hpl0 : (⟨ctx, .none, [], c, off, base + off, laddr, base + off + BitVec.ofNat 64 (4 * r.code.length)⟩ : Loc).has (compT ctx p .none P)
      (base + off + BitVec.ofNat 64 (4 * (emitEnter p false args).length)) 0 := ⟨_, _, by rw [List.append_nil]; exact c2⟩
  generalize hL : (⟨ctx, .none, [], c, off, base + off, laddr, base + off + BitVec.ofNat 64 (4 * r.code.length)⟩ : Loc) = L at hpl0
  have l1 : L.st0 = .none := by rw [← hL]
  have l2 : L.u = ctx := by rw [← hL]
  have l3 : L.c = c := by rw [← hL]
  rw [← l1, ← l2] at hpl0
  have hA : At p args P L m0 m1 := ⟨hl, hp, by rw [l1]; exact hw.ins, ⟨_, hpl0⟩, hal, he, hs⟩
  have hs1 := e2 c (base + off) c1
  have hsim : Sim p P L m0 m1
      (.run P (start p.total args vals (m0.s.r 31#5) m0.s.m)) ⟨m1.s, m1.v, base + off + BitVec.ofNat 64 (4 * (emitEnter p false args).length)⟩ :=
    ⟨⟨[], rfl, hpl0, by rw [l1]; exact ⟨by rintro t ⟨⟩, by rintro g t ⟨⟩⟩⟩, fun _ _ _ _ => rfl, start_inv hl he hpass⟩
  simp only [← he.sp]
  refine ⟨fun rest l hst => ?_, fun v m hst => ?_⟩
  · obtain ⟨t, q1, -, -, q2⟩ := steps_ok hA hst _ hsim
    rw [l3] at q1
    refine ⟨t, hs1.trans q1, fun q hq v hv => ?_, q2.mem⟩
    rw [← mval_decl hp hq]
    exact q2.reg q (Or.inl hq) v hv
  · obtain ⟨t, q1, q2⟩ := steps_ok hA hst _ hsim
    rw [l3] at q1
    exact ⟨t, hs1.trans q1, q2⟩

/-! ## What is wrong with the carry of the other operation -/

/-- sljit_emit_op2u with SLJIT_SUB | SLJIT_SET_CARRY of R0 and R1, then sljit_emit_op2 with SLJIT_ADDC, which adds the carry to R2. -/
def mixed : Code := emitOp2u ⟨.sub, false, false, .carry⟩ (.reg 1) (.reg 2) +> emitOp2 ⟨.addc, false, false, .none⟩ (.reg 3) (.reg 3) (.imm 0#64)

/-- The claim about it: the carry flag of a subtraction is set when the first operand is less than the second (what sljit_emit_op_flags with SLJIT_CARRY
then reports, `C47.c47_op2u`). -/
def MixedOk : Prop := ∀ s : St, ∃ ws s', mixed = some ws ∧ runs ws s = some s' ∧
  s'.r (regMap 3) = s.r (regMap 3) + if (s.r (regMap 1)).toNat < (s.r (regMap 2)).toNat then 1#64 else 0#64

/-- **The claim is false**: the argument checks accept any operation which sets the carry flag before SLJIT_ADDC (sljitLir.c:1860-1864), but on ARM64 the carry flag
of a subtraction is inverted; SLJIT_ADDC after SLJIT_SUB adds 1 when there is no borrow (and 0 when there is).  x86 and RISC-V add the borrow. -/
theorem c55_addc_after_sub_false : ¬ MixedOk := by
  intro h
  obtain ⟨ws, s', e1, e2, e3⟩ := h ⟨fun r => if r = 1#5 then 1#64 else 0#64, fun _ => 0#8, ⟨false, false, false, false⟩⟩
  have key : (mixed.bind fun ws => (runs ws ⟨fun r => if r = 1#5 then 1#64 else 0#64, fun _ => 0#8, ⟨false, false, false, false⟩⟩).map fun s => s.r 2#5) = some 0#64 := by
    decide +kernel
  rw [e1] at key
  simp only [Option.bind_some, e2, Option.map_some, Option.some.injEq] at key
  rw [show regMap 3 = 2#5 from rfl, key] at e3
  exact absurd e3 (by decide)

/-! ## A program that meets the hypotheses -/

namespace Demo

def frame : Frame := ⟨0, 1, 1, 0, 0, 16⟩
def argv : List Bool := [false]

theorem legal : C54.Legal frame false argv := by
  refine ⟨by decide, by decide, by decide, by decide, by decide, by decide, fun _ => rfl, by decide, by decide⟩

theorem regs : Regs frame := ⟨by decide, by decide⟩

/-- The loop of C48: `s = 0; do s += n; while (--n); return s;` -/
theorem wf : WellFormed frame C48.Demo.body := by
  refine ⟨⟨?_, trivial, ?_, ?_, ?_, ?_, trivial⟩, by decide, by decide, C48.Demo.body.dropLast, _, rfl, trivial⟩
  · exact ⟨by decide, by decide, Or.inl ⟨by simp [C47.IsMove], by decide⟩⟩
  · exact ⟨by decide, by decide, by decide, by decide, Or.inl rfl, by rintro ⟨⟩, by rintro ⟨⟩⟩
  · exact ⟨by decide, by decide, by decide, by decide, trivial, by rintro ⟨⟩, by rintro ⟨⟩⟩
  · show 1 < 14; decide
  · exact ⟨by simp [C47.IsMove], by decide, by decide⟩

/-- The machine code of the loop, called with any `n > 0`, returns `1 + 2 + … + n`. -/
theorem sum : ∃ items, compile frame argv C48.Demo.body = some items ∧ ∃ r, generate items 0x10000#64 0#64 = some r ∧
    ∀ (c : IMem) (m0 : MSt) (n : Nat), WordsAt c 0x10000#64 r.code → C54.Aligned m0 → 0 < n → n < 2 ^ 64 → m0.s.r 0#5 = BitVec.ofNat 64 n →
      ∃ t, PSteps c ⟨m0.s, m0.v, 0x10000#64⟩ t ∧ t.pc = m0.s.r 30#5 ∧ t.s.r 0#5 = BitVec.ofNat 64 (n * (n + 1) / 2) ∧ t.s.r 31#5 = m0.s.r 31#5 ∧
        t.s.r 19#5 = m0.s.r 19#5 := by
  obtain ⟨F, -, items, hc, h⟩ := c55_partial legal regs wf
  refine ⟨items, hc, ?_⟩
  have hroom : A64.Room items 0x10000#64 0#64 := by
    have : (compile frame argv C48.Demo.body).all (fun is => decide (A64.Room is 0x10000#64 0#64)) = true := by decide +kernel
    rw [hc] at this
    simpa using this
  obtain ⟨r, h1, h2⟩ := h _ _ hroom
  refine ⟨r, h1, fun c m0 n hb hal h0 hn ha => ?_⟩
  have hp : Passed argv [.w (BitVec.ofNat 64 n)] m0.s := by
    intro k v hk e
    match k with
    | 0 => rw [← Option.some.inj e]; exact ha
    | k + 1 => cases e
  obtain ⟨-, h3⟩ := h2 c m0 [.w (BitVec.ofNat 64 n)] hb hal hp
  have e1 : ∀ pr l, Lir.step pr C48.Demo.body (.run C48.Demo.body l) = some (.run (C48.Demo.body.drop 1) (l.set 1 (.w 0#64))) := fun _ _ => rfl
  have e2 : ∀ pr l, Lir.step pr C48.Demo.body (.run (C48.Demo.body.drop 1) l) = some (.run (C48.Demo.body.drop 2) l.noFlags) := fun _ _ => rfl
  obtain ⟨t, g1, g2⟩ := h3 _ _ (.step (e1 _ _) (.step (e2 _ _) (C48.Demo.loop _ n h0 hn _ 0#64 rfl rfl)))
  refine ⟨t, g1, g2.pc, ?_, g2.sp, g2.saved 19 (by decide) (by decide)⟩
  have := g2.value _ rfl
  rw [BitVec.zero_add] at this
  exact this

end Demo

end Verif.Props.C55
