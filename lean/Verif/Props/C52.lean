import Verif.XProg.Linked
import Verif.Props.C48

/-!
# C52: a whole function on x86-64 (System V) does what its API calls say

The specification is the interpreter of `Verif.Prog.Lir`, which C48 uses for RV64; the code is what `compile` and `generate` put into memory,
and the machine fetches, decodes and executes bytes (X86/Mach.lean).
-/

namespace Verif.Props.C52
open Verif.X86 Verif.Props Verif.XLir
open Verif.Lir (Val nlab)

/-- The sljit register that holds the n-th argument when the body starts (sljitLir.h:380-410): S0, S1, …, or, with the scratch register types
(`true`), the scratch register with the number of the argument.  Registers are numbered as in `Verif.Lir` (S0 is 23). -/
def argReg (args : List Bool) (n : Nat) : Nat := if args[n]?.getD false then 1 + n else 23 - (args.take n).count false

/-- The state in which the body starts: arguments, the stack pointer, memory as at entry, no flags. -/
def start (F : Nat) (args : List Bool) (vals : List Val) (sp : BitVec 64) (m : BitVec 64 → BitVec 8) : Lir.LSt where
  reg r := if r = 24 then some (.w (sp - BitVec.ofNat 64 F))
    else ((List.range args.length).find? fun n => argReg args n == r).bind (vals[·]?)
  mem := m
  z := none
  v := none

/-- The caller passes the arguments in rdi, rsi, rdx, rcx; the upper half of a register with a 32 bit argument is undefined. -/
def Passed (args : List Bool) (vals : List Val) (s : St) : Prop :=
  ∀ n v, n < args.length → vals[n]? = some v → Holds v (s.r (([7#4, 6#4, 2#4, 1#4][n]?).getD 0#4))

/-- A function body: covered calls, existing labels, no call of another function (C58 covers these). -/
structure WellFormed (p : Frame) (P : List Lir.Ins) : Prop where
  ins : ∀ i ∈ P, InsOk p i
  target : ∀ i ∈ P, ∀ k, i.target = some k → k < nlab P
  calls : ∀ i ∈ P, isCall i = false

/-- The context of a function on its own. -/
abbrev own : Ctx := ⟨0, fun _ => .label 0⟩

variable {ft : Feat} {p : Frame} {args : List Bool} {P : List Lir.Ins}

/-! ## The start -/

theorem arg_dest (h : C51.Legal false p false args) {n : Nat} (hn : n < args.length) : xr (argReg args n) = C51.argDest args n := by
  have hc := h.count
  have h1 : (args.take n).count false ≤ n := List.count_le_length.trans (by simp [List.length_take])
  unfold argReg C51.argDest
  split
  · simp only [xr]
    rw [if_neg (by omega), if_neg (by omega)]
  · simp only [xr]
    rw [if_neg (by omega), if_pos (by omega)]
    omega

theorem start_inv (h : C51.Legal false p false args) {s0 s1 : St} (he : C51.Entered false p false args (p.total false) s0 s1)
    {vals : List Val} (hv : Passed args vals s0) : Inv p (p.total false) s1 (start (p.total false) args vals (s0.r 4#4) s0.m) s1 := by
  refine ⟨⟨rfl, fun _ _ _ _ => rfl, fun _ _ _ => rfl⟩, ?_, ?_⟩
  · intro r hr v hreg
    simp only [start] at hreg
    by_cases h24 : r = 24
    · rw [if_pos h24] at hreg
      rw [h24, ← Option.some.inj hreg, show C46.mreg false (xr 24) = 4#4 by decide, he.sp]; rfl
    rw [if_neg h24] at hreg
    obtain ⟨n, e1, e2⟩ := Option.bind_eq_some_iff.mp hreg
    have hn : n < args.length := List.mem_range.mp (List.mem_of_find?_eq_some e1)
    have hr' : argReg args n = r := by simpa using List.find?_some e1
    rw [← hr', arg_dest h hn, he.argv rfl n hn]
    exact hv n v hn e2
  · intro a ha
    refine he.mem a ?_
    rw [show C51.shadow false = 0 from rfl]
    simp only [priv, decide_eq_false_iff_not, not_and_or, Nat.not_le, Nat.not_lt] at ha
    omega

/-! ## The items -/

/-- What code generation has done with a function. -/
theorem compiled (h : C51.Legal false p false args) (hw : WellFormed p P) (ft : Feat) :
    ∃ bs, emitEnter false p false args = some bs ∧ ∃ items, compile ft p args P = some items ∧
    ∀ base off, X86.Room items base off → ∃ r, generate false items base off = some r ∧ ∀ c, BytesAt c (base + off) r.code → ∃ laddr ca ja,
      Placed c false off (base + off) laddr (piece bs ++ P.flatMap (itemsT own ft p)) (base + off) 0 ca ja (base + off + BitVec.ofNat 64 r.code.length) := by
  obtain ⟨-, ⟨bs, hbs, -⟩, -⟩ := C51.entered h ones
  refine ⟨bs, hbs, ?_⟩
  have hraw : raw ft p args P = some (piece bs ++ P.flatMap (itemsT own ft p)) := by
    rw [raw, hbs, comp_eq h ft hw.ins]; rfl
  generalize hR : piece bs ++ P.flatMap (itemsT own ft p) = R at hraw
  have a2 : Prog.labels R = nlab P := by rw [← hR, labels_append, labels_piece, labels_comp, Nat.zero_add]
  have a3 : ∀ i ∈ R, Plain (nlab P) i := by
    intro i hi
    rw [← hR] at hi
    rcases List.mem_append.mp hi with hi | hi
    · exact plain_piece hi
    · refine comp_plain hw.ins (fun j hj k hk => by rw [Nat.zero_add]; exact hw.target j hj k hk) (fun j hj => ?_) i hi
      cases j with
      | call => cases hw.calls _ hj
      | _ => trivial
  have a4 : ∀ type rew a, Item.jump ⟨type, rew, .addr a⟩ ∉ R := by
    intro type rew a hi
    rw [← hR] at hi
    rcases List.mem_append.mp hi with hi | hi
    · unfold piece at hi
      split at hi
      · cases hi
      · cases List.mem_singleton.mp hi
    · obtain ⟨j, h1, h2⟩ := List.mem_flatMap.mp hi
      exact no_addr (hw.calls j h1) (by rintro _ _ ⟨⟩) _ _ _ h2
  refine ⟨link R, by rw [compile, hraw]; rfl, fun base off hr => ?_⟩
  obtain ⟨r, g1, g2⟩ := linked a2 a3 hr (noedge a3 fun _ _ _ h => (a4 _ _ _ h).elim)
  refine ⟨r, g1, fun c hc => ?_⟩
  obtain ⟨laddr, ca, ja, -, -, h⟩ := g2 c hc
  exact ⟨laddr, ca, ja, h⟩

/-! ## The theorem -/

/-- **C52.**  A function is made with sljit_emit_enter, the calls `P` and sljit_generate_code; the bytes of the code are in memory, the machine is at the
first of them and the arguments are passed by the calling convention.  The frame has a size `F` that is aligned and large enough, and

* whatever the calls compute according to their description (`Steps` of the interpreter), the machine computes: at every point of the program
  that the interpreter reaches, the machine state agrees on the registers and the memory of the program;
* when the program returns, the machine arrives at the return address on the stack with the result in rax, with the stack pointer and the callee saved
  registers as they were, and with the memory that the program left, but for the private part of the stack frame.

There is no bound on the size of the program (below 2 gigabytes of code), the number of steps or the values. -/
theorem c52_partial (ft : Feat) (hl : C51.Legal false p false args) (hw : WellFormed p P) :
    ∃ F, C51.FrameSize false p F ∧ ∃ items, compile ft p args P = some items ∧ ∀ base off, X86.Room items base off →
      ∃ r, generate false items base off = some r ∧
      ∀ (c : IMem) (s0 : St) (vals : List Val), BytesAt c (base + off) r.code → Passed args vals s0 →
        let pr := priv p F (s0.r 4#4 - BitVec.ofNat 64 F)
        let l0 := start F args vals (s0.r 4#4) s0.m
        (∀ rest l, Lir.Steps pr P (.run P l0) (.run rest l) → ∃ t, PSteps c ⟨s0, base + off⟩ t ∧
          (∀ q, Use p q → ∀ v, l.reg q = some v → Holds v (t.s.r (C46.mreg false (xr q)))) ∧ ∀ a, pr a = false → t.s.m a = l.mem a) ∧
        (∀ v m, Lir.Steps pr P (.run P l0) (.done v m) → ∃ t, PSteps c ⟨s0, base + off⟩ t ∧ Final p F s0 v m t) := by
  refine ⟨p.total false, C51.frameSize hl, ?_⟩
  obtain ⟨bs, hbs, items, hc, g⟩ := compiled hl hw ft
  refine ⟨items, hc, fun base off hr => ?_⟩
  obtain ⟨r, g1, g2⟩ := g base off hr
  refine ⟨r, g1, fun c s0 vals hld hpass => ?_⟩
  obtain ⟨laddr, ca, ja, hpl⟩ := g2 c hld
  obtain ⟨c1, c2⟩ := placed_piece hpl
  obtain ⟨s1, ⟨bs', e1, e2⟩, he, hs, hu⟩ := C51.entered hl s0
  obtain rfl : bs = bs' := Option.some.inj (hbs.symm.trans e1)
  rw [← List.append_nil (P.flatMap _)] at c2
  generalize hL : (⟨own, [], c, off, base + off, laddr, base + off + BitVec.ofNat 64 r.code.length⟩ : XLir.Loc) = L
  have hpl0 : L.has (P.flatMap (itemsT L.u ft p)) (base + off + BitVec.ofNat 64 bs.length) 0 := by rw [← hL]; exact ⟨ca, ja, c2⟩
  have hA : At ft p args P L s0 s1 := ⟨hl, hw.ins, ⟨_, hpl0⟩, he, hs, hu⟩
  have hs1 := e2 c (base + off) c1
  have hsim : Sim ft p P L s0 s1
      (.run P (start (p.total false) args vals (s0.r 4#4) s0.m)) ⟨s1, base + off + BitVec.ofNat 64 bs.length⟩ :=
    ⟨⟨[], rfl, hpl0, ⟨by rintro t ⟨⟩, by rintro g t ⟨⟩⟩⟩, start_inv hl he hpass⟩
  simp only [← he.sp]
  obtain rfl : c = L.c := by rw [← hL]
  refine ⟨fun rest l hst => ?_, fun v m hst => ?_⟩
  · obtain ⟨t, q1, -, q2⟩ := steps_ok hA hst _ hsim
    exact ⟨t, hs1.trans q1, q2.reg, q2.mem⟩
  · obtain ⟨t, q1, q2⟩ := steps_ok hA hst _ hsim
    exact ⟨t, hs1.trans q1, q2⟩

/-! ## A program that meets the hypotheses -/

namespace Demo

def frame : Frame := ⟨0, 1, 1, 16⟩
def argv : List Bool := [false]

theorem legal : C51.Legal false frame false argv := by
  refine ⟨by decide, by decide, by decide, by decide, fun _ => rfl, by decide, by decide⟩

/-- The loop of C48: `s = 0; do s += n; while (--n); return s;` -/
theorem wf : WellFormed frame C48.Demo.body := by
  refine ⟨?_, by decide, by decide⟩
  intro i hi
  simp only [C48.Demo.body, List.mem_cons, List.not_mem_nil, or_false] at hi
  rcases hi with rfl | rfl | rfl | rfl | rfl | rfl
  · exact ⟨by decide, by decide, Or.inl ⟨by decide, by decide⟩⟩
  · trivial
  · exact ⟨by decide, by decide, by decide, rfl, Or.inl rfl, fun _ d _ h => absurd rfl h, fun h => by cases h⟩
  · exact ⟨by decide, by decide, by decide, rfl, trivial, fun _ d _ h => absurd rfl h, fun h => by cases h⟩
  · show 1 < 14; decide
  · exact ⟨by decide, by decide, by decide⟩

/-- The machine code of the loop, called with any `n > 0`, returns `1 + 2 + … + n`; it is the same on processors with and without LZCNT and TZCNT. -/
theorem sum (ft : Feat) : ∃ items, compile ft frame argv C48.Demo.body = some items ∧ ∃ r, generate false items 0x10000#64 0#64 = some r ∧
    ∀ (c : IMem) (s0 : St) (n : Nat), BytesAt c 0x10000#64 r.code → 0 < n → n < 2 ^ 64 → s0.r 7#4 = BitVec.ofNat 64 n →
      ∃ t, PSteps c ⟨s0, 0x10000#64⟩ t ∧ t.pc = rd s0.m (s0.r 4#4) 8 ∧ t.s.r 0#4 = BitVec.ofNat 64 (n * (n + 1) / 2) ∧ t.s.r 4#4 = s0.r 4#4 + 8#64 ∧
        t.s.r 3#4 = s0.r 3#4 := by
  obtain ⟨F, -, items, hc, h⟩ := c52_partial ft legal wf
  refine ⟨items, hc, ?_⟩
  have hroom : X86.Room items 0x10000#64 0#64 := by
    have : (compile ft frame argv C48.Demo.body).all (fun is => decide (X86.Room is 0x10000#64 0#64)) = true := by
      rcases ft with ⟨a, b⟩
      cases a <;> cases b <;> decide +kernel
    rw [hc] at this
    simpa using this
  obtain ⟨r, h1, h2⟩ := h _ _ hroom
  refine ⟨r, h1, fun c s0 n hb h0 hn ha => ?_⟩
  have hp : Passed argv [.w (BitVec.ofNat 64 n)] s0 := by
    intro k v hk e
    match k with
    | 0 => rw [← Option.some.inj e]; exact ha
    | k + 1 => cases e
  obtain ⟨-, h3⟩ := h2 c s0 [.w (BitVec.ofNat 64 n)] hb hp
  have e1 : ∀ pr l, Lir.step pr C48.Demo.body (.run C48.Demo.body l) = some (.run (C48.Demo.body.drop 1) (l.set 1 (.w 0#64))) := fun _ _ => rfl
  have e2 : ∀ pr l, Lir.step pr C48.Demo.body (.run (C48.Demo.body.drop 1) l) = some (.run (C48.Demo.body.drop 2) l.noFlags) := fun _ _ => rfl
  obtain ⟨t, g1, g2⟩ := h3 _ _ (.step (e1 _ _) (.step (e2 _ _) (C48.Demo.loop _ n h0 hn _ 0#64 rfl rfl)))
  refine ⟨t, g1, g2.pc, ?_, g2.sp, g2.saved 3#4 (by decide)⟩
  have := g2.value _ rfl
  rw [BitVec.zero_add] at this
  exact this

end Demo

end Verif.Props.C52
