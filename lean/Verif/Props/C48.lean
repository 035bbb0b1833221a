import Verif.Prog.Linked

/-!
# C48: a whole function on RV64 does what its API calls say

The specification is the interpreter of `Verif.Prog.Lir`; the code is what `compile` and `generate` put into memory.
-/

namespace Verif.Props.C48
open Verif.RV Verif.Props Verif.Props.Rv Verif.Props.C30 Verif.Lir

/-- The sljit register that holds the n-th argument when the body starts (sljitLir.h:380-410): words go to S0, S1, … or, with the
scratch register types, stay in the scratch register with the number of the word argument. -/
def argReg (args : List Arg) (n : Nat) : Option Nat :=
  (args[n]?).bind fun a =>
    if a.saved then some (23 - (args.take n).countP Arg.saved)
    else if a.word then some (1 + (args.take n).countP Arg.word)
    else none

/-- The state in which the body starts: arguments, the stack pointer, memory as at entry, no flags. -/
def start (p : Frame) (args : List Arg) (vals : List Val) (sp : BitVec 64) (m : BitVec 64 → BitVec 8) : LSt where
  reg r := if r = 24 then some (.w (sp - BitVec.ofNat 64 p.total))
    else ((List.range args.length).find? fun n => argReg args n == some r).bind (vals[·]?)
  mem := m
  z := none
  v := none

/-- The caller passes the word arguments in a0, a1, …, 32 bit ones sign extended (RISC-V calling convention). -/
def Passed (args : List Arg) (vals : List Val) (s : St) : Prop :=
  ∀ n a v, args[n]? = some a → a.word = true → vals[n]? = some v → s.rd (BitVec.ofNat 5 (10 + (args.take n).countP Arg.word)) = rep v

/-- Function calls are the subject of C57. -/
def isCall : Ins → Bool
  | .call .. => true
  | _ => false

/-- A function body: covered calls, existing labels, a return at the end. -/
structure WellFormed (cfg : Cfg) (p : Frame) (P : List Ins) : Prop where
  ins : ∀ i ∈ P, Ins.Ok cfg p i
  target : ∀ i ∈ P, ∀ k, i.target = some k → k < nlab P
  calls : ∀ i ∈ P, isCall i = false
  last : ∃ Q r, P = Q ++ [r] ∧ (r = .retVoid ∨ ∃ o is32 src, r = .ret o is32 src)

/-! ## The start -/

theorem start_inv {p : Frame} {regArg : Bool} {args : List Arg} (h : Legal p regArg args) {s0 s1 : St} (he : Entered p args s0 s1)
    (hm : ∀ q, 8 * (1 + (p.sav - p.kept) + (p.scr - 11) + p.fsav + (p.fscr - 18)) ≤ (s0.rd 2#5 - 1#64 - q).toNat → s1.mem q = s0.mem q)
    {vals : List Val} (hv : Passed args vals s0) : Inv p s1 (start p args vals (s0.rd 2#5) s0.mem) s1 := by
  refine ⟨⟨rfl, fun _ _ _ _ => rfl, fun _ _ _ _ => rfl, fun _ _ _ => rfl⟩, ?_, ?_⟩
  · intro r hr v hreg
    simp only [start] at hreg
    by_cases h24 : r = 24
    · rw [if_pos h24] at hreg
      rw [h24, ← Option.some.inj hreg, show regMap 24 = 2#5 by decide, he.sp]; rfl
    rw [if_neg h24] at hreg
    obtain ⟨n, e1, e2⟩ := Option.bind_eq_some_iff.mp hreg
    have hn : n < args.length := List.mem_range.mp (List.mem_of_find?_eq_some e1)
    have hr' : argReg args n = some r := by simpa using List.find?_some e1
    have ea : args[n]? = some args[n] := List.getElem?_eq_getElem hn
    simp only [argReg, ea, Option.bind_some] at hr'
    have hcw : (args.take n).countP Arg.word ≤ 3 := by
      have := List.countP_le_length (p := Arg.word) (l := args.take n)
      have := h.count
      simp only [List.length_take] at *; omega
    have hmap : ∀ k ≤ 3, regMap (1 + k) = BitVec.ofNat 5 (10 + k) := by decide
    have hword : args[n].saved = true → args[n].word = true := by cases args[n] <;> simp [Arg.saved, Arg.word]
    split at hr'
    · next hs =>
      rw [← Option.some.inj hr', he.args n hn hs, hmap _ hcw]
      exact hv n _ v ea (hword hs) e2
    · split at hr'
      · next hs hw =>
        rw [← Option.some.inj hr', ← hv n _ v ea hw e2, ← hmap _ hcw]
        generalize (args.take n).countP Arg.word = k at hcw
        have hcs : args.countP Arg.saved ≤ 4 := (List.countP_le_length).trans h.count
        have d : ∀ k ≤ 3, regMap (1 + k) ≠ 2#5 ∧ regMap (1 + k) ≠ 6#5 ∧ regMap (1 + k) ≠ 7#5 ∧ ∀ j < 4, regMap (1 + k) ≠ regMap (23 - j) := by decide
        obtain ⟨d1, d2, d3, d4⟩ := d k hcw
        exact he.other _ d1 d2 d3 fun j hj => d4 j (by omega)
      · cases hr'
  · intro a ha
    refine hm a ?_
    have tge := Frame.total_ge h.frame
    have tlt := Frame.total_lt h.frame
    have hs := Frame.size_le h.frame
    have hloc := h.frame.locals
    rw [Frame.length_regs h.frame, Frame.length_fregs h.frame] at tge hs tlt
    rw [he.sp] at ha
    simp only [priv, decide_eq_false_iff_not, not_and_or, Nat.not_le, Nat.not_lt] at ha
    have := a.isLt
    have := (s0.rd 2#5).isLt
    have e : s0.rd 2#5 - 1#64 - a = BitVec.ofNat 64 p.total - 1#64 - (a - (s0.rd 2#5 - BitVec.ofNat 64 p.total)) := by
      simp only [BitVec.sub_eq_add_neg, BitVec.neg_add, BitVec.neg_neg]
      rw [show BitVec.ofNat 64 p.total + -1#64 + (-a + (s0.rd 2#5 + -BitVec.ofNat 64 p.total)) =
        s0.rd 2#5 + -1#64 + -a + (BitVec.ofNat 64 p.total + -BitVec.ofNat 64 p.total) by ac_rfl, BitVec.add_right_neg, BitVec.add_zero]
    rw [e]
    generalize a - (s0.rd 2#5 - BitVec.ofNat 64 p.total) = d at ha
    have := d.isLt
    simp only [BitVec.toNat_sub, BitVec.toNat_ofNat] at ha ⊢
    omega

/-! ## The items -/

theorem raw_split {cfg : Cfg} {p : Frame} {P : List Ins} (hw : WellFormed cfg p P) (regArg : Bool) (at' : Nat) :
    ∃ is e, raw cfg p regArg at' P = is ++ [.code e] := by
  obtain ⟨Q, r, hP, hr⟩ := hw.last
  have hc : ∀ mul, ∃ e, comp ⟨0, fun _ => .label 0⟩ cfg p mul [r] = [.code e] := by
    intro mul
    rcases hr with rfl | ⟨o, is32, src, rfl⟩
    · exact ⟨emitReturnVoid cfg p, by simp [comp, items, piece, emit, usize_ret]⟩
    · exact ⟨emitReturn cfg p o is32 src, by simp [comp, items, piece, emit, ret_ne]⟩
  obtain ⟨e, he⟩ := hc (mulAfter true Q)
  refine ⟨piece (emitEnter cfg p regArg at') ++ comp ⟨0, fun _ => .label 0⟩ cfg p true Q, e, ?_⟩
  rw [raw, hP, comp_append, he, List.append_assoc]

theorem raw_ok {cfg : Cfg} {p : Frame} {P : List Ins} (hw : WellFormed cfg p P) (regArg : Bool) (at' : Nat) :
    (∀ al, Item.alabel al ∉ raw cfg p regArg at' P) ∧ Prog.labels (raw cfg p regArg at' P) = nlab P ∧
    ∀ i ∈ raw cfg p regArg at' P, i.Ok cfg (nlab P) := by
  refine ⟨fun al h => ?_, ?_, fun i h => ?_⟩
  · rcases List.mem_append.mp h with h | h
    · cases (mem_piece h).1
    · exact no_alabel al h
  · rw [raw, labels_append, labels_piece, labels_comp, Nat.zero_add]
  · rcases List.mem_append.mp h with h | h
    · exact piece_ok (fun hc => ev_emitEnter hc _ _ _) h
    · refine comp_ok (fun i hi k hk => by have := hw.target i hi k hk; rwa [Nat.zero_add]) (fun i hi => ?_) i h
      cases i with
      | call => cases hw.calls _ hi
      | _ => trivial

/-- What code generation has done with a function. -/
theorem compiled {cfg : Cfg} {p : Frame} {P : List Ins} (hw : WellFormed cfg p P) (regArg : Bool) (at' : Nat) (base off : BitVec 64) (m0 : HMem)
    (hr : Room cfg (compile cfg p regArg at' P) base off) :
    ∃ r, generate cfg (compile cfg p regArg at' P) base off m0 = some r ∧ ∀ code, Loaded code base off r.m r.len → ∃ laddr ca,
      Placed code off laddr (raw cfg p regArg at' P) (base + off) 0 ca (base + off + BitVec.ofNat 64 (2 * r.len)) := by
  obtain ⟨a1, a2, a3⟩ := raw_ok hw regArg at'
  obtain ⟨r, g1, g2⟩ := linked a1 a2 a3 (raw_split hw regArg at') m0 hr
  refine ⟨r, g1, fun code hl => ?_⟩
  obtain ⟨laddr, ca, -, -, h⟩ := g2 code hl
  exact ⟨laddr, ca, h⟩

/-! ## The theorem -/

/-- **C48.**  A function is made with sljit_emit_enter, the calls `P` and sljit_generate_code; the code is loaded, its machine is at the
first instruction and the arguments are passed by the calling convention.

* Whatever the calls compute according to their description (`Steps` of the interpreter), the machine computes: at every point of the program
  that the interpreter reaches, the machine state agrees on the registers and the memory of the program.
* When the program returns, the machine arrives at the return address with the result in a0, with the stack pointer and the callee saved
  registers as they were, and with the memory that the program left, but for the private part of the stack frame.

There is no bound on the size of the program, the distance of its jumps, the number of steps or the values. -/
theorem c48_partial (cfg : Cfg) (p : Frame) (regArg : Bool) (ret : Nat) (args : List Arg) (P : List Ins) (base off : BitVec 64) (m0 : HMem)
    (hret : ret < 16) (hl : Legal p regArg args) (hw : WellFormed cfg p P) (hr : Room cfg (compile cfg p regArg (descr ret args) P) base off) :
    ∃ r, generate cfg (compile cfg p regArg (descr ret args) P) base off m0 = some r ∧
      ∀ (code : Code) (s0 : St) (vals : List Val), Loaded code base off r.m r.len → s0.pc = base + off → Passed args vals s0 →
        let pr := priv p (s0.rd 2#5 - BitVec.ofNat 64 p.total)
        let l0 := start p args vals (s0.rd 2#5) s0.mem
        (∀ rest l, Lir.Steps pr P (.run P l0) (.run rest l) → ∃ s, RV.Steps code s0 s ∧
          (∀ q, UserReg q → ∀ v, l.reg q = some v → s.rd (regMap q) = rep v) ∧ ∀ a, pr a = false → s.mem a = l.mem a) ∧
        (∀ v m, Lir.Steps pr P (.run P l0) (.done v m) → ∃ s, RV.Steps code s0 s ∧ Final p s0 v m s) := by
  obtain ⟨r, g1, g2⟩ := compiled hw regArg (descr ret args) base off m0 hr
  refine ⟨r, g1, fun code s0 vals hld hpc hpass => ?_⟩
  obtain ⟨laddr, ca, hpl⟩ := g2 code hld
  obtain ⟨c1, c2⟩ := placed_piece hpl
  obtain ⟨s1, e1, he⟩ := entered (cfg := cfg) hret hl s0
  obtain ⟨t1, t2, -, -, -, t3⟩ := c31 cfg p regArg ret args hret hl s0
  obtain rfl : t1 = s1 := Option.some.inj (t2.symm.trans e1)
  let L : Lir.Loc := ⟨⟨0, fun _ => .label 0⟩, true, [], code, off, laddr, base + off + BitVec.ofNat 64 (2 * r.len)⟩
  have hpl0 : L.has (comp L.u cfg p L.mul0 P) (base + off + BitVec.ofNat 64 (2 * (emitEnter cfg p regArg (descr ret args)).length)) 0 := ⟨ca, by rw [List.append_nil]; exact c2⟩
  have hA : At cfg p P L s0 t1 := by
    refine ⟨hl.frame, hw.ins, ⟨_, hpl0⟩, he.sp, ?_, ?_⟩
    · intro s2 hb hc
      obtain ⟨u, u1, u2⟩ := c30_return cfg p regArg ret args hret hl s0
      obtain rfl : u = t1 := Option.some.inj (u1.symm.trans e1)
      exact u2 s2 code hb hc
    · intro o is32 src ho hs s2 hb hc
      obtain ⟨u, u1, u2⟩ := c30_return_value cfg p regArg ret args hret hl o is32 src ho hs s0
      obtain rfl : u = t1 := Option.some.inj (u1.symm.trans e1)
      exact u2 s2 code hb hc
  have hs1 : RV.Steps code s0 t1 := steps_of_run (by rw [hpc]; exact c1) e1
  have hsim : Sim cfg p P L s0 t1 (.run P (start p args vals (s0.rd 2#5) s0.mem)) t1 := by
    refine ⟨⟨[], rfl, ?_, ⟨by rintro t ⟨⟩, by rintro f t ⟨⟩⟩⟩, start_inv hl he t3 hpass⟩
    rw [run_pc e1, hpc]
    exact hpl0
  simp only [← he.sp]
  refine ⟨fun rest l hst => ?_, fun v m hst => ?_⟩
  · obtain ⟨s, q1, -, q2⟩ := steps_ok hA hst t1 hsim
    exact ⟨s, hs1.trans q1, q2.reg, q2.mem⟩
  · obtain ⟨s, q1, q2⟩ := steps_ok hA hst t1 hsim
    exact ⟨s, hs1.trans q1, q2⟩

/-! ## A program that meets the hypotheses -/

namespace Demo

/-- `s = 0; do s += n; while (--n);  return s;` -/
def body : List Ins :=
  [.op1 .mov false (.reg 1) (.imm 0#64), .label, .op2 ⟨.add, false, false, .none⟩ (.reg 1) (.reg 1) (.reg 23),
   .op2 ⟨.sub, false, true, .none⟩ (.reg 23) (.reg 23) (.imm 1#64), .jump (some 1) false 0, .ret .mov false (.reg 1)]

def cfg : Cfg := ⟨true, false, false⟩
def frame : Frame := ⟨0, 1, 1, 0, 0, 16⟩
def args : List Arg := [.w false]

theorem legal : Legal frame false args := ⟨⟨by decide, by decide, by decide, by decide, by decide, by decide, by decide⟩, fun _ => rfl, by decide, by decide⟩

theorem wf : WellFormed cfg frame body := by
  refine ⟨?_, ?_, by decide, body.take 5, .ret .mov false (.reg 1), rfl, Or.inr ⟨_, _, _, rfl⟩⟩
  · intro i hi
    simp only [body, List.mem_cons, List.not_mem_nil, or_false] at hi
    rcases hi with rfl | rfl | rfl | rfl | rfl | rfl
    · exact ⟨by decide, trivial, Or.inl ⟨Or.inl rfl, by rintro ⟨h, -⟩; cases h⟩⟩
    · trivial
    · exact ⟨by decide, ⟨by decide, by decide⟩, ⟨by decide, by decide⟩, Or.inl (Or.inl rfl), Or.inl rfl,
        fun h => (nomatch h.1), fun h => (nomatch h.1)⟩
    · exact ⟨by decide, ⟨by decide, by decide⟩, trivial, Or.inl (Or.inr (Or.inr (Or.inl rfl))), trivial,
        fun h => (nomatch h.1), fun h => (nomatch h.1)⟩
    · show 1 < 14; decide
    · exact ⟨Or.inl rfl, by decide, by decide⟩
  · decide

theorem size : usize cfg (compile cfg frame false (descr 1 args) body) = 28 := by decide +kernel

theorem room : Room cfg (compile cfg frame false (descr 1 args) body) 0x10000#64 0#64 := by
  constructor
  · rw [size]; omega
  · rw [size]; simp
  · simp [cfg]
  · simp
  · rw [size]
    intro x hx
    have : (0x10000#64 + BitVec.ofNat 64 (2 * x) + 0#64).toNat = 0x10000 + 2 * x := by
      rw [BitVec.add_zero, BitVec.toNat_add, BitVec.toNat_ofNat]
      simp only [BitVec.toNat_ofNat]; omega
    simp only [badWindow, this]; omega

theorem loop (pr : BitVec 64 → Bool) : ∀ (k : Nat), 0 < k → k < 2 ^ 64 → ∀ (l : LSt) (a : BitVec 64), l.reg 1 = some (.w a) →
    l.reg 23 = some (.w (BitVec.ofNat 64 k)) →
    Lir.Steps pr body (.run (body.drop 2) l) (.done (some (.w (a + BitVec.ofNat 64 (k * (k + 1) / 2)))) l.mem) := by
  intro k
  induction k with
  | zero => intro h; omega
  | succ k ih =>
    intro _ hk l a h1 h23
    have e1 : Lir.step pr body (.run (body.drop 2) l) = some (.run (body.drop 3)
        ((l.setFlags ⟨.add, false, false, .none⟩ (a + BitVec.ofNat 64 (k + 1)) false).set 1 (.w (a + BitVec.ofNat 64 (k + 1))))) := by
      simp only [body, List.drop, Lir.step, Lir.exec, Lir.read, h1, h23, Option.bind_some, Val.get]; rfl
    refine .step e1 ?_
    generalize hl : (l.setFlags ⟨.add, false, false, .none⟩ (a + BitVec.ofNat 64 (k + 1)) false).set 1 (.w (a + BitVec.ofNat 64 (k + 1))) = l1
    have r1 : l1.reg 1 = some (.w (a + BitVec.ofNat 64 (k + 1))) := by rw [← hl]; rfl
    have r23 : l1.reg 23 = some (.w (BitVec.ofNat 64 (k + 1))) := by rw [← hl]; exact h23
    have rm : l1.mem = l.mem := by rw [← hl]; rfl
    have e2 : Lir.step pr body (.run (body.drop 3) l1) = some (.run (body.drop 4)
        ((l1.setFlags ⟨.sub, false, true, .none⟩ (val .sub (BitVec.ofNat 64 (k + 1)) 1#64 false) false).set 23 (.w (val .sub (BitVec.ofNat 64 (k + 1)) 1#64 false)))) := by
      simp only [body, List.drop, Lir.step, Lir.exec, Lir.read, r23, Option.bind_some, Val.get]; rfl
    refine .step e2 ?_
    have ek : val .sub (BitVec.ofNat 64 (k + 1)) 1#64 false = BitVec.ofNat 64 k := by
      show BitVec.ofInt 64 (((BitVec.ofNat 64 (k + 1)).toNat : Int) - ((1#64).toNat : Int)) = BitVec.ofNat 64 k
      rw [BitVec.toNat_ofNat, Nat.mod_eq_of_lt hk, show ((k + 1 : Nat) : Int) - ((1#64).toNat : Int) = ((k : Nat) : Int) by simp]
      exact BitVec.ofInt_natCast 64 k
    have e2' : ∀ r : BitVec 64, r = BitVec.ofNat 64 k → (l1.setFlags ⟨.sub, false, true, .none⟩ r false).set 23 (.w r) =
        (l1.setFlags ⟨.sub, false, true, .none⟩ (BitVec.ofNat 64 k) false).set 23 (.w (BitVec.ofNat 64 k)) := by rintro _ rfl; rfl
    rw [show ((l1.setFlags ⟨.sub, false, true, .none⟩ (val .sub (BitVec.ofNat 64 (k + 1)) 1#64 false) false).set 23
      (.w (val .sub (BitVec.ofNat 64 (k + 1)) 1#64 false))) = _ from e2' _ ek]
    generalize hl2 : (l1.setFlags ⟨.sub, false, true, .none⟩ (BitVec.ofNat 64 k) false).set 23 (.w (BitVec.ofNat 64 k)) = l2
    have q1 : l2.reg 1 = some (.w (a + BitVec.ofNat 64 (k + 1))) := by rw [← hl2]; exact r1
    have q23 : l2.reg 23 = some (.w (BitVec.ofNat 64 k)) := by rw [← hl2]; rfl
    have qm : l2.mem = l.mem := by rw [← hl2]; exact rm
    have qz : l2.z = some (decide (BitVec.ofNat 64 k = 0#64)) := by rw [← hl2]; rfl
    have e3 : Lir.step pr body (.run (body.drop 4) l2) =
        some (if k = 0 then .run (body.drop 5) l2 else .run (body.drop 2) l2.noFlags) := by
      have hc : Lir.cond l2 1 = some (!decide (BitVec.ofNat 64 k = 0#64)) := by simp [Lir.cond, qz]
      have hz : BitVec.ofNat 64 k = 0#64 ↔ k = 0 := by
        constructor
        · intro h; have := congrArg BitVec.toNat h; simp at this; omega
        · rintro rfl; rfl
      simp only [body, List.drop, Lir.step, hc, Option.bind_some, hz]
      by_cases h : k = 0
      · simp [h]
      · simp only [h, decide_false, Bool.not_false, if_true, if_false]; rfl
    refine .step e3 ?_
    by_cases h0 : k = 0
    · subst h0
      simp only [if_true]
      have e4 : Lir.step pr body (.run (body.drop 5) l2) = some (.done (some (.w (a + 1#64))) l.mem) := by
        simp only [body, List.drop, Lir.step, returned, unary, Lir.read, q1, qm, Option.bind_some, Val.get]; rfl
      exact .step e4 (.refl _)
    · rw [if_neg h0]
      have := ih (by omega) (by omega) l2.noFlags _ q1 q23
      rw [show l2.noFlags.mem = l.mem from qm, BitVec.add_assoc, ← BitVec.ofNat_add] at this
      have e : k + 1 + k * (k + 1) / 2 = (k + 1) * (k + 1 + 1) / 2 := by
        rw [show (k + 1) * (k + 1 + 1) = k * (k + 1) + (k + 1) * 2 by simp only [Nat.add_mul, Nat.mul_add]; omega, Nat.add_mul_div_right _ _ (by decide)]; omega
      rw [e] at this
      exact this

/-- The machine code of the loop, called with any `n > 0`, returns `1 + 2 + … + n`. -/
theorem sum (m0 : HMem) : ∃ r, generate cfg (compile cfg frame false (descr 1 args) body) 0x10000#64 0#64 m0 = some r ∧
    ∀ (code : Code) (s0 : St) (n : Nat), Loaded code 0x10000#64 0#64 r.m r.len → s0.pc = 0x10000#64 → 0 < n → n < 2 ^ 64 →
      s0.rd 10#5 = BitVec.ofNat 64 n →
      ∃ s, RV.Steps code s0 s ∧ s.pc = s0.rd 1#5 &&& ~~~1#64 ∧ s.rd 10#5 = BitVec.ofNat 64 (n * (n + 1) / 2) ∧ s.rd 2#5 = s0.rd 2#5 := by
  obtain ⟨r, h1, h2⟩ := c48_partial cfg frame false 1 args body 0x10000#64 0#64 m0 (by decide) legal wf room
  refine ⟨r, h1, fun code s0 n hl hpc h0 hn ha => ?_⟩
  have hp : Passed args [.w (BitVec.ofNat 64 n)] s0 := by
    intro k a v e1 _ e3
    match k with
    | 0 => rw [← Option.some.inj e3]; exact ha
    | k + 1 => cases e1
  obtain ⟨-, h3⟩ := h2 code s0 [.w (BitVec.ofNat 64 n)] hl (by rw [hpc]; rfl) hp
  have e1 : ∀ pr l, Lir.step pr body (.run body l) = some (.run (body.drop 1) (l.set 1 (.w 0#64))) := fun _ _ => rfl
  have e2 : ∀ pr l, Lir.step pr body (.run (body.drop 1) l) = some (.run (body.drop 2) l.noFlags) := fun _ _ => rfl
  obtain ⟨s, g1, g2⟩ := h3 _ _ (.step (e1 _ _) (.step (e2 _ _) (loop _ n h0 hn _ 0#64 rfl rfl)))
  refine ⟨s, g1, g2.pc, ?_, g2.sp⟩
  rw [g2.value _ rfl, BitVec.zero_add]; rfl

end Demo

end Verif.Props.C48
