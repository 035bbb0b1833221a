import Verif.AProg.Module
import Verif.Prog.CallDemo

/-!
# C56: functions that call each other, on ARM64

The specification is `Verif.Prog.Calls`: a call (sljit_emit_call, sljit_emit_icall) runs the function which it calls with the values of SLJIT_R0, SLJIT_R1, … as
arguments; the saved registers and the local variables of the caller survive, the scratch registers do not.  The code is what one compiler and `generate` put into memory.
-/

namespace Verif.Props.C56
open Verif.A64 hiding cond moved DstOk
open Verif.Props Verif.ALir
open Verif.Lir (Val nlab Contract Fn Mem)

/-- The functions of a compiler: the parameters of sljit_emit_enter are legal, the calls of the bodies are covered, jumps go to labels of the same function, the functions
which are called exist, and execution does not run off the end of a function. -/
structure ModuleOk (fs : List AFn) : Prop where
  ne : fs ≠ []
  legal : ∀ f ∈ fs, C54.Legal f.p false f.args
  regs : ∀ f ∈ fs, Regs f.p
  ins : Covered .none fs
  target : ∀ f ∈ fs, ∀ i ∈ f.body, ∀ k, i.target = some k → k < nlab f.body
  callee : ∀ f ∈ fs, ∀ i ∈ f.body, ∀ as ret rew k, i = .call as ret rew (.fn k) → k < fs.length
  ends : ∀ f ∈ fs, Ends f.body

/-- The raw items of the compiler. -/
def rawAll (fs : List AFn) : List Item := modsT (fun i => .label (entry fs i)) 0 .none fs

/-- The address of a function: sljit_get_label_addr of the label in front of it (`sljit_emit_label` may have returned an earlier label). -/
def addrOf (fs : List AFn) (laddr : List (BitVec 64)) (i : Nat) : BitVec 64 :=
  if i < fs.length then laddr.getD ((lmap false 0 (rawAll fs)).getD (entry fs i) 0) 0#64 else 0#64

/-- **C56.**  Functions are made with one compiler; each consists of sljit_emit_label, sljit_emit_enter and the calls of its body, which may call each other, in any
order and recursively (sljit_emit_call), and other functions (sljit_emit_icall).  The generated code is in memory.  Then the code at the address of a function does
what the calls of the function say, for all arguments, all states of the caller and every depth `n` of nested calls, as long as the stack has room (`D` bytes):

* it returns to the address in x30 with the result in x0, with sp, x29, x19-x28 and d8-d15 unchanged;
* the memory that the caller shares has the contents which the calls describe;
* memory which the caller keeps to itself (its stack frame, the frames of its callers) does not change.

Other functions (`ext`) may be anything that follows the calling convention in the same way.  Partial: the calls of `InsOk`, at most four arguments, no
floating point arguments, at most 23 registers (`Regs`), SLJIT_CALL only (no SLJIT_CALL_REG_ARG, no tail calls). -/
theorem c56_partial {fs : List AFn} (hm : ModuleOk fs) : ∃ items, compileAll fs = some items ∧ ∀ base off, A64.Room items base off →
    ∃ r, generate items base off = some r ∧ ∀ (c : IMem), WordsAt c (base + off) r.code →
      let env := addrOf fs r.laddr
      ∀ ext : BitVec 64 → Contract, (∀ a, Realises c a (ext a)) → ∀ n a, Realises c a (Lir.does (fs.map AFn.view) env 0 ext n a) := by
  have hraw : mods (fun i => .label (entry fs i)) 0 .none fs = some (rawAll fs) := mods_eq hm.regs hm.ins
  have a2 : Prog.labels (rawAll fs) = total fs := labels_mods
  have a3 : ∀ i ∈ rawAll fs, Plain (total fs) i := by
    refine mods_plain hm.ins hm.target (fun f hf i hi u hu => ?_) (by omega)
    cases i with
    | call as ret rew who =>
      cases who with
      | fn k =>
        have := hm.callee f hf _ hi as ret rew k rfl
        show (u.fn k).Ok _ ∧ (u.fn k).Aligned
        rw [hu]
        exact ⟨entry_lt this, trivial⟩
      | opd => trivial
    | _ => trivial
  have a4 : CondOk (rawAll fs) := by
    obtain ⟨ys, x, e, h1, h2⟩ := mods_last (fn := fun i => .label (entry fs i)) (n := 0) hm.ne hm.regs hm.ins hm.ends
    rw [rawAll, e]
    exact CondOk.last h1 h2 _
  refine ⟨link (rawAll fs), by rw [compileAll, hraw]; rfl, fun base off hr => ?_⟩
  obtain ⟨r, g1, g2⟩ := linked a2 a3 a4 hr
  refine ⟨r, g1, fun c hc => ?_⟩
  obtain ⟨laddr, ca, ja, hla, hpl⟩ := g2 c hc
  intro env ext hext n
  have henv : ∀ i, env i = laddr.getD (entry fs i) 0#64 := by
    intro i
    show addrOf fs r.laddr i = _
    unfold addrOf
    split
    · next h => rw [hla _ (entry_lt h)]
    · next h =>
      have hlen : laddr.length = total fs := by
        obtain ⟨a', ca', ja', q⟩ := ALir.placed_suffix (rawAll fs) (is := []) (by rw [List.append_nil]; exact hpl)
        rw [a2, Nat.zero_add] at q
        exact q.2.1.symm
      have he : entry fs i = total fs := by rw [entry, total, List.take_of_length_le (by omega)]
      rw [List.getD_eq_getElem?_getD, List.getElem?_eq_none (by omega)]; rfl
  induction n with
  | zero => exact hext
  | succ n ih =>
    intro a m0 pr D vals m v m' h1 h2 h3 h4 h5 hx
    rcases hx with hx | ⟨i, f', hf, he, hx⟩
    · exact hext a m0 pr D vals m v m' h1 h2 h3 h4 h5 hx
    · rw [List.getElem?_map] at hf
      obtain ⟨f, hf', rfl⟩ := Option.map_eq_some_iff.mp hf
      obtain ⟨st', tail, b, q1, q2, q3⟩ := fn_at hm.ins hpl i f hf'
      have hmem : f ∈ fs := List.mem_of_getElem? hf'
      have eb : a = b := by
        rw [← he, henv, List.getD_eq_getElem?_getD]
        rw [Nat.zero_add] at q1
        rw [q1]; rfl
      rw [eb]
      exact fn_ok (L := ⟨⟨0 + entry fs i + 1, fun i => .label (entry fs i)⟩, st', tail, c, off, base + off, laddr, base + off + BitVec.ofNat 64 (4 * r.code.length)⟩)
        (hm.legal f hmem) (hm.regs f hmem) q2 henv ih q3 m0 pr D vals m v m' h1 h2 h3 h4 h5 hx

/-! ## A recursive function -/

namespace Demo

def rec : AFn := ⟨⟨0, 1, 1, 0, 0, 0⟩, [false], Lir.Demo.body⟩

theorem ok : ModuleOk [rec] := by
  have one : ∀ {Q : AFn → Prop}, Q rec → ∀ f ∈ [rec], Q f := by
    intro Q h f hf
    rw [List.mem_singleton.mp hf]; exact h
  refine ⟨by simp, one ?_, one ⟨by decide, by decide⟩, ⟨⟨?_, ?_, ?_, ?_, ?_, trivial, ?_, trivial⟩, trivial⟩, one (by decide), one ?_, one ⟨Lir.Demo.body.dropLast, _, rfl, trivial⟩⟩
  · exact ⟨by decide, by decide, by decide, by decide, by decide, by decide, fun _ => rfl, by decide, by decide⟩
  · exact ⟨by decide, by decide, trivial⟩
  · exact ⟨by decide, by decide, by decide, by decide, trivial, by rintro ⟨⟩, by rintro ⟨⟩⟩
  · exact ⟨by decide, by decide⟩
  · exact ⟨by decide, by decide, by decide, by decide, Or.inl rfl, by rintro ⟨⟩, by rintro ⟨⟩⟩
  · exact ⟨by simp [C47.IsMove], by decide, by decide⟩
  · exact ⟨by simp [C47.IsMove], by decide, by decide⟩
  · intro i hi as ret rew k e
    subst e
    simp only [rec, Lir.Demo.body, List.mem_cons, List.not_mem_nil, or_false, reduceCtorEq, false_or, Lir.Ins.call.injEq, Lir.Callee.fn.injEq] at hi
    have : k = 0 := hi.2.2.2
    subst this; decide

/-- The machine code of the recursive function, called with any `n` for which there is stack, returns `1 + 2 + … + n`, and does not change memory but for the stack below. -/
theorem sum : ∃ items, compileAll [rec] = some items ∧ ∃ r, generate items 0x10000#64 0#64 = some r ∧ addrOf [rec] r.laddr 0 = 0x10000#64 ∧
    ∀ (c : IMem) (m0 : MSt) (n : Nat), WordsAt c 0x10000#64 r.code → C54.Aligned m0 → (n + 1) * 32 < 2 ^ 64 → m0.s.r 0#5 = BitVec.ofNat 64 n →
      ∃ t, PSteps c ⟨m0.s, m0.v, 0x10000#64⟩ t ∧ t.pc = m0.s.r 30#5 ∧ t.s.r 0#5 = BitVec.ofNat 64 (n * (n + 1) / 2) ∧ t.s.r 31#5 = m0.s.r 31#5 ∧
        t.s.r 19#5 = m0.s.r 19#5 ∧ ∀ q, Lir.within (m0.s.r 31#5 - BitVec.ofNat 64 ((n + 1) * 32)) ((n + 1) * 32) q = false → t.s.m q = m0.s.m q := by
  obtain ⟨items, hc, h⟩ := c56_partial ok
  refine ⟨items, hc, ?_⟩
  have hroom : A64.Room items 0x10000#64 0#64 := by
    have : (compileAll [rec]).all (fun is => decide (A64.Room is 0x10000#64 0#64)) = true := by decide +kernel
    rw [hc] at this
    simpa using this
  obtain ⟨r, h1, h2⟩ := h _ _ hroom
  have ha : addrOf [rec] r.laddr 0 = 0x10000#64 := by
    have : ((compileAll [rec]).bind fun is => (generate is 0x10000#64 0#64).map fun r => addrOf [rec] r.laddr 0) = some 0x10000#64 := by decide +kernel
    rw [hc, Option.bind_some, h1] at this
    exact Option.some.inj this
  refine ⟨r, h1, ha, fun c m0 n hb hal hn hx => ?_⟩
  have hr := h2 c hb (fun _ _ _ _ _ _ _ _ => False) (fun _ _ _ _ _ _ _ _ _ _ _ _ _ hx => hx.elim) (n + 1) (addrOf [rec] r.laddr 0)
  have hs := Lir.Demo.sum (size := 32) (lo := 16) (slot := 0) (env := addrOf [rec] r.laddr) (ext := fun _ _ _ _ _ _ _ _ => False) n (by omega)
    (Lir.within (m0.s.r 31#5 - BitVec.ofNat 64 ((n + 1) * 32)) ((n + 1) * 32)) (m0.s.r 31#5) ((n + 1) * 32) m0.s.m (by omega)
  obtain ⟨t, t1, t2⟩ := hr m0 _ _ _ _ _ _ hal hn (fun q hq => hq) (fun k u hk e => by
    match k with
    | 0 => rw [← Option.some.inj e]; exact hx
    | k + 1 => cases e) (fun q _ => rfl) hs
  rw [ha] at t1
  exact ⟨t, t1, t2.pc, t2.value _ rfl, t2.sp, t2.saved 19 (by decide) (by decide), t2.mem⟩

/-- A function which is not made with the compiler: RET alone, at an address `a`, returns its first argument. -/
theorem external {c : IMem} {a : BitVec 64} (h : c a = 0xd65f03c0#32) : Realises c a (fun _ _ _ vals m v m' => v = vals[0]? ∧ m' = m) := by
  rintro m0 pr D vals m v m' - - - h4 h5 ⟨rfl, rfl⟩
  have q := pstep_ctl (c := c) (p := ⟨m0.s, m0.v, a⟩) (k := .br false 30#5) h (by decide)
  refine ⟨_, .one q, ?_, fun u e => h4 0 u (by decide) e, rfl, rfl, fun _ _ _ => rfl, fun _ _ _ => rfl, h5, fun _ _ _ => rfl⟩
  show m0.s.x 30#5 = m0.s.r 30#5
  exact if_neg (by decide)

end Demo

end Verif.Props.C56
