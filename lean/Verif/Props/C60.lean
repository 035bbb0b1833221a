import Verif.AProg.Patch
import Verif.Prog.PatchDemo

/-!
# C60: changing jumps of generated code (ARM64)

The specification is `Verif.Prog.Patch`: the program with the other target, whose meaning is the one of C56.
-/

namespace Verif.Props.C60
open Verif.A64 hiding cond moved DstOk
open Verif.Props Verif.ALir
open Verif.Lir (nlab does Contract within Goal mem_set_or)

/-! ## Items -/

/-- sljit_set_jump_addr: a program has a rewritable jump (or call), and its code is in memory.  Storing the four words for `t` at the address of the jump gives, word for word, the code which
sljit_generate_code makes at the same place for the program that has the jump to `t` instead; labels, constants and jumps have the same addresses.  So does the address of another label of the
program.  Missing from the full statement: the exceptions of C53. -/
theorem c60_jump_partial (xs ys : List Item) (sk : Option Skip) (cl : Bool) (tg tg' : Tgt) (base off : BitVec 64)
    (hp : Prog.Ok (Prog.labels (xs ++ .jump ⟨sk, cl, true, tg⟩ :: ys)) (xs ++ .jump ⟨sk, cl, true, tg⟩ :: ys)) (hr : A64.Room (xs ++ .jump ⟨sk, cl, true, tg⟩ :: ys) base off)
    (ht : tg'.Ok (Prog.labels (xs ++ .jump ⟨sk, cl, true, tg⟩ :: ys))) :
    ∃ r, generate (xs ++ .jump ⟨sk, cl, true, tg⟩ :: ys) base off = some r ∧ ∃ x, r.jaddr[recs xs]? = some x ∧
      ∃ r', generate (xs ++ .jump ⟨sk, cl, true, tg'⟩ :: ys) base off = some r' ∧ r'.laddr = r.laddr ∧ r'.caddr = r.caddr ∧ r'.jaddr = r.jaddr ∧
      ∀ c, WordsAt c (base + off) r.code → WordsAt (setJump c (base + off + BitVec.ofNat 64 (4 * x)) (tgtOf r.laddr tg')) (base + off) r'.code := by
  obtain ⟨r, g1, g2, g3, -⟩ := C53.c53_partial _ base off hp hr
  obtain ⟨P, S, q1, q2, q3⟩ := generate_swap hp hr ht g1
  refine ⟨r, g1, P.length, q1, _, q3, rfl, rfl, rfl, fun c hc => ?_⟩
  have := hr.2.1
  rw [q2] at hc g2
  exact setJump_words hc (by omega)

/-! ## Functions -/

/-- The address to which a changed jump has to go: sljit_get_label_addr of the label, or of the label in front of the function. -/
def goalAddr (fs : List AFn) (laddr : List (BitVec 64)) (q : Lir.Patch) : BitVec 64 :=
  match q.goal with
  | .label k => laddr.getD ((lmap false 0 (C56.rawAll fs)).getD (entry fs q.fn + 1 + k) 0) 0#64
  | .fn f => C56.addrOf fs laddr f

/-- sljit_set_jump_addr(sljit_get_jump_addr(jump), address of the new target). -/
def apply (fs : List AFn) (r : GenResult) (a0 : BitVec 64) (c : IMem) (q : Lir.Patch) : IMem :=
  setJump c (a0 + BitVec.ofNat 64 (4 * r.jaddr.getD (Lir.recordOf (fs.map (·.body)) q) 0)) (goalAddr fs r.laddr q)

/-- **C60.**  Functions are made with one compiler as in C56, their code is in memory, and sljit_set_jump_addr is used any number of times on jumps and calls which have been made with
SLJIT_REWRITABLE_JUMP, with the address of another label of the function or of another function.  Then the code does what the functions with these targets say (C56), for all arguments, all
states of the caller, every depth of nested calls; the functions have the addresses which they had before.  Partial: the calls of C56, targets which belong to the compiler, no changes while the code
runs. -/
theorem c60_partial {fs : List AFn} (hm : C56.ModuleOk fs) :
    ∃ items, compileAll fs = some items ∧ ∀ base off, A64.Room items base off →
    ∃ r, generate items base off = some r ∧ ∀ (c : IMem), WordsAt c (base + off) r.code →
      ∀ (qs : List Lir.Patch) (bodies : List (List Lir.Ins)), Lir.repatchAll (fs.map (·.body)) qs = some bodies →
      let c' := qs.foldl (apply fs r (base + off)) c
      ∀ ext : BitVec 64 → Contract, (∀ a, Realises c' a (ext a)) → ∀ n a,
        Realises c' a (does ((rebody fs bodies).map AFn.view) (C56.addrOf fs r.laddr) 0 ext n a) := by
  have hraw : ∀ {fs}, C56.ModuleOk fs → mods (fun i => .label (entry fs i)) 0 .none fs = some (C56.rawAll fs) := fun hm => mods_eq hm.regs hm.ins
  refine ⟨link (C56.rawAll fs), by rw [compileAll, hraw hm]; rfl, fun base off hr => ?_⟩
  obtain ⟨r, g1, -⟩ := (made hm hr).gen
  refine ⟨r, g1, fun c hc qs bodies hq => ?_⟩
  have h0 : InMem fs r base off fs c := ⟨.refl fs, hm, hr, rfl, r, g1, rfl, rfl, hc⟩
  have hall : ∀ (qs : List Lir.Patch) (fs1 : List AFn) (c : IMem), InMem fs r base off fs1 c → Lir.repatchAll (fs1.map (·.body)) qs = some bodies →
      ∃ fs2, fs2.map (·.body) = bodies ∧ InMem fs r base off fs2 (qs.foldl (apply fs r (base + off)) c) := by
    intro qs
    induction qs with
    | nil =>
      intro fs1 c h1 hq
      exact ⟨fs1, Option.some.inj hq, h1⟩
    | cons q qs ih =>
      intro fs1 c h1 hq
      obtain ⟨b, hq1, hq2⟩ := Option.bind_eq_some_iff.mp hq
      obtain ⟨fs2, k', e1, e2, e3, h2⟩ := h1.step hq1
      rw [← e1] at hq2
      refine ih fs2 _ ?_ hq2
      have eg : goalAddr fs r.laddr q = r.laddr.getD ((lmap false 0 (C56.rawAll fs)).getD k' 0) 0#64 := by
        unfold goalAddr
        cases hg : q.goal with
        | label k =>
          rw [hg] at e2
          have : entry fs q.fn + 1 + k = k' := by simpa [goalLabel] using e2
          rw [← this]
        | fn g =>
          rw [hg] at e2
          have : entry fs g = k' := by simpa [goalLabel] using e2
          show C56.addrOf fs r.laddr g = _
          rw [C56.addrOf, if_pos (e3 g hg), this]
      rw [apply, eg]
      exact h2
  obtain ⟨fs2, e2, h2⟩ := hall qs fs c h0 hq
  intro c'
  obtain ⟨items, i1, i2⟩ := C56.c56_partial h2.ok
  have hit : items = link (C56.rawAll fs2) := by
    rw [compileAll, hraw h2.ok] at i1
    exact (Option.some.inj i1).symm
  subst hit
  obtain ⟨r2, j1, j2⟩ := i2 base off h2.room
  obtain ⟨r3, k1, k2, k3, k4⟩ := h2.gen
  obtain rfl := Option.some.inj (j1.symm.trans k1)
  have j3 := j2 c' k4
  have henv : C56.addrOf fs2 r2.laddr = C56.addrOf fs r.laddr := by
    funext i
    rw [C56.addrOf, C56.addrOf, h2.kin.length, h2.kin.entry, k2, h2.lmap]
  simp only [henv] at j3
  rw [← e2, h2.kin.rebody_eq]
  exact j3

/-! ## A case -/

namespace Demo
open Verif.Lir.PatchDemo (bodies body1 body2 p1 p2)

def fs : List AFn := bodies.map fun b => ⟨⟨0, 1, 1, 0, 0, 0⟩, [], b⟩

theorem ok : C56.ModuleOk fs := by
  have all : ∀ {Q : AFn → Prop}, (∀ b ∈ bodies, Q ⟨⟨0, 1, 1, 0, 0, 0⟩, [], b⟩) → ∀ f ∈ fs, Q f := by
    intro Q h f hf
    obtain ⟨b, hb, rfl⟩ := List.mem_map.mp hf
    exact h b hb
  have hret : ∀ (st : FState) v, InsOk ⟨0, 1, 1, 0, 0, 0⟩ st (.ret .mov false (.imm v)) := fun st v => ⟨by simp [C47.IsMove], by decide, trivial⟩
  have hcall : ∀ st : FState, InsOk ⟨0, 1, 1, 0, 0, 0⟩ st (.call [] (some false) true (.fn 1)) := fun st => ⟨by decide, by decide⟩
  have hreg : ∀ st : FState, InsOk ⟨0, 1, 1, 0, 0, 0⟩ st (.ret .mov false (.reg 1)) := fun st => ⟨by simp [C47.IsMove], by decide, by decide⟩
  have hlegal : C54.Legal ⟨0, 1, 1, 0, 0, 0⟩ false [] := ⟨by decide, by decide, by decide, by decide, by decide, by decide, fun _ => rfl, by decide, by decide⟩
  have hregs : Regs ⟨0, 1, 1, 0, 0, 0⟩ := ⟨by decide, by decide⟩
  refine ⟨by simp [fs, bodies], all fun _ _ => hlegal, all fun _ _ => hregs, ⟨⟨trivial, trivial, hcall _, hreg _, trivial, hret _ _, trivial⟩, ⟨hret _ _, trivial⟩, ⟨hret _ _, trivial⟩, trivial⟩,
    all (by decide), all ?_, all ?_⟩
  · intro b hb i hi as ret rew k e
    subst e
    simp only [bodies, Lir.PatchDemo.body, Lir.PatchDemo.const, List.mem_cons, List.not_mem_nil, or_false] at hb
    rcases hb with rfl | rfl | rfl <;> simp only [List.mem_cons, List.not_mem_nil, or_false, reduceCtorEq, false_or, Lir.Ins.call.injEq, Lir.Callee.fn.injEq] at hi
    rw [hi.2.2.2]; decide
  · intro b hb
    simp only [bodies, List.mem_cons, List.not_mem_nil, or_false] at hb
    rcases hb with rfl | rfl | rfl
    · exact ⟨Lir.PatchDemo.body.dropLast, _, rfl, trivial⟩
    · exact ⟨[], _, rfl, trivial⟩
    · exact ⟨[], _, rfl, trivial⟩

/-- The machine code returns 2 after the call has been changed, and 7 after the jump has been changed as well. -/
theorem returns : ∃ items, compileAll fs = some items ∧ ∃ r, generate items 0x10000#64 0#64 = some r ∧
    ∀ (c : IMem) (m0 : MSt), WordsAt c 0x10000#64 r.code → C54.Aligned m0 →
      (∃ t, PSteps (apply fs r 0x10000#64 c p1) ⟨m0.s, m0.v, 0x10000#64⟩ t ∧ t.pc = m0.s.r 30#5 ∧ t.s.r 0#5 = 2#64) ∧
      ∃ t, PSteps (apply fs r 0x10000#64 (apply fs r 0x10000#64 c p1) p2) ⟨m0.s, m0.v, 0x10000#64⟩ t ∧ t.pc = m0.s.r 30#5 ∧ t.s.r 0#5 = 7#64 := by
  obtain ⟨items, hc, h⟩ := c60_partial ok
  refine ⟨items, hc, ?_⟩
  have hroom : A64.Room items 0x10000#64 0#64 := by
    have : (compileAll fs).all (fun is => decide (A64.Room is 0x10000#64 0#64)) = true := by decide +kernel
    rw [hc] at this
    simpa using this
  obtain ⟨r, h1, h2⟩ := h _ _ hroom
  have ha : C56.addrOf fs r.laddr 0 = 0x10000#64 := by
    have : ((compileAll fs).bind fun is => (generate is 0x10000#64 0#64).map fun r => C56.addrOf fs r.laddr 0) = some 0x10000#64 := by decide +kernel
    rw [hc, Option.bind_some, h1] at this
    exact Option.some.inj this
  refine ⟨r, h1, fun c m0 hb hal => ⟨?_, ?_⟩⟩
  · have hr := h2 c hb [p1] _ Lir.PatchDemo.patched1 (fun _ _ _ _ _ _ _ _ => False) (fun _ _ _ _ _ _ _ _ _ _ _ _ _ hx => hx.elim) 2 (C56.addrOf fs r.laddr 0)
    have hs := Lir.PatchDemo.does1 (size := 32) (lo := 16) (slot := 0) (env := C56.addrOf fs r.laddr) (ext := fun _ _ _ _ _ _ _ _ => False)
      (fun _ => true) (m0.s.r 31#5) 64 m0.s.m (by omega)
    obtain ⟨t, t1, t2⟩ := hr m0 _ _ _ _ _ _ hal (by omega) (fun q hq => rfl) (fun k u hk e => by cases e) (fun q _ => rfl) hs
    rw [ha] at t1
    exact ⟨t, t1, t2.pc, t2.value _ rfl⟩
  · have hr := h2 c hb [p1, p2] _ Lir.PatchDemo.patched2 (fun _ _ _ _ _ _ _ _ => False) (fun _ _ _ _ _ _ _ _ _ _ _ _ _ hx => hx.elim) 1 (C56.addrOf fs r.laddr 0)
    have hs := Lir.PatchDemo.does2 (size := 32) (lo := 16) (slot := 0) (env := C56.addrOf fs r.laddr) (ext := fun _ _ _ _ _ _ _ _ => False)
      (fun _ => true) (m0.s.r 31#5) 64 m0.s.m (by omega)
    obtain ⟨t, t1, t2⟩ := hr m0 _ _ _ _ _ _ hal (by omega) (fun q hq => rfl) (fun k u hk e => by cases e) (fun q _ => rfl) hs
    rw [ha] at t1
    exact ⟨t, t1, t2.pc, t2.value _ rfl⟩

/-- The demo of C53 has a rewritable jump behind a conditional branch and meets the hypotheses of `c60_jump_partial`, with another label as the target. -/
theorem items_ok : (∃ xs ys, C53.demo = xs ++ .jump ⟨some (.cc 11#4), false, true, .label 0⟩ :: ys) ∧ Tgt.Ok (Prog.labels C53.demo) (.label 1) ∧
    Prog.Ok (Prog.labels C53.demo) C53.demo ∧ A64.Room C53.demo 0x10000#64 0x7f0000000000#64 :=
  ⟨⟨C53.demo.take 11, C53.demo.drop 12, rfl⟩, by decide +kernel, C53.demo_ok.1, C53.demo_ok.2⟩

end Demo

end Verif.Props.C60
