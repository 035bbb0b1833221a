import Verif.Prog.PatchLink
import Verif.Prog.PatchDemo

/-!
# C61: changing jumps of generated code (RV64)

The specification is `Verif.Prog.Patch`: the program with the other target, whose meaning is the one of C57.
-/

namespace Verif.Props.C61
open Verif.RV Verif.Props Verif.Props.Rv Verif.Lir

/-! ## Items -/

/-- sljit_set_jump_addr: a program has a rewritable jump (or call), and its code is in memory.  sljit_set_jump_addr with the address of `t` at the address of the jump meets its assertions and
gives, half word for half word, the code which sljit_generate_code makes at the same place for the program that has the jump to `t` instead; labels, constants and jumps have the same addresses.
Missing from the full statement: the exceptions of C18. -/
theorem c61_jump_partial (cfg : Cfg) (xs ys : List Item) (br : Br) (cl : Bool) (tg tg' : Tgt) (base off : BitVec 64) (m0 : HMem)
    (hp : Prog.Ok cfg (Prog.labels (xs ++ .jump ⟨br, true, cl, tg⟩ :: ys)) (xs ++ .jump ⟨br, true, cl, tg⟩ :: ys)) (ht : Prog.Tail (xs ++ .jump ⟨br, true, cl, tg⟩ :: ys))
    (hr : Room cfg (xs ++ .jump ⟨br, true, cl, tg⟩ :: ys) base off) (hend : off = 0#64 ∨ ¬ Prog.endsInLabel (xs ++ .jump ⟨br, true, cl, tg⟩ :: ys)) :
    ∃ r, generate cfg (xs ++ .jump ⟨br, true, cl, tg⟩ :: ys) base off m0 = some r ∧ ∃ x, r.jaddr[recs xs]? = some x ∧
      ∃ r', generate cfg (xs ++ .jump ⟨br, true, cl, tg'⟩ :: ys) base off m0 = some r' ∧ r'.len = r.len ∧ r'.laddr = r.laddr ∧ r'.caddr = r.caddr ∧ r'.jaddr = r.jaddr ∧
      ∀ c, Loaded c base off r.m r.len →
        ∃ c', setJumpAddr c (base + off + BitVec.ofNat 64 (2 * x)) (tgtOf r.laddr tg') = some c' ∧ Loaded c' base off r'.m r'.len := by
  obtain ⟨r, g1, g2, -⟩ := generate_spec cfg _ base off m0 hp ht hr hend
  obtain ⟨x, m', p1, p2, p3, p4, p5, p6⟩ := generate_swap (t' := tg') hp ht hr hend g1
  refine ⟨r, g1, x, p1, _, p4, rfl, rfl, rfl, rfl, fun c hc => ?_⟩
  have := hr.small
  have e : tgtAddr r.laddr tg' = tgtOf r.laddr tg' := by cases tg' <;> rfl
  rw [e] at p5
  exact setJump_loaded (len := r.len) (by cases cl <;> simp) hc p2 (by omega) p3 p5 p6

/-! ## Functions -/

/-- The address to which a changed jump has to go: sljit_get_label_addr of the label, or of the label in front of the function. -/
def goalAddr (cfg : Cfg) (fs : List RFn) (laddr : List (BitVec 64)) (q : Lir.Patch) : BitVec 64 :=
  match q.goal with
  | .label k => laddr.getD ((lmap false 0 (C57.rawAll cfg fs)).getD (entry fs q.fn + 1 + k) 0) 0#64
  | .fn f => C57.addrOf cfg fs laddr f

/-- sljit_set_jump_addr(sljit_get_jump_addr(jump), address of the new target); `none` if an assertion fails. -/
def apply (cfg : Cfg) (fs : List RFn) (r : GenResult) (a0 : BitVec 64) (c : Code) (q : Lir.Patch) : Option Code :=
  setJumpAddr c (a0 + BitVec.ofNat 64 (2 * r.jaddr.getD (recordOf (fs.map (·.body)) q) 0)) (goalAddr cfg fs r.laddr q)

/-- Several changes. -/
def applyAll (cfg : Cfg) (fs : List RFn) (r : GenResult) (a0 : BitVec 64) : Code → List Lir.Patch → Option Code
  | c, [] => some c
  | c, q :: qs => (apply cfg fs r a0 c q).bind fun c => applyAll cfg fs r a0 c qs

/-- **C61.**  Functions are made with one compiler as in C57, their code is in memory, and sljit_set_jump_addr is used any number of times on jumps and calls which have been made with
SLJIT_REWRITABLE_JUMP, with the address of another label of the function or of another function.  Then no assertion of sljit_set_jump_addr fails and the code does what the functions with these
targets say (C57), for all arguments, all states of the caller, every depth of nested calls; the functions have the addresses which they had before.  Partial: the calls of C57, targets which
belong to the compiler, no changes while the code runs. -/
theorem c61_partial {cfg : Cfg} {fs : List RFn} (hm : C57.ModuleOk cfg fs) (base off : BitVec 64) (m0 : HMem) (hr : Room cfg (compileAll cfg fs) base off) :
    ∃ r, generate cfg (compileAll cfg fs) base off m0 = some r ∧ ∀ (c : Code), Loaded c base off r.m r.len →
      ∀ (qs : List Lir.Patch) (bodies : List (List Ins)), repatchAll (fs.map (·.body)) qs = some bodies →
      ∃ c', applyAll cfg fs r (base + off) c qs = some c' ∧
      ∀ ext : BitVec 64 → Contract, (∀ a, Realises c' a (ext a)) → ∀ n a,
        Realises c' a (does ((rebody fs bodies).map RFn.view) (C57.addrOf cfg fs r.laddr) 0 ext n a) := by
  obtain ⟨r, g1, -⟩ := (made hm hr).gen m0
  refine ⟨r, g1, fun c hc qs bodies hq => ?_⟩
  have h0 : InMem cfg fs r base off m0 fs c := ⟨.refl fs, hm, hr, rfl, r, g1, rfl, rfl, hc⟩
  have hall : ∀ (qs : List Lir.Patch) (fs1 : List RFn) (c : Code), InMem cfg fs r base off m0 fs1 c → repatchAll (fs1.map (·.body)) qs = some bodies →
      ∃ fs2 c', applyAll cfg fs r (base + off) c qs = some c' ∧ fs2.map (·.body) = bodies ∧ InMem cfg fs r base off m0 fs2 c' := by
    intro qs
    induction qs with
    | nil =>
      intro fs1 c h1 hq
      exact ⟨fs1, c, rfl, Option.some.inj hq, h1⟩
    | cons q qs ih =>
      intro fs1 c h1 hq
      obtain ⟨b, hq1, hq2⟩ := Option.bind_eq_some_iff.mp hq
      obtain ⟨fs2, k', c2, e1, e2, e3, e4, h2⟩ := h1.step hq1
      rw [← e1] at hq2
      obtain ⟨fs3, c3, i1, i2⟩ := ih fs2 c2 h2 hq2
      refine ⟨fs3, c3, ?_, i2⟩
      have eg : goalAddr cfg fs r.laddr q = r.laddr.getD ((lmap false 0 (C57.rawAll cfg fs)).getD k' 0) 0#64 := by
        unfold goalAddr
        cases hg : q.goal with
        | label k =>
          rw [hg] at e2
          have : entry fs q.fn + 1 + k = k' := by simpa [goalLabel] using e2
          rw [← this]
        | fn g =>
          rw [hg] at e2
          have : entry fs g = k' := by simpa [goalLabel] using e2
          show C57.addrOf cfg fs r.laddr g = _
          rw [C57.addrOf, if_pos (e3 g hg), this]
      rw [applyAll, apply, eg, e4]
      exact i1
  obtain ⟨fs2, c', e1, e2, h2⟩ := hall qs fs c h0 hq
  refine ⟨c', e1, ?_⟩
  obtain ⟨r2, j1, j2⟩ := C57.c57_partial h2.ok base off m0 h2.room
  obtain ⟨r3, k1, k2, k3, k4⟩ := h2.gen
  obtain rfl := Option.some.inj (j1.symm.trans k1)
  have j3 := (j2 c' k4).2
  have henv : C57.addrOf cfg fs2 r2.laddr = C57.addrOf cfg fs r.laddr := by
    funext i
    rw [C57.addrOf, C57.addrOf, h2.kin.length, h2.kin.entry, k2, h2.lmap]
  rw [henv] at j3
  rw [← e2, h2.kin.rebody_eq]
  exact j3

/-! ## A case -/

namespace Demo
open Verif.Lir.PatchDemo (bodies body1 body2 p1 p2)

def cfg : Cfg := ⟨true, false, false⟩
def fs : List RFn := bodies.map fun b => ⟨⟨0, 1, 1, 0, 0, 0⟩, [], b⟩

theorem ok : C57.ModuleOk cfg fs := by
  have all : ∀ {Q : RFn → Prop}, (∀ b ∈ bodies, Q ⟨⟨0, 1, 1, 0, 0, 0⟩, [], b⟩) → ∀ f ∈ fs, Q f := by
    intro Q h f hf
    obtain ⟨b, hb, rfl⟩ := List.mem_map.mp hf
    exact h b hb
  have hlegal : C30.Legal ⟨0, 1, 1, 0, 0, 0⟩ false [] := ⟨⟨by decide, by decide, by decide, by decide, by decide, by decide, by decide⟩, fun _ => rfl, by decide, by decide⟩
  refine ⟨by simp [fs, bodies], all fun _ _ => hlegal, all ?_, all (by decide), all ?_, all ?_⟩
  · intro b hb i hi
    simp only [bodies, Lir.PatchDemo.body, Lir.PatchDemo.const, List.mem_cons, List.not_mem_nil, or_false] at hb
    rcases hb with rfl | rfl | rfl <;> simp only [List.mem_cons, List.not_mem_nil, or_false] at hi
    · rcases hi with rfl | rfl | rfl | rfl | rfl | rfl
      · trivial
      · trivial
      · show 0 ≤ 4; decide
      · exact ⟨Or.inl rfl, by decide, by decide⟩
      · trivial
      · exact ⟨Or.inl rfl, trivial⟩
    · subst hi; exact ⟨Or.inl rfl, trivial⟩
    · subst hi; exact ⟨Or.inl rfl, trivial⟩
  · intro b hb i hi as ret rew k e
    subst e
    simp only [bodies, Lir.PatchDemo.body, Lir.PatchDemo.const, List.mem_cons, List.not_mem_nil, or_false] at hb
    rcases hb with rfl | rfl | rfl <;> simp only [List.mem_cons, List.not_mem_nil, or_false, reduceCtorEq, false_or, Ins.call.injEq, Callee.fn.injEq] at hi
    rw [hi.2.2.2]; decide
  · intro b hb
    simp only [bodies, List.mem_cons, List.not_mem_nil, or_false] at hb
    rcases hb with rfl | rfl | rfl
    · exact ⟨Lir.PatchDemo.body.dropLast, _, rfl, Or.inr ⟨_, _, _, rfl⟩⟩
    · exact ⟨[], _, rfl, Or.inr ⟨_, _, _, rfl⟩⟩
    · exact ⟨[], _, rfl, Or.inr ⟨_, _, _, rfl⟩⟩

theorem size : usize cfg (compileAll cfg fs) ≤ 128 := by decide +kernel

theorem room : Room cfg (compileAll cfg fs) 0x10000#64 0#64 := by
  have hs := size
  constructor
  · omega
  · simp; omega
  · simp [cfg]
  · simp
  · intro x hx
    have : (0x10000#64 + BitVec.ofNat 64 (2 * x) + 0#64).toNat = 0x10000 + 2 * x := by
      rw [BitVec.add_zero, BitVec.toNat_add, BitVec.toNat_ofNat]
      simp only [BitVec.toNat_ofNat]; omega
    simp only [badWindow, this]; omega

/-- The machine code returns 2 after the call has been changed, and 7 after the jump has been changed as well. -/
theorem returns (m0 : HMem) : ∃ r, generate cfg (compileAll cfg fs) 0x10000#64 0#64 m0 = some r ∧
    ∀ (c : Code) (s0 : St), Loaded c 0x10000#64 0#64 r.m r.len → s0.pc = 0x10000#64 →
      (∃ c' t, applyAll cfg fs r 0x10000#64 c [p1] = some c' ∧ RV.Steps c' s0 t ∧ t.pc = s0.rd 1#5 &&& ~~~1#64 ∧ t.rd 10#5 = 2#64) ∧
      ∃ c' t, applyAll cfg fs r 0x10000#64 c [p1, p2] = some c' ∧ RV.Steps c' s0 t ∧ t.pc = s0.rd 1#5 &&& ~~~1#64 ∧ t.rd 10#5 = 7#64 := by
  obtain ⟨r, h1, h2⟩ := c61_partial ok 0x10000#64 0#64 m0 room
  obtain ⟨r', g1, g2⟩ := C57.c57_partial ok 0x10000#64 0#64 m0 room
  obtain rfl := Option.some.inj (h1.symm.trans g1)
  refine ⟨r, h1, fun c s0 hb hpc => ?_⟩
  have ha := (g2 c hb).1
  rw [BitVec.add_zero] at ha
  rw [BitVec.add_zero] at h2
  refine ⟨?_, ?_⟩
  · obtain ⟨c', hc', hr⟩ := h2 c hb [p1] _ Lir.PatchDemo.patched1
    have hr := hr (fun _ _ _ _ _ _ _ _ => False) (fun _ _ _ _ _ _ _ _ _ _ _ _ _ hx => hx.elim) 2 (C57.addrOf cfg fs r.laddr 0)
    have hs := Lir.PatchDemo.does1 (size := 16) (lo := 0) (slot := 0) (env := C57.addrOf cfg fs r.laddr) (ext := fun _ _ _ _ _ _ _ _ => False)
      (fun _ => true) (s0.rd 2#5) 64 s0.mem (by omega)
    obtain ⟨t, t1, t2⟩ := hr s0 _ _ _ _ _ _ (by rw [ha, hpc]; decide) (by omega) (fun q hq => rfl) (fun k u hk e => by cases e) (fun q _ => rfl) hs
    exact ⟨c', t, hc', t1, t2.pc, t2.value _ rfl⟩
  · obtain ⟨c', hc', hr⟩ := h2 c hb [p1, p2] _ Lir.PatchDemo.patched2
    have hr := hr (fun _ _ _ _ _ _ _ _ => False) (fun _ _ _ _ _ _ _ _ _ _ _ _ _ hx => hx.elim) 1 (C57.addrOf cfg fs r.laddr 0)
    have hs := Lir.PatchDemo.does2 (size := 16) (lo := 0) (slot := 0) (env := C57.addrOf cfg fs r.laddr) (ext := fun _ _ _ _ _ _ _ _ => False)
      (fun _ => true) (s0.rd 2#5) 64 s0.mem (by omega)
    obtain ⟨t, t1, t2⟩ := hr s0 _ _ _ _ _ _ (by rw [ha, hpc]; decide) (by omega) (fun q hq => rfl) (fun k u hk e => by cases e) (fun q _ => rfl) hs
    exact ⟨c', t, hc', t1, t2.pc, t2.value _ rfl⟩

/-- The demo of C18 has a rewritable jump and meets the hypotheses of `c61_jump_partial`. -/
theorem items_ok : (∃ xs ys, C18Demo.items = xs ++ .jump ⟨.none, true, false, .label 1⟩ :: ys) ∧ Prog.Ok C18Demo.cfg (Prog.labels C18Demo.items) C18Demo.items ∧ Prog.Tail C18Demo.items ∧
    Room C18Demo.cfg C18Demo.items C18Demo.base C18Demo.off ∧ ¬ Prog.endsInLabel C18Demo.items :=
  ⟨⟨C18Demo.items.take 9, C18Demo.items.drop 10, rfl⟩, C18Demo.ok, C18Demo.tail, C18Demo.room, C18Demo.noEnd⟩

end Demo

end Verif.Props.C61
