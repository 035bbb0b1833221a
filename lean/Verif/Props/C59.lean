import Verif.XProg.Kin
import Verif.Prog.PatchDemo

/-!
# C59: changing jumps and constants of generated code (x86-64)

The specification is `Verif.Prog.Patch`: the program with the other target, whose meaning is the one of C58.
-/

namespace Verif.Props.C59
open Verif.X86 Verif.Props Verif.XLir
open Verif.Lir (nlab does Contract within Goal mem_set_or)

/-! ## Items -/

/-- sljit_set_jump_addr: a program has a rewritable jump (or call), and its code is in memory.  Storing the address `t` at the address of the jump gives, byte for byte, the code which
sljit_generate_code makes at the same place for the program that has the jump to `t` instead; labels, constants and jumps have the same addresses.  So does the address of another label of the program.
Missing from the full statement: the exceptions of C49. -/
theorem c59_jump_partial (win : Bool) (xs ys : List Item) (type : Nat) (tg tg' : Tgt) (base off : BitVec 64) {r : GenResult}
    (hg : generate win (xs ++ .jump ⟨type, true, tg⟩ :: ys) base off = some r) (hp : Prog.Ok (Prog.labels (xs ++ .jump ⟨type, true, tg'⟩ :: ys)) (xs ++ .jump ⟨type, true, tg'⟩ :: ys))
    (hr : X86.Room (xs ++ .jump ⟨type, true, tg'⟩ :: ys) base off) (hne : ∀ i ∈ xs ++ .jump ⟨type, true, tg'⟩ :: ys, NoEdge (base + off) (usize (xs ++ .jump ⟨type, true, tg'⟩ :: ys)) i) :
    ∃ x, r.jaddr[recs xs]? = some x ∧ ∃ r', generate win (xs ++ .jump ⟨type, true, tg'⟩ :: ys) base off = some r' ∧ r'.laddr = r.laddr ∧ r'.caddr = r.caddr ∧ r'.jaddr = r.jaddr ∧
      ∀ c, BytesAt c (base + off) r.code → BytesAt (setJumpAddr c (base + off + BitVec.ofNat 64 x) (tgtOf r.laddr tg')) (base + off) r'.code := by
  obtain ⟨r', g1, g2, g3, g4⟩ := C49.c49_partial win _ base off hp hr hne
  obtain ⟨q1, q2, q3, -, x, q5, q6, q7⟩ := generate_alike (.jump type tg tg') hg g1
  refine ⟨x, q5, r', g1, q1, q2, q3, fun c hc => ?_⟩
  have h1 := q7.1
  have h2 := hr.1
  refine near_mem q7 (by omega) (by omega) (fun d hd => ?_) hc
  have := placed_jump xs (g4 d hd) (by rw [q3]; exact q5)
  rw [q1] at this
  exact this

/-- sljit_set_const with SLJIT_MOV: the same for a constant, whose instruction ends with its value. -/
theorem c59_const_partial (win : Bool) (xs ys : List Item) (pre : List Byte) (v v' : BitVec 64) (base off : BitVec 64) {r : GenResult}
    (hg : generate win (xs ++ .const (pre ++ toLe 8 v) :: ys) base off = some r)
    (hp : Prog.Ok (Prog.labels (xs ++ .const (pre ++ toLe 8 v') :: ys)) (xs ++ .const (pre ++ toLe 8 v') :: ys))
    (hr : X86.Room (xs ++ .const (pre ++ toLe 8 v') :: ys) base off)
    (hne : ∀ i ∈ xs ++ .const (pre ++ toLe 8 v') :: ys, NoEdge (base + off) (usize (xs ++ .const (pre ++ toLe 8 v') :: ys)) i) :
    ∃ y, r.caddr[consts xs]? = some y ∧ ∃ r', generate win (xs ++ .const (pre ++ toLe 8 v') :: ys) base off = some r' ∧ r'.laddr = r.laddr ∧ r'.caddr = r.caddr ∧ r'.jaddr = r.jaddr ∧
      ∀ c, BytesAt c (base + off) r.code → BytesAt (setConst c (y + off) v') (base + off) r'.code := by
  obtain ⟨r', g1, g2, g3, g4⟩ := C49.c49_partial win _ base off hp hr hne
  obtain ⟨q1, q2, q3, -, x, q5, q6, q7⟩ := generate_alike (.const pre _ _ rfl rfl) hg g1
  refine ⟨_, q5, r', g1, q1, q2, q3, fun c hc => ?_⟩
  have h1 := q7.1
  have h2 := hr.1
  have e : base + BitVec.ofNat 64 (x + 8) + off - 8#64 = base + off + BitVec.ofNat 64 x := by
    apply BitVec.eq_of_toNat_eq
    simp only [BitVec.toNat_sub, BitVec.toNat_add, BitVec.toNat_ofNat]; omega
  rw [setConst, e]
  refine near_mem q7 (by omega) (by omega) (fun d hd => ?_) hc
  have := placed_const xs (g4 d hd) (by rw [q2]; exact q5)
  rw [e] at this
  exact this

/-! ## Functions -/

/-- The address to which a changed jump has to go: sljit_get_label_addr of the label, or of the label in front of the function. -/
def goalAddr (ft : Feat) (fs : List XFn) (laddr : List (BitVec 64)) (q : Lir.Patch) : BitVec 64 :=
  match q.goal with
  | .label k => laddr.getD ((lmap false 0 ((C58.rawAll ft fs).getD [])).getD (entry fs q.fn + 1 + k) 0) 0#64
  | .fn f => C58.addrOf ft fs laddr f

/-- sljit_set_jump_addr(sljit_get_jump_addr(jump), address of the new target). -/
def apply (ft : Feat) (fs : List XFn) (r : GenResult) (a0 : BitVec 64) (c : IMem) (q : Lir.Patch) : IMem :=
  setJumpAddr c (a0 + BitVec.ofNat 64 (r.jaddr.getD (Lir.recordOf (fs.map (·.body)) q) 0)) (goalAddr ft fs r.laddr q)
/-- **C59.**  Functions are made with one compiler as in C58, their code is in memory, and sljit_set_jump_addr is used any number of times on jumps and calls which have been made with
SLJIT_REWRITABLE_JUMP, with the address of another label of the function or of another function.  Then the code does what the functions with these targets say (C58), for all arguments, all
states of the caller, every depth of nested calls; the functions have the addresses which they had before.  Partial: the calls of C58, targets which belong to the compiler, no changes while the code
runs, not Windows. -/
theorem c59_partial (ft : Feat) {fs : List XFn} (hm : C58.ModuleOk fs) :
    ∃ items, compileAll ft fs = some items ∧ ∀ base off, X86.Room items base off → C58.NoEdgeCall fs (base + off) (usize items) →
    ∃ r, generate false items base off = some r ∧ ∀ (c : IMem), BytesAt c (base + off) r.code →
      ∀ (qs : List Lir.Patch) (bodies : List (List Lir.Ins)), Lir.repatchAll (fs.map (·.body)) qs = some bodies →
      let c' := qs.foldl (apply ft fs r (base + off)) c
      C58.addrOf ft fs r.laddr 0 = base + off ∧ ∀ ext : BitVec 64 → Contract, (∀ a, Realises c' a (ext a)) → ∀ n a,
        Realises c' a (does ((rebody fs bodies).map XFn.view) (C58.addrOf ft fs r.laddr) 8 ext n a) := by
  refine ⟨link (rawT ft fs), by rw [compileAll, ← C58.rawAll, rawT_eq hm]; rfl, fun base off hr hne => ?_⟩
  obtain ⟨r, g1, -, -⟩ := (made hm hr hne).gen
  refine ⟨r, g1, fun c hc qs bodies hq => ?_⟩
  have h0 : InMem ft fs r base off fs c := ⟨.refl fs, hm, rfl, hne, rfl, r, g1, rfl, rfl, hc⟩
  have hall : ∀ (qs : List Lir.Patch) (fs1 : List XFn) (c : IMem), InMem ft fs r base off fs1 c → Lir.repatchAll (fs1.map (·.body)) qs = some bodies →
      ∃ fs2, fs2.map (·.body) = bodies ∧ InMem ft fs r base off fs2 (qs.foldl (apply ft fs r (base + off)) c) := by
    intro qs
    induction qs with
    | nil =>
      intro fs1 c h1 hq
      exact ⟨fs1, Option.some.inj hq, h1⟩
    | cons q qs ih =>
      intro fs1 c h1 hq
      obtain ⟨b, hq1, hq2⟩ := Option.bind_eq_some_iff.mp hq
      obtain ⟨fs2, k', e1, e2, e3, h2⟩ := h1.step hr hq1
      rw [← e1] at hq2
      refine ih fs2 _ ?_ hq2
      have eg : goalAddr ft fs r.laddr q = r.laddr.getD ((lmap false 0 (rawT ft fs)).getD k' 0) 0#64 := by
        unfold goalAddr
        rw [rawT_eq hm]
        cases hg : q.goal with
        | label k =>
          rw [hg] at e2
          have : entry fs q.fn + 1 + k = k' := by simpa [goalLabel] using e2
          rw [← this]; rfl
        | fn g =>
          rw [hg] at e2
          have : entry fs g = k' := by simpa [goalLabel] using e2
          show C58.addrOf ft fs r.laddr g = _
          rw [C58.addrOf, if_pos (e3 g hg), rawT_eq hm, this]; rfl
      rw [apply, eg]
      exact h2
  obtain ⟨fs2, e2, h2⟩ := hall qs fs c h0 hq
  intro c'
  obtain ⟨items, i1, i2⟩ := C58.c58_partial ft h2.ok
  have hit : items = link (rawT ft fs2) := by
    rw [compileAll, ← C58.rawAll, rawT_eq h2.ok] at i1
    exact (Option.some.inj i1).symm
  subst hit
  obtain ⟨r2, j1, j2⟩ := i2 base off (by rw [X86.Room, h2.size]; exact hr) (by rw [h2.size]; exact h2.edge)
  obtain ⟨r3, k1, k2, k3, k4⟩ := h2.gen
  obtain rfl := Option.some.inj (j1.symm.trans k1)
  obtain ⟨j4, j3⟩ := j2 c' k4
  have henv : C58.addrOf ft fs2 r2.laddr = C58.addrOf ft fs r.laddr := by
    funext i
    rw [C58.addrOf, C58.addrOf, h2.kin.length, rawT_eq hm, rawT_eq h2.ok, h2.kin.entry, k2]
    show (if _ then r.laddr.getD ((lmap false 0 (rawT ft fs2)).getD _ 0) 0#64 else _) = _
    rw [h2.lmap]; rfl
  rw [henv] at j3
  refine ⟨by rw [← henv]; exact j4, ?_⟩
  rw [← e2, h2.kin.rebody_eq]
  exact j3

/-! ## A case -/

namespace Demo
open Verif.Lir.PatchDemo (bodies body1 body2 p1 p2)

def fs : List XFn := bodies.map fun b => ⟨⟨0, 1, 1, 0⟩, [], b⟩

theorem ok : C58.ModuleOk fs := by
  have all : ∀ {Q : XFn → Prop}, (∀ b ∈ bodies, Q ⟨⟨0, 1, 1, 0⟩, [], b⟩) → ∀ f ∈ fs, Q f := by
    intro Q h f hf
    obtain ⟨b, hb, rfl⟩ := List.mem_map.mp hf
    exact h b hb
  refine ⟨by simp [fs, bodies], all ?_, all ?_, all (by decide), all ?_⟩
  · intro b _
    show C51.Legal false ⟨0, 1, 1, 0⟩ false []
    exact ⟨by decide, by decide, by decide, by decide, fun _ => rfl, by decide, by decide⟩
  · intro b hb i hi
    simp only [bodies, Lir.PatchDemo.body, Lir.PatchDemo.const, List.mem_cons, List.not_mem_nil, or_false] at hb
    rcases hb with rfl | rfl | rfl <;> simp only [List.mem_cons, List.not_mem_nil, or_false] at hi
    · rcases hi with rfl | rfl | rfl | rfl | rfl | rfl
      · trivial
      · trivial
      · exact ⟨by decide, by decide⟩
      · exact ⟨by decide, by decide, by decide⟩
      · trivial
      · exact ⟨by decide, by decide, by decide⟩
    · subst hi; exact ⟨by decide, by decide, by decide⟩
    · subst hi; exact ⟨by decide, by decide, by decide⟩
  · intro b hb i hi as ret rew k e
    subst e
    simp only [bodies, Lir.PatchDemo.body, Lir.PatchDemo.const, List.mem_cons, List.not_mem_nil, or_false] at hb
    rcases hb with rfl | rfl | rfl <;> simp only [List.mem_cons, List.not_mem_nil, or_false, reduceCtorEq, false_or, Lir.Ins.call.injEq, Lir.Callee.fn.injEq] at hi
    rw [hi.2.2.2]; decide

/-- The machine code returns 2 after the call has been changed, and 7 after the jump has been changed as well. -/
theorem returns (ft : Feat) : ∃ items, compileAll ft fs = some items ∧ ∃ r, generate false items 0x10000#64 0#64 = some r ∧
    ∀ (c : IMem) (s0 : St), BytesAt c 0x10000#64 r.code → (s0.r 4#4).toNat % 16 = 8 →
      (∃ t, PSteps (apply ft fs r 0x10000#64 c p1) ⟨s0, 0x10000#64⟩ t ∧ t.pc = rd s0.m (s0.r 4#4) 8 ∧ t.s.r 0#4 = 2#64) ∧
      ∃ t, PSteps (apply ft fs r 0x10000#64 (apply ft fs r 0x10000#64 c p1) p2) ⟨s0, 0x10000#64⟩ t ∧ t.pc = rd s0.m (s0.r 4#4) 8 ∧ t.s.r 0#4 = 7#64 := by
  obtain ⟨items, hc, h⟩ := c59_partial ft ok
  refine ⟨items, hc, ?_⟩
  have hroom : X86.Room items 0x10000#64 0#64 := by
    have : (compileAll ft fs).all (fun is => decide (X86.Room is 0x10000#64 0#64)) = true := by
      rcases ft with ⟨a, b⟩
      cases a <;> cases b <;> decide +kernel
    rw [hc] at this
    simpa using this
  obtain ⟨r, h1, h2⟩ := h _ _ hroom (by
    intro f hf as ret rew v hv
    obtain ⟨b, hb, rfl⟩ := List.mem_map.mp hf
    simp only [bodies, Lir.PatchDemo.body, Lir.PatchDemo.const, List.mem_cons, List.not_mem_nil, or_false] at hb
    rcases hb with rfl | rfl | rfl <;> simp at hv)
  refine ⟨r, h1, fun c s0 hb hal => ⟨?_, ?_⟩⟩
  · obtain ⟨ha, hr⟩ := h2 c hb [p1] _ Lir.PatchDemo.patched1
    rw [BitVec.add_zero] at ha
    have hr := hr (fun _ _ _ _ _ _ _ _ => False) (fun _ _ _ _ _ _ _ _ _ _ _ _ _ _ hx => hx.elim) 2 (C58.addrOf ft fs r.laddr 0)
    have hs := Lir.PatchDemo.does1 (size := 8) (lo := 0) (slot := 8) (env := C58.addrOf ft fs r.laddr) (ext := fun _ _ _ _ _ _ _ _ => False)
      (fun _ => true) (s0.r 4#4) 32 s0.m (by omega)
    obtain ⟨t, t1, t2⟩ := hr s0 _ _ _ _ _ _ (by omega) hal (fun q hq => rfl) (fun q hq => rfl) (fun k u hk e => by cases e) (fun q _ => rfl) hs
    rw [ha] at t1
    exact ⟨t, t1, t2.pc, t2.value _ rfl⟩
  · obtain ⟨ha, hr⟩ := h2 c hb [p1, p2] _ Lir.PatchDemo.patched2
    rw [BitVec.add_zero] at ha
    have hr := hr (fun _ _ _ _ _ _ _ _ => False) (fun _ _ _ _ _ _ _ _ _ _ _ _ _ _ hx => hx.elim) 1 (C58.addrOf ft fs r.laddr 0)
    have hs := Lir.PatchDemo.does2 (size := 8) (lo := 0) (slot := 8) (env := C58.addrOf ft fs r.laddr) (ext := fun _ _ _ _ _ _ _ _ => False)
      (fun _ => true) (s0.r 4#4) 32 s0.m (by omega)
    obtain ⟨t, t1, t2⟩ := hr s0 _ _ _ _ _ _ (by omega) hal (fun q hq => rfl) (fun q hq => rfl) (fun k u hk e => by cases e) (fun q _ => rfl) hs
    rw [ha] at t1
    exact ⟨t, t1, t2.pc, t2.value _ rfl⟩

/-- The program of C49 with another target of its rewritable jump meets the hypotheses of `c59_jump_partial`. -/
theorem items_ok : let is := C49.demo.set 3 (.jump ⟨36, true, .label 2⟩)
    (∃ xs ys, C49.demo = xs ++ .jump ⟨36, true, .label 0⟩ :: ys ∧ is = xs ++ .jump ⟨36, true, .label 2⟩ :: ys) ∧ Prog.Ok (Prog.labels is) is ∧
      X86.Room is 0x10000#64 0x7f0000000000#64 ∧ ∀ i ∈ is, NoEdge (0x10000#64 + 0x7f0000000000#64) (usize is) i := by
  intro is
  refine ⟨⟨C49.demo.take 3, C49.demo.drop 4, rfl, rfl⟩, by decide +kernel, by decide +kernel, fun i hi => ?_⟩
  rw [show usize is = usize C49.demo by decide +kernel]
  rcases mem_set_or hi with hi | rfl
  · exact C49.demo_edge i hi
  · trivial

end Demo

end Verif.Props.C59
