import Verif.XProg.Module
import Verif.Prog.CallDemo

/-!
# C58: functions that call each other, on x86-64 (System V)

The specification is `Verif.Prog.Calls`, as for C56 (ARM64) and C57 (RV64).  The code is what one compiler and `generate` put into memory; a call instruction puts the
return address on the stack.
-/

namespace Verif.Props.C58
open Verif.X86 Verif.Props Verif.XLir
open Verif.Lir (nlab does Contract within)

/-- The functions of a compiler: the parameters of sljit_emit_enter are legal, the calls of the bodies are covered, jumps go to labels of the same function, the functions
which are called exist. -/
structure ModuleOk (fs : List XFn) : Prop where
  ne : fs ≠ []
  legal : ∀ f ∈ fs, C51.Legal false f.p false f.args
  ins : ∀ f ∈ fs, ∀ i ∈ f.body, InsOk f.p i
  target : ∀ f ∈ fs, ∀ i ∈ f.body, ∀ k, i.target = some k → k < nlab f.body
  callee : ∀ f ∈ fs, ∀ i ∈ f.body, ∀ as ret rew k, i = .call as ret rew (.fn k) → k < fs.length

/-- No call of a constant address whose distance from the code is at the edge of 32 bits (C49.c49_jump_edge_false). -/
def NoEdgeCall (fs : List XFn) (a0 : BitVec 64) (size : Nat) : Prop :=
  ∀ f ∈ fs, ∀ as ret rew v, Lir.Ins.call as ret rew (.opd (.imm v)) ∈ f.body → ∀ j, j ≤ size → v ≠ a0 + BitVec.ofNat 64 j + 0x80000005#64

/-- The raw items of the compiler. -/
def rawAll (ft : Feat) (fs : List XFn) : Option (List Item) := mods ft (fun i => .label (entry fs i)) 0 fs

/-- The address of a function: sljit_get_label_addr of the label in front of it (`sljit_emit_label` may have returned an earlier label). -/
def addrOf (ft : Feat) (fs : List XFn) (laddr : List (BitVec 64)) (i : Nat) : BitVec 64 :=
  if i < fs.length then laddr.getD ((lmap false 0 ((rawAll ft fs).getD [])).getD (entry fs i) 0) 0#64 else 0#64

/-- **C58.**  Functions are made with one compiler; each consists of sljit_emit_label, sljit_emit_enter and the calls of its body, which may call each other, in any
order and recursively (sljit_emit_call), and other functions (sljit_emit_icall).  The generated code is in memory.  Then the code at the address of a function does
what the calls of the function say, for all arguments, all states of the caller and every depth `n` of nested calls, as long as the stack has room (`D` bytes):

* the address of the first function is the address which sljit_generate_code returns;
* it returns to the return address on the stack with the result in rax, with the stack pointer above the return address, with rbx, rbp and r12-r15 unchanged;
* the memory that the caller shares has the contents which the calls describe;
* memory which the caller keeps to itself (its stack frame, the return address, the frames of its callers) does not change.

Other functions (`ext`) may be anything that follows the calling convention in the same way; they may rely on the alignment of the stack.  Partial: the calls of
`InsOk`, at most four word arguments, SLJIT_CALL only (no SLJIT_CALL_REG_ARG, no tail calls), no kept registers, not Windows. -/
theorem c58_partial (ft : Feat) {fs : List XFn} (hm : ModuleOk fs) :
    ∃ items, compileAll ft fs = some items ∧ ∀ base off, X86.Room items base off → NoEdgeCall fs (base + off) (usize items) →
    ∃ r, generate false items base off = some r ∧ ∀ (c : IMem), BytesAt c (base + off) r.code →
      let env := addrOf ft fs r.laddr
      env 0 = base + off ∧
      ∀ ext : BitVec 64 → Contract, (∀ a, Realises c a (ext a)) → ∀ n a, Realises c a (does (fs.map XFn.view) env 8 ext n a) := by
  generalize hR : modsT ft (fun i => .label (entry fs i)) 0 fs = R
  have hraw : rawAll ft fs = some R := by rw [← hR]; exact mods_eq hm.legal hm.ins
  have a2 : Prog.labels R = total fs := by rw [← hR]; exact labels_mods
  have a3 : ∀ i ∈ R, Plain (total fs) i := by
    rw [← hR]
    refine mods_plain hm.ins hm.target (fun f hf i hi u hu => ?_) (by omega)
    cases i with
    | call as ret rew who =>
      cases who with
      | fn k =>
        have := hm.callee f hf _ hi as ret rew k rfl
        show (u.fn k).Ok _
        rw [hu]
        exact entry_lt this
      | opd src => trivial
    | _ => trivial
  refine ⟨link R, by rw [compileAll, ← rawAll, hraw]; rfl, fun base off hr hne => ?_⟩
  have a4 : ∀ i ∈ link R, NoEdge (base + off) (usize (link R)) i := by
    refine noedge a3 fun type rew a h => ?_
    rw [← hR] at h
    obtain ⟨rfl, f, hf, as, ret, rew, q⟩ := mods_addr (by rintro _ _ ⟨⟩) h
    exact fun j hj => ⟨fun _ => hne f hf as ret rew a q j hj, fun h => absurd h (by decide)⟩
  obtain ⟨r, g1, g2⟩ := linked a2 a3 hr a4
  refine ⟨r, g1, fun c hc => ?_⟩
  obtain ⟨laddr, ca, ja, hlen, hla, hpl⟩ := g2 c hc
  intro env
  have henv : ∀ i, env i = laddr.getD (entry fs i) 0#64 := by
    intro i
    show addrOf ft fs r.laddr i = _
    unfold addrOf
    rw [hraw]
    split
    · next h => exact (hla _ (entry_lt h)).symm
    · next h =>
      have he : entry fs i = total fs := by rw [entry, total, List.take_of_length_le (by omega)]
      rw [List.getD_eq_getElem?_getD, List.getElem?_eq_none (by omega)]; rfl
  rw [← hR] at hpl
  refine ⟨?_, fun ext hext n => ?_⟩
  · rw [henv]
    obtain ⟨f, fs', rfl⟩ := List.exists_cons_of_ne_nil hm.ne
    rw [show entry (f :: fs') 0 = 0 from rfl, List.getD_eq_getElem?_getD, hpl.1]; rfl
  induction n with
  | zero => exact hext
  | succ n ih =>
    intro a s0 pr D vals m v m' h1 h2 h3 h4 h5 h6 hx
    rcases hx with hx | ⟨i, f', hf, he, hx⟩
    · exact hext a s0 pr D vals m v m' h1 h2 h3 h4 h5 h6 hx
    · rw [List.getElem?_map] at hf
      obtain ⟨f, hf', rfl⟩ := Option.map_eq_some_iff.mp hf
      obtain ⟨tail, q⟩ := fn_at hpl i f hf'
      have hmem : f ∈ fs := List.mem_of_getElem? hf'
      rw [Nat.zero_add, ← henv, he] at q
      exact fn_ok (L := ⟨⟨entry fs i + 1, fun i => .label (entry fs i)⟩, tail, c, off, base + off, laddr, base + off + BitVec.ofNat 64 r.code.length⟩)
        (hm.legal f hmem) (hm.ins f hmem) henv ih (enter_some (hm.legal f hmem)) q s0 pr D vals m v m' h1 h2 h3 h4 h5 h6 hx

/-! ## A recursive function -/

namespace Demo

def rec : XFn := ⟨⟨0, 1, 1, 0⟩, [false], Lir.Demo.body⟩

theorem ok : ModuleOk [rec] := by
  have one : ∀ {Q : XFn → Prop}, Q rec → ∀ f ∈ [rec], Q f := by
    intro Q h f hf
    rw [List.mem_singleton.mp hf]; exact h
  refine ⟨by simp, one ?_, one ?_, one (by decide), one ?_⟩
  · exact ⟨by decide, by decide, by decide, by decide, fun _ => rfl, by decide, by decide⟩
  · intro i hi
    simp only [rec, Lir.Demo.body, List.mem_cons, List.not_mem_nil, or_false] at hi
    rcases hi with rfl | rfl | rfl | rfl | rfl | rfl | rfl
    · exact ⟨by decide, by decide, by decide⟩
    · exact ⟨by decide, by decide, by decide, rfl, trivial, fun _ d _ _ hr => hr, fun h => by cases h⟩
    · exact ⟨by decide, by decide⟩
    · exact ⟨by decide, by decide, by decide, rfl, Or.inl rfl, fun _ d _ h => absurd rfl h, fun h => by cases h⟩
    · exact ⟨by decide, by decide, by decide⟩
    · trivial
    · exact ⟨by decide, by decide, by decide⟩
  · intro i hi as ret rew k e
    subst e
    simp only [rec, Lir.Demo.body, List.mem_cons, List.not_mem_nil, or_false, reduceCtorEq, false_or, Lir.Ins.call.injEq, Lir.Callee.fn.injEq] at hi
    have : k = 0 := hi.2.2.2
    subst this; decide

/-- The machine code of the recursive function, called with any `n` for which there is stack, returns `1 + 2 + … + n`, and does not change memory but for the stack below. -/
theorem sum (ft : Feat) : ∃ items, compileAll ft [rec] = some items ∧ ∃ r, generate false items 0x10000#64 0#64 = some r ∧
    ∀ (c : IMem) (s0 : St) (n : Nat), BytesAt c 0x10000#64 r.code → (s0.r 4#4).toNat % 16 = 8 → (n + 1) * 16 + 8 < 2 ^ 64 → s0.r 7#4 = BitVec.ofNat 64 n →
      ∃ t, PSteps c ⟨s0, 0x10000#64⟩ t ∧ t.pc = rd s0.m (s0.r 4#4) 8 ∧ t.s.r 0#4 = BitVec.ofNat 64 (n * (n + 1) / 2) ∧ t.s.r 4#4 = s0.r 4#4 + 8#64 ∧
        t.s.r 3#4 = s0.r 3#4 ∧ ∀ q, within (s0.r 4#4 - BitVec.ofNat 64 ((n + 1) * 16)) ((n + 1) * 16) q = false → t.s.m q = s0.m q := by
  obtain ⟨items, hc, h⟩ := c58_partial ft ok
  refine ⟨items, hc, ?_⟩
  have hroom : X86.Room items 0x10000#64 0#64 := by
    have : (compileAll ft [rec]).all (fun is => decide (X86.Room is 0x10000#64 0#64)) = true := by
      rcases ft with ⟨a, b⟩
      cases a <;> cases b <;> decide +kernel
    rw [hc] at this
    simpa using this
  obtain ⟨r, h1, h2⟩ := h _ _ hroom (by
    intro f hf as ret rew v hv
    rw [List.mem_singleton.mp hf] at hv
    simp [rec, Lir.Demo.body] at hv)
  refine ⟨r, h1, fun c s0 n hb hal hn hx => ?_⟩
  obtain ⟨ha, hr⟩ := h2 c hb
  rw [BitVec.add_zero] at ha
  have hr := hr (fun _ _ _ _ _ _ _ _ => False) (fun _ _ _ _ _ _ _ _ _ _ _ _ _ _ hx => hx.elim) (n + 1) (addrOf ft [rec] r.laddr 0)
  have hs := Lir.Demo.sum (size := 8) (lo := 0) (slot := 8) (env := addrOf ft [rec] r.laddr) (ext := fun _ _ _ _ _ _ _ _ => False) n (by omega)
    (fun _ => true) (s0.r 4#4) ((n + 1) * 16) s0.m (by omega)
  obtain ⟨t, t1, t2⟩ := hr s0 _ _ _ _ _ _ hn hal (fun q hq => rfl) (fun q hq => rfl) (fun k u hk e => by
    match k with
    | 0 => rw [← Option.some.inj e]; exact hx
    | k + 1 => cases e) (fun q _ => rfl) hs
  rw [ha] at t1
  exact ⟨t, t1, t2.pc, t2.value _ rfl, t2.sp, t2.saved 3#4 (by decide), fun q hq => t2.keep q rfl hq⟩

/-- A function which is not made with the compiler: MOV rax, rdi and RET, at an address `a`, returns its first argument. -/
theorem external {c : IMem} {a : BitVec 64} (h : BytesAt c a [0x48#8, 0x89#8, 0xf8#8, 0xc3#8]) :
    Realises c a (fun _ _ _ vals m v m' => v = vals[0]? ∧ m' = m) := by
  rintro s0 pr D vals m v m' - - - - h4 h5 ⟨rfl, rfl⟩
  obtain ⟨s', ⟨bs, e, r1⟩, r2, r3, r4⟩ := mov_reg s0 (d := 1) (r := 3) ⟨by decide, by decide, by decide⟩ ⟨by decide, by decide, by decide⟩
  obtain rfl : [0x48#8, 0x89#8, 0xf8#8] = bs := Option.some.inj ((show _ = some _ by decide +kernel : emitMov false false (.reg 1) (.reg 3) = some _).symm.trans e)
  rw [show num false 1 = 0#4 by decide] at r2 r3
  rw [show num false 3 = 7#4 by decide] at r2
  obtain ⟨b1, b2⟩ := BytesAt.append.mp (show BytesAt c a ([0x48#8, 0x89#8, 0xf8#8] ++ [0xc3#8]) from h)
  have esp : s'.r 4#4 = s0.r 4#4 := r3 _ (by decide)
  refine ⟨_, (r1 c a b1).trans (.step (ret_step b2) (.refl _)), ?_, fun u e => ?_, ?_, fun q hq => ?_, fun q hq => ?_, fun q _ _ => ?_⟩
  · show rd s'.m (s'.r 4#4) 8 = _
    rw [r4, esp]
  · show Holds u ((s'.set 4#4 _).r 0#4)
    rw [show (s'.set 4#4 (s'.r 4#4 + 8#64)).r 0#4 = s'.r 0#4 from rfl, r2]
    exact h4 0 u (by decide) e
  · show s'.r 4#4 + 8#64 = _
    rw [esp]
  · have : ∀ q ∈ C51.calleeSaved false, q ≠ 4#4 ∧ q ≠ 0#4 := by decide
    obtain ⟨q1, q2⟩ := this q hq
    show (s'.set 4#4 _).r q = _
    rw [← r3 q q2]
    simp only [St.set, q1, if_false]
  · show s'.m q = _
    rw [r4]; exact h5 q hq
  · show s'.m q = _
    rw [r4]

end Demo

end Verif.Props.C58
