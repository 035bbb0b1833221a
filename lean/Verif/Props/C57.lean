import Verif.Prog.Module
import Verif.Prog.CallDemo

/-!
# C57: functions that call each other, on RV64

The specification is `Verif.Prog.Calls`, as for C56 (ARM64).  The code is what one compiler and `generate` put into memory.
-/

namespace Verif.Props.C57
open Verif.RV Verif.Props Verif.Props.Rv Verif.Lir

/-- The functions of a compiler: the parameters of sljit_emit_enter are legal, the calls of the bodies are covered, jumps go to labels of the same function, the functions
which are called exist, and every function ends with a return. -/
structure ModuleOk (cfg : Cfg) (fs : List RFn) : Prop where
  ne : fs ≠ []
  legal : ∀ f ∈ fs, C30.Legal f.p false f.argl
  ins : ∀ f ∈ fs, ∀ i ∈ f.body, Ins.Ok cfg f.p i
  target : ∀ f ∈ fs, ∀ i ∈ f.body, ∀ k, i.target = some k → k < nlab f.body
  callee : ∀ f ∈ fs, ∀ i ∈ f.body, ∀ as ret rew k, i = .call as ret rew (.fn k) → k < fs.length
  ends : ∀ f ∈ fs, Ends f.body

/-- The raw items of the compiler. -/
def rawAll (cfg : Cfg) (fs : List RFn) : List Item := mods cfg (fun i => .label (entry fs i)) 0 true fs

/-- The address of a function: sljit_get_label_addr of the label in front of it (`sljit_emit_label` may have returned an earlier label). -/
def addrOf (cfg : Cfg) (fs : List RFn) (laddr : List (BitVec 64)) (i : Nat) : BitVec 64 :=
  if i < fs.length then laddr.getD ((lmap false 0 (rawAll cfg fs)).getD (entry fs i) 0) 0#64 else 0#64

/-- **C57.**  Functions are made with one compiler; each consists of sljit_emit_label, sljit_emit_enter and the calls of its body, which may call each other, in any
order and recursively (sljit_emit_call), and other functions (sljit_emit_icall).  The generated code is in memory.  Then the code at the address of a function does
what the calls of the function say, for all arguments, all states of the caller and every depth `n` of nested calls, as long as the stack has room (`D` bytes):

* the address of the first function is the address which sljit_generate_code returns;
* it returns to the address in ra with the result in a0, with sp, s0-s11 and fs0-fs11 unchanged;
* the memory that the caller shares has the contents which the calls describe;
* memory which the caller keeps to itself (its stack frame, the frames of its callers) does not change.

Other functions (`ext`) may be anything that follows the calling convention in the same way.  Partial: the calls of `Ins.Ok`, at most four word arguments,
SLJIT_CALL only (no SLJIT_CALL_REG_ARG, no tail calls), no kept registers. -/
theorem c57_partial {cfg : Cfg} {fs : List RFn} (hm : ModuleOk cfg fs) (base off : BitVec 64) (m0 : HMem) (hr : Room cfg (compileAll cfg fs) base off) :
    ∃ r, generate cfg (compileAll cfg fs) base off m0 = some r ∧ ∀ (code : Code), Loaded code base off r.m r.len →
      let env := addrOf cfg fs r.laddr
      env 0 = base + off ∧
      ∀ ext : BitVec 64 → Contract, (∀ a, Realises code a (ext a)) → ∀ n a, Realises code a (does (fs.map RFn.view) env 0 ext n a) := by
  have a2 : Prog.labels (rawAll cfg fs) = total fs := labels_mods
  have a3 : ∀ i ∈ rawAll cfg fs, i.Ok cfg (total fs) := by
    refine mods_ok hm.target (fun f hf i hi u hu => ?_) (by omega)
    cases i with
    | call as ret rew who =>
      cases who with
      | fn k =>
        have := hm.callee f hf _ hi as ret rew k rfl
        show (u.fn k).Ok _
        rw [hu]
        exact entry_lt this
      | opd src =>
        have := hm.ins f hf _ hi
        cases src with
        | imm v => exact this.2.2.2 v rfl
        | _ => trivial
    | _ => trivial
  obtain ⟨r, g1, g2⟩ := linked mods_alabel a2 a3 (mods_last hm.ne hm.ends) m0 hr
  refine ⟨r, g1, fun code hc => ?_⟩
  obtain ⟨laddr, ca, hlen, hla, hpl⟩ := g2 code hc
  intro env
  have henv : ∀ i, env i = laddr.getD (entry fs i) 0#64 := by
    intro i
    show addrOf cfg fs r.laddr i = _
    unfold addrOf
    split
    · next h => exact (hla _ (entry_lt h)).symm
    · next h =>
      have he : entry fs i = total fs := by rw [entry, total, List.take_of_length_le (by omega)]
      rw [List.getD_eq_getElem?_getD, List.getElem?_eq_none (by omega)]; rfl
  have hfin : (base + off + BitVec.ofNat 64 (2 * r.len)).toNat % 2 = 0 := by
    have h1 := hr.align
    have h2 := congrArg BitVec.toNat hr.offEven
    rw [BitVec.toNat_and] at h2
    have h2 : off.toNat % 2 = 0 := by simpa [Nat.and_one_is_mod] using h2
    rw [BitVec.toNat_add, BitVec.toNat_add, BitVec.toNat_ofNat]
    split at h1 <;> omega
  have heven : ∀ i, env i &&& ~~~1#64 = env i := by
    intro i
    by_cases h : i < fs.length
    · obtain ⟨mul', tail, ht, ca', q⟩ := fn_at hpl i fs[i] (List.getElem?_eq_getElem h)
      rw [Nat.zero_add] at q
      rw [henv]
      refine even_and (placed_even hfin (fun al h => ?_) q)
      rcases List.mem_append.mp h with h | h
      · rcases List.mem_append.mp h with h | h
        · cases (mem_piece h).1
        · exact no_alabel al h
      · exact ht al h
    · show addrOf cfg fs r.laddr i &&& _ = addrOf cfg fs r.laddr i
      rw [addrOf, if_neg h]; rfl
  refine ⟨?_, fun ext hext n => ?_⟩
  · rw [henv]
    obtain ⟨f, fs', rfl⟩ := List.exists_cons_of_ne_nil hm.ne
    exact hpl.1
  induction n with
  | zero => exact hext
  | succ n ih =>
    intro a s0 pr D vals m v m' h1 h2 h3 h4 h5 hx
    rcases hx with hx | ⟨i, f', hf, he, hx⟩
    · exact hext a s0 pr D vals m v m' h1 h2 h3 h4 h5 hx
    · rw [List.getElem?_map] at hf
      obtain ⟨f, hf', rfl⟩ := Option.map_eq_some_iff.mp hf
      obtain ⟨mul', tail, ht, q⟩ := fn_at hpl i f hf'
      have hmem : f ∈ fs := List.mem_of_getElem? hf'
      rw [Nat.zero_add, ← henv, he] at q
      exact fn_ok (L := ⟨⟨entry fs i + 1, fun i => .label (entry fs i)⟩, mul', tail, code, off, laddr, base + off + BitVec.ofNat 64 (2 * r.len)⟩)
        (hm.legal f hmem) (hm.ins f hmem) henv ⟨hfin, ht, heven⟩ ih q s0 pr D vals m v m' h1 h2 h3 h4 h5 hx

/-! ## A recursive function -/

namespace Demo

def cfg : Cfg := ⟨true, false, false⟩
def rec : RFn := ⟨⟨0, 1, 1, 0, 0, 0⟩, [false], Lir.Demo.body⟩

theorem ok : ModuleOk cfg [rec] := by
  have one : ∀ {Q : RFn → Prop}, Q rec → ∀ f ∈ [rec], Q f := by
    intro Q h f hf
    rw [List.mem_singleton.mp hf]; exact h
  refine ⟨by simp, one ?_, one ?_, one (by decide), one ?_, one ⟨Lir.Demo.body.dropLast, _, rfl, Or.inr ⟨_, _, _, rfl⟩⟩⟩
  · exact ⟨⟨by decide, by decide, by decide, by decide, by decide, by decide, by decide⟩, fun _ => rfl, by decide, by decide⟩
  · intro i hi
    simp only [rec, Lir.Demo.body, List.mem_cons, List.not_mem_nil, or_false] at hi
    rcases hi with rfl | rfl | rfl | rfl | rfl | rfl | rfl
    · exact ⟨by decide, ⟨by decide, by decide⟩, trivial, by rintro ⟨⟩⟩
    · exact ⟨by decide, ⟨by decide, by decide⟩, trivial, Or.inl (Or.inr (Or.inr (Or.inl rfl))), trivial,
        fun h => (nomatch h.1), fun h => (nomatch h.1)⟩
    · show 1 ≤ 4; decide
    · exact ⟨by decide, ⟨by decide, by decide⟩, ⟨by decide, by decide⟩, Or.inl (Or.inl rfl), Or.inl rfl,
        fun h => (nomatch h.1), fun h => (nomatch h.1)⟩
    · exact ⟨Or.inl rfl, by decide, by decide⟩
    · trivial
    · exact ⟨Or.inl rfl, trivial⟩
  · intro i hi as ret rew k e
    subst e
    simp only [rec, Lir.Demo.body, List.mem_cons, List.not_mem_nil, or_false, reduceCtorEq, false_or, Ins.call.injEq, Callee.fn.injEq] at hi
    have : k = 0 := hi.2.2.2
    subst this; decide

theorem size : usize cfg (compileAll cfg [rec]) ≤ 64 := by decide +kernel

theorem room : Room cfg (compileAll cfg [rec]) 0x10000#64 0#64 := by
  have hs := size
  constructor
  · omega
  · simp; omega
  · simp [cfg]
  · simp
  · intro x hx
    have : (0x10000#64 + BitVec.ofNat 64 (2 * x) + 0#64).toNat = 0x10000 + 2 * x := by
      rw [BitVec.add_zero, BitVec.toNat_add, BitVec.toNat_ofNat]
      simp only [BitVec.toNat_ofNat]; omega
    simp only [badWindow, this]; omega

/-- The machine code of the recursive function, called with any `n` for which there is stack, returns `1 + 2 + … + n`, and does not change memory but for the stack below. -/
theorem sum (m0 : HMem) : ∃ r, generate cfg (compileAll cfg [rec]) 0x10000#64 0#64 m0 = some r ∧
    ∀ (code : Code) (s0 : St) (n : Nat), Loaded code 0x10000#64 0#64 r.m r.len → s0.pc = 0x10000#64 → (n + 1) * 16 < 2 ^ 64 → s0.rd 10#5 = BitVec.ofNat 64 n →
      ∃ s, RV.Steps code s0 s ∧ s.pc = s0.rd 1#5 &&& ~~~1#64 ∧ s.rd 10#5 = BitVec.ofNat 64 (n * (n + 1) / 2) ∧ s.rd 2#5 = s0.rd 2#5 ∧
        s.rd 8#5 = s0.rd 8#5 ∧ ∀ q, within (s0.rd 2#5 - BitVec.ofNat 64 ((n + 1) * 16)) ((n + 1) * 16) q = false → s.mem q = s0.mem q := by
  obtain ⟨r, h1, h2⟩ := c57_partial ok 0x10000#64 0#64 m0 room
  refine ⟨r, h1, fun code s0 n hb hpc hn hx => ?_⟩
  obtain ⟨ha, hr⟩ := h2 code hb
  rw [BitVec.add_zero] at ha
  have hr := hr (fun _ _ _ _ _ _ _ _ => False) (fun _ _ _ _ _ _ _ _ _ _ _ _ _ hx => hx.elim) (n + 1) (addrOf cfg [rec] r.laddr 0)
  have hs := Lir.Demo.sum (size := 16) (lo := 0) (slot := 0) (env := addrOf cfg [rec] r.laddr) (ext := fun _ _ _ _ _ _ _ _ => False) n (by omega)
    (within (s0.rd 2#5 - BitVec.ofNat 64 ((n + 1) * 16)) ((n + 1) * 16)) (s0.rd 2#5) ((n + 1) * 16) s0.mem (by omega)
  obtain ⟨t, t1, t2⟩ := hr s0 _ _ _ _ _ _ (by rw [ha, hpc]; decide) hn (fun q hq => hq) (fun k u hk e => by
    match k with
    | 0 => rw [← Option.some.inj e]; exact hx
    | k + 1 => cases e) (fun q _ => rfl) hs
  exact ⟨t, t1, t2.pc, t2.value _ rfl, t2.sp, t2.saved 8#5 (by decide), t2.mem⟩

/-- A function which is not made with the compiler: C.JR ra alone, at an even address `a`, returns its first argument. -/
theorem external {code : Code} {a : BitVec 64} (he : a &&& 1#64 = 0#64) (h : code a = 0x8082#16) :
    Realises code a (fun _ _ _ vals m v m' => v = vals[0]? ∧ m' = m) := by
  rintro s0 pr D vals m v m' h1 - - h4 h5 ⟨rfl, rfl⟩
  rw [even_of_and he] at h1
  have q := step_ijump (cfg := ⟨true, false, false⟩) (link := false) (r := 26) (s := s0) (code := code) (by decide) ⟨by rw [h1, h]; decide, trivial⟩
  refine ⟨_, .step q (.refl _), rfl, fun u e => h4 0 u (by decide) e, rfl, fun x _ => ?_, fun _ _ => rfl, h5, fun _ _ _ => rfl⟩
  show (s0.wr 0#5 _).rd x = _
  rw [rd_wr]
  split
  · next h0 => rw [h0]; rfl
  · rfl

end Demo

end Verif.Props.C57
