import Verif.XProg.CallSim

/-!
# The functions of one compiler (x86-64)
-/

namespace Verif.XLir
open Verif.X86 Verif.Props
open Verif.Lir (nlab)

/-- The number of labels. -/
def total (fs : List XFn) : Nat := (fs.map fun f => 1 + nlab f.body).sum

variable {ft : Feat} {fn : Nat → Tgt}

/-- The bytes of sljit_emit_enter. -/
def enterT (f : XFn) : List Byte := (emitEnter false f.p false f.args).getD []

/-- The raw items of functions that have some. -/
def modsT (ft : Feat) (fn : Nat → Tgt) : (n : Nat) → List XFn → List Item
  | _, [] => []
  | n, f :: fs => .label :: (piece (enterT f) ++ f.body.flatMap (itemsT ⟨n + 1, fn⟩ ft f.p) ++ modsT ft fn (n + 1 + nlab f.body) fs)

theorem enter_some {f : XFn} (h : C51.Legal false f.p false f.args) : emitEnter false f.p false f.args = some (enterT f) := by
  obtain ⟨-, ⟨bs, hbs, -⟩, -⟩ := C51.entered h ones
  rw [enterT, hbs]; rfl

theorem mods_eq : ∀ {fs : List XFn} {n : Nat}, (∀ f ∈ fs, C51.Legal false f.p false f.args) → (∀ f ∈ fs, ∀ i ∈ f.body, InsOk f.p i) →
    mods ft fn n fs = some (modsT ft fn n fs)
  | [], _, _, _ => rfl
  | f :: fs, n, h1, h2 => by
    rw [mods, enter_some (h1 f List.mem_cons_self), comp_eq (h1 f List.mem_cons_self) ft (h2 f List.mem_cons_self),
      mods_eq (fun g hg => h1 g (List.mem_cons_of_mem _ hg)) (fun g hg => h2 g (List.mem_cons_of_mem _ hg))]
    rfl

theorem labels_mods : ∀ {fs : List XFn} {n : Nat}, Prog.labels (modsT ft fn n fs) = total fs
  | [], _ => rfl
  | f :: fs, n => by
    rw [modsT, Prog.labels, labels_append, labels_append, labels_piece, labels_comp, labels_mods]
    simp only [total, List.map_cons, List.sum_cons]; omega

theorem entry_lt : ∀ {fs : List XFn} {i : Nat}, i < fs.length → entry fs i < total fs
  | [], _, h => by cases h
  | f :: fs, 0, _ => by simp only [entry, total, List.take_zero, List.map_nil, List.sum_nil, List.map_cons, List.sum_cons]; omega
  | f :: fs, i + 1, h => by
    have := entry_lt (fs := fs) (i := i) (by simpa using h)
    simp only [entry, total, List.take_succ_cons, List.map_cons, List.sum_cons] at this ⊢; omega

theorem mods_plain {nl : Nat} : ∀ {fs : List XFn} {n : Nat}, (∀ f ∈ fs, ∀ i ∈ f.body, InsOk f.p i) → (∀ f ∈ fs, ∀ i ∈ f.body, ∀ k, i.target = some k → k < nlab f.body) →
    (∀ f ∈ fs, ∀ i ∈ f.body, ∀ u : Ctx, u.fn = fn → FnOk nl u i) → n + total fs ≤ nl → ∀ i ∈ modsT ft fn n fs, Plain nl i
  | [], _, _, _, _, _, i, hi => by cases hi
  | f :: fs, n, hok, ht, hf, hn, i, hi => by
    simp only [total, List.map_cons, List.sum_cons] at hn
    simp only [modsT, List.mem_cons, List.mem_append] at hi
    rcases hi with rfl | (hi | hi) | hi
    · trivial
    · exact plain_piece hi
    · refine comp_plain (hok f List.mem_cons_self) (fun j hj k hk => ?_) (fun j hj => hf f List.mem_cons_self j hj _ rfl) i hi
      have := ht f List.mem_cons_self j hj k hk
      show n + 1 + k < nl
      omega
    · exact mods_plain (fun g hg => hok g (List.mem_cons_of_mem _ hg)) (fun g hg => ht g (List.mem_cons_of_mem _ hg)) (fun g hg => hf g (List.mem_cons_of_mem _ hg))
        (by simp only [total]; omega) i hi

/-- Absolute addresses are those of the calls. -/
theorem mods_addr (hfn : ∀ k a, fn k ≠ .addr a) {type : Nat} {rew : Bool} {a : BitVec 64} : ∀ {fs : List XFn} {n : Nat}, Item.jump ⟨type, rew, .addr a⟩ ∈ modsT ft fn n fs →
    type = 38 ∧ ∃ f ∈ fs, ∃ as ret rew, Lir.Ins.call as ret rew (.opd (.imm a)) ∈ f.body
  | [], _, h => by cases h
  | f :: fs, n, h => by
    simp only [modsT, List.mem_cons, List.mem_append, reduceCtorEq, false_or] at h
    rcases h with (h | h) | h
    · unfold piece at h
      split at h
      · cases h
      · cases List.mem_singleton.mp h
    · obtain ⟨j, h1, h2⟩ := List.mem_flatMap.mp h
      obtain ⟨e, as, ret, rew, rfl⟩ := addr_of h2 hfn
      exact ⟨e, f, List.mem_cons_self, as, ret, rew, h1⟩
    · obtain ⟨e, g, hg, q⟩ := mods_addr hfn h
      exact ⟨e, g, List.mem_cons_of_mem _ hg, q⟩

variable {c : IMem} {off a0 : BitVec 64} {laddr : List (BitVec 64)} {fin : BitVec 64}

/-- Where a function is. -/
theorem fn_at : ∀ {fs : List XFn} {n : Nat} {a : BitVec 64} {ca : List (BitVec 64)} {ja : List Nat},
    Placed c false off a0 laddr (modsT ft fn n fs) a n ca ja fin → ∀ i f, fs[i]? = some f →
    ∃ tail, (⟨⟨n + entry fs i + 1, fn⟩, tail, c, off, a0, laddr, fin⟩ : XLir.Loc).has
      (piece (enterT f) ++ f.body.flatMap (itemsT ⟨n + entry fs i + 1, fn⟩ ft f.p)) (laddr.getD (n + entry fs i) 0#64) 0
  | [], _, _, _, _, _, i, f, h => by simp at h
  | g :: fs, n, a, ca, ja, hp, 0, f, h => by
    have h : g = f := by simpa using h
    subst h
    obtain ⟨h1, h2⟩ := hp
    have h1 : laddr.getD n 0#64 = a := by rw [List.getD_eq_getElem?_getD, h1]; rfl
    refine ⟨modsT ft fn (n + 1 + nlab g.body) fs, ca, ja, ?_⟩
    rw [← h1] at h2
    exact h2
  | g :: fs, n, a, ca, ja, hp, i + 1, f, h => by
    obtain ⟨-, h2⟩ := hp
    obtain ⟨a', ca', ja', h3⟩ := placed_suffix _ h2
    rw [labels_append, labels_piece, labels_comp, Nat.zero_add] at h3
    have := fn_at h3 i f (by simpa using h)
    rw [show n + entry (g :: fs) (i + 1) = n + 1 + nlab g.body + entry fs i by
      simp only [entry, List.take_succ_cons, List.map_cons, List.sum_cons]; omega]
    exact this

end Verif.XLir
