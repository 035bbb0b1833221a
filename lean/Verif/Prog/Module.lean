import Verif.Prog.CallSim

/-!
# The functions of one compiler (RV64)
-/

namespace Verif.Lir
open Verif.RV Verif.Props

/-- The number of labels. -/
def total (fs : List RFn) : Nat := (fs.map fun f => 1 + nlab f.body).sum

variable {cfg : Cfg} {fn : Nat → Tgt}

theorem labels_mods : ∀ {fs : List RFn} {n : Nat} {mul : Bool}, Prog.labels (mods cfg fn n mul fs) = total fs
  | [], _, _ => rfl
  | f :: fs, n, mul => by
    rw [mods, Prog.labels, labels_append, labels_append, labels_piece, labels_comp, labels_mods]
    simp only [total, List.map_cons, List.sum_cons]; omega

theorem entry_lt : ∀ {fs : List RFn} {i : Nat}, i < fs.length → entry fs i < total fs
  | [], _, h => by cases h
  | f :: fs, 0, _ => by simp only [entry, total, List.take_zero, List.map_nil, List.sum_nil, List.map_cons, List.sum_cons]; omega
  | f :: fs, i + 1, h => by
    have := entry_lt (fs := fs) (i := i) (by simpa using h)
    simp only [entry, total, List.take_succ_cons, List.map_cons, List.sum_cons] at this ⊢; omega

/-- The last call of a function is sljit_emit_return or sljit_emit_return_void. -/
def Ends (P : List Ins) : Prop := ∃ Q r, P = Q ++ [r] ∧ (r = .retVoid ∨ ∃ o is32 src, r = .ret o is32 src)

theorem mods_alabel : ∀ {fs : List RFn} {n : Nat} {mul : Bool} (al : Nat), Item.alabel al ∉ mods cfg fn n mul fs
  | [], _, _, al, h => by cases h
  | f :: fs, n, mul, al, h => by
    simp only [mods, List.mem_cons, List.mem_append, reduceCtorEq, false_or] at h
    rcases h with (h | h) | h
    · cases (mem_piece h).1
    · exact no_alabel al h
    · exact mods_alabel al h

theorem mods_ok {nl : Nat} : ∀ {fs : List RFn} {n : Nat} {mul : Bool}, (∀ f ∈ fs, ∀ i ∈ f.body, ∀ k, i.target = some k → k < nlab f.body) →
    (∀ f ∈ fs, ∀ i ∈ f.body, ∀ u : Ctx, u.fn = fn → FnOk nl u i) → n + total fs ≤ nl → ∀ i ∈ mods cfg fn n mul fs, i.Ok cfg nl
  | [], _, _, _, _, _, i, hi => by cases hi
  | f :: fs, n, mul, ht, hf, hn, i, hi => by
    simp only [total, List.map_cons, List.sum_cons] at hn
    simp only [mods, List.mem_cons, List.mem_append] at hi
    rcases hi with rfl | (hi | hi) | hi
    · trivial
    · exact piece_ok (fun hc => ev_emitEnter hc _ _ _) hi
    · refine comp_ok (fun j hj k hk => ?_) (fun j hj => hf f List.mem_cons_self j hj _ rfl) i hi
      have := ht f List.mem_cons_self j hj k hk
      show n + 1 + k < nl
      omega
    · exact mods_ok (fun g hg => ht g (List.mem_cons_of_mem _ hg)) (fun g hg => hf g (List.mem_cons_of_mem _ hg)) (by simp only [total]; omega) i hi

theorem mods_last : ∀ {fs : List RFn} {n : Nat} {mul : Bool}, fs ≠ [] → (∀ f ∈ fs, Ends f.body) → ∃ ys e, mods cfg fn n mul fs = ys ++ [.code e]
  | [], _, _, h, _ => (h rfl).elim
  | [f], n, mul, _, he => by
    obtain ⟨Q, r, hP, hr⟩ := he f List.mem_cons_self
    have hc : ∀ mul, ∃ e, comp ⟨n + 1, fn⟩ cfg f.p mul [r] = [.code e] := by
      intro mul
      rcases hr with rfl | ⟨o, is32, src, rfl⟩
      · exact ⟨emitReturnVoid cfg f.p, by simp [comp, items, piece, emit, usize_ret]⟩
      · exact ⟨emitReturn cfg f.p o is32 src, by simp [comp, items, piece, emit, ret_ne]⟩
    obtain ⟨e, h⟩ := hc (mulAfter mul Q)
    refine ⟨.label :: (piece (emitEnter cfg f.p false f.types) ++ comp ⟨n + 1, fn⟩ cfg f.p mul Q), e, ?_⟩
    rw [mods, mods, hP, comp_append, h]
    simp
  | f :: g :: fs, n, mul, _, he => by
    obtain ⟨ys, e, h⟩ := mods_last (fs := g :: fs) (n := n + 1 + nlab f.body) (mul := mulAfter mul f.body) (by simp) (fun g hg => he g (List.mem_cons_of_mem _ hg))
    refine ⟨.label :: (piece (emitEnter cfg f.p false f.types) ++ comp ⟨n + 1, fn⟩ cfg f.p mul f.body ++ ys), e, ?_⟩
    rw [mods, h]; simp

variable {code : Code} {off : BitVec 64} {laddr : List (BitVec 64)} {fin : BitVec 64}

/-- Where a function is. -/
theorem fn_at : ∀ {fs : List RFn} {n : Nat} {mul : Bool} {a : BitVec 64} {ca : List (BitVec 64)},
    Placed code off laddr (mods cfg fn n mul fs) a n ca fin → ∀ i f, fs[i]? = some f →
    ∃ mul' tail, (∀ al, .alabel al ∉ tail) ∧ (⟨⟨n + entry fs i + 1, fn⟩, mul', tail, code, off, laddr, fin⟩ : Loc).has
      (piece (emitEnter cfg f.p false f.types) ++ comp ⟨n + entry fs i + 1, fn⟩ cfg f.p mul' f.body) (laddr.getD (n + entry fs i) 0#64) 0
  | [], _, _, _, _, _, i, f, h => by simp at h
  | g :: fs, n, mul, a, ca, hp, 0, f, h => by
    have h : g = f := by simpa using h
    subst h
    obtain ⟨h1, h2⟩ := hp
    refine ⟨mul, mods cfg fn (n + 1 + nlab g.body) (mulAfter mul g.body) fs, mods_alabel, ca, ?_⟩
    rw [← h1] at h2
    exact h2
  | g :: fs, n, mul, a, ca, hp, i + 1, f, h => by
    obtain ⟨-, h2⟩ := hp
    obtain ⟨a', ca', h3⟩ := placed_suffix _ h2
    rw [labels_append, labels_piece, labels_comp, Nat.zero_add] at h3
    have := fn_at h3 i f (by simpa using h)
    rw [show n + entry (g :: fs) (i + 1) = n + 1 + nlab g.body + entry fs i by
      simp only [entry, List.take_succ_cons, List.map_cons, List.sum_cons]; omega]
    exact this

end Verif.Lir
