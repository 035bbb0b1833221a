import Verif.AProg.CallSim

/-!
# The functions of one compiler (ARM64)
-/

namespace Verif.ALir
open Verif.A64 hiding cond moved DstOk
open Verif.Props
open Verif.Lir (nlab)

/-- The raw items of the functions. -/
def modsT (fn : Nat → Tgt) : (n : Nat) → FState → List AFn → List Item
  | _, _, [] => []
  | n, st, f :: fs => .label :: (piece (emitEnter f.p false f.args) ++ compT ⟨n + 1, fn⟩ f.p st f.body ++ modsT fn (n + 1 + nlab f.body) (stOf f.p st f.body) fs)

/-- Every call is covered (`InsOk` depends on the flag state of the compiler, which goes on from function to function). -/
def Covered : FState → List AFn → Prop
  | _, [] => True
  | st, f :: fs => AllOk f.p st f.body ∧ Covered (stOf f.p st f.body) fs

/-- The number of labels. -/
def total (fs : List AFn) : Nat := (fs.map fun f => 1 + nlab f.body).sum

variable {fn : Nat → Tgt}

theorem mods_eq : ∀ {fs : List AFn} {n : Nat} {st : FState}, (∀ f ∈ fs, Regs f.p) → Covered st fs → mods fn n st fs = some (modsT fn n st fs)
  | [], _, _, _, _ => rfl
  | f :: fs, n, st, hr, hc => by
    rw [mods, comp_eq (hr f List.mem_cons_self) _ hc.1, Option.bind_some, mods_eq (fun g hg => hr g (List.mem_cons_of_mem _ hg)) hc.2]
    rfl

theorem labels_mods : ∀ {fs : List AFn} {n : Nat} {st : FState}, Prog.labels (modsT fn n st fs) = total fs
  | [], _, _ => rfl
  | f :: fs, n, st => by
    rw [modsT, Prog.labels, labels_append, labels_append, labels_piece, labels_comp, labels_mods]
    simp only [total, List.map_cons, List.sum_cons]; omega

theorem entry_lt : ∀ {fs : List AFn} {i : Nat}, i < fs.length → entry fs i < total fs
  | [], _, h => by cases h
  | f :: fs, 0, _ => by simp only [entry, total, List.take_zero, List.map_nil, List.sum_nil, List.map_cons, List.sum_cons]; omega
  | f :: fs, i + 1, h => by
    have := entry_lt (fs := fs) (i := i) (by simpa using h)
    simp only [entry, total, List.take_succ_cons, List.map_cons, List.sum_cons] at this ⊢; omega

/-- The last call of every function leaves it. -/
def Ends (P : List Lir.Ins) : Prop := ∃ P' i, P = P' ++ [i] ∧ Leaves i

theorem mods_plain {nl : Nat} : ∀ {fs : List AFn} {n : Nat} {st : FState}, Covered st fs → (∀ f ∈ fs, ∀ i ∈ f.body, ∀ k, i.target = some k → k < nlab f.body) →
    (∀ f ∈ fs, ∀ i ∈ f.body, ∀ u : Ctx, u.fn = fn → FnOk nl u i) → n + total fs ≤ nl → ∀ i ∈ modsT fn n st fs, Plain nl i
  | [], _, _, _, _, _, _, i, hi => by cases hi
  | f :: fs, n, st, hc, ht, hf, hn, i, hi => by
    simp only [total, List.map_cons, List.sum_cons] at hn
    simp only [modsT, List.mem_cons, List.mem_append] at hi
    rcases hi with rfl | (hi | hi) | hi
    · trivial
    · exact plain_piece hi
    · refine comp_plain hc.1 (fun j hj k hk => ?_) (fun j hj => hf f List.mem_cons_self j hj _ rfl) i hi
      have := ht f List.mem_cons_self j hj k hk
      show n + 1 + k < nl
      omega
    · exact mods_plain hc.2 (fun g hg => ht g (List.mem_cons_of_mem _ hg)) (fun g hg => hf g (List.mem_cons_of_mem _ hg)) (by simp only [total]; omega) i hi

theorem mods_last : ∀ {fs : List AFn} {n : Nat} {st : FState}, fs ≠ [] → (∀ f ∈ fs, Regs f.p) → Covered st fs → (∀ f ∈ fs, Ends f.body) →
    ∃ ys x, modsT fn n st fs = ys ++ [x] ∧ 0 < x.size ∧ ∀ j, x = .jump j → j.skip = none
  | [], _, _, h, _, _, _ => (h rfl).elim
  | [f], n, st, _, hr, hc, he => by
    obtain ⟨P', i, e, hl⟩ := he f List.mem_cons_self
    have hi := hc.1
    rw [e] at hi
    obtain ⟨x, e1, e2, e3⟩ := last_item (u := ⟨n + 1, fn⟩) (hr f List.mem_cons_self) (AllOk.mid P' hi) hl
    refine ⟨.label :: (piece (emitEnter f.p false f.args) ++ compT ⟨n + 1, fn⟩ f.p st P'), x, ?_, e2, e3⟩
    rw [modsT, modsT, e, compT_append]
    rw [show compT ⟨n + 1, fn⟩ f.p (stOf f.p st P') [i] = itemsT ⟨n + 1, fn⟩ f.p (stOf f.p st P') i ++ [] from rfl, e1]
    simp
  | f :: g :: fs, n, st, _, hr, hc, he => by
    obtain ⟨ys, x, e, h⟩ := mods_last (fs := g :: fs) (n := n + 1 + nlab f.body) (st := stOf f.p st f.body) (by simp) (fun g hg => hr g (List.mem_cons_of_mem _ hg)) hc.2
      (fun g hg => he g (List.mem_cons_of_mem _ hg))
    refine ⟨.label :: (piece (emitEnter f.p false f.args) ++ compT ⟨n + 1, fn⟩ f.p st f.body ++ ys), x, ?_, h⟩
    rw [modsT, e]; simp

variable {c : IMem} {off a0 : BitVec 64} {laddr : List (BitVec 64)} {fin : BitVec 64}

/-- Where a function is. -/
theorem fn_at : ∀ {fs : List AFn} {n : Nat} {st : FState} {a : BitVec 64} {ca : List (BitVec 64)} {ja : List Nat}, Covered st fs →
    Placed c off a0 laddr (modsT fn n st fs) a n ca ja fin → ∀ i f, fs[i]? = some f →
    ∃ st' tail b, laddr[n + entry fs i]? = some b ∧ AllOk f.p st' f.body ∧
      (⟨⟨n + entry fs i + 1, fn⟩, st', tail, c, off, a0, laddr, fin⟩ : Loc).has (piece (emitEnter f.p false f.args) ++ compT ⟨n + entry fs i + 1, fn⟩ f.p st' f.body) b 0
  | [], _, _, _, _, _, _, _, i, f, h => by simp at h
  | g :: fs, n, st, a, ca, ja, hc, hp, 0, f, h => by
    have h : g = f := by simpa using h
    subst h
    obtain ⟨h1, h2⟩ := hp
    exact ⟨st, _, a, h1, hc.1, ca, ja, h2⟩
  | g :: fs, n, st, a, ca, ja, hc, hp, i + 1, f, h => by
    obtain ⟨-, h2⟩ := hp
    obtain ⟨a', ca', ja', h3⟩ := placed_suffix _ h2
    rw [labels_append, labels_piece, labels_comp, Nat.zero_add] at h3
    have := fn_at hc.2 h3 i f (by simpa using h)
    rw [show n + entry (g :: fs) (i + 1) = n + 1 + nlab g.body + entry fs i by
      simp only [entry, List.take_succ_cons, List.map_cons, List.sum_cons]; omega]
    exact this

end Verif.ALir
