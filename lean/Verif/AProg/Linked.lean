import Verif.AProg.Whole
import Verif.Props.C53

/-!
# From raw items to words in memory (ARM64)

The labels of raw items are merged, code is generated, and the words in memory are those of the raw items.
-/

namespace Verif.ALir
open Verif.A64 hiding cond moved DstOk
open Verif.Props

theorem getD_lt {α : Type} {l : List α} {n : Nat} {d : α} (h : n < l.length) : l.getD n d = l[n] := by
  rw [List.getD_eq_getElem?_getD, List.getElem?_eq_getElem h]; rfl

theorem linked {R : List Item} {nl : Nat} (a2 : Prog.labels R = nl) (a3 : ∀ i ∈ R, Plain nl i) (a4 : CondOk R) {base off : BitVec 64}
    (hr : A64.Room (link R) base off) : ∃ r, generate (link R) base off = some r ∧ ∀ c, WordsAt c (base + off) r.code → ∃ laddr ca ja,
      (∀ k < nl, laddr.getD k 0#64 = r.laddr.getD ((lmap false 0 R).getD k 0) 0#64) ∧ Placed c off (base + off) laddr R (base + off) 0 ca ja (base + off + BitVec.ofNat 64 (4 * r.code.length)) := by
  subst a2
  generalize en : Prog.labels R = nl at a3
  have hlen := lmap_length R false 0 a3
  have hlt := lmap_lt R false 0 a3 (by simp)
  rw [en] at hlen
  have hf : ∀ n, n < nl → (lmap false 0 R).getD n 0 < Prog.labels (link R) := by
    intro n hn
    rw [link, labels_ren]
    have := hlt ((lmap false 0 R).getD n 0) (by
      rw [getD_lt (by omega)]; exact List.getElem_mem _)
    omega
  obtain ⟨-, hok⟩ := link_ok hf R false a3 a4
  obtain ⟨r, g1, -, -, g4⟩ := C53.c53_partial (link R) base off hok hr
  refine ⟨r, g1, fun c hc => ?_⟩
  have hpl := g4 c hc
  have el : ((List.range nl).map fun n => r.laddr.getD ((lmap false 0 R).getD n 0) 0#64).length = nl := by simp
  have get : ∀ n < nl, ((List.range nl).map fun n => r.laddr.getD ((lmap false 0 R).getD n 0) 0#64).getD n 0#64 =
      r.laddr.getD ((lmap false 0 R).getD n 0) 0#64 := by
    intro n hn
    rw [getD_lt (by rw [el]; exact hn), List.getElem_map, List.getElem_range]
  refine ⟨(List.range nl).map fun n => r.laddr.getD ((lmap false 0 R).getD n 0) 0#64, r.caddr, r.jaddr, get, ?_⟩
  refine unlink (f := fun n => (lmap false 0 R).getD n 0) ?_ _ false _ 0 0 _ _ ?_ (by simp) ?_ ?_ hpl
  · intro n hn
    rw [el] at hn
    exact (get n hn).symm
  · intro i hi
    rw [el]
    exact a3 i hi
  · rw [el, en, Nat.zero_add]
  · intro k hk
    rw [en] at hk
    rw [Nat.zero_add]
    exact get k hk

end Verif.ALir
