import Verif.Prog.Whole
import Verif.Props.C18

/-!
# From raw items to half words in memory (RV64)

The labels of raw items are merged, code is generated, and the code in memory is that of the raw items.
-/

namespace Verif.Lir
open Verif.RV Verif.Props

theorem getD_lt {α : Type} {l : List α} {n : Nat} {d : α} (h : n < l.length) : l.getD n d = l[n] := by simp [h]

theorem linked {cfg : Cfg} {R : List Item} {nl : Nat} (a1 : ∀ al, Item.alabel al ∉ R) (a2 : Prog.labels R = nl) (a3 : ∀ i ∈ R, i.Ok cfg nl)
    (a4 : ∃ is e, R = is ++ [.code e]) {base off : BitVec 64} (m0 : HMem) (hr : Room cfg (link R) base off) :
    ∃ r, generate cfg (link R) base off m0 = some r ∧ ∀ code, Loaded code base off r.m r.len → ∃ laddr ca, laddr.length = nl ∧
      (∀ k < nl, laddr.getD k 0#64 = r.laddr.getD ((lmap false 0 R).getD k 0) 0#64) ∧
      Placed code off laddr R (base + off) 0 ca (base + off + BitVec.ofNat 64 (2 * r.len)) := by
  obtain ⟨is, e, hsp⟩ := a4
  have hlen := lmap_length R false 0 a1
  have hlt := lmap_lt R false 0 a1 (by simp)
  rw [a2] at hlen
  have hf : ∀ n, n < nl → (lmap false 0 R).getD n 0 < Prog.labels (link R) := by
    intro n hn
    rw [link, labels_ren]
    have := hlt ((lmap false 0 R).getD n 0) (by
      rw [getD_lt (by omega)]; exact List.getElem_mem _)
    omega
  have hok := (link_ok (cfg := cfg) hf R false a1 a3).2
  obtain ⟨q, q1, q2⟩ := link_end (f := fun n => (lmap false 0 R).getD n 0) (e := e) is false
    (fun al h => a1 al (by rw [hsp]; exact List.mem_append_left _ h))
  rw [← hsp] at q1
  have hc : link R = q ++ [.code e] := q1
  obtain ⟨r, g1, -, g3, g4⟩ := generate_spec cfg (link R) base off m0 hok (by rw [hc]; exact q2) hr (Or.inr (by
    rw [hc]
    rintro ⟨i, hi, h⟩
    rw [List.getLast?_append, List.getLast?_singleton] at hi
    have : i = .code e := (Option.some.inj hi).symm
    subst this
    rcases h with h | ⟨_, h⟩ <;> cases h))
  refine ⟨r, g1, fun code hl => ?_⟩
  have hpl := g4 code hl
  have el : ((List.range nl).map fun n => r.laddr.getD ((lmap false 0 R).getD n 0) 0#64).length = nl := by simp
  have get : ∀ n < nl, ((List.range nl).map fun n => r.laddr.getD ((lmap false 0 R).getD n 0) 0#64).getD n 0#64 =
      r.laddr.getD ((lmap false 0 R).getD n 0) 0#64 := by
    intro n hn
    rw [getD_lt (by rw [el]; exact hn), List.getElem_map, List.getElem_range]
  refine ⟨(List.range nl).map fun n => r.laddr.getD ((lmap false 0 R).getD n 0) 0#64, r.caddr, el, get, ?_⟩
  refine unlink (f := fun n => (lmap false 0 R).getD n 0) ?_ _ false _ 0 0 _ a1 ?_ (by simp) ?_ ?_ hpl
  · intro n hn
    rw [el] at hn
    exact (get n hn).symm
  · intro i hi
    rw [el]
    exact tgt_of_ok (a3 i hi)
  · rw [el, a2, Nat.zero_add]
  · intro k hk
    rw [a2] at hk
    rw [Nat.zero_add]
    exact get k hk

end Verif.Lir
