import Verif.XProg.Whole
import Verif.Prog.Linked
import Verif.Props.C49

/-!
# From raw items to bytes in memory (x86-64)

The labels of raw items are merged, code is generated, and the bytes in memory are those of the raw items.
-/

namespace Verif.XLir
open Verif.X86 Verif.Props

theorem linked {R : List Item} {nl : Nat} (a2 : Prog.labels R = nl) (a3 : ∀ i ∈ R, Plain nl i) {base off : BitVec 64} (hr : X86.Room (link R) base off)
    (hne : ∀ i ∈ link R, NoEdge (base + off) (usize (link R)) i) :
    ∃ r, generate false (link R) base off = some r ∧ ∀ c, BytesAt c (base + off) r.code → ∃ laddr ca ja, laddr.length = nl ∧
      (∀ k < nl, laddr.getD k 0#64 = r.laddr.getD ((lmap false 0 R).getD k 0) 0#64) ∧
      Placed c false off (base + off) laddr R (base + off) 0 ca ja (base + off + BitVec.ofNat 64 r.code.length) := by
  have hlen := lmap_length R false 0 a3
  have hlt := lmap_lt R false 0 a3 (by simp)
  rw [a2] at hlen
  have hf : ∀ n, n < nl → (lmap false 0 R).getD n 0 < Prog.labels (link R) := by
    intro n hn
    rw [link, labels_ren]
    have := hlt ((lmap false 0 R).getD n 0) (by
      rw [Lir.getD_lt (by omega)]; exact List.getElem_mem _)
    omega
  obtain ⟨-, hok⟩ := link_ok hf R false a3
  obtain ⟨r, g1, -, -, g4⟩ := C49.c49_partial false (link R) base off hok hr hne
  refine ⟨r, g1, fun c hc => ?_⟩
  have hpl := g4 c hc
  have el : ((List.range nl).map fun n => r.laddr.getD ((lmap false 0 R).getD n 0) 0#64).length = nl := by simp
  have get : ∀ n < nl, ((List.range nl).map fun n => r.laddr.getD ((lmap false 0 R).getD n 0) 0#64).getD n 0#64 =
      r.laddr.getD ((lmap false 0 R).getD n 0) 0#64 := by
    intro n hn
    rw [Lir.getD_lt (by rw [el]; exact hn), List.getElem_map, List.getElem_range]
  refine ⟨(List.range nl).map fun n => r.laddr.getD ((lmap false 0 R).getD n 0) 0#64, r.caddr, r.jaddr, el, get, ?_⟩
  refine unlink (f := fun n => (lmap false 0 R).getD n 0) ?_ _ false _ 0 0 _ _ ?_ (by simp) ?_ ?_ hpl
  · intro n hn
    rw [el] at hn
    exact (get n hn).symm
  · intro i hi
    rw [el]
    exact a3 i hi
  · rw [el, a2, Nat.zero_add]
  · intro k hk
    rw [a2] at hk
    rw [Nat.zero_add]
    exact get k hk

end Verif.XLir
