import Verif.A64.FrameSlots

/-! # The places of saved registers on ARM64 (helper lemmas) -/

namespace Verif.A64
open Verif.Imm.A64 (fld)
open Verif.Imm.Arm64 (regMap RD RN TMP_ZERO)

/-- Two places do not overlap. -/
def Apart (a b : Slot) : Prop := a.dist + 8 ≤ b.dist ∨ b.dist + 8 ≤ a.dist

theorem pairSlots_range (vec : Bool) : ∀ (l : List Nat) (p : Option Nat) (D : Nat) (x : Slot), x ∈ pairSlots vec l p D → x.vec = vec ∧ D + 8 ≤ x.dist ∧ x.dist ≤ endD l p D
  | [], _, _, _, h => by simp [pairSlots] at h
  | i :: is, none, D, x, h => by rw [endD, endD_some _ 0 i]; exact pairSlots_range vec is (some i) D x h
  | i :: is, some r, D, x, h => by
    rw [endD]
    obtain ⟨j, hj⟩ := endD_16 is none (D + 16)
    rw [pairSlots, List.mem_cons, List.mem_cons] at h
    rcases h with rfl | rfl | h
    · exact ⟨rfl, by simp, by simp only; omega⟩
    · exact ⟨rfl, by simp, by simp only; omega⟩
    · obtain ⟨h1, h2, h3⟩ := pairSlots_range vec is none (D + 16) x h
      exact ⟨h1, by omega, h3⟩

theorem pairSlots_apart (vec : Bool) : ∀ (l : List Nat) (p : Option Nat) (D : Nat), (pairSlots vec l p D).Pairwise Apart
  | [], _, _ => List.Pairwise.nil
  | i :: is, none, D => pairSlots_apart vec is (some i) D
  | i :: is, some r, D => by
    rw [pairSlots, List.pairwise_cons, List.pairwise_cons]
    refine ⟨fun x hx => ?_, fun x hx => ?_, pairSlots_apart vec is none (D + 16)⟩
    · rcases List.mem_cons.mp hx with rfl | hx
      · exact Or.inr (by show D + 8 + 8 ≤ D + 16; omega)
      · have := (pairSlots_range vec is none (D + 16) x hx).2.1
        exact Or.inl (by simp only; omega)
    · have := (pairSlots_range vec is none (D + 16) x hx).2.1
      exact Or.inl (by simp only; omega)

theorem pairSlots_mem (vec : Bool) (r : Nat) : ∀ (l : List Nat) (p : Option Nat) (D : Nat), ((∃ x ∈ pairSlots vec l p D, x.reg = r) ∨ left l p = some r) ↔ r ∈ p.toList ++ l
  | [], p, D => by simp [pairSlots, left, eq_comm]
  | i :: is, none, D => by rw [pairSlots, left, pairSlots_mem vec r is (some i) D]; simp
  | i :: is, some q, D => by
    have := pairSlots_mem vec r is none (D + 16)
    simp only [Option.toList_none, List.nil_append] at this
    simp only [pairSlots, left, List.mem_cons, Option.toList_some, List.singleton_append, ← this]
    constructor
    · rintro (⟨x, rfl | rfl | h, e⟩ | h)
      · exact Or.inl e.symm
      · exact Or.inr (Or.inl e.symm)
      · exact Or.inr (Or.inr (Or.inl ⟨x, h, e⟩))
      · exact Or.inr (Or.inr (Or.inr h))
    · rintro (rfl | rfl | ⟨x, h, e⟩ | h)
      · exact Or.inl ⟨_, Or.inl rfl, rfl⟩
      · exact Or.inl ⟨_, Or.inr (Or.inl rfl), rfl⟩
      · exact Or.inl ⟨x, Or.inr (Or.inr h), e⟩
      · exact Or.inr h

/-- Facts about all places. -/
theorem slots_ok (p : Frame) : p.slots.Pairwise Apart ∧ (∀ x ∈ p.slots, 8 ≤ x.dist ∧ x.dist ≤ 8 * (p.regs.length + p.fregs.length) ∧ x.reg ∈ if x.vec then p.fregs else p.regs) ∧
    (∀ r ∈ p.regs, ∃ x ∈ p.slots, x.vec = false ∧ x.reg = r) ∧ ∀ r ∈ p.fregs, ∃ x ∈ p.slots, x.vec = true ∧ x.reg = r := by
  have l1 := endD_len p.regs none 0
  have l2 := endD_len p.fregs none (endD p.regs none 0)
  obtain ⟨j, hj⟩ := endD_16 p.fregs none (endD p.regs none 0)
  have a1 := pairSlots_range false p.regs none 0
  have a2 := pairSlots_range true p.fregs none (endD p.regs none 0)
  have k1 := fun r => pairSlots_mem false r p.regs none 0
  have k2 := fun r => pairSlots_mem true r p.fregs none (endD p.regs none 0)
  simp only [Option.toList_none, List.nil_append] at k1 k2
  have c0 : pcnt none = 0 := rfl
  rw [c0] at l1 l2
  rw [Frame.slots]
  generalize endD p.fregs none (endD p.regs none 0) = E2 at *
  have hE : endD p.regs none 0 ≤ E2 := by omega
  have fr : ∀ x ∈ fSlot (left p.fregs none) E2, x.vec = true ∧ left p.fregs none = some x.reg ∧ x.dist = E2 + 8 ∧ pcnt (left p.fregs none) = 1 := by
    intro x hx
    unfold fSlot at hx
    split at hx
    · rename_i r h
      rw [List.mem_singleton.mp hx, h]; exact ⟨rfl, rfl, rfl, rfl⟩
    · cases hx
  have rr : ∀ x ∈ rSlot (left p.regs none) (left p.fregs none) E2, x.vec = false ∧ left p.regs none = some x.reg ∧ x.dist = E2 + 8 + 8 * pcnt (left p.fregs none) ∧ pcnt (left p.regs none) = 1 := by
    intro x hx
    unfold rSlot at hx
    split at hx
    · rename_i r h
      rw [List.mem_singleton.mp hx, h]
      refine ⟨rfl, rfl, ?_, rfl⟩
      cases left p.fregs none <;> simp [pcnt]
    · cases hx
  refine ⟨?_, ?_, fun r hr => ?_, fun r hr => ?_⟩
  · rw [List.pairwise_append, List.pairwise_append, List.pairwise_append]
    refine ⟨⟨⟨pairSlots_apart _ _ _ _, pairSlots_apart _ _ _ _, fun a ha b hb => ?_⟩, ?_, fun a ha b hb => ?_⟩, ?_, fun a ha b hb => ?_⟩
    · have := a1 a ha; have := a2 b hb; exact Or.inl (by omega)
    · unfold fSlot; split <;> simp
    · obtain ⟨-, -, h, -⟩ := fr b hb
      rcases List.mem_append.mp ha with ha | ha
      · have := a1 a ha; exact Or.inl (by omega)
      · have := a2 a ha; exact Or.inl (by omega)
    · unfold rSlot; split <;> simp
    · obtain ⟨-, -, h, -⟩ := rr b hb
      rcases List.mem_append.mp ha with ha | ha
      · rcases List.mem_append.mp ha with ha | ha
        · have := a1 a ha; exact Or.inl (by omega)
        · have := a2 a ha; exact Or.inl (by omega)
      · have := fr a ha; exact Or.inl (by omega)
  · intro x hx
    simp only [List.mem_append] at hx
    rcases hx with ((hx | hx) | hx) | hx
    · have := a1 x hx
      refine ⟨by omega, by omega, ?_⟩
      rw [this.1]; exact (k1 _).mp (Or.inl ⟨x, hx, rfl⟩)
    · have := a2 x hx
      refine ⟨by omega, by omega, ?_⟩
      rw [this.1]; exact (k2 _).mp (Or.inl ⟨x, hx, rfl⟩)
    · have := fr x hx
      refine ⟨by omega, by omega, ?_⟩
      rw [this.1]; exact (k2 _).mp (Or.inr this.2.1)
    · have := rr x hx
      refine ⟨by omega, by omega, ?_⟩
      rw [this.1]; exact (k1 _).mp (Or.inr this.2.1)
  · simp only [List.mem_append]
    rcases (k1 r).mpr hr with ⟨x, hx, e⟩ | h
    · exact ⟨x, Or.inl (Or.inl (Or.inl hx)), (a1 x hx).1, e⟩
    · rw [h, rSlot]; exact ⟨_, Or.inr (List.mem_singleton.mpr rfl), rfl, rfl⟩
  · simp only [List.mem_append]
    rcases (k2 r).mpr hr with ⟨x, hx, e⟩ | h
    · exact ⟨x, Or.inl (Or.inl (Or.inr hx)), (a2 x hx).1, e⟩
    · rw [h, fSlot]; exact ⟨_, Or.inl (Or.inr (List.mem_singleton.mpr rfl)), rfl, rfl⟩

/-! ## Effects -/

theorem apart_addr (top : BitVec 64) {d e N : Nat} (hd : d ≤ N) (he : e ≤ N) (hN : N < 2 ^ 32) (h : d + 8 ≤ e ∨ e + 8 ≤ d) :
    8 ≤ (top - BitVec.ofNat 64 d - (top - BitVec.ofNat 64 e)).toNat := by
  have e1 : top - BitVec.ofNat 64 d - (top - BitVec.ofNat 64 e) = BitVec.ofNat 64 e - BitVec.ofNat 64 d := by
    simp only [BitVec.sub_eq_add_neg, BitVec.neg_add, BitVec.neg_neg]
    rw [show top + -BitVec.ofNat 64 d + (-top + BitVec.ofNat 64 e) = top + -top + (BitVec.ofNat 64 e + -BitVec.ofNat 64 d) by ac_rfl, BitVec.add_right_neg, BitVec.zero_add]
  rw [e1, BitVec.toNat_sub, BitVec.toNat_ofNat, BitVec.toNat_ofNat]
  omega

theorem out_addr (top q : BitVec 64) {d N : Nat} (hd : 8 ≤ d) (hdN : d ≤ N) (hN : N < 2 ^ 32) (h : N ≤ (q - (top - BitVec.ofNat 64 N)).toNat) :
    8 ≤ (q - (top - BitVec.ofNat 64 d)).toNat := by
  obtain ⟨j, rfl⟩ : ∃ j, N = d + j := ⟨N - d, by omega⟩
  have e1 : q - (top - BitVec.ofNat 64 d) = (q - (top - BitVec.ofNat 64 (d + j))) - BitVec.ofNat 64 j := by
    rw [BitVec.ofNat_add]
    simp only [BitVec.sub_eq_add_neg, BitVec.neg_add, BitVec.neg_neg]
    generalize BitVec.ofNat 64 d = x
    generalize BitVec.ofNat 64 j = y
    rw [show q + (-top + (x + y)) + -y = q + (-top + x) + (y + -y) by ac_rfl, BitVec.add_right_neg, BitVec.add_zero]
  rw [e1]
  generalize q - (top - BitVec.ofNat 64 (d + j)) = z at *
  have hz := z.isLt
  rw [BitVec.toNat_sub, BitVec.toNat_ofNat]
  omega

theorem stores_ok (top : BitVec 64) {N : Nat} (hN : N < 2 ^ 32) : ∀ (l : List Slot) (m : MSt), l.Pairwise Apart → (∀ x ∈ l, 8 ≤ x.dist ∧ x.dist ≤ N) →
    let m' := l.foldl (doSlot false top) m
    m'.s.r = m.s.r ∧ m'.v = m.v ∧ (∀ x ∈ l, rd m'.s.m (top - BitVec.ofNat 64 x.dist) 8 = m.get x.vec (hw x.vec x.reg)) ∧
    (∀ a, (∀ x ∈ l, 8 ≤ (a - (top - BitVec.ofNat 64 x.dist)).toNat ∧ 8 ≤ (top - BitVec.ofNat 64 x.dist - a).toNat) → rd m'.s.m a 8 = rd m.s.m a 8) ∧
    ∀ q, N ≤ (q - (top - BitVec.ofNat 64 N)).toNat → m'.s.m q = m.s.m q
  | [], m, _, _ => ⟨rfl, rfl, fun _ h => (by cases h), fun _ _ => rfl, fun _ _ => rfl⟩
  | x :: l, m, hp, hd => by
    rw [List.pairwise_cons] at hp
    have hx := hd x (List.mem_cons_self)
    obtain ⟨h1, h2, h3, h4, h5⟩ := stores_ok top hN l (doSlot false top m x) hp.2 (fun y hy => hd y (List.mem_cons_of_mem _ hy))
    simp only [List.foldl_cons]
    refine ⟨h1, h2, fun y hy => ?_, fun a ha => ?_, fun q hq => ?_⟩
    · rcases List.mem_cons.mp hy with rfl | hy
      · rw [h4 _ fun z hz => ?_]
        · exact rd_wr _ _ _
        · have hz' := hd z (List.mem_cons_of_mem _ hz)
          have := hp.1 z hz
          exact ⟨apart_addr top hx.2 hz'.2 hN this, apart_addr top hz'.2 hx.2 hN (Or.symm this)⟩
      · exact h3 y hy
    · rw [h4 a fun z hz => ha z (List.mem_cons_of_mem _ hz)]
      have := ha x List.mem_cons_self
      exact rd_wr_ne this.2 this.1
    · rw [h5 q hq]
      exact wr_out (out_addr top q hx.1 hx.2 hN hq)

/-- The hardware register of a place. -/
def Slot.hw (x : Slot) : BitVec 5 := A64.hw x.vec x.reg

theorem put_get (m : MSt) (vec vec' : Bool) (r q : BitVec 5) (x : BitVec 64) (hr : vec = false → r ≠ 31#5) :
    (m.put vec r x).get vec' q = if vec = vec' ∧ r = q then x else m.get vec' q := by
  unfold MSt.put MSt.get
  cases vec <;> cases vec'
  · have := hr rfl
    simp only [Bool.false_eq_true, if_false, true_and, setX_ne _ _ this]
    by_cases h : r = q
    · subst h; rw [if_pos rfl, wx_set _ _ this]
    · rw [if_neg h, set_x_ne _ _ (Ne.symm h)]
  · simp
  · simp
  · simp [eq_comm]

theorem loads_ok (top : BitVec 64) (G : Bool → BitVec 5 → BitVec 64) : ∀ (l : List Slot) (m : MSt), (∀ x ∈ l, x.vec = false → x.hw ≠ 31#5) →
    (∀ x ∈ l, rd m.s.m (top - BitVec.ofNat 64 x.dist) 8 = G x.vec x.hw) →
    let m' := l.foldl (doSlot true top) m
    m'.s.m = m.s.m ∧ (∀ x ∈ l, m'.get x.vec x.hw = G x.vec x.hw) ∧ ∀ vec q, (∀ x ∈ l, x.vec = vec → x.hw ≠ q) → m'.get vec q = m.get vec q
  | [], m, _, _ => ⟨rfl, fun _ h => (by cases h), fun _ _ _ => rfl⟩
  | x :: l, m, hr, hG => by
    simp only [List.foldl_cons]
    have hm : (doSlot true top m x).s.m = m.s.m := put_mem _ _ _ _
    obtain ⟨h1, h2, h3⟩ := loads_ok top G l (doSlot true top m x) (fun y hy => hr y (List.mem_cons_of_mem _ hy))
      (fun y hy => by rw [hm]; exact hG y (List.mem_cons_of_mem _ hy))
    have hg := fun vec q => put_get m x.vec vec x.hw q (rd m.s.m (top - BitVec.ofNat 64 x.dist) 8) (hr x List.mem_cons_self)
    refine ⟨h1.trans hm, fun y hy => ?_, fun vec q hq => ?_⟩
    · rcases List.mem_cons.mp hy with rfl | hy
      · by_cases hc : ∃ z ∈ l, z.vec = y.vec ∧ z.hw = y.hw
        · obtain ⟨z, hz, e1, e2⟩ := hc
          have := h2 z hz
          rwa [e1, e2] at this
        · rw [h3 y.vec y.hw fun z hz e1 e2 => hc ⟨z, hz, e1, e2⟩]
          have := hg y.vec y.hw
          rw [if_pos ⟨rfl, rfl⟩] at this
          exact this.trans (hG y List.mem_cons_self)
      · exact h2 y hy
    · rw [h3 vec q fun z hz => hq z (List.mem_cons_of_mem _ hz)]
      have := hg vec q
      rw [if_neg fun h => hq x List.mem_cons_self h.1 h.2] at this
      exact this

end Verif.A64
