import Verif.X86.GenSpec
import Mathlib.Tactic.SplitIfs

/-! # reduce_code_size on x86-64: helper lemmas -/

namespace Verif.X86

/-- Back to the emitted item. -/
def RItem.strip : RItem → Item
  | .bytes bs => .bytes bs
  | .label => .label
  | .alabel al => .alabel al
  | .const bs => .const bs
  | .jump j _ => .jump j
  | .mov reg t => .mov reg t

theorem reduce_strip (win : Bool) (items : List Item) : ∀ pos li sr done labels, (reduce win items pos li sr done labels).1.map RItem.strip = items := by
  induction items with
  | nil => intros; rfl
  | cons i is ih => intro pos li sr done labels; cases i <;> simp only [reduce, List.map_cons, ih, RItem.strip]

/-- The estimated size of a jump in terms of the final estimated positions `L` of the labels; `E` is the estimated position of the jump,
`li` the number of labels before it. -/
def EstJ (L : List Nat) (li E : Nat) (j : JInfo) (est : Nat) : Prop :=
  match j.rew, j.tgt with
  | true, _ => est = maxSize j.type
  | false, .addr t => est = maxSize j.type - (if t.toNat ≤ 0xffffffff then 4 else 0)
  | false, .label k => k < L.length ∧ ∃ D : Int, est = maxSize j.type - labelCut j.type D ∧ -0x7ffffff0 < D ∧ D < 0x7ffffff0 ∧
      (k < li → D = (L.getD k 0 : Int) - E ∧ L.getD k 0 ≤ E) ∧ (li ≤ k → (L.getD k 0 : Int) - E ≤ D)

/-- The estimated size of a move address. -/
def EstM (win : Bool) (nl : Nat) (reg : Nat) (t : Tgt) (est : Nat) : Prop :=
  match t with
  | .label k => k < nl ∧ est = 7
  | .addr t => est = 10 - (if t.toNat ≤ 0xffffffff then (if movHi win reg then 4 else 5) else 0)

/-- What the generating loop relies on. `n` is the estimated size of the code. -/
def RGood (win : Bool) (L : List Nat) (n : Nat) : List RItem → (li E : Nat) → Prop
  | [], li, E => E = n ∧ li = L.length
  | .bytes bs :: is, li, E => bs ≠ [] ∧ RGood win L n is li (E + bs.length)
  | .label :: is, li, E => li < L.length ∧ L.getD li 0 = E ∧ RGood win L n is (li + 1) E
  | .alabel al :: is, li, E => li < L.length ∧ L.getD li 0 = E + alMask al ∧ RGood win L n is (li + 1) (E + alMask al)
  | .const bs :: is, li, E => bs ≠ [] ∧ RGood win L n is li (E + bs.length)
  | .jump j addr :: is, li, E => addr = E ∧ j.type < 40 ∧ j.tgt.Ok L.length ∧ ∃ est, EstJ L li E j est ∧ (∀ k, li ≤ k → k < L.length → E + est ≤ L.getD k 0) ∧
      RGood win L n is li (E + est)
  | .mov reg t :: is, li, E => 1 ≤ reg ∧ reg ≤ 16 ∧ E + 10 ≤ n ∧ ∃ est, EstM win L.length reg t est ∧
      (∀ k, li ≤ k → k < L.length → E + est ≤ L.getD k 0) ∧ RGood win L n is li (E + est)

theorem getD_drop {l : List Nat} {n i : Nat} {x : Nat} {t : List Nat} (h : l.drop n = x :: t) : l.getD n i = x ∧ n < l.length := by
  have hl : n < l.length := by
    rcases Nat.lt_or_ge n l.length with hh | hh
    · exact hh
    · rw [List.drop_eq_nil_of_le hh] at h; simp at h
  rw [List.drop_eq_getElem_cons hl] at h
  simp only [List.cons.injEq] at h
  simp [List.getD, hl, h.1]

theorem getD_set_ne {l : List Nat} {i n v d : Nat} (h : n ≠ i) : (l.set i v).getD n d = l.getD n d := by
  simp [List.getD, List.getElem?_set_ne (Ne.symm h)]
theorem getD_set_eq {l : List Nat} {i v d : Nat} (h : i < l.length) : (l.set i v).getD i d = v := by
  simp [List.getD, h]

theorem alMask_pos {al : Nat} (h : 1 ≤ al) : 1 ≤ alMask al := by
  have : 2 ^ 1 ≤ 2 ^ al := Nat.pow_le_pow_right (by omega) h
  unfold alMask; omega

theorem labelCut_le (type : Nat) (d : Int) : labelCut type d + 2 ≤ maxSize type := by
  unfold labelCut maxSize
  split_ifs <;> omega

theorem jumpCut_le (j : JInfo) (a l sr : Nat) : jumpCut j a l sr + 2 ≤ maxSize j.type := by
  unfold jumpCut
  split
  · unfold maxSize; split <;> omega
  · split
    · unfold maxSize; split_ifs <;> omega
    · exact labelCut_le ..

theorem movCut_le (hi : Bool) (t : Tgt) (a l : Nat) : movCut hi t a l ≤ 5 := by
  unfold movCut
  split
  · simp only; split_ifs <;> omega
  · split_ifs <;> omega

/-- The sizes lie between the current position and the end. -/
theorem labelSizes_mem (items : List Item) : ∀ pos, ∀ x ∈ labelSizes pos items, pos ≤ x ∧ x ≤ pos + usize items := by
  induction items with
  | nil => intro pos x h; simp [labelSizes] at h
  | cons i is ih =>
    intro pos x h
    cases i with
    | label =>
      simp only [labelSizes, List.mem_cons, usize, Item.size] at h ⊢
      rcases h with rfl | h
      · omega
      · have := ih _ x h; omega
    | alabel al =>
      simp only [labelSizes, List.mem_cons, usize, Item.size] at h ⊢
      rcases h with rfl | h
      · omega
      · have := ih _ x h; omega
    | _ => simp only [labelSizes, usize, Item.size] at h ⊢; have := ih _ x h; omega

theorem labelSizes_length (items : List Item) : ∀ pos, (labelSizes pos items).length = Prog.labels items := by
  induction items with
  | nil => intro pos; rfl
  | cons i is ih => intro pos; cases i <;> simp [labelSizes, Prog.labels, ih]

theorem reduce_good (win : Bool) (nl T : Nat) (hT : T + 16 < 2 ^ 31) (items : List Item) : ∀ (pos li sr : Nat) (labels : List Nat)
    (R : List RItem) (L : List Nat) (SR : Nat), reduce win items pos li sr false labels = (R, L, SR) →
    labels.length = nl → labels.drop li = labelSizes pos items → li ≤ labels.length → sr ≤ pos → Prog.Ok nl items → pos + usize items = T →
    (∀ k, k < li → labels.getD k 0 ≤ pos - sr) → (∀ k, labels.getD k 0 ≤ T) →
    L.length = nl ∧ (∀ k, k < li → L.getD k 0 = labels.getD k 0) ∧
    (∀ k, li ≤ k → k < L.length → L.getD k 0 + sr ≤ labels.getD k 0 ∧ pos - sr ≤ L.getD k 0) ∧
    SR ≤ T ∧ pos - sr + leasts items ≤ T - SR ∧ (∀ k, L.getD k 0 ≤ T) ∧ RGood win L (T - SR) R li (pos - sr) := by
  induction items with
  | nil =>
    intro pos li sr labels R L SR h hnl hd hll hs ho hp hb hbT
    simp only [reduce, Prod.mk.injEq] at h
    obtain ⟨rfl, rfl, rfl⟩ := h
    have hl : labels.length ≤ li := by simpa [labelSizes] using hd
    simp only [usize] at hp
    refine ⟨hnl, fun _ _ => rfl, fun n h1 h2 => by omega, by omega, by simp only [leasts]; omega, hbT, ?_⟩
    simp only [RGood]; omega
  | cons i is ih =>
    intro pos li sr labels R L SR h hnl hd hll hs ho hp hb hbT
    cases i with
    | bytes bs =>
      simp only [reduce] at h
      generalize hr : reduce win is _ _ _ _ _ = r at h
      obtain ⟨R', L', SR'⟩ := r
      simp only [Prod.mk.injEq] at h
      obtain ⟨rfl, rfl, rfl⟩ := h
      simp only [Prog.Ok, Item.Ok] at ho
      simp only [usize, Item.size] at hp
      obtain ⟨g1, g2, g3, g4, g5, g6, g7⟩ := ih _ _ _ _ _ _ _ hr hnl (by simpa [labelSizes, Item.size] using hd) hll (by omega) ho.2
        (by omega) (fun n hn => by have := hb n hn; omega) hbT
      refine ⟨g1, g2, fun n a b => by have := g3 n a b; omega, g4, by simp only [leasts, Item.least, Item.size]; omega, g6, ?_⟩
      simp only [RGood]
      have e : pos - sr + bs.length = pos + bs.length - sr := by omega
      exact ⟨ho.1, by rw [e]; exact g7⟩
    | const bs =>
      simp only [reduce] at h
      generalize hr : reduce win is _ _ _ _ _ = r at h
      obtain ⟨R', L', SR'⟩ := r
      simp only [Prod.mk.injEq] at h
      obtain ⟨rfl, rfl, rfl⟩ := h
      simp only [Prog.Ok, Item.Ok] at ho
      simp only [usize, Item.size] at hp
      obtain ⟨g1, g2, g3, g4, g5, g6, g7⟩ := ih _ _ _ _ _ _ _ hr hnl (by simpa [labelSizes, Item.size] using hd) hll (by omega) ho.2
        (by omega) (fun n hn => by have := hb n hn; omega) hbT
      refine ⟨g1, g2, fun n a b => by have := g3 n a b; omega, g4, by simp only [leasts, Item.least, Item.size]; omega, g6, ?_⟩
      simp only [RGood]
      have e : pos - sr + bs.length = pos + bs.length - sr := by omega
      exact ⟨ho.1, by rw [e]; exact g7⟩
    | label =>
      simp only [reduce, Bool.false_eq_true, if_false] at h
      generalize hr : reduce win is _ _ _ _ _ = r at h
      obtain ⟨R', L', SR'⟩ := r
      simp only [Prod.mk.injEq] at h
      obtain ⟨rfl, rfl, rfl⟩ := h
      simp only [Prog.Ok] at ho
      simp only [labelSizes] at hd
      simp only [usize, Item.size] at hp
      obtain ⟨e0, hl⟩ := getD_drop (i := 0) hd
      have hd' : labels.drop (li + 1) = labelSizes pos is := by
        have := congrArg (List.drop 1) hd; simpa [List.drop_drop] using this
      obtain ⟨g1, g2, g3, g4, g5, g6, g7⟩ := ih _ _ _ _ _ _ _ hr (by simpa using hnl) (by rw [List.drop_set_of_lt (by omega)]; exact hd') (by rw [List.length_set]; omega) hs ho.2
        (by omega)
        (fun n hn => by
          by_cases hne : n = li
          · subst hne; exact Nat.le_of_eq (by rw [getD_set_eq hl, e0])
          · rw [getD_set_ne hne]; exact hb n (by omega))
        (fun n => by
          by_cases hne : n = li
          · subst hne; rw [getD_set_eq hl, e0]; omega
          · rw [getD_set_ne hne]; exact hbT n)
      have hLi : L'.getD li 0 = pos - sr := by rw [g2 li (by omega), getD_set_eq hl, e0]
      refine ⟨g1, fun n hn => ?_, fun n a b => ?_, g4, by simp only [leasts, Item.least, Item.size]; omega, g6, ?_⟩
      · rw [g2 n (by omega), getD_set_ne (by omega)]
      · by_cases hne : n = li
        · subst hne; omega
        · have := g3 n (by omega) b; rw [getD_set_ne hne] at this; omega
      · simp only [RGood]
        exact ⟨by omega, hLi, g7⟩
    | alabel al =>
      simp only [reduce] at h
      generalize hr : reduce win is _ _ _ _ _ = r at h
      obtain ⟨R', L', SR'⟩ := r
      simp only [Prod.mk.injEq] at h
      obtain ⟨rfl, rfl, rfl⟩ := h
      simp only [Prog.Ok, Item.Ok] at ho
      simp only [labelSizes] at hd
      simp only [usize, Item.size] at hp
      generalize hq : alMask al = q at *
      obtain ⟨e0, hl⟩ := getD_drop (i := 0) hd
      have hd' : labels.drop (li + 1) = labelSizes (pos + q) is := by
        have := congrArg (List.drop 1) hd; simpa [List.drop_drop] using this
      obtain ⟨g1, g2, g3, g4, g5, g6, g7⟩ := ih _ _ _ _ _ _ _ hr (by simpa using hnl) (by rw [List.drop_set_of_lt (by omega)]; exact hd') (by rw [List.length_set]; omega)
        (by omega) ho.2 (by omega)
        (fun n hn => by
          by_cases hne : n = li
          · subst hne; exact Nat.le_of_eq (by rw [getD_set_eq hl, e0])
          · rw [getD_set_ne hne]; have := hb n (by omega); omega)
        (fun n => by
          by_cases hne : n = li
          · subst hne; rw [getD_set_eq hl, e0]; omega
          · rw [getD_set_ne hne]; exact hbT n)
      have hLi : L'.getD li 0 = pos + q - sr := by rw [g2 li (by omega), getD_set_eq hl, e0]
      refine ⟨g1, fun n hn => ?_, fun n a b => ?_, g4, by simp only [leasts, Item.least, Item.size]; omega, g6, ?_⟩
      · rw [g2 n (by omega), getD_set_ne (by omega)]
      · by_cases hne : n = li
        · subst hne; omega
        · have := g3 n (by omega) b; rw [getD_set_ne hne] at this; omega
      · simp only [RGood, hq]
        have e : pos - sr + q = pos + q - sr := by omega
        exact ⟨by omega, by omega, by rw [e]; exact g7⟩
    | jump j =>
      simp only [reduce] at h
      have hcut := jumpCut_le j (pos - sr) (tgtSize labels j.tgt) sr
      generalize hc : jumpCut j (pos - sr) (tgtSize labels j.tgt) sr = cut at *
      generalize hr : reduce win is _ _ _ _ _ = r at h
      obtain ⟨R', L', SR'⟩ := r
      simp only [Prod.mk.injEq] at h
      obtain ⟨rfl, rfl, rfl⟩ := h
      simp only [Prog.Ok, Item.Ok] at ho
      simp only [usize, Item.size] at hp
      obtain ⟨g1, g2, g3, g4, g5, g6, g7⟩ := ih _ _ _ _ _ _ _ hr hnl (by simpa [labelSizes, Item.size] using hd) hll (by omega) ho.2
        (by omega) (fun n hn => by have := hb n hn; omega) hbT
      have e : pos + maxSize j.type - (sr + cut) = pos - sr + (maxSize j.type - cut) := by omega
      rw [e] at g3 g5 g7
      refine ⟨g1, g2, fun n a b => by have := g3 n a b; omega, g4, by simp only [leasts, Item.least]; omega, g6, ?_⟩
      simp only [RGood, true_and]
      refine ⟨ho.1.1, by rw [g1]; exact ho.1.2, _, ?_, fun k a b => (g3 k a b).2, g7⟩
      simp only [EstJ]
      unfold jumpCut at hc
      split
      · next hrew => rw [hrew] at hc; simp at hc; omega
      · next t hrew ht =>
        rw [hrew, ht] at hc
        simp only [Bool.false_eq_true, if_false] at hc
        rw [hc]
      · next k hrew ht =>
        rw [hrew, ht] at hc
        simp only [Bool.false_eq_true, if_false, tgtSize] at hc
        have hk : k < nl := by have := ho.1.2; rw [ht] at this; exact this
        refine ⟨by omega, _, by rw [hc], ?_⟩
        have hbk := hbT k
        refine ⟨?_, ?_, fun h1 => ?_, fun h1 => ?_⟩
        · simp only [estDiff]; split <;> omega
        · simp only [estDiff]; split <;> omega
        · have h2 := g2 k h1
          have h3 := hb k h1
          simp only [estDiff]
          rw [if_neg (by omega)]; omega
        · have h2 := g3 k h1 (by omega)
          simp only [estDiff]
          rw [if_pos (by omega)]; omega
    | mov reg t =>
      simp only [Prog.Ok, Item.Ok] at ho
      obtain ⟨ho1, ho2, ho3, ho4⟩ := ho
      simp only [reduce, ho2, Bool.false_eq_true, if_false] at h
      have hcut := movCut_le (movHi win reg) t (pos + 10 - sr) (tgtSize labels t)
      generalize hc : movCut (movHi win reg) t (pos + 10 - sr) (tgtSize labels t) = cut at *
      generalize hr : reduce win is _ _ _ _ _ = r at h
      obtain ⟨R', L', SR'⟩ := r
      simp only [Prod.mk.injEq] at h
      obtain ⟨rfl, rfl, rfl⟩ := h
      simp only [usize, Item.size] at hp
      obtain ⟨g1, g2, g3, g4, g5, g6, g7⟩ := ih _ _ _ _ _ _ _ hr hnl (by simpa [labelSizes, Item.size] using hd) hll (by omega) ho4
        (by omega) (fun n hn => by have := hb n hn; omega) hbT
      have e : pos + 10 - (sr + cut) = pos - sr + (10 - cut) := by omega
      rw [e] at g3 g5 g7
      refine ⟨g1, g2, fun n a b => by have := g3 n a b; omega, g4, by simp only [leasts, Item.least]; omega, g6, ?_⟩
      simp only [RGood]
      refine ⟨ho1.1, ho1.2.1, by omega, _, ?_, fun k a b => (g3 k a b).2, g7⟩
      unfold movCut at hc
      cases t with
      | addr t => simp only [EstM]; simp only at hc; rw [hc]
      | label k =>
        simp only [EstM]
        have hk : k < nl := ho1.2.2
        have hbk := hbT k
        have et : tgtSize labels (.label k) = labels.getD k 0 := rfl
        rw [← et] at hbk
        simp only at hc
        rw [if_pos (by omega)] at hc
        omega

end Verif.X86
