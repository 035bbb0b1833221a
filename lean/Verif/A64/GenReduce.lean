import Verif.A64.GenSpec
import Mathlib.Tactic.SplitIfs

/-! # reduce_code_size on ARM64: helper lemmas -/

namespace Verif.A64
open Verif.Imm.Arm64 (regMap)

/-- Back to the emitted item. -/
def RItem.strip : RItem → Item
  | .code ws => .code ws
  | .label => .label
  | .alabel al => .alabel al
  | .const ws => .const ws
  | .jump j _ _ => .jump j
  | .mov reg t _ _ => .mov reg t

theorem reduce_strip (items : List Item) : ∀ pos li sr labels, (reduce items pos li sr labels).1.map RItem.strip = items := by
  induction items with
  | nil => intros; rfl
  | cons i is ih => intro pos li sr labels; cases i <;> simp only [reduce, List.map_cons, ih, RItem.strip]

theorem reduce_isLabel (items : List Item) (pos li sr : Nat) (labels : List Nat) : RItem.isLabel (reduce items pos li sr labels).1 = Item.isLabel items := by
  cases items with
  | nil => rfl
  | cons i is => cases i <;> rfl

/-- `total_size` of a jump to a label. -/
def lblTotal (cnd : Bool) (diff : Int) : Nat :=
  if cnd = true ∧ diff + 1 ≤ 0xfffff / 4 ∧ -(0x100000 / 4) ≤ diff + 1 then 0
  else if diff ≤ 0x7ffffff / 4 ∧ -(0x8000000 / 4) ≤ diff then 1
  else if diff ≤ 0xfffff000 / 4 ∧ -(0x100000000 / 4) ≤ diff then 3
  else 5

/-- `total_size` of the address of a label. -/
def lblMov (diff : Int) : Nat :=
  if diff ≤ 0xfffff / 4 ∧ -(0x100000 / 4) ≤ diff then 0
  else if diff ≤ 0xfffff000 / 4 ∧ -(0x100000000 / 4) ≤ diff then 1
  else 3

/-- The distance used for a label in terms of the final estimated positions `L`; `A` is the estimated position of the record, `li` the
number of labels before it. -/
def EstD (L : List Nat) (li A k : Nat) (D : Int) : Prop :=
  (k < li → D = (L.getD k 0 : Int) - A ∧ L.getD k 0 ≤ A) ∧ (li ≤ k → (L.getD k 0 : Int) - A ≤ D)

/-- The estimated size of a jump. -/
def EstJ (L : List Nat) (li A : Nat) (j : JInfo) (total : Nat) : Prop :=
  match j.rew, j.tgt with
  | true, _ => total = 5
  | false, .addr t => total = if t.toNat < 0x100000000 then 3 else if t.toNat < 0x1000000000000 then 4 else 5
  | false, .label k => k < L.length ∧ ∃ D : Int, total = lblTotal j.skip.isSome D ∧ EstD L li A k D

/-- The estimated size of a move address. -/
def EstM (L : List Nat) (li A : Nat) (t : Tgt) (total : Nat) : Prop :=
  match t with
  | .addr t => total = if t.toNat < 0x100000000 then 1 else if t.toNat < 0x1000000000000 then 2 else 3
  | .label k => k < L.length ∧ ∃ D : Int, total = lblMov D ∧ EstD L li A k D

/-- What the generating loop relies on. `n` is the estimated size of the code. -/
def RGood (L : List Nat) (n : Nat) : List RItem → (li E : Nat) → Prop
  | [], li, E => E = n ∧ li = L.length
  | .code ws :: is, li, E => ws ≠ [] ∧ RGood L n is li (E + ws.length)
  | .label :: is, li, E => li < L.length ∧ L.getD li 0 = E ∧ RItem.isLabel is = false ∧ RGood L n is (li + 1) E
  | .alabel al :: is, li, E => li < L.length ∧ L.getD li 0 = E + nops al ∧ 3 ≤ al ∧ (RItem.more is = true → E + nops al < n) ∧
      RGood L n is (li + 1) (E + nops al)
  | .const ws :: is, li, E => ws ≠ [] ∧ RGood L n is li (E + ws.length)
  | .jump j addr total :: is, li, E => addr = E + j.pre ∧ j.tgt.Ok L.length ∧ j.tgt.Aligned ∧ (∀ k, j.skip = some k → k.Ok ∧ j.call = false) ∧
      (total = 0 → j.skip.isSome = true ∧ addr + 1 ≤ n) ∧ EstJ L li addr j total ∧ (∀ k, li ≤ k → k < L.length → addr + total ≤ L.getD k 0) ∧
      (∀ k, (if RItem.isLabel is then li + 1 else li) ≤ k → k < L.length → addr + total < L.getD k 0) ∧ RGood L n is li (addr + total)
  | .mov reg t addr total :: is, li, E => addr = E ∧ regMap reg ≠ 31#5 ∧ t.Ok L.length ∧ EstM L li E t total ∧
      (∀ k, li ≤ k → k < L.length → E + 1 + total ≤ L.getD k 0) ∧ RGood L n is li (E + 1 + total)

theorem getD_drop {l : List Nat} {n i : Nat} {x : Nat} {t : List Nat} (h : l.drop n = x :: t) : l.getD n i = x ∧ n < l.length := by
  have hl : n < l.length := by
    rcases Nat.lt_or_ge n l.length with hh | hh
    · exact hh
    · rw [List.drop_eq_nil_of_le hh] at h; simp at h
  rw [List.drop_eq_getElem_cons hl] at h
  simp only [List.cons.injEq] at h
  simp [List.getD, hl, h.1]

theorem getD_set_ne {l : List Nat} {i n v d : Nat} (h : n ≠ i) : (l.set i v).getD n d = l.getD n d := by
  simp [List.getD, List.getElem?_set_ne (Ne.symm h)]
theorem getD_set_eq {l : List Nat} {i v d : Nat} (h : i < l.length) : (l.set i v).getD i d = v := by
  simp [List.getD, h]

theorem nops_pos {al : Nat} (h : 3 ≤ al) : 1 ≤ nops al := by
  have : 2 ^ 1 ≤ 2 ^ (al - 2) := Nat.pow_le_pow_right (by omega) (by omega)
  unfold nops; omega

theorem lblTotal_le (c : Bool) (d : Int) : lblTotal c d ≤ 5 := by unfold lblTotal; split_ifs <;> omega

theorem jumpTotal_le (j : JInfo) (a l sr : Nat) : jumpTotal j a l sr ≤ 5 := by
  unfold jumpTotal
  split
  · omega
  · split
    · split_ifs <;> omega
    · exact lblTotal_le ..

theorem jumpTotal_zero {j : JInfo} {a l sr : Nat} (h : jumpTotal j a l sr = 0) : j.skip.isSome = true := by
  unfold jumpTotal at h
  split at h
  · cases h
  · split at h
    · split_ifs at h
    · simp only at h
      split_ifs at h with h1
      exact h1.1

theorem movTotal_le (t : Tgt) (a l sr : Nat) : movTotal t a l sr ≤ 3 := by
  unfold movTotal
  split <;> (try simp only) <;> split_ifs <;> omega

theorem len_pos {α : Type} {l : List α} (h : l ≠ []) : 1 ≤ l.length := List.length_pos_iff.mpr h

theorem more_pos (items : List Item) : ∀ nl pos li sr labels, Prog.Ok nl items → RItem.more (reduce items pos li sr labels).1 = true → 0 < usize items := by
  induction items with
  | nil => intro nl pos li sr labels _ h; simp [reduce, RItem.more] at h
  | cons i is ih =>
    intro nl pos li sr labels ho h
    cases i <;> simp only [Prog.Ok, Item.Ok] at ho <;> simp only [usize, Item.size]
    case code ws => have := len_pos ho.1; omega
    case const ws => have := len_pos ho.1; omega
    case label =>
      have := ih nl pos (li + 1) sr (labels.set li (labels.getD li 0 - sr)) ho.2 h
      omega
    case alabel al => have := nops_pos ho.1; omega
    all_goals omega

/-- The sizes lie between the current position and the end. -/
theorem labelSizes_mem (items : List Item) : ∀ pos, ∀ x ∈ labelSizes pos items, pos ≤ x ∧ x ≤ pos + usize items := by
  induction items with
  | nil => intro pos x h; simp [labelSizes] at h
  | cons i is ih =>
    intro pos x h
    cases i with
    | label =>
      simp only [labelSizes, List.mem_cons, usize, Item.size] at h ⊢
      rcases h with rfl | h
      · omega
      · have := ih _ x h; omega
    | alabel al =>
      simp only [labelSizes, List.mem_cons, usize, Item.size] at h ⊢
      rcases h with rfl | h
      · omega
      · have := ih _ x h; omega
    | _ => simp only [labelSizes, usize, Item.size] at h ⊢; have := ih _ x h; omega

theorem labelSizes_length (items : List Item) : ∀ pos, (labelSizes pos items).length = Prog.labels items := by
  induction items with
  | nil => intro pos; rfl
  | cons i is ih => intro pos; cases i <;> simp [labelSizes, Prog.labels, ih]

/-- The distance of reduce_code_size. -/
theorem estD_ok {L labels : List Nat} {li A sr k : Nat} (h1 : k < li → L.getD k 0 = labels.getD k 0 ∧ labels.getD k 0 ≤ A)
    (h2 : li ≤ k → L.getD k 0 + sr ≤ labels.getD k 0 ∧ A ≤ L.getD k 0) : EstD L li A k (estDiff A (labels.getD k 0) sr) := by
  refine ⟨fun h => ?_, fun h => ?_⟩
  · have := h1 h
    simp only [estDiff]; rw [if_neg (by omega)]; omega
  · have := h2 h
    simp only [estDiff]; split <;> omega

set_option maxHeartbeats 800000 in
theorem reduce_good (nl T : Nat) (items : List Item) : ∀ (pos li sr : Nat) (labels : List Nat)
    (R : List RItem) (L : List Nat) (SR : Nat), reduce items pos li sr labels = (R, L, SR) →
    labels.length = nl → labels.drop li = labelSizes pos items → li ≤ labels.length → sr ≤ pos → Prog.Ok nl items → pos + usize items = T →
    (∀ k, k < li → labels.getD k 0 ≤ pos - sr) → (∀ k, labels.getD k 0 ≤ T) →
    L.length = nl ∧ (∀ k, k < li → L.getD k 0 = labels.getD k 0) ∧
    (∀ k, li ≤ k → k < L.length → L.getD k 0 + sr ≤ labels.getD k 0 ∧ pos - sr ≤ L.getD k 0) ∧
    (Item.isLabel items = false → ∀ k, li ≤ k → k < L.length → pos - sr < L.getD k 0) ∧
    (∀ k, li + 1 ≤ k → k < L.length → pos - sr < L.getD k 0) ∧
    SR ≤ T ∧ pos - sr ≤ T - SR ∧ (0 < usize items → pos - sr < T - SR) ∧ (∀ k, L.getD k 0 ≤ T) ∧ RGood L (T - SR) R li (pos - sr) := by
  induction items with
  | nil =>
    intro pos li sr labels R L SR h hnl hd hll hs ho hp hb hbT
    simp only [reduce, Prod.mk.injEq] at h
    obtain ⟨rfl, rfl, rfl⟩ := h
    have hl : labels.length ≤ li := by simpa [labelSizes] using hd
    simp only [usize] at hp
    refine ⟨hnl, fun _ _ => rfl, fun n h1 h2 => by omega, fun _ n h1 h2 => by omega, fun n h1 h2 => by omega, by omega, by omega, fun h => by simp [usize] at h, hbT, ?_⟩
    simp only [RGood]; omega
  | cons i is ih =>
    intro pos li sr labels R L SR h hnl hd hll hs ho hp hb hbT
    cases i with
    | code ws =>
      simp only [reduce] at h
      generalize hr : reduce is _ _ _ _ = r at h
      obtain ⟨R', L', SR'⟩ := r
      simp only [Prod.mk.injEq] at h
      obtain ⟨rfl, rfl, rfl⟩ := h
      simp only [Prog.Ok, Item.Ok] at ho
      simp only [usize, Item.size] at hp
      have hw := len_pos ho.1
      obtain ⟨g1, g2, g3, g3', g3'', g4, g5, g5', g6, g7⟩ := ih _ _ _ _ _ _ _ hr hnl (by simpa [labelSizes, Item.size] using hd) hll (by omega) ho.2
        (by omega) (fun n hn => by have := hb n hn; omega) hbT
      refine ⟨g1, g2, fun n a b => by have := g3 n a b; omega, fun _ n a b => by have := g3 n a b; omega, fun n a b => by have := g3'' n a b; omega, g4, by omega, fun _ => by omega, g6, ?_⟩
      simp only [RGood]
      have e : pos - sr + ws.length = pos + ws.length - sr := by omega
      exact ⟨ho.1, by rw [e]; exact g7⟩
    | const ws =>
      simp only [reduce] at h
      generalize hr : reduce is _ _ _ _ = r at h
      obtain ⟨R', L', SR'⟩ := r
      simp only [Prod.mk.injEq] at h
      obtain ⟨rfl, rfl, rfl⟩ := h
      simp only [Prog.Ok, Item.Ok] at ho
      simp only [usize, Item.size] at hp
      have hw := len_pos ho.1
      obtain ⟨g1, g2, g3, g3', g3'', g4, g5, g5', g6, g7⟩ := ih _ _ _ _ _ _ _ hr hnl (by simpa [labelSizes, Item.size] using hd) hll (by omega) ho.2
        (by omega) (fun n hn => by have := hb n hn; omega) hbT
      refine ⟨g1, g2, fun n a b => by have := g3 n a b; omega, fun _ n a b => by have := g3 n a b; omega, fun n a b => by have := g3'' n a b; omega, g4, by omega, fun _ => by omega, g6, ?_⟩
      simp only [RGood]
      have e : pos - sr + ws.length = pos + ws.length - sr := by omega
      exact ⟨ho.1, by rw [e]; exact g7⟩
    | label =>
      simp only [reduce] at h
      generalize hr : reduce is _ _ _ _ = r at h
      obtain ⟨R', L', SR'⟩ := r
      simp only [Prod.mk.injEq] at h
      obtain ⟨rfl, rfl, rfl⟩ := h
      simp only [Prog.Ok] at ho
      simp only [labelSizes] at hd
      simp only [usize, Item.size] at hp
      obtain ⟨e0, hl⟩ := getD_drop (i := 0) hd
      have hd' : labels.drop (li + 1) = labelSizes pos is := by
        have := congrArg (List.drop 1) hd; simpa [List.drop_drop] using this
      have hil := reduce_isLabel is pos (li + 1) sr (labels.set li (labels.getD li 0 - sr))
      rw [hr] at hil
      obtain ⟨g1, g2, g3, g3', g3'', g4, g5, g5', g6, g7⟩ := ih _ _ _ _ _ _ _ hr (by simpa using hnl) (by rw [List.drop_set_of_lt (by omega)]; exact hd') (by rw [List.length_set]; omega) hs ho.2
        (by omega)
        (fun n hn => by
          by_cases hne : n = li
          · subst hne; exact Nat.le_of_eq (by rw [getD_set_eq hl, e0])
          · rw [getD_set_ne hne]; exact hb n (by omega))
        (fun n => by
          by_cases hne : n = li
          · subst hne; rw [getD_set_eq hl, e0]; omega
          · rw [getD_set_ne hne]; exact hbT n)
      have hLi : L'.getD li 0 = pos - sr := by rw [g2 li (by omega), getD_set_eq hl, e0]
      refine ⟨g1, fun n hn => ?_, fun n a b => ?_, fun h => by simp [Item.isLabel] at h, fun n a b => g3' ho.1 n a b, g4, g5, fun h => g5' (by simpa [usize, Item.size] using h), g6, ?_⟩
      · rw [g2 n (by omega), getD_set_ne (by omega)]
      · by_cases hne : n = li
        · subst hne; omega
        · have := g3 n (by omega) b; rw [getD_set_ne hne] at this; omega
      · simp only [RGood]
        exact ⟨by omega, hLi, by rw [hil]; exact ho.1, g7⟩
    | alabel al =>
      simp only [reduce] at h
      generalize hr : reduce is _ _ _ _ = r at h
      obtain ⟨R', L', SR'⟩ := r
      simp only [Prod.mk.injEq] at h
      obtain ⟨rfl, rfl, rfl⟩ := h
      simp only [Prog.Ok, Item.Ok] at ho
      simp only [labelSizes] at hd
      simp only [usize, Item.size] at hp
      have hq1 := nops_pos ho.1
      generalize hq : nops al = q at *
      obtain ⟨e0, hl⟩ := getD_drop (i := 0) hd
      have hd' : labels.drop (li + 1) = labelSizes (pos + q) is := by
        have := congrArg (List.drop 1) hd; simpa [List.drop_drop] using this
      have hmo := more_pos is nl (pos + q) (li + 1) sr (labels.set li (labels.getD li 0 - sr)) ho.2.2
      rw [hr] at hmo
      obtain ⟨g1, g2, g3, g3', g3'', g4, g5, g5', g6, g7⟩ := ih _ _ _ _ _ _ _ hr (by simpa using hnl) (by rw [List.drop_set_of_lt (by omega)]; exact hd') (by rw [List.length_set]; omega)
        (by omega) ho.2.2 (by omega)
        (fun n hn => by
          by_cases hne : n = li
          · subst hne; exact Nat.le_of_eq (by rw [getD_set_eq hl, e0])
          · rw [getD_set_ne hne]; have := hb n (by omega); omega)
        (fun n => by
          by_cases hne : n = li
          · subst hne; rw [getD_set_eq hl, e0]; omega
          · rw [getD_set_ne hne]; exact hbT n)
      have hLi : L'.getD li 0 = pos + q - sr := by rw [g2 li (by omega), getD_set_eq hl, e0]
      refine ⟨g1, fun n hn => ?_, fun n a b => ?_, fun _ n a b => ?_, fun n a b => by have := g3 n a b; omega, g4, by omega, fun _ => by omega, g6, ?_⟩
      · rw [g2 n (by omega), getD_set_ne (by omega)]
      · by_cases hne : n = li
        · subst hne; omega
        · have := g3 n (by omega) b; rw [getD_set_ne hne] at this; omega
      · by_cases hne : n = li
        · subst hne; omega
        · have := g3 n (by omega) b; rw [getD_set_ne hne] at this; omega
      · simp only [RGood, hq]
        have e : pos - sr + q = pos + q - sr := by omega
        exact ⟨by omega, by omega, ho.1, fun h => by have := g5' (hmo h); omega, by rw [e]; exact g7⟩
    | jump j =>
      simp only [reduce] at h
      have hcut := jumpTotal_le j (pos + j.pre - sr) (tgtSize labels j.tgt) sr
      have hzero := jumpTotal_zero (j := j) (a := pos + j.pre - sr) (l := tgtSize labels j.tgt) (sr := sr)
      generalize hc : jumpTotal j (pos + j.pre - sr) (tgtSize labels j.tgt) sr = total at *
      have hil := reduce_isLabel is (pos + j.pre + 5) li (sr + (5 - total)) labels
      generalize hr : reduce is _ _ _ _ = r at h
      obtain ⟨R', L', SR'⟩ := r
      rw [hr] at hil
      simp only [Prod.mk.injEq] at h
      obtain ⟨rfl, rfl, rfl⟩ := h
      simp only [Prog.Ok, Item.Ok] at ho
      obtain ⟨⟨ho1, ho2, ho3⟩, ho4, ho5⟩ := ho
      simp only [usize, Item.size] at hp
      obtain ⟨g1, g2, g3, g3', g3'', g4, g5, g5', g6, g7⟩ := ih _ _ _ _ _ _ _ hr hnl (by simpa [labelSizes, Item.size, Nat.add_assoc] using hd) hll (by omega) ho5
        (by omega) (fun n hn => by have := hb n hn; omega) hbT
      have e : pos + j.pre + 5 - (sr + (5 - total)) = pos + j.pre - sr + total := by omega
      rw [e] at g3 g3' g3'' g5 g5' g7
      have hpre : total = 0 → j.pre = 1 := fun h => by unfold JInfo.pre; rw [if_pos (hzero h)]
      have hpt : 1 ≤ j.pre + total := by
        rcases Nat.eq_zero_or_pos total with h | h
        · have := hpre h; omega
        · omega
      refine ⟨g1, g2, fun n a b => by have := g3 n a b; omega, fun _ n a b => by have := g3 n a b; omega, fun n a b => by have := g3 n (by omega) b; omega,
        g4, by omega, fun _ => by omega, g6, ?_⟩
      simp only [RGood]
      have ea : pos + j.pre - sr = pos - sr + j.pre := by omega
      refine ⟨ea, by rw [g1]; exact ho1, ho2, ho3, fun h => ⟨hzero h, ?_⟩, ?_, fun k a b => (g3 k a b).2, ?_, g7⟩
      · have := g5' (ho4 (hzero h)); omega
      · simp only [EstJ]
        unfold jumpTotal at hc
        split
        · next hrew => rw [hrew] at hc; simp at hc; omega
        · next t hrew ht =>
          rw [hrew, ht] at hc
          simp only [Bool.false_eq_true, if_false] at hc
          rw [hc]
        · next k hrew ht =>
          rw [hrew, ht] at hc
          simp only [Bool.false_eq_true, if_false, tgtSize] at hc
          have hk : k < nl := by rw [ht] at ho1; exact ho1
          refine ⟨by omega, _, hc.symm, ?_⟩
          refine estD_ok (fun h1 => ⟨g2 k h1, by have := hb k h1; omega⟩) (fun h1 => ?_)
          have := g3 k h1 (by omega)
          omega
      · intro k a b
        rw [hil] at a
        split at a
        · exact g3'' k a b
        · next hn => exact g3' (by simpa using hn) k a b
    | mov reg t =>
      simp only [Prog.Ok, Item.Ok] at ho
      obtain ⟨⟨ho1, ho2⟩, ho4⟩ := ho
      simp only [reduce] at h
      have hcut := movTotal_le t (pos - sr) (tgtSize labels t) sr
      generalize hc : movTotal t (pos - sr) (tgtSize labels t) sr = total at *
      generalize hr : reduce is _ _ _ _ = r at h
      obtain ⟨R', L', SR'⟩ := r
      simp only [Prod.mk.injEq] at h
      obtain ⟨rfl, rfl, rfl⟩ := h
      simp only [usize, Item.size] at hp
      obtain ⟨g1, g2, g3, g3', g3'', g4, g5, g5', g6, g7⟩ := ih _ _ _ _ _ _ _ hr hnl (by simpa [labelSizes, Item.size] using hd) hll (by omega) ho4
        (by omega) (fun n hn => by have := hb n hn; omega) hbT
      have e : pos + 4 - (sr + (3 - total)) = pos - sr + 1 + total := by omega
      rw [e] at g3 g3' g3'' g5 g5' g7
      refine ⟨g1, g2, fun n a b => by have := g3 n a b; omega, fun _ n a b => by have := g3 n a b; omega, fun n a b => by have := g3 n (by omega) b; omega,
        g4, by omega, fun _ => by omega, g6, ?_⟩
      simp only [RGood]
      refine ⟨trivial, ho1, by rw [g1]; exact ho2, ?_, fun k a b => (g3 k a b).2, g7⟩
      unfold movTotal at hc
      cases t with
      | addr t => simp only [EstM]; simp only at hc; rw [hc]
      | label k =>
        simp only [EstM]
        have hk : k < nl := ho2
        simp only [tgtSize] at hc
        refine ⟨by omega, _, hc.symm, ?_⟩
        refine estD_ok (fun h1 => ⟨g2 k h1, hb k h1⟩) (fun h1 => ?_)
        have := g3 k h1 (by omega)
        omega

end Verif.A64
