import Verif.RISCV.GenSpec
import Mathlib.Tactic.SplitIfs

/-! # reduce_code_size: helper lemmas -/

namespace Verif.RV

def RItem.rsize (cfg : Cfg) : RItem → Nat
  | .code hs => hs.length
  | .label _ => 0
  | .alabel al => (alNops cfg al).length
  | .const hs => hs.length
  | .jump j _ est _ => j.br.words.length + est
  | .mov _ _ _ est => est + 1

def rtotal (cfg : Cfg) : List RItem → Nat
  | [] => 0
  | i :: is => i.rsize cfg + rtotal cfg is

theorem labelEst_le (cfg j d) : labelEst cfg j d ≤ 12 := by
  simp only [labelEst]; split_ifs <;> omega
theorem addrEst_le (t) : addrEst t ≤ 12 := by simp only [addrEst]; split_ifs <;> omega
theorem jumpEst_le (cfg j a l sr) : jumpEst cfg j a l sr ≤ 12 := by
  simp only [jumpEst]
  split
  · omega
  · split
    · exact addrEst_le _
    · exact labelEst_le ..
theorem movEst_le (t a l sr) : movEst t a l sr ≤ 11 := by
  simp only [movEst]; split <;> split_ifs <;> omega

theorem words_none {b : Br} (h : b.words.length = 0) : b = .none := by
  cases b <;> simp_all [Br.words, w32, w16]

theorem jumpEst_pos {cfg j a l sr} (h : j.br = .none) : 1 ≤ jumpEst cfg j a l sr := by
  simp only [jumpEst, labelEst, addrEst, h, Br.cond, Br.cond16, Bool.and_false, Bool.false_and, Bool.false_eq_true, if_false]
  split
  · omega
  · split <;> split_ifs <;> omega

theorem jump_size_pos {cfg j a l sr} : 1 ≤ j.br.words.length + jumpEst cfg j a l sr := by
  by_cases h : j.br.words.length = 0
  · have := jumpEst_pos (cfg := cfg) (a := a) (l := l) (sr := sr) (words_none h); omega
  · omega

/-- The estimate of a jump in terms of the final estimated label positions `L`: `a` is the reduced address of the jump,
`rli` the number of label records before it. -/
def EstOk (cfg : Cfg) (L : List Nat) (rli a : Nat) (j : JInfo) (est : Nat) : Prop :=
  match j.rew, j.tgt with
  | true, _ => est = 12
  | false, .addr t => est = addrEst t
  | false, .label n => ∃ D : Int, est = labelEst cfg j D ∧ (n < rli → D = (L.getD n 0 : Int) - a ∧ L.getD n 0 ≤ a) ∧
      (rli ≤ n → (L.getD n 0 : Int) - a + (12 - est) ≤ D)

def MovOk (L : List Nat) (rli a : Nat) (t : Tgt) (est : Nat) : Prop :=
  match t with
  | .addr _ => est = movEst t 0 0 0
  | .label n => ∃ D : Int, est = (if -0x40000000 ≤ D ∧ D ≤ 0x3ffffbff then 3 else 11) ∧
      (n < rli → D = (L.getD n 0 : Int) - a ∧ L.getD n 0 ≤ a) ∧ (rli ≤ n → (L.getD n 0 : Int) - a ≤ D)

/-- What the generating loop relies on. `rli` is the number of label records before the items, `E` the estimated position of
the items, `z` says that the loop has already processed the next label. -/
def RGood (cfg : Cfg) (L : List Nat) : List RItem → (rli : Nat) → (z : Bool) → (E : Nat) → Prop
  | [], _, z, _ => z = false
  | .code hs :: is, rli, z, E => z = false ∧ RGood cfg L is rli false (E + hs.length)
  | .label d :: is, rli, z, E => d = z ∧ rli < L.length ∧ L.getD rli 0 = E ∧ RGood cfg L is (rli + 1) false E
  | .alabel al :: is, rli, z, E =>
    z = false ∧ rli < L.length ∧ L.getD rli 0 = E + (alNops cfg al).length ∧
      RGood cfg L is (rli + 1) false (E + (alNops cfg al).length)
  | .const hs :: is, rli, z, E => z = false ∧ RGood cfg L is rli false (E + hs.length)
  | .jump j a est lab :: is, rli, z, E =>
    z = false ∧ a = E + j.br.words.length ∧ (lab = true → est = 0) ∧ est ≤ 12 ∧ EstOk cfg L rli a j est ∧
      (lab = true → rli < L.length ∧ L.getD rli 0 = a) ∧
      (∀ n, rli + lab.toNat ≤ n → n < L.length → a < L.getD n 0) ∧ (∀ n, rli ≤ n → n < L.length → a + est ≤ L.getD n 0) ∧
      RGood cfg L is rli lab (a + est)
  | .mov _ t a est :: is, rli, z, E =>
    z = false ∧ a = E ∧ est ≤ 11 ∧ MovOk L rli a t est ∧
      (∀ n, rli ≤ n → n < L.length → a + est + 1 ≤ L.getD n 0) ∧ RGood cfg L is rli false (E + est + 1)

theorem getD_drop {l : List Nat} {n i : Nat} {x : Nat} {t : List Nat} (h : l.drop n = x :: t) : l.getD n i = x ∧ n < l.length := by
  have hl : n < l.length := by
    rcases Nat.lt_or_ge n l.length with hh | hh
    · exact hh
    · rw [List.drop_eq_nil_of_le hh] at h; simp at h
  rw [List.drop_eq_getElem_cons hl] at h
  simp only [List.cons.injEq] at h
  simp [List.getD, hl, h.1]

theorem getD_set_ne {l : List Nat} {i n v d : Nat} (h : n ≠ i) : (l.set i v).getD n d = l.getD n d := by
  simp [List.getD, List.getElem?_set_ne (Ne.symm h)]
theorem getD_set_eq {l : List Nat} {i v d : Nat} (h : i < l.length) : (l.set i v).getD i d = v := by
  simp [List.getD, h]

/-- z is only set in front of a label. -/
def zOk (z : Bool) (items : List Item) : Prop := z = true → Item.isLabel items = true

theorem alNops_length (cfg : Cfg) (al : Nat) : (alNops cfg al).length = if cfg.c then (alMask cfg al).toNat / 2
    else (alMask cfg al).toNat / 4 * 2 := by
  simp only [alNops]; split <;> simp [w16, w32]

theorem alMask_toNat {cfg : Cfg} {al : Nat} (h : (if cfg.c then 2 else 3) ≤ al) (h' : al < 60) :
    (alMask cfg al).toNat = 2 ^ al - (if cfg.c then 2 else 4) := by
  have hp : 2 ^ al < 2 ^ 60 := Nat.pow_lt_pow_right (by omega) h'
  have h4 : cfg.c = false → 2 ^ 3 ≤ 2 ^ al := fun hc => Nat.pow_le_pow_right (by omega) (by simpa [hc] using h)
  have h2 : cfg.c = true → 2 ^ 2 ≤ 2 ^ al := fun hc => Nat.pow_le_pow_right (by omega) (by simpa [hc] using h)
  have e : (1#64 <<< al).toNat = 2 ^ al := by
    rw [BitVec.toNat_shiftLeft, Nat.shiftLeft_eq]; simp; omega
  rw [alMask, BitVec.toNat_sub, e]
  cases hc : cfg.c <;> simp [hc] at * <;> omega

theorem alNops_pos {cfg : Cfg} {al : Nat} (h : (if cfg.c then 2 else 3) ≤ al) (h' : al < 60) : 1 ≤ (alNops cfg al).length := by
  have h4 : cfg.c = false → 2 ^ 3 ≤ 2 ^ al := fun hc => Nat.pow_le_pow_right (by omega) (by simpa [hc] using h)
  have h2 : cfg.c = true → 2 ^ 2 ≤ 2 ^ al := fun hc => Nat.pow_le_pow_right (by omega) (by simpa [hc] using h)
  rw [alNops_length, alMask_toNat h h']
  cases hc : cfg.c <;> simp [hc] at * <;> omega

theorem reduce_good (cfg : Cfg) (nl : Nat) (items : List Item) : ∀ (pos li sr : Nat) (z : Bool) (labels : List Nat)
    (R : List RItem) (L : List Nat) (SR : Nat), reduce cfg items pos li sr z labels = (R, L, SR) →
    labels.length = nl → labels.drop li = labelSizes cfg pos items → sr ≤ pos → Prog.Ok cfg nl items →
    (∀ n, n < li → labels.getD n 0 ≤ pos - sr) →
    L.length = labels.length ∧ (∀ n, n < li → L.getD n 0 = labels.getD n 0) ∧
    (∀ n, li ≤ n → n < L.length → L.getD n 0 + sr ≤ labels.getD n 0 ∧ pos - sr ≤ L.getD n 0) ∧
    (∀ n, li + (Item.isLabel items).toNat ≤ n → n < L.length → pos - sr < L.getD n 0) ∧
    (Item.isLabel items = true → li < L.length ∧ L.getD li 0 = pos - sr) ∧
    SR ≤ pos + usize cfg items ∧ pos + usize cfg items - SR = pos - sr + rtotal cfg R ∧
    RGood cfg L R li (z && Item.isLabel items) (pos - sr) := by
  induction items with
  | nil =>
    intro pos li sr z labels R L SR h hnl hd hs ho hb
    simp only [reduce, Prod.mk.injEq] at h
    obtain ⟨rfl, rfl, rfl⟩ := h
    have hl : labels.length ≤ li := by simpa [labelSizes] using hd
    refine ⟨rfl, fun _ _ => rfl, fun n h1 h2 => by omega, fun n h1 h2 => by omega, by simp [Item.isLabel], by simp [usize]; omega, by simp [usize, rtotal], ?_⟩
    simp [RGood, Item.isLabel]
  | cons i is ih =>
    intro pos li sr z labels R L SR h hnl hd hs ho hb
    cases i with
    | code hs' =>
      simp only [reduce] at h
      generalize hr : reduce cfg is _ _ _ _ _ = r at h
      obtain ⟨R', L', SR'⟩ := r
      simp only [Prod.mk.injEq] at h
      obtain ⟨rfl, rfl, rfl⟩ := h
      simp only [Prog.Ok, Item.Ok] at ho
      have hpos : 1 ≤ hs'.length := by
        rcases hs' with _ | _
        · simp at ho
        · simp
      obtain ⟨g1, g2, g3, g4, g8, g5, g6, g7⟩ := ih _ _ _ _ _ _ _ _ hr (by simpa using hnl) (by simpa [labelSizes, Item.size] using hd) (by omega) ho.2
        (fun n hn => by have := hb n hn; omega)
      refine ⟨g1, g2, fun n a b => by have := g3 n a b; omega, fun n a b => ?_, by simp [Item.isLabel], ?_, ?_, ?_⟩
      · simp only [Item.isLabel, Bool.toNat_false] at a
        have := g3 n (by omega) b; omega
      · simp only [usize, Item.size]; omega
      · simp only [usize, Item.size, rtotal, RItem.rsize]; omega
      · simp only [RGood, Item.isLabel, Bool.and_false, true_and]
        have e : pos - sr + hs'.length = pos + hs'.length - sr := by omega
        rw [e]; simpa using g7
    | const hs' =>
      simp only [reduce] at h
      generalize hr : reduce cfg is _ _ _ _ _ = r at h
      obtain ⟨R', L', SR'⟩ := r
      simp only [Prod.mk.injEq] at h
      obtain ⟨rfl, rfl, rfl⟩ := h
      simp only [Prog.Ok, Item.Ok] at ho
      have hpos : 1 ≤ hs'.length := by
        rcases hs' with _ | _
        · simp at ho
        · simp
      obtain ⟨g1, g2, g3, g4, g8, g5, g6, g7⟩ := ih _ _ _ _ _ _ _ _ hr (by simpa using hnl) (by simpa [labelSizes, Item.size] using hd) (by omega) ho.2
        (fun n hn => by have := hb n hn; omega)
      refine ⟨g1, g2, fun n a b => by have := g3 n a b; omega, fun n a b => ?_, by simp [Item.isLabel], ?_, ?_, ?_⟩
      · simp only [Item.isLabel, Bool.toNat_false] at a
        have := g3 n (by omega) b; omega
      · simp only [usize, Item.size]; omega
      · simp only [usize, Item.size, rtotal, RItem.rsize]; omega
      · simp only [RGood, Item.isLabel, Bool.and_false, true_and]
        have e : pos - sr + hs'.length = pos + hs'.length - sr := by omega
        rw [e]; simpa using g7
    | label =>
      simp only [reduce] at h
      generalize hr : reduce cfg is _ _ _ _ _ = r at h
      obtain ⟨R', L', SR'⟩ := r
      simp only [Prod.mk.injEq] at h
      obtain ⟨rfl, rfl, rfl⟩ := h
      simp only [Prog.Ok] at ho
      simp only [labelSizes] at hd
      obtain ⟨e0, hl⟩ := getD_drop (i := 0) hd
      have hd' : labels.drop (li + 1) = labelSizes cfg pos is := by
        have := congrArg (List.drop 1) hd; simpa [List.drop_drop] using this
      obtain ⟨g1, g2, g3, g4, g8, g5, g6, g7⟩ := ih _ _ _ _ _ _ _ _ hr (by simpa using hnl) (by rw [List.drop_set_of_lt (by omega)]; exact hd') hs ho.2
        (fun n hn => by
          by_cases hne : n = li
          · subst hne; exact Nat.le_of_eq (by rw [getD_set_eq hl, e0])
          · rw [getD_set_ne hne]; exact hb n (by omega))
      have hLi : L'.getD li 0 = pos - sr := by rw [g2 li (by omega), getD_set_eq hl, e0]
      rw [List.length_set] at g1
      refine ⟨g1, fun n hn => ?_, fun n a b => ?_, fun n a b => ?_, fun _ => ⟨by omega, hLi⟩, ?_, ?_, ?_⟩
      · rw [g2 n (by omega), getD_set_ne (by omega)]
      · by_cases hne : n = li
        · subst hne; omega
        · have := g3 n (by omega) b; rw [getD_set_ne hne] at this; omega
      · simp only [Item.isLabel, Bool.toNat_true] at a
        exact g4 n (by rw [ho.1]; simpa using a) b
      · simp only [usize, Item.size]; omega
      · simp only [usize, Item.size, rtotal, RItem.rsize]; omega
      · simp only [RGood, Item.isLabel, Bool.and_true, true_and]
        exact ⟨by omega, hLi, by simpa using g7⟩
    | alabel al =>
      simp only [reduce] at h
      generalize hr : reduce cfg is _ _ _ _ _ = r at h
      obtain ⟨R', L', SR'⟩ := r
      simp only [Prod.mk.injEq] at h
      obtain ⟨rfl, rfl, rfl⟩ := h
      simp only [Prog.Ok, Item.Ok] at ho
      simp only [labelSizes] at hd
      have hpos := alNops_pos ho.1.1 ho.1.2
      generalize hq : (alNops cfg al).length = q at *
      obtain ⟨e0, hl⟩ := getD_drop (i := 0) hd
      have hd' : labels.drop (li + 1) = labelSizes cfg (pos + q) is := by
        have := congrArg (List.drop 1) hd; simpa [List.drop_drop] using this
      obtain ⟨g1, g2, g3, g4, g8, g5, g6, g7⟩ := ih _ _ _ _ _ _ _ _ hr (by simpa using hnl) (by rw [List.drop_set_of_lt (by omega)]; exact hd')
        (by omega) ho.2.2
        (fun n hn => by
          by_cases hne : n = li
          · subst hne; exact Nat.le_of_eq (by rw [getD_set_eq hl, e0])
          · rw [getD_set_ne hne]; have := hb n (by omega); omega)
      have hLi : L'.getD li 0 = pos + q - sr := by rw [g2 li (by omega), getD_set_eq hl, e0]
      rw [List.length_set] at g1
      have g3' : ∀ n, li ≤ n → n < L'.length → L'.getD n 0 + sr ≤ labels.getD n 0 ∧ pos + q - sr ≤ L'.getD n 0 := by
        intro n a b
        by_cases hne : n = li
        · subst hne; omega
        · have := g3 n (by omega) b; rw [getD_set_ne hne] at this; exact this
      refine ⟨g1, fun n hn => ?_, fun n a b => by have := g3' n a b; omega, fun n a b => ?_, by simp [Item.isLabel], ?_, ?_, ?_⟩
      · rw [g2 n (by omega), getD_set_ne (by omega)]
      · simp only [Item.isLabel, Bool.toNat_false] at a
        have := g3' n (by omega) b; omega
      · simp only [usize, Item.size, hq]; omega
      · simp only [usize, Item.size, rtotal, RItem.rsize, hq]; omega
      · simp only [RGood, Item.isLabel, Bool.and_false, true_and, hq]
        have e : pos - sr + q = pos + q - sr := by omega
        exact ⟨by omega, by omega, by rw [e]; simpa using g7⟩
    | jump j =>
      simp only [reduce] at h
      generalize hest : jumpEst _ _ _ _ _ = est at h
      generalize hr : reduce cfg is _ _ _ _ _ = r at h
      obtain ⟨R', L', SR'⟩ := r
      simp only [Prod.mk.injEq] at h
      obtain ⟨rfl, rfl, rfl⟩ := h
      simp only [Prog.Ok] at ho
      have hle : est ≤ 12 := hest ▸ jumpEst_le ..
      have hpos : 1 ≤ j.br.words.length + est := hest ▸ jump_size_pos
      have hw := (ho.1)
      generalize hq : j.br.words.length = q at *
      obtain ⟨g1, g2, g3, g4, g8, g5, g6, g7⟩ := ih _ _ _ _ _ _ _ _ hr (by simpa using hnl) (by simpa [labelSizes, Item.size, hq, Nat.add_assoc] using hd)
        (by omega) ho.2 (fun n hn => by have := hb n hn; omega)
      have e1 : pos + q + 12 - (sr + (12 - est)) = pos + q - sr + est := by omega
      rw [e1] at g3 g4 g6 g7
      refine ⟨g1, g2, fun n a b => by have := g3 n a b; omega, fun n a b => ?_, by simp [Item.isLabel], ?_, ?_, ?_⟩
      · simp only [Item.isLabel, Bool.toNat_false] at a
        have := g3 n (by omega) b; omega
      · simp only [usize, Item.size]; omega
      · simp only [usize, Item.size, rtotal, RItem.rsize]; omega
      · have hil : Item.isLabel (.jump j :: is) = false := rfl
        simp only [RGood, hil, Bool.and_false, true_and, hq]
        refine ⟨by omega, by simp; intro h _; exact h, hle, ?_, ?_, ?_, fun n a b => (g3 n a b).2, ?_⟩
        · -- EstOk
          rw [EstOk]
          split
          · next hrew => rw [← hest, jumpEst, if_pos (by simpa using hrew)]
          · next hrew ht =>
            rw [← hest, jumpEst, if_neg (by simpa using hrew), ht]
          · next n hrew ht =>
            rw [jumpEst, if_neg (by simpa using hrew), ht] at hest
            simp only [tgtSize] at hest
            refine ⟨_, hest.symm, fun hn => ?_, fun hn => ?_⟩
            · have h1 := g2 n hn
              have h2 := hb n hn
              rw [estDiff, if_neg (by omega), h1]; omega
            · have hok := ho.1.2.2.1
              rw [ht] at hok
              simp only [Tgt.Ok] at hok
              have h3 := g3 n hn (by omega)
              rw [estDiff, if_pos (by omega)]; omega
        · intro hlab
          simp only [Bool.and_eq_true, beq_iff_eq] at hlab
          have := g8 hlab.2
          omega
        · intro n a b
          by_cases he : est = 0
          · have := g4 n (by simpa [he] using a) b; omega
          · have := g3 n (by omega) b; omega
        · have e : pos - sr + q = pos + q - sr := by omega
          simpa [e] using g7
    | mov reg t =>
      simp only [reduce] at h
      generalize hest : movEst _ _ _ _ = est at h
      generalize hr : reduce cfg is _ _ _ _ _ = r at h
      obtain ⟨R', L', SR'⟩ := r
      simp only [Prod.mk.injEq] at h
      obtain ⟨rfl, rfl, rfl⟩ := h
      simp only [Prog.Ok, Item.Ok] at ho
      have hle : est ≤ 11 := hest ▸ movEst_le ..
      obtain ⟨g1, g2, g3, g4, g8, g5, g6, g7⟩ := ih _ _ _ _ _ _ _ _ hr hnl (by simpa [labelSizes, Item.size] using hd)
        (by omega) ho.2 (fun n hn => by have := hb n hn; omega)
      have e1 : pos + 12 - (sr + (11 - est)) = pos - sr + est + 1 := by omega
      rw [e1] at g3 g4 g6 g7
      refine ⟨g1, g2, fun n a b => by have := g3 n a b; omega, fun n a b => ?_, by simp [Item.isLabel], ?_, ?_, ?_⟩
      · simp only [Item.isLabel, Bool.toNat_false] at a
        have := g3 n (by omega) b; omega
      · simp only [usize, Item.size]; omega
      · simp only [usize, Item.size, rtotal, RItem.rsize]; omega
      · simp only [RGood, Item.isLabel, Bool.and_false, true_and]
        refine ⟨hle, ?_, fun n a b => (g3 n a b).2, by simpa using g7⟩
        cases t with
        | addr t => exact hest.symm
        | label n =>
          simp only [movEst, tgtSize] at hest
          refine ⟨_, hest.symm, fun hn => ?_, fun hn => ?_⟩
          · have h1 := g2 n hn
            have h2 := hb n hn
            rw [estDiff, if_neg (by omega), h1]; omega
          · have hok := ho.1.1
            simp only [Tgt.Ok] at hok
            have h3 := g3 n hn (by omega)
            rw [estDiff, if_pos (by omega)]; omega

end Verif.RV
