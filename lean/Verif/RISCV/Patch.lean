import Verif.RISCV.GenFinal
import Verif.Props.C16
import Verif.Props.C18

/-!
# Changing jumps of generated code on RV64

The code before a change is compared with the code which sljit_generate_code makes for the other target.
-/

namespace Verif.RV
open Verif.Props (Room)

/-- An item that has a jump record. -/
def Item.isRec : Item → Bool
  | .jump _ | .mov .. => true
  | _ => false

/-- The number of jump records. -/
def recs (is : List Item) : Nat := is.countP Item.isRec

variable {cfg : Cfg}

/-! ## reduce_code_size -/

theorem usize_jump (xs ys : List Item) (br : Br) (cl : Bool) (t t' : Tgt) :
    usize cfg (xs ++ .jump ⟨br, true, cl, t'⟩ :: ys) = usize cfg (xs ++ .jump ⟨br, true, cl, t⟩ :: ys) := by
  induction xs with
  | nil => rfl
  | cons i is ih => simp only [List.cons_append, usize, ih]

theorem labelSizes_jump (ys : List Item) (br : Br) (cl : Bool) (t t' : Tgt) : ∀ (xs : List Item) (pos : Nat),
    labelSizes cfg pos (xs ++ .jump ⟨br, true, cl, t'⟩ :: ys) = labelSizes cfg pos (xs ++ .jump ⟨br, true, cl, t⟩ :: ys)
  | [], pos => rfl
  | i :: is, pos => by
    have ih := labelSizes_jump ys br cl t t' is
    cases i <;> simp only [List.cons_append, labelSizes, ih]

theorem isLabel_jump {xs ys : List Item} {j j' : JInfo} : Item.isLabel (xs ++ .jump j :: ys) = Item.isLabel (xs ++ .jump j' :: ys) := by
  cases xs with
  | nil => rfl
  | cons i is => cases i <;> rfl

theorem reduce_jump (ys : List Item) (br : Br) (cl : Bool) : ∀ (xs : List Item) (pos li sr : Nat) (z : Bool) (L : List Nat), ∃ R1 a R2 L' SR, R1.map RItem.toItem = xs ∧
    ∀ t, reduce cfg (xs ++ .jump ⟨br, true, cl, t⟩ :: ys) pos li sr z L = (R1 ++ .jump ⟨br, true, cl, t⟩ a 12 false :: R2, L', SR)
  | [], pos, li, sr, z, L => ⟨[], pos + br.words.length - sr, (reduce cfg ys (pos + br.words.length + 12) li sr false L).1,
      (reduce cfg ys (pos + br.words.length + 12) li sr false L).2.1, (reduce cfg ys (pos + br.words.length + 12) li sr false L).2.2, rfl, fun t => rfl⟩
  | i :: is, pos, li, sr, z, L => by
    have ih := reduce_jump ys br cl is
    cases i with
    | code ws =>
      obtain ⟨R1, a, R2, L', SR, h1, h2⟩ := ih (pos + ws.length) li sr false L
      exact ⟨.code ws :: R1, a, R2, L', SR, by rw [List.map_cons, h1]; rfl, fun t => by simp only [List.cons_append, reduce, h2]⟩
    | label =>
      obtain ⟨R1, a, R2, L', SR, h1, h2⟩ := ih pos (li + 1) sr false (L.set li (L.getD li 0 - sr))
      exact ⟨.label z :: R1, a, R2, L', SR, by rw [List.map_cons, h1]; rfl, fun t => by simp only [List.cons_append, reduce, h2]⟩
    | alabel al =>
      obtain ⟨R1, a, R2, L', SR, h1, h2⟩ := ih (pos + (alNops cfg al).length) (li + 1) sr false (L.set li (L.getD li 0 - sr))
      exact ⟨.alabel al :: R1, a, R2, L', SR, by rw [List.map_cons, h1]; rfl, fun t => by simp only [List.cons_append, reduce, h2]⟩
    | const ws =>
      obtain ⟨R1, a, R2, L', SR, h1, h2⟩ := ih (pos + ws.length) li sr false L
      exact ⟨.const ws :: R1, a, R2, L', SR, by rw [List.map_cons, h1]; rfl, fun t => by simp only [List.cons_append, reduce, h2]⟩
    | jump j =>
      obtain ⟨R1, a, R2, L', SR, h1, h2⟩ := ih (pos + j.br.words.length + 12) li (sr + (12 - jumpEst cfg j (pos + j.br.words.length - sr) (tgtSize L j.tgt) sr))
        (jumpEst cfg j (pos + j.br.words.length - sr) (tgtSize L j.tgt) sr == 0) L
      refine ⟨.jump j (pos + j.br.words.length - sr) (jumpEst cfg j (pos + j.br.words.length - sr) (tgtSize L j.tgt) sr)
        (jumpEst cfg j (pos + j.br.words.length - sr) (tgtSize L j.tgt) sr == 0 && Item.isLabel (is ++ .jump ⟨br, true, cl, .label 0⟩ :: ys)) :: R1, a, R2, L', SR, by rw [List.map_cons, h1]; rfl, fun t => ?_⟩
      simp only [List.cons_append, reduce, h2]
      rw [isLabel_jump]
    | mov reg tg =>
      obtain ⟨R1, a, R2, L', SR, h1, h2⟩ := ih (pos + 12) li (sr + (11 - movEst tg (pos - sr) (tgtSize L tg) sr)) false L
      exact ⟨.mov reg tg (pos - sr) (movEst tg (pos - sr) (tgtSize L tg) sr) :: R1, a, R2, L', SR, by rw [List.map_cons, h1]; rfl, fun t => by simp only [List.cons_append, reduce, h2]⟩

/-! ## The generating loop -/

theorem genLoop_frame (e : Env) : ∀ (R : List RItem) (s s1 : GSt), genLoop cfg e R s = some s1 →
    ∃ ps, s1.pend = s.pend ++ ps ∧ ∀ q, genLoop cfg e R { s with pend := q } = some { s1 with pend := q ++ ps }
  | [], s, s1, h => by
    cases Option.some.inj h
    exact ⟨[], by simp, fun q => by simp [genLoop]⟩
  | i :: is, s, s1, h => by
    have ih := genLoop_frame e is
    cases i with
    | code ws =>
      obtain ⟨m, h1, h2⟩ := Option.bind_eq_some_iff.mp h
      obtain ⟨ps, g1, g2⟩ := ih _ _ h2
      exact ⟨ps, g1, fun q => by simp only [genLoop, h1, Option.bind_some]; exact g2 q⟩
    | label d =>
      obtain ⟨ps, g1, g2⟩ := ih _ _ h
      refine ⟨ps, ?_, fun q => ?_⟩
      · rw [g1]; split <;> rfl
      · have := g2 q
        simp only [genLoop]
        cases d <;> exact this
    | alabel al =>
      obtain ⟨m, h1, h2⟩ := Option.bind_eq_some_iff.mp h
      obtain ⟨m2, h3, h4⟩ := Option.bind_eq_some_iff.mp h2
      obtain ⟨ps, g1, g2⟩ := ih _ _ h4
      exact ⟨ps, g1, fun q => by simp only [genLoop, h1, h3, Option.bind_some]; exact g2 q⟩
    | const ws =>
      obtain ⟨m, h1, h2⟩ := Option.bind_eq_some_iff.mp h
      obtain ⟨ps, g1, g2⟩ := ih _ _ h2
      exact ⟨ps, g1, fun q => by simp only [genLoop, h1, Option.bind_some]; exact g2 q⟩
    | jump j addr est lab =>
      obtain ⟨m, h0, h⟩ := Option.bind_eq_some_iff.mp h
      simp only at h
      cases lab <;>
      · simp only [Bool.false_eq_true, if_false, if_true] at h
        obtain ⟨r, h1, h2⟩ := Option.bind_eq_some_iff.mp h
        obtain ⟨ps, g1, g2⟩ := ih _ _ h2
        refine ⟨_ :: ps, by rw [g1, List.append_assoc]; rfl, fun q => ?_⟩
        simp only [genLoop, h0, Option.bind_some, Bool.false_eq_true, if_false, if_true]
        simp only [GSt.setLabel] at h1 g2 ⊢
        rw [h1, Option.bind_some, g2, List.append_assoc]; rfl
    | mov reg t addr est =>
      obtain ⟨m, h1, h⟩ := Option.bind_eq_some_iff.mp h
      obtain ⟨ps, g1, g2⟩ := ih _ _ h
      refine ⟨_ :: ps, by rw [g1, List.append_assoc]; rfl, fun q => ?_⟩
      simp only [genLoop, h1, Option.bind_some]
      rw [g2, List.append_assoc]; rfl

theorem firstHalf_jump {R2 : List RItem} {br : Br} {cl : Bool} {t t' : Tgt} {a n : Nat} {lab : Bool} : ∀ R1 : List RItem,
    firstHalf cfg (R1 ++ .jump ⟨br, true, cl, t⟩ a n lab :: R2) = firstHalf cfg (R1 ++ .jump ⟨br, true, cl, t'⟩ a n lab :: R2)
  | [] => rfl
  | i :: is => by
    have := firstHalf_jump (R2 := R2) (br := br) (cl := cl) (t := t) (t' := t') (a := a) (n := n) (lab := lab) is
    cases i <;> first | rfl | exact this

theorem genLoop_swap {e : Env} {R2 : List RItem} {br : Br} {cl : Bool} {t t' : Tgt} {a : Nat} : ∀ (R1 : List RItem) (s s1 : GSt),
    genLoop cfg e (R1 ++ .jump ⟨br, true, cl, t⟩ a 12 false :: R2) s = some s1 →
    ∃ ps1 x ps2, s1.pend = s.pend ++ (ps1 ++ .jump ⟨br, true, cl, t⟩ (.seq .full) x :: ps2) ∧ ps1.length = recs (R1.map RItem.toItem) ∧
      genLoop cfg e (R1 ++ .jump ⟨br, true, cl, t'⟩ a 12 false :: R2) s = some { s1 with pend := s.pend ++ (ps1 ++ .jump ⟨br, true, cl, t'⟩ (.seq .full) x :: ps2) }
  | [], s, s1, h => by
    have hk : ∀ (t : Tgt) d v, jumpKind cfg ⟨br, true, cl, t⟩ d v = .seq .full := fun t d v => by rw [jumpKind, if_pos rfl]
    rw [List.nil_append, genLoop] at h ⊢
    simp only [Bool.false_eq_true, if_false, hk] at h ⊢
    obtain ⟨m, h0, h⟩ := Option.bind_eq_some_iff.mp h
    obtain ⟨r, h1, h2⟩ := Option.bind_eq_some_iff.mp h
    obtain ⟨ps, g1, g2⟩ := genLoop_frame _ _ _ _ h2
    refine ⟨[], _, ps, by rw [g1, List.append_assoc]; rfl, rfl, ?_⟩
    have e1 : ∀ t : Tgt, applyKind e ⟨br, true, cl, t⟩ (.seq .full) = applyKind e ⟨br, true, cl, t'⟩ (.seq .full) := fun _ => rfl
    rw [e1 t] at h1
    rw [h0, Option.bind_some, h1, Option.bind_some, g2, List.append_assoc]
    rfl
  | i :: is, s, s1, h => by
    have ih := genLoop_swap (e := e) (R2 := R2) (br := br) (cl := cl) (t := t) (t' := t') (a := a) is
    rw [List.cons_append] at h ⊢
    cases i with
    | code ws =>
      obtain ⟨m, h1, h2⟩ := Option.bind_eq_some_iff.mp h
      obtain ⟨ps1, x, ps2, g1, g2, g3⟩ := ih _ _ h2
      exact ⟨ps1, x, ps2, g1, g2, by simp only [genLoop, h1, Option.bind_some]; exact g3⟩
    | label d =>
      obtain ⟨ps1, x, ps2, g1, g2, g3⟩ := ih _ _ h
      refine ⟨ps1, x, ps2, ?_, g2, ?_⟩
      · rw [g1]; split <;> rfl
      · simp only [genLoop]
        cases d <;> exact g3
    | alabel al =>
      obtain ⟨m, h1, h2⟩ := Option.bind_eq_some_iff.mp h
      obtain ⟨m2, h3, h4⟩ := Option.bind_eq_some_iff.mp h2
      obtain ⟨ps1, x, ps2, g1, g2, g3⟩ := ih _ _ h4
      rw [firstHalf_jump (t' := t')] at h3
      exact ⟨ps1, x, ps2, g1, g2, by simp only [genLoop, h1, h3, Option.bind_some]; exact g3⟩
    | const ws =>
      obtain ⟨m, h1, h2⟩ := Option.bind_eq_some_iff.mp h
      obtain ⟨ps1, x, ps2, g1, g2, g3⟩ := ih _ _ h2
      exact ⟨ps1, x, ps2, g1, g2, by simp only [genLoop, h1, Option.bind_some]; exact g3⟩
    | jump j addr est lab =>
      obtain ⟨m, h0, h⟩ := Option.bind_eq_some_iff.mp h
      simp only at h
      cases lab <;>
      · simp only [Bool.false_eq_true, if_false, if_true] at h
        obtain ⟨r, h1, h2⟩ := Option.bind_eq_some_iff.mp h
        obtain ⟨ps1, x, ps2, g1, g2, g3⟩ := ih _ _ h2
        refine ⟨_ :: ps1, x, ps2, by rw [g1, List.append_assoc]; rfl, by simp only [List.length_cons, g2, recs, List.map_cons, List.countP_cons, RItem.toItem, Item.isRec, if_true], ?_⟩
        simp only [genLoop, h0, Option.bind_some, Bool.false_eq_true, if_false, if_true]
        rw [h1, Option.bind_some, g3, List.append_assoc]; rfl
    | mov reg tg addr est =>
      obtain ⟨m, h1, h⟩ := Option.bind_eq_some_iff.mp h
      obtain ⟨ps1, x, ps2, g1, g2, g3⟩ := ih _ _ h
      refine ⟨_ :: ps1, x, ps2, by rw [g1, List.append_assoc]; rfl, by simp only [List.length_cons, g2, recs, List.map_cons, List.countP_cons, RItem.toItem, Item.isRec, if_true], ?_⟩
      simp only [genLoop, h1, Option.bind_some]
      rw [g3, List.append_assoc]; rfl

/-! ## The final pass -/

/-- Two memories are the same from position `c` on. -/
def From (c : Nat) (m m' : HMem) : Prop := ∀ k, c ≤ k → m' k = m k

/-- A change of a memory from position `c` on, which depends only on what is there. -/
def Near (c : Nat) (f : HMem → Option HMem) : Prop := ∀ m m1, f m = some m1 → (∀ k, k < c → m1 k = m k) ∧
  ∀ m', From c m m' → ∃ m1', f m' = some m1' ∧ From c m1 m1'

theorem Near.wr {c n i : Nat} {h : HMem → BitVec 16} (hi : c ≤ i) (hh : ∀ m m', From c m m' → h m' = h m) : Near c fun m => hwr n m i (h m) := by
  intro m m1 e
  simp only [hwr] at e ⊢
  split at e <;> [skip; cases e]
  next hn =>
  cases Option.some.inj e
  refine ⟨fun k hk => if_neg (by omega), fun m' hs => ⟨_, if_pos hn, fun k hk => ?_⟩⟩
  simp only
  rw [hh m m' hs, hs k hk]

theorem Near.bind {c : Nat} {f : HMem → Option HMem} {g : HMem → Option HMem} (hf : Near c f) (hg : Near c g) : Near c fun m => (f m).bind g := by
  intro m m1 e
  obtain ⟨a, e1, e2⟩ := Option.bind_eq_some_iff.mp e
  obtain ⟨p1, p2⟩ := hf m a e1
  obtain ⟨q1, q2⟩ := hg a m1 e2
  refine ⟨fun k hk => (q1 k hk).trans (p1 k hk), fun m' hs => ?_⟩
  obtain ⟨a', f1, f2⟩ := p2 m' hs
  obtain ⟨b', g1, g2⟩ := q2 a' f2
  exact ⟨b', by simp only [f1, Option.bind_some]; exact g1, g2⟩

theorem Near.copy {c n : Nat} : ∀ {hs : List (BitVec 16)} {p : Nat}, c ≤ p → Near c fun m => hcopy n hs m p
  | [], p, hp => by
    intro m m1 e
    cases Option.some.inj e
    exact ⟨fun _ _ => rfl, fun m' h => ⟨m', rfl, h⟩⟩
  | h :: hs, p, hp => by
    have := Near.bind (Near.wr (n := n) (i := p) (h := fun _ => h) hp fun _ _ _ => rfl) (Near.copy (n := n) (hs := hs) (p := p + 1) (by omega))
    exact this

theorem Near.patch {c : Nat} {e : Env} {laddr : List (BitVec 64)} {p : Pending} (h : c ≤ p.addr) : Near c fun m => patchOne e laddr m p := by
  cases p with
  | mov t q a =>
    intro m m1 e1
    have hc := Near.copy (c := c) (n := e.n) (hs := loadAddr q (.mov (m a).toNat) (tgtAddr laddr t) (e.exec a)) (p := a) h
    obtain ⟨h1, h2⟩ := hc m m1 e1
    refine ⟨h1, fun m' hs => ?_⟩
    obtain ⟨m1', f1, f2⟩ := h2 m' hs
    exact ⟨m1', by simp only [patchOne, hs a h]; exact f1, f2⟩
  | jump j k a =>
    have h : c ≤ a := h
    cases k with
    | seq q => exact Near.copy h
    | j32 => exact Near.copy h
    | j16 => exact Near.wr (h := fun _ => _) h fun _ _ _ => rfl
    | b16 => exact Near.wr (h := fun m => m a ||| _) h fun m m' hs => by rw [hs a h]
    | b32 =>
      exact Near.bind (Near.wr (h := fun m => m a ||| _) h fun m m' hs => by rw [hs a h])
        (Near.wr (h := fun m => m (a + 1) ||| _) (by omega) fun m m' hs => by rw [hs (a + 1) (by omega)])

theorem Near.patchAll {c : Nat} {e : Env} {laddr : List (BitVec 64)} : ∀ {ps : List Pending}, (∀ p ∈ ps, c ≤ p.addr) → Near c fun m => RV.patchAll e laddr ps m
  | [], _ => by
    intro m m1 e
    cases Option.some.inj e
    exact ⟨fun _ _ => rfl, fun m' h => ⟨m', rfl, h⟩⟩
  | p :: ps, h => Near.bind (Near.patch (h p List.mem_cons_self)) (Near.patchAll fun q hq => h q (List.mem_cons_of_mem _ hq))

theorem Lay_addr {e : Env} {m : HMem} {P : List Nat} {fin : Nat} (R : List RItem) :
    ∀ {cp rli ps cs}, Lay cfg e m P fin R cp rli ps cs → ∀ p ∈ ps, cp ≤ p.addr := by
  induction R with
  | nil => intro cp rli ps cs h; simp only [Lay] at h; simp [h.2.1]
  | cons i is ih =>
    intro cp rli ps cs h p hp
    cases i <;> simp only [Lay] at h
    case code => have := ih h.2 p hp; omega
    case label => exact ih h.2 p hp
    case const => obtain ⟨_, _, _, h2⟩ := h; have := ih h2 p hp; omega
    case alabel => obtain ⟨q, _, h1, _, _, _, h2⟩ := h; have := ih h2 p hp; omega
    case jump =>
      obtain ⟨k, ps', rfl, _, _, hk, _, _, h2⟩ := h
      rcases List.mem_cons.mp hp with rfl | hp
      · simp only [Pending.addr]; omega
      · have := ih h2 p hp; omega
    case mov =>
      obtain ⟨k, ps', rfl, _, _, h2⟩ := h
      rcases List.mem_cons.mp hp with rfl | hp
      · exact Nat.le_refl _
      · have := ih h2 p hp; omega

theorem patch_swap {e : Env} {P : List Nat} {fin nl : Nat} {laddr : List (BitVec 64)} (hfin : fin ≤ e.n)
    (hla : ∀ t : Tgt, t.Ok nl → tgtAddr laddr t = tgtPos e P t) {R2 : List RItem} {br : Br} {cl : Bool} {t t' : Tgt} {a n : Nat} {lab : Bool} : ∀ (R1 : List RItem) {m cp rli ps cs},
    Prog.Ok cfg nl ((R1 ++ .jump ⟨br, true, cl, t⟩ a n lab :: R2).map RItem.toItem) →
    Lay cfg e m P fin (R1 ++ .jump ⟨br, true, cl, t⟩ a n lab :: R2) cp rli ps cs →
    ∃ ps1 ps2 x m1 m2, ps = ps1 ++ .jump ⟨br, true, cl, t⟩ (.seq .full) x :: ps2 ∧ ps1.length = recs (R1.map RItem.toItem) ∧ cp ≤ x ∧ x + 12 ≤ fin ∧
      patchAll e laddr ps m = some m1 ∧ patchAll e laddr (ps1 ++ .jump ⟨br, true, cl, t'⟩ (.seq .full) x :: ps2) m = some m2 ∧
      MHas m1 x (loadAddr .full (if cl then .call else .jump) (tgtAddr laddr t) 0#64) ∧ MHas m2 x (loadAddr .full (if cl then .call else .jump) (tgtAddr laddr t') 0#64) ∧
      ∀ k, k < x ∨ x + 12 ≤ k → m2 k = m1 k
  | [], m, cp, rli, ps, cs, hp, h => by
    simp only [List.nil_append, Lay] at h
    obtain ⟨k, ps', rfl, hkf, hkr, hkb, hko, hpre, h⟩ := h
    cases hkr trivial
    simp only [kback, Nat.sub_zero, ksz, Patch.len] at h ⊢
    have hle := Lay_le _ h
    have hlen : ∀ t : BitVec 64, (loadAddr .full (if cl then .call else .jump) t 0#64).length = 12 := fun t => loadAddr_length _ _ _ _
    obtain ⟨a1, f1, f2, f3⟩ := hcopy_ok (n := e.n) (hs := loadAddr .full (if cl then .call else .jump) (tgtAddr laddr t) 0#64) (m := m) (p := cp + br.words.length) (by rw [hlen]; omega)
    obtain ⟨a2, g1, g2, g3⟩ := hcopy_ok (n := e.n) (hs := loadAddr .full (if cl then .call else .jump) (tgtAddr laddr t') 0#64) (m := m) (p := cp + br.words.length) (by rw [hlen]; omega)
    rw [hlen] at f3 g3
    have hok2 : Prog.Ok cfg nl (R2.map RItem.toItem) := by
      simp only [List.nil_append, List.map_cons, RItem.toItem, Prog.Ok] at hp
      exact hp.2
    obtain ⟨m1, p1, -, -⟩ := patchAll_ok hfin hla R2 hok2 (Lay_congr R2 (m' := a1) (fun q hq => f3 q (by omega)) h)
    obtain ⟨l1, l2⟩ := Near.patchAll (Lay_addr R2 h) a1 m1 p1
    obtain ⟨m2, p2, p3⟩ := l2 a2 fun k hk => by rw [f3 k (by omega), g3 k (by omega)]
    obtain ⟨l3, -⟩ := Near.patchAll (Lay_addr R2 h) a2 m2 p2
    refine ⟨[], ps', cp + br.words.length, m1, m2, rfl, rfl, by omega, by omega, ?_, ?_, ?_, ?_, fun k hk => ?_⟩
    · rw [patchAll, patchOne]
      show (hcopy e.n (loadAddr .full (if cl then .call else .jump) (tgtAddr laddr t) 0#64) m (cp + br.words.length)).bind _ = _
      rw [f1]; exact p1
    · rw [List.nil_append, patchAll, patchOne]
      show (hcopy e.n (loadAddr .full (if cl then .call else .jump) (tgtAddr laddr t') 0#64) m (cp + br.words.length)).bind _ = _
      rw [g1]; exact p2
    · exact MHas_congr (fun k _ hk => l1 k (by rw [hlen] at hk; omega)) f2
    · exact MHas_congr (fun k _ hk => l3 k (by rw [hlen] at hk; omega)) g2
    · rcases hk with hk | hk
      · rw [l1 k (by omega), l3 k (by omega), f3 k (by omega), g3 k (by omega)]
      · exact p3 k hk
  | i :: is, m, cp, rli, ps, cs, hp, h => by
    have ih := fun {m cp rli ps cs} => patch_swap hfin hla (R2 := R2) (br := br) (cl := cl) (t := t) (t' := t') (a := a) (n := n) (lab := lab) is (m := m) (cp := cp) (rli := rli) (ps := ps) (cs := cs)
    rw [List.cons_append] at h hp
    cases i <;> simp only [Lay, List.map_cons, RItem.toItem, Prog.Ok] at h hp
    case code hs =>
      obtain ⟨ps1, ps2, x, m1, m2, q1, q2, q3, q⟩ := ih hp.2 h.2
      exact ⟨ps1, ps2, x, m1, m2, q1, q2, by omega, q⟩
    case const hs =>
      obtain ⟨cs', h0, h1, h2⟩ := h
      obtain ⟨ps1, ps2, x, m1, m2, q1, q2, q3, q⟩ := ih hp.2 h2
      exact ⟨ps1, ps2, x, m1, m2, q1, q2, by omega, q⟩
    case label d =>
      obtain ⟨ps1, ps2, x, m1, m2, q1, q2, q3, q⟩ := ih hp.2 h.2
      exact ⟨ps1, ps2, x, m1, m2, q1, q2, by omega, q⟩
    case alabel al =>
      obtain ⟨y, h0, h1, h2, h3, h4, h5⟩ := h
      obtain ⟨ps1, ps2, x, m1, m2, q1, q2, q3, q⟩ := ih hp.2.2 h5
      exact ⟨ps1, ps2, x, m1, m2, q1, q2, by omega, q⟩
    case jump j ad est lb =>
      obtain ⟨k, ps', rfl, h1, h2, h3, h4, h5, h6⟩ := h
      have hle := Lay_le _ h6
      have htg : tgtAddr laddr j.tgt = tgtPos e P j.tgt := hla _ (by simp only [Item.Ok] at hp; exact hp.1.2.2.1)
      obtain ⟨a1, f1, f2, f3⟩ := patchJump_ok (e := e) (laddr := laddr) h1 htg h5 (by omega)
      obtain ⟨ps1, ps2, x, m1, m2, rfl, q2, q3, q4, q5, q6, q⟩ := ih hp.2 (Lay_congr _ (m' := a1) (fun q hq => f3 q (by omega)) h6)
      refine ⟨_ :: ps1, ps2, x, m1, m2, rfl, by simp only [List.length_cons, q2, recs, List.map_cons, List.countP_cons, RItem.toItem, Item.isRec, if_true], by omega, q4, ?_, ?_, q⟩
      · rw [patchAll, f1]; exact q5
      · rw [List.cons_append, patchAll, f1]; exact q6
    case mov reg tg ad est =>
      obtain ⟨p, ps', rfl, h1, h2, h3⟩ := h
      have hle := Lay_le _ h3
      obtain ⟨a1, f1, f2, f3⟩ := hcopy_ok (n := e.n) (hs := loadAddr p (.mov (m cp).toNat) (tgtAddr laddr tg) (e.exec cp)) (m := m) (p := cp)
        (by rw [loadAddr_length]; omega)
      rw [loadAddr_length] at f3
      obtain ⟨ps1, ps2, x, m1, m2, rfl, q2, q3, q4, q5, q6, q⟩ := ih hp.2 (Lay_congr _ (m' := a1) (fun q hq => f3 q (by omega)) h3)
      refine ⟨_ :: ps1, ps2, x, m1, m2, rfl, by simp only [List.length_cons, q2, recs, List.map_cons, List.countP_cons, RItem.toItem, Item.isRec, if_true], by omega, q4, ?_, ?_, q⟩
      · rw [patchAll, patchOne, f1]; exact q5
      · rw [List.cons_append, patchAll, patchOne, f1]; exact q6

theorem endLabel_jump (e : Env) (R1 R2 : List RItem) (j j' : JInfo) (a n : Nat) (lab : Bool) (laddr : List (BitVec 64)) :
    endLabel e (R1 ++ .jump j a n lab :: R2) laddr = endLabel e (R1 ++ .jump j' a n lab :: R2) laddr := by
  unfold endLabel
  cases R2 with
  | nil => simp
  | cons i is =>
    simp only [List.getLast?_append, List.getLast?_cons_cons]

theorem generate_swap {xs ys : List Item} {br : Br} {cl : Bool} {t t' : Tgt} {base off : BitVec 64} {m0 : HMem} {r : GenResult}
    (hp : Prog.Ok cfg (Prog.labels (xs ++ .jump ⟨br, true, cl, t⟩ :: ys)) (xs ++ .jump ⟨br, true, cl, t⟩ :: ys)) (ht : Prog.Tail (xs ++ .jump ⟨br, true, cl, t⟩ :: ys))
    (hr : Room cfg (xs ++ .jump ⟨br, true, cl, t⟩ :: ys) base off) (hend : off = 0#64 ∨ ¬ Prog.endsInLabel (xs ++ .jump ⟨br, true, cl, t⟩ :: ys))
    (hg : generate cfg (xs ++ .jump ⟨br, true, cl, t⟩ :: ys) base off m0 = some r) :
    ∃ x m', r.jaddr[recs xs]? = some x ∧ x + 12 ≤ r.len ∧ MHas r.m x (loadAddr .full (if cl then .call else .jump) (tgtAddr r.laddr t) 0#64) ∧
      generate cfg (xs ++ .jump ⟨br, true, cl, t'⟩ :: ys) base off m0 = some { r with m := m' } ∧
      MHas m' x (loadAddr .full (if cl then .call else .jump) (tgtAddr r.laddr t') 0#64) ∧ ∀ k, k < x ∨ x + 12 ≤ k → m' k = r.m k := by
  obtain ⟨R1, a, R2, L, SR, hs, hred⟩ := reduce_jump (cfg := cfg) ys br cl xs 0 0 0 false (labelSizes cfg 0 (xs ++ .jump ⟨br, true, cl, t⟩ :: ys))
  have hus := usize_jump (cfg := cfg) xs ys br cl t t'
  have hls' := labelSizes_jump (cfg := cfg) ys br cl t t' xs 0
  have hr' := hred t'
  rw [← hls'] at hr'
  replace hred := hred t
  generalize hi : xs ++ .jump ⟨br, true, cl, t⟩ :: ys = items at *
  generalize hi' : xs ++ .jump ⟨br, true, cl, t'⟩ :: ys = items' at *
  have hls := labelSizes_length cfg items 0
  have hR := reduce_items cfg items 0 0 0 false (labelSizes cfg 0 items)
  rw [hred] at hR
  obtain ⟨g1, g2, g3, g4, g5, g6, g7, g8⟩ := reduce_good cfg _ items 0 0 0 false _ _ L SR hred hls rfl (Nat.le_refl _) hp (fun n h => by omega)
  simp only [Nat.zero_add, Nat.sub_zero] at g6 g7 g8 hR
  have hlc : lcount (R1 ++ .jump ⟨br, true, cl, t⟩ a 12 false :: R2) = Prog.labels items := by rw [lcount_items, hR]
  have hT : TailOk cfg (R1 ++ .jump ⟨br, true, cl, t⟩ a 12 false :: R2) := by
    have := tailOk_reduce cfg _ items 0 0 0 false (labelSizes cfg 0 items) hp ht; rwa [hred] at this
  have hL : L.length = Prog.labels items := by rw [g1, hls]
  have hLn : ∀ k, k < L.length → L.getD k 0 ≤ usize cfg items - SR := by
    intro k hk
    have := RGood_bounds _ 0 _ 0 g8 k (by omega) (by omega)
    omega
  have hw : (⟨base, off, usize cfg items - SR⟩ : Env).NoWrap := by
    have := hr.noWrap; simp only [Env.NoWrap]; omega
  have hI : GInv ⟨base, off, usize cfg items - SR⟩ L ⟨m0, 0, L, 0, [], [], []⟩ 0 false 0 :=
    ⟨Nat.le_refl _, rfl, rfl, fun k hk => by simp at hk, fun _ _ => rfl, by simp, rfl⟩
  obtain ⟨s', f1, f2⟩ := genLoop_ok (cfg := cfg) (e := ⟨base, off, usize cfg items - SR⟩) hw (by have := hr.small; simp only; omega) hLn
    (fun x hx => hr.window x (by simp only at hx; omega)) _ _ 0 false 0 hI (by simpa using g8) (by rw [hR, hL]; exact hp) hT (by simp only; omega) (by omega)
  obtain ⟨p1, p2, p3, p4, p5, p6, ⟨ps, cs, p7, p7c, p8⟩, p9, p10, p11⟩ := f2
  simp only [List.nil_append] at p7 p7c
  have hfin : s'.cp ≤ usize cfg items - SR := by simp only at p2; omega
  have hla : s'.laddr = s'.labels.map (Env.exec ⟨base, off, usize cfg items - SR⟩) := by
    rw [p9, p11, ← p3, List.take_length]
  have hel : endLabel ⟨base, off, usize cfg items - SR⟩ (R1 ++ .jump ⟨br, true, cl, t⟩ a 12 false :: R2) s'.laddr = s'.laddr := endLabel_id _ _ _ (by rw [hR]; exact hend)
  obtain ⟨q1, y, q2, w1, w2, w3⟩ := genLoop_swap (t' := t') R1 _ _ f1
  simp only [List.nil_append] at w1 w3
  obtain ⟨ps1, ps2, x, m1, m2, n1, n2, n3, n4, n5, n6, n7, n8, n9⟩ := patch_swap (nl := s'.labels.length) (laddr := s'.laddr) (e := ⟨base, off, usize cfg items - SR⟩) (t' := t') hfin (by
      intro t htk
      cases t with
      | label n => rw [hla]; exact getD_map _ _ n htk
      | addr a => rfl) R1 (by rw [hR, p3, hL]; exact hp) p8
  have e1 : q1 = ps1 ∧ (Pending.jump ⟨br, true, cl, t⟩ (.seq .full) y) :: q2 = .jump ⟨br, true, cl, t⟩ (.seq .full) x :: ps2 := by
    have := w1.symm.trans (p7.trans n1)
    exact List.append_inj this (w2.trans n2.symm)
  obtain ⟨rfl, e2⟩ := e1
  injection e2 with e2 e3
  injection e2 with _ _ e2
  subst e2 e3
  have er : r = ⟨m1, s'.cp, s'.laddr, s'.caddr, s'.cp * 4, s'.pend.map Pending.addr⟩ := by
    simp only [generate, hred, f1, Option.bind_some, hel, p7, n5] at hg
    rw [← Option.some.inj hg, p7]
  subst er
  refine ⟨y, m2, ?_, n4, n7, ?_, n8, n9⟩
  · show (s'.pend.map Pending.addr)[recs xs]? = _
    rw [w1, ← hs, ← w2, List.getElem?_map, List.getElem?_append_right (Nat.le_refl _), Nat.sub_self]; rfl
  · simp only [generate, hr', hus, w3, Option.bind_some, endLabel_jump _ R1 R2 ⟨br, true, cl, t'⟩ ⟨br, true, cl, t⟩, hel, n6, w1, List.map_append, List.map_cons, Pending.addr]

/-! ## Memory -/

theorem half_eq {c : Code} {a : BitVec 64} {m : HMem} : ∀ {hs : List (BitVec 16)} {x : Nat}, CodeAt c (a + BitVec.ofNat 64 (2 * x)) hs → MHas m x hs →
    ∀ k, x ≤ k → k < x + hs.length → c (a + BitVec.ofNat 64 (2 * k)) = m k
  | [], x, _, _, k, h1, h2 => by simp only [List.length_nil] at h2; omega
  | h :: hs, x, hc, hm, k, h1, h2 => by
    simp only [List.length_cons] at h2
    by_cases e : k = x
    · rw [e, hc.1, hm.1]
    · refine half_eq (hs := hs) (x := x + 1) ?_ hm.2 k (by omega) (by omega)
      have := hc.2
      rwa [BitVec.add_assoc, show (2#64 : BitVec 64) = BitVec.ofNat 64 2 from rfl, ← BitVec.ofNat_add, show 2 * x + 2 = 2 * (x + 1) by omega] at this

/-- sljit_set_jump_addr on the sequence of a rewritable jump in memory. -/
theorem setJump_loaded {code : Code} {base off : BitVec 64} {m m' : HMem} {len x : Nat} {u : Use} {t t' : BitVec 64} (hu : u = .jump ∨ u = .call) (hl : Loaded code base off m len) (hx : x + 12 ≤ len)
    (hs : 2 * len < 2 ^ 64) (h1 : MHas m x (loadAddr .full u t 0#64)) (h2 : MHas m' x (loadAddr .full u t' 0#64)) (h3 : ∀ k, k < x ∨ x + 12 ≤ k → m' k = m k) :
    ∃ code', setJumpAddr code (base + off + BitVec.ofNat 64 (2 * x)) t' = some code' ∧ Loaded code' base off m' len := by
  have hc : CodeAt code (base + off + BitVec.ofNat 64 (2 * x)) (loadAddr .full u t 0#64) := by
    have := CodeAt_of_MHas (e := ⟨base, off, len⟩) (p := x) hl h1 (by rw [loadAddr_length]; exact hx)
    rwa [Env.exec, show base + BitVec.ofNat 64 (2 * x) + off = base + off + BitVec.ofNat 64 (2 * x) by
      rw [BitVec.add_assoc, BitVec.add_comm (BitVec.ofNat 64 _), ← BitVec.add_assoc]] at this
  rw [Props.rewritable_words u hu] at hc
  obtain ⟨code', e1, e2, e3⟩ := setJumpAddr_ok code _ t t' TMP_REG1 _ ⟨_, Or.inr rfl⟩ hc
  rw [← Props.rewritable_words u hu t' 0#64] at e2
  refine ⟨code', e1, fun k hk => ?_⟩
  by_cases h : k < x ∨ x + 12 ≤ k
  · rw [h3 k h, ← hl k hk]
    refine e3 _ fun i hi e => ?_
    have := congrArg BitVec.toNat e
    simp only [BitVec.toNat_add, BitVec.toNat_ofNat] at this
    omega
  · exact half_eq e2 h2 k (by omega) (by rw [loadAddr_length]; simp only [Patch.len]; omega)

end Verif.RV
