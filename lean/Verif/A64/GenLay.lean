import Verif.A64.GenLoop

/-! # The generating loop and the final pass on ARM64 (helper lemmas) -/

namespace Verif.A64
open Verif.Imm.Arm64 (regMap RD RN)

/-- The words `X` generated for the items at position `cp`, before the final pass (`fin = false`) and after it; `ps` are the jump records,
`cs` the addresses of the constants, `F` the positions of the labels. -/
def Lay (fin : Bool) (e : Env) (F : List Nat) : List RItem → (cp li : Nat) → (X : List (BitVec 32)) → List Pending → List (BitVec 64) → Prop
  | [], _, li, X, ps, cs => X = [] ∧ ps = [] ∧ cs = [] ∧ li = F.length
  | .code ws :: is, cp, li, X, ps, cs => ∃ X', X = ws ++ X' ∧ Lay fin e F is (cp + ws.length) li X' ps cs
  | .label :: is, cp, li, X, ps, cs => li < F.length ∧ F.getD li 0 = cp ∧ Lay fin e F is cp (li + 1) X ps cs
  | .alabel al :: is, cp, li, X, ps, cs => ∃ n X', li < F.length ∧ F.getD li 0 = cp + n ∧ X = List.replicate n NOP ++ X' ∧
      (e.base + BitVec.ofNat 64 (4 * (cp + n))).toNat % 2 ^ al = 0 ∧ Lay fin e F is (cp + n) (li + 1) X' ps cs
  | .const ws :: is, cp, li, X, ps, cs => ∃ X' cs', X = ws ++ X' ∧ cs = (e.base + BitVec.ofNat 64 (4 * cp)) :: cs' ∧
      Lay fin e F is (cp + ws.length) li X' ps cs'
  | .jump j _ _ :: is, cp, li, X, ps, cs => ∃ k pb p X' ps', X = (if fin then jumpFin j (tgtPos e F j.tgt) (e.exec cp) k else pb) ++ X' ∧ ps = p :: ps' ∧
      JumpFits j (tgtPos e F j.tgt) (e.exec cp) k ∧ (j.rew = true → k = .abs64 ∧ pb = jumpWords j .abs64 ∧ p = ⟨false, j.call, j.tgt, .abs64, cp + j.pre⟩) ∧
      Patches e F cp p pb (jumpFin j (tgtPos e F j.tgt) (e.exec cp) k) ∧ Lay fin e F is (cp + pb.length) li X' ps' cs
  | .mov reg t _ _ :: is, cp, li, X, ps, cs => ∃ k pb p X' ps', X = (if fin then movFin reg (tgtPos e F t) (e.exec cp) k else pb) ++ X' ∧ ps = p :: ps' ∧
      MovFits (tgtPos e F t) (e.exec cp) k ∧
      Patches e F cp p pb (movFin reg (tgtPos e F t) (e.exec cp) k) ∧ Lay fin e F is (cp + pb.length) li X' ps' cs

theorem RGood_le {L : List Nat} {n : Nat} (R : List RItem) : ∀ {li E}, RGood L n R li E → E ≤ n := by
  induction R with
  | nil => intro li E h; exact Nat.le_of_eq h.1
  | cons i is ih =>
    intro li E h
    cases i <;> simp only [RGood] at h
    case code => have := ih h.2; omega
    case label => have := ih h.2.2.2; omega
    case alabel => have := ih h.2.2.2.2; omega
    case const => have := ih h.2; omega
    case jump => obtain ⟨_, _, _, _, _, _, _, _, h⟩ := h; have := ih h; omega
    case mov => obtain ⟨_, _, _, _, _, h⟩ := h; have := ih h; omega

theorem emitW_ok {e : Env} {out ws : List (BitVec 32)} (h : out.length + ws.length ≤ e.n) : emitW e out ws = some (out ++ ws) := if_pos h

/-- After a label has been processed. -/
theorem Inv.label {e : Env} {L : List Nat} {T : Nat} {cur : List Nat} {li E cp E' cp' : Nat} (hi : Inv e L T cur li E cp) (hl : li < L.length)
    (hE : L.getD li 0 = E') (h1 : cp ≤ cp') (h2 : cp' ≤ E') (h3 : E' ≤ e.n) (h4 : E + cp' ≤ E' + cp) : Inv e L T (cur.set li cp') (li + 1) E' cp' where
  small := hi.small
  fit := hi.fit
  base4 := hi.base4
  off4 := hi.off4
  wrap := hi.wrap
  wrapx := hi.wrapx
  bound := hi.bound
  le := h2
  leE := h3
  len_eq := by rw [List.length_set]; exact hi.len_eq
  done k hk := by
    by_cases h : k = li
    · subst h; rw [getD_set_eq (by rw [hi.len_eq]; exact hl), hE]; omega
    · rw [getD_set_ne h]; have := hi.done k (by omega); omega
  todo k hk := by rw [getD_set_ne (by omega)]; exact hi.todo k (by omega)

/-- After another piece. -/
theorem Inv.move {e : Env} {L : List Nat} {T : Nat} {cur : List Nat} {li E cp a b : Nat} (hi : Inv e L T cur li E cp) (h1 : a ≤ b) (h3 : E + b ≤ e.n) :
    Inv e L T cur li (E + b) (cp + a) where
  small := hi.small
  fit := hi.fit
  base4 := hi.base4
  off4 := hi.off4
  wrap := hi.wrap
  wrapx := hi.wrapx
  bound := hi.bound
  le := by have := hi.le; omega
  leE := h3
  len_eq := hi.len_eq
  done k hk := by have := hi.done k hk; omega
  todo := hi.todo

theorem take_map_set {α : Type} (f : Nat → α) (l : List Nat) (li x : Nat) (h : li < l.length) :
    ((l.set li x).take (li + 1)).map f = (l.take li).map f ++ [f x] := by
  have hl : li < (l.set li x).length := by simpa using h
  rw [List.take_add_one, List.map_append, List.take_set_of_le (Nat.le_refl _)]
  simp [h]

set_option maxHeartbeats 1000000 in
theorem genLoop_ok {e : Env} {L : List Nat} {T : Nat} (N : Nat) : ∀ (R : List RItem), R.length ≤ N → ∀ {s : GSt} {E : Nat}, RGood L e.n R s.li E → Inv e L T s.labels s.li E s.out.length →
    s.laddr = (s.labels.take s.li).map e.exec →
    ∃ s' F X ps cs, genLoop e R false s = some s' ∧ s'.out = s.out ++ X ∧ s'.pend = s.pend ++ ps ∧ s'.caddr = s.caddr ++ cs ∧ s'.laddr = F.map e.exec ∧
      Fits L s.labels F s.li E s.out.length 0 ∧ Lay false e F R s.out.length s.li X ps cs ∧ s.out.length + X.length ≤ e.n := by
  induction N with
  | zero =>
    intro R hR s E hg hi hla
    obtain rfl : R = [] := by cases R with | nil => rfl | cons _ _ => simp at hR
    simp only [RGood] at hg
    have hle := hi.len_eq
    refine ⟨s, s.labels, [], [], [], rfl, by simp, by simp, by simp, ?_, ⟨hi.len_eq, fun _ _ => rfl, fun k h1 h2 => by omega⟩, ?_, ?_⟩
    · rw [hla, List.take_of_length_le (by omega)]
    · simp only [Lay, true_and]; omega
    · have := hi.le; simp; omega
  | succ N ih0 =>
    intro R hR s E hg hi hla
    cases R with
    | nil =>
      simp only [RGood] at hg
      have hle := hi.len_eq
      refine ⟨s, s.labels, [], [], [], rfl, by simp, by simp, by simp, ?_, ⟨hi.len_eq, fun _ _ => rfl, fun k h1 h2 => by omega⟩, ?_, ?_⟩
      · rw [hla, List.take_of_length_le (by omega)]
      · simp only [Lay, true_and]; omega
      · have := hi.le; simp; omega
    | cons i is =>
    have hlen : is.length ≤ N := by simp at hR; omega
    have ih := fun {s E} => ih0 is hlen (s := s) (E := E)
    cases i with
    | code bs =>
      simp only [RGood] at hg
      have hn := RGood_le _ hg.2
      have hi' := hi.move (a := bs.length) (b := bs.length) (Nat.le_refl _) hn
      have hle := hi'.le
      obtain ⟨s', F, X, ps, cs, g1, g2, g3, g4, g5, g6, g7, g8⟩ := ih (s := { s with out := s.out ++ bs }) hg.2 (by simpa using hi') hla
      simp only [List.length_append] at g6 g7 g8
      refine ⟨s', F, bs ++ X, ps, cs, ?_, by rw [g2, List.append_assoc], g3, g4, g5, ?_, ⟨X, rfl, g7⟩, by simp only [List.length_append]; omega⟩
      · rw [genLoop, emitW_ok (by omega)]; exact g1
      · exact ⟨g6.len_eq, g6.old, fun k a b => by have := g6.new k a b; omega⟩
    | const bs =>
      simp only [RGood] at hg
      have hn := RGood_le _ hg.2
      have hi' := hi.move (a := bs.length) (b := bs.length) (Nat.le_refl _) hn
      have hle := hi'.le
      obtain ⟨s', F, X, ps, cs, g1, g2, g3, g4, g5, g6, g7, g8⟩ :=
        ih (s := { s with out := s.out ++ bs, caddr := s.caddr ++ [e.base + BitVec.ofNat 64 (4 * s.out.length)] }) hg.2 (by simpa using hi') hla
      simp only [List.length_append] at g4 g6 g7 g8
      refine ⟨s', F, bs ++ X, ps, _ :: cs, ?_, by rw [g2, List.append_assoc], g3, by rw [g4, List.append_assoc]; rfl, g5, ?_, ⟨X, cs, rfl, rfl, g7⟩,
        by simp only [List.length_append]; omega⟩
      · rw [genLoop, emitW_ok (by omega)]; exact g1
      · exact ⟨g6.len_eq, g6.old, fun k a b => by have := g6.new k a b; omega⟩
    | label =>
      simp only [RGood] at hg
      obtain ⟨hg1, hg2, -, hg⟩ := hg
      have hn := RGood_le _ hg
      have hi' := hi.label hg1 hg2 (Nat.le_refl _) hi.le hn (by omega)
      have hlen : s.li < s.labels.length := by rw [hi.len_eq]; exact hg1
      obtain ⟨s', F, X, ps, cs, g1, g2, g3, g4, g5, g6, g7, g8⟩ := ih (s := s.setLabel e s.out.length) hg hi' (by
        simp only [GSt.setLabel]; rw [hla, take_map_set e.exec _ _ _ hlen])
      have hF : F.getD s.li 0 = s.out.length := by
        rw [g6.old s.li (by simp [GSt.setLabel])]; exact getD_set_eq hlen
      refine ⟨s', F, X, ps, cs, g1, g2, g3, g4, g5, ?_, ⟨by rw [g6.len_eq]; exact hg1, hF, g7⟩, g8⟩
      refine ⟨g6.len_eq, fun k hk => ?_, fun k a b => ?_⟩
      · rw [g6.old k (by simp only [GSt.setLabel]; omega)]; exact getD_set_ne (by omega)
      · by_cases h : k = s.li
        · subst h; rw [hF, hg2]; omega
        · exact g6.new k (by simp only [GSt.setLabel]; omega) b
    | alabel al =>
      simp only [RGood] at hg
      obtain ⟨hg1, hg2, hal, hmore, hg⟩ := hg
      have hn := RGood_le _ hg
      have hle := hi.le
      obtain ⟨q, hq, hp1, hp2⟩ := alignDown_ok (e := e) (cp := s.out.length) hal hi.base4 hi.small hi.wrap (by have := hi.fit; omega)
      have hi' := hi.label (cp' := s.out.length + q) hg1 hg2 (by omega) (by omega) hn (by omega)
      have hlen : s.li < s.labels.length := by rw [hi.len_eq]; exact hg1
      have hol : (s.out ++ List.replicate q NOP).length = s.out.length + q := by simp
      have htake : (s.out ++ List.replicate (nops al) NOP).take (s.out.length + q) = s.out ++ List.replicate q NOP := by
        rw [List.take_append, List.take_of_length_le (by omega)]
        simp [Nat.min_eq_left hp1]
      obtain ⟨s', F, X, ps, cs, g1, g2, g3, g4, g5, g6, g7, g8⟩ := ih (s := GSt.setLabel { s with out := s.out ++ List.replicate q NOP } e (s.out.length + q)) hg
        (by simp only [GSt.setLabel, hol]; exact hi') (by
        simp only [GSt.setLabel]; rw [hla, take_map_set e.exec _ _ _ hlen])
      simp only [GSt.setLabel, hol] at g6 g7 g8
      have hF : F.getD s.li 0 = s.out.length + q := by
        rw [g6.old s.li (by omega)]; exact getD_set_eq hlen
      refine ⟨s', F, List.replicate q NOP ++ X, ps, cs, ?_, by rw [g2]; simp [GSt.setLabel], g3, g4, g5, ?_,
        ⟨q, X, by rw [g6.len_eq]; exact hg1, hF, rfl, hp2, g7⟩, by simp only [List.length_append, List.length_replicate]; omega⟩
      · rw [genLoop, emitW_ok (by rw [List.length_replicate]; omega), Option.bind_some]
        rw [if_neg (by simp only [List.length_append, List.length_replicate]; intro h; have := hmore h.1; omega)]
        simp only [List.length_append, List.length_replicate, hq, htake]
        exact g1
      · refine ⟨g6.len_eq, fun k hk => ?_, fun k a b => ?_⟩
        · rw [g6.old k (by omega)]; exact getD_set_ne (by omega)
        · by_cases h : k = s.li
          · subst h; rw [hF, hg2]; omega
          · have := g6.new k (by omega) b; omega
    | jump j addr total =>
      simp only [RGood] at hg
      obtain ⟨rfl, htok, halg, hsk, hzero, he, hfw, hstr, hg⟩ := hg
      have hn := RGood_le _ hg
      have hle0 := hi.le
      have hpre : Inv e L T s.labels s.li (E + j.pre) (s.out.length + j.pre) := hi.move (Nat.le_refl _) (by omega)
      have hbr : emitW e s.out (j.skipW Skip.word ++ [j.br]) = some (s.out ++ (j.skipW Skip.word ++ [j.br])) := by
        apply emitW_ok
        rw [List.length_append, skipW_length, List.length_singleton]
        rcases Nat.eq_zero_or_pos total with h | h
        · have := (hzero h).2; omega
        · omega
      by_cases hf : total = 0 ∧ RItem.isLabel is = true
      · obtain ⟨rfl, hil⟩ := hf
        cases is with
        | nil => simp [RItem.isLabel] at hil
        | cons i2 is2 =>
        cases i2 <;> simp only [RItem.isLabel, Bool.false_eq_true] at hil
        case label =>
        have hlen2 : is2.length ≤ N := by simp at hlen; omega
        simp only [RGood, Nat.add_zero] at hg
        obtain ⟨l1, l2, l3, hg⟩ := hg
        have hn2 := RGood_le _ hg
        have hsome := (hzero rfl).1
        have hi1 : Inv e L T (s.labels.set s.li (s.out.length + j.pre)) (s.li + 1) (E + j.pre) (s.out.length + j.pre) :=
          hpre.label l1 l2 (Nat.le_refl _) (by omega) (by omega) (by omega)
        have hlenl : s.li < s.labels.length := by rw [hi.len_eq]; exact l1
        obtain ⟨h1, h2, hrw, h3⟩ := jump_ok (cp := s.out.length) (li := s.li) hi1 (by omega) htok halg he
          (fun k a b => by have := hstr k (by simpa [RItem.isLabel] using a) b; omega)
          (fun k a b => by
            obtain rfl : k = s.li := by omega
            exact ⟨getD_set_eq hlenl, hsome⟩)
        generalize hr : detectJump e j (s.out.length + j.pre) (E + j.pre) (tgtSize (s.labels.set s.li (s.out.length + j.pre)) j.tgt) = K at h1 h2 h3 hrw
        have hlj : (jumpWords j K).length = j.pre := by omega
        obtain ⟨s', F, X, ps, cs, g1, g2, g3, g4, g5, g6, g7, g8⟩ :=
          ih0 is2 hlen2 (s := { s.setLabel e (s.out.length + j.pre) with out := s.out ++ jumpWords j K, pend := s.pend ++ [⟨false, j.call, j.tgt, K, if K = .cond then s.out.length + j.pre - 1 else s.out.length + j.pre⟩] }) (E := E + j.pre) hg
            (by simpa [GSt.setLabel, hlj] using hi1) (by simp only [GSt.setLabel]; rw [hla, take_map_set e.exec _ _ _ hlenl])
        simp only [GSt.setLabel, List.length_append, hlj] at g6 g7 g8
        have hF : F.getD s.li 0 = s.out.length + j.pre := by
          rw [g6.old s.li (by omega)]; exact getD_set_eq hlenl
        obtain ⟨hk, hp⟩ := h3 F g6
        refine ⟨s', F, jumpWords j K ++ X, _ :: ps, cs, ?_, by rw [g2, List.append_assoc], by rw [g3, List.append_assoc]; rfl, g4, g5, ?_,
          ⟨K, jumpWords j K, _, X, ps, by simp, rfl, hk, fun h => ?_, hp, by rw [g6.len_eq]; exact l1, by rw [hlj]; exact hF, by rw [hlj]; exact g7⟩, by simp only [List.length_append]; omega⟩
        · rw [genLoop, hbr, Option.bind_some]
          simp only [RItem.isLabel, decide_true, Bool.and_self, if_true, GSt.setLabel, hr]
          rw [emitW_ok (by omega), Option.bind_some]
          exact g1
        · refine ⟨g6.len_eq, fun k hk => ?_, fun k a b => ?_⟩
          · rw [g6.old k (by omega)]; exact getD_set_ne (by omega)
          · by_cases h : k = s.li
            · subst h; rw [hF, l2]; omega
            · have := g6.new k (by omega) b; omega
        · have := hrw h; subst this; exact ⟨rfl, rfl, rfl⟩
      · have hff : (decide (total = 0) && RItem.isLabel is) = false := by
          rw [Bool.and_eq_false_iff]
          by_cases h : total = 0
          · right; simpa using fun h' => hf ⟨h, h'⟩
          · left; simpa using h
        obtain ⟨h1, h2, hrw, h3⟩ := jump_ok (cp := s.out.length) (li := s.li) (li' := s.li) hpre (Nat.le_refl _) htok halg he
          (fun k a b => by
            by_cases h : total = 0
            · have hil : RItem.isLabel is = false := by simpa using fun h' => hf ⟨h, h'⟩
              have := hstr k (by rw [hil]; exact a) b
              omega
            · have := hfw k a b; omega)
          (fun k a b => by omega)
        generalize hr : detectJump e j (s.out.length + j.pre) (E + j.pre) (tgtSize s.labels j.tgt) = K at h1 h2 h3 hrw
        have hi' : Inv e L T s.labels s.li (E + j.pre + total) (s.out.length + (jumpWords j K).length) := by
          have := hi.move (a := (jumpWords j K).length) (b := j.pre + total) h1 (by omega)
          rw [Nat.add_assoc]; exact this
        have hle := hi'.le
        obtain ⟨s', F, X, ps, cs, g1, g2, g3, g4, g5, g6, g7, g8⟩ :=
          ih (s := { s with out := s.out ++ jumpWords j K, pend := s.pend ++ [⟨false, j.call, j.tgt, K, if K = .cond then s.out.length + j.pre - 1 else s.out.length + j.pre⟩] }) hg
            (by simpa using hi') hla
        simp only [List.length_append] at g6 g7 g8
        have hF : Fits L s.labels F s.li (E + j.pre) (s.out.length + j.pre) 0 :=
          ⟨g6.len_eq, g6.old, fun k a b => by have := g6.new k a b; omega⟩
        obtain ⟨hk, hp⟩ := h3 F hF
        refine ⟨s', F, jumpWords j K ++ X, _ :: ps, cs, ?_, by rw [g2, List.append_assoc], by rw [g3, List.append_assoc]; rfl, g4, g5, ?_,
          ⟨K, jumpWords j K, _, X, ps, by simp, rfl, hk, fun h => ?_, hp, g7⟩, by simp only [List.length_append]; omega⟩
        · rw [genLoop, hbr, Option.bind_some]
          simp only [hff, Bool.false_eq_true, if_false, hr]
          rw [emitW_ok (by omega), Option.bind_some]
          exact g1
        · exact ⟨hF.len_eq, hF.old, fun k a b => by have := hF.new k a b; omega⟩
        · have := hrw h; subst this; exact ⟨rfl, rfl, rfl⟩
    | mov reg t addr total =>
      simp only [RGood] at hg
      obtain ⟨rfl, hr1, htok, he, hfw, hg⟩ := hg
      have hn := RGood_le _ hg
      have hle0 := hi.le
      obtain ⟨h1, h3⟩ := mov_ok (reg := reg) hi htok he (fun k a b => by have := hfw k a b; omega)
      generalize hr : detectMov e t s.out.length addr (tgtSize s.labels t) = K at h1 h3
      have hwl : (RD reg :: List.replicate (movLen K) 0#32).length = 1 + movLen K := by simp [Nat.add_comm]
      have hi' : Inv e L T s.labels s.li (addr + 1 + total) (s.out.length + (1 + movLen K)) := by
        have := hi.move (a := 1 + movLen K) (b := 1 + total) (by omega) (by omega)
        rw [Nat.add_assoc]; exact this
      have hle := hi'.le
      obtain ⟨s', F, X, ps, cs, g1, g2, g3, g4, g5, g6, g7, g8⟩ :=
        ih (s := { s with out := s.out ++ (RD reg :: List.replicate (movLen K) 0#32), pend := s.pend ++ [⟨true, false, t, K, s.out.length⟩] }) hg (by simpa only [List.length_append, hwl] using hi') hla
      simp only [List.length_append, hwl] at g6 g7 g8
      have hF : Fits L s.labels F s.li addr s.out.length 0 :=
        ⟨g6.len_eq, g6.old, fun k a b => by have := g6.new k a b; omega⟩
      obtain ⟨hk, hp⟩ := h3 F hF
      refine ⟨s', F, (RD reg :: List.replicate (movLen K) 0#32) ++ X, _ :: ps, cs, ?_, by rw [g2, List.append_assoc], by rw [g3, List.append_assoc]; rfl, g4, g5, ?_,
        ⟨K, RD reg :: List.replicate (movLen K) 0#32, _, X, ps, by simp, rfl, hk, hp, by rw [hwl]; exact g7⟩, by simp only [List.length_append, hwl]; omega⟩
      · simp only [genLoop, hr]
        rw [emitW_ok (by simp only [List.length_singleton]; omega), Option.bind_some,
          emitW_ok (by simp only [List.length_append, List.length_singleton, List.length_replicate]; omega), Option.bind_some, List.append_assoc, List.singleton_append]
        exact g1
      · exact hF

/-- The final pass. -/
theorem patchAll_ok {e : Env} {F : List Nat} (R : List RItem) : ∀ {cp li X ps cs}, Lay false e F R cp li X ps cs →
    ∃ X', (∀ A : List (BitVec 32), A.length = cp → patchAll e (F.map e.exec) ps (A ++ X) = some (A ++ X')) ∧ X'.length = X.length ∧ Lay true e F R cp li X' ps cs := by
  induction R with
  | nil =>
    intro cp li X ps cs h
    obtain ⟨rfl, rfl, rfl, rfl⟩ := h
    exact ⟨[], fun A _ => rfl, rfl, rfl, rfl, rfl, rfl⟩
  | cons i is ih =>
    intro cp li X ps cs h
    cases i with
    | code bs =>
      obtain ⟨X', rfl, h⟩ := h
      obtain ⟨Y, g1, g2, g3⟩ := ih h
      exact ⟨bs ++ Y, fun A hA => by rw [← List.append_assoc, g1 _ (by simp [hA]), List.append_assoc], by simp [g2], Y, rfl, g3⟩
    | const bs =>
      obtain ⟨X', cs', rfl, rfl, h⟩ := h
      obtain ⟨Y, g1, g2, g3⟩ := ih h
      exact ⟨bs ++ Y, fun A hA => by rw [← List.append_assoc, g1 _ (by simp [hA]), List.append_assoc], by simp [g2], Y, cs', rfl, rfl, g3⟩
    | label =>
      obtain ⟨h1, h2, h⟩ := h
      obtain ⟨Y, g1, g2, g3⟩ := ih h
      exact ⟨Y, g1, g2, h1, h2, g3⟩
    | alabel al =>
      obtain ⟨n, X', h1, h2, rfl, h3, h⟩ := h
      obtain ⟨Y, g1, g2, g3⟩ := ih h
      exact ⟨List.replicate n NOP ++ Y, fun A hA => by rw [← List.append_assoc, g1 _ (by simp [hA]), List.append_assoc], by simp [g2], n, Y, h1, h2, rfl, h3, g3⟩
    | jump j addr total =>
      obtain ⟨k, pb, p, X', ps', rfl, rfl, hk, hrw, hp, h⟩ := h
      simp only [Bool.false_eq_true, if_false] at *
      obtain ⟨Y, g1, g2, g3⟩ := ih h
      refine ⟨jumpFin j (tgtPos e F j.tgt) (e.exec cp) k ++ Y, fun A hA => ?_, by simp [g2, hp.1], k, pb, p, Y, ps', by simp, rfl, hk, hrw, hp, g3⟩
      rw [patchAll, hp.2 A X' hA, Option.bind_some, ← List.append_assoc, g1 _ (by simp [hA, hp.1]), List.append_assoc]
    | mov reg t addr total =>
      obtain ⟨k, pb, p, X', ps', rfl, rfl, hk, hp, h⟩ := h
      simp only [Bool.false_eq_true, if_false] at *
      obtain ⟨Y, g1, g2, g3⟩ := ih h
      refine ⟨movFin reg (tgtPos e F t) (e.exec cp) k ++ Y, fun A hA => ?_, by simp [g2, hp.1], k, pb, p, Y, ps', by simp, rfl, hk, hp, g3⟩
      rw [patchAll, hp.2 A X' hA, Option.bind_some, ← List.append_assoc, g1 _ (by simp [hA, hp.1]), List.append_assoc]

/-! ## The generated code -/

theorem nops_go {c : IMem} : ∀ (n : Nat) {p : PSt}, WordsAt c p.pc (List.replicate n NOP) → Goes c [] p (p.pc + BitVec.ofNat 64 (4 * n)) fun _ => True
  | 0, p, _ => ⟨p, .refl p, by simp, fun _ _ => rfl, rfl, rfl, rfl, trivial⟩
  | n + 1, p, h => by
    simp only [List.replicate_succ, WordsAt] at h
    have h1 := pstep_ctl (k := .nop) h.1 (by decide +kernel)
    obtain ⟨p', g1, g2, g3, g4, g5, g6, -⟩ := nops_go n (p := { p with pc := p.pc + 4#64 }) h.2
    refine ⟨p', .step h1 g1, ?_, g3, g4, g5, g6, trivial⟩
    rw [g2, Nat.mul_add, BitVec.ofNat_add, BitVec.add_assoc, BitVec.add_comm (BitVec.ofNat 64 (4 * n))]

theorem movzk_head (t : BitVec 64) : ∃ w mid, movzk (RD TMP_REG2) t 4 = w :: mid ∧ mid.length = 3 ∧ w &&& 0x1f#32 = (10#5).setWidth 32 := by
  refine ⟨_, _, rfl, rfl, ?_⟩
  have e : RD TMP_REG2 = 10#32 := by decide
  rw [e]
  apply BitVec.eq_of_getLsbD_eq; intro i hi; interval_cases i <;> simp [-BitVec.getLsbD_eq_getElem, -BitVec.setWidth_eq, Verif.Imm.Arm64.MOVZ]

theorem placed_of {c : IMem} {e : Env} {F : List Nat} (R : List RItem) : ∀ {cp li X ps cs}, Lay true e F R cp li X ps cs → (∀ i ∈ R, ∀ nl, nl = F.length → Item.Ok nl i.strip) →
    WordsAt c (e.exec cp) X →
    Placed c e.off (e.exec 0) (F.map e.exec) (R.map RItem.strip) (e.exec cp) li cs (ps.map (·.addr)) (e.exec (cp + X.length)) := by
  induction R with
  | nil =>
    intro cp li X ps cs h _ hb
    obtain ⟨rfl, rfl, rfl, rfl⟩ := h
    simp [Placed]
  | cons i is ih =>
    intro cp li X ps cs h hok hb
    have hok' : ∀ i ∈ is, ∀ nl, nl = F.length → Item.Ok nl i.strip := fun i h => hok i (List.mem_cons_of_mem _ h)
    have hlab : ∀ k, k < F.length → (F.map e.exec)[k]? = some (e.exec (F.getD k 0)) := by
      intro k hk; simp [List.getD, hk]
    have htgt : ∀ t : Tgt, t.Ok F.length → tgtOf (F.map e.exec) t = tgtPos e F t := by
      intro t ht
      cases t with
      | addr a => rfl
      | label k => have ht : k < F.length := ht; simp [tgtOf, tgtPos, List.getD, ht]
    cases i with
    | code bs =>
      obtain ⟨X', rfl, h⟩ := h
      rw [WordsAt.append] at hb
      simp only [List.map_cons, RItem.strip, Placed]
      refine ⟨hb.1, ?_⟩
      rw [← exec_add]
      have := ih h hok' (by rw [exec_add]; exact hb.2)
      rw [List.length_append, ← Nat.add_assoc]; exact this
    | const bs =>
      obtain ⟨X', cs', rfl, rfl, h⟩ := h
      rw [WordsAt.append] at hb
      simp only [List.map_cons, RItem.strip, Placed]
      refine ⟨hb.1, cs', ?_, ?_⟩
      · congr 1
        rw [Env.exec, BitVec.add_sub_cancel]
      · rw [← exec_add]
        have := ih h hok' (by rw [exec_add]; exact hb.2)
        rw [List.length_append, ← Nat.add_assoc]; exact this
    | label =>
      obtain ⟨h1, h2, h⟩ := h
      simp only [List.map_cons, RItem.strip, Placed]
      exact ⟨by rw [hlab li h1, h2], ih h hok' hb⟩
    | alabel al =>
      obtain ⟨n, X', h1, h2, rfl, h3, h⟩ := h
      rw [WordsAt.append] at hb
      simp only [List.map_cons, RItem.strip, Placed]
      refine ⟨e.exec (cp + n), by rw [hlab li h1, h2], ?_, fun p hp => ?_, ?_⟩
      · rw [Env.exec, BitVec.add_sub_cancel]; exact h3
      · rw [exec_add, ← hp]; exact nops_go n (by rw [hp]; exact hb.1)
      · have := ih h hok' (by rw [exec_add]; simpa using hb.2)
        rw [List.length_append, List.length_replicate, ← Nat.add_assoc]; exact this
    | jump j addr total =>
      obtain ⟨k, pb, p, X', ps', rfl, rfl, hk, hrw, hp, h⟩ := h
      simp only [if_true] at *
      rw [WordsAt.append] at hb
      have hj := hok (.jump j addr total) (by simp) _ rfl
      simp only [RItem.strip, Item.Ok] at hj
      simp only [List.map_cons, RItem.strip, Placed]
      rw [htgt _ hj.1]
      refine ⟨(jumpFin j (tgtPos e F j.tgt) (e.exec cp) k).length, _, _, rfl, fun q hq => ?_, fun hr => ?_, ?_⟩
      · exact jumpFin_does hk hj.2.2 hb.1 q hq
      · obtain ⟨rfl, -, ha⟩ := hrw hr
        obtain ⟨w, mid, m1, m2, m3⟩ := movzk_head (tgtPos e F j.tgt)
        refine ⟨j.skipW fun k => cw false k 6#19, w, mid, [j.br], ?_, ?_, m2, fun c' t' hb' q hq => ?_⟩
        · rw [ha, ← exec_add, ← exec_add, Nat.zero_add, skipW_length]
        · have := hb.1
          simp only [jumpFin, m1] at this
          simpa only [List.append_assoc, List.cons_append] using this
        · have hw' : WordsAt c' (e.exec cp) (jumpFin j t' (e.exec cp) .abs64) := by
            rw [setJumpAddr_movzk w 10#5 m3, show (10#5).setWidth 32 = RD TMP_REG2 from by decide] at hb'
            simpa only [jumpFin, List.append_assoc] using hb'
          have := jumpFin_does (c := c') (j := j) (t := t') (a := e.exec cp) (k := .abs64) trivial hj.2.2 hw' q hq
          have hl : (jumpFin j t' (e.exec cp) .abs64).length = (jumpFin j (tgtPos e F j.tgt) (e.exec cp) .abs64).length := by
            simp [jumpFin, skipW_length, movzk_len]
          rw [hl] at this; exact this
      · rw [← hp.1, ← exec_add]
        have := ih h hok' (by rw [exec_add, hp.1]; exact hb.2)
        rw [List.length_append, ← hp.1, ← Nat.add_assoc]; exact this
    | mov reg t addr total =>
      obtain ⟨k, pb, p, X', ps', rfl, rfl, hk, hp, h⟩ := h
      simp only [if_true] at *
      rw [WordsAt.append] at hb
      have hj := hok (.mov reg t addr total) (by simp) _ rfl
      simp only [RItem.strip, Item.Ok] at hj
      simp only [List.map_cons, RItem.strip, Placed]
      rw [htgt _ hj.2]
      refine ⟨(movFin reg (tgtPos e F t) (e.exec cp) k).length, _, _, rfl, fun q hq => ?_, ?_⟩
      · exact movFin_does hj.1 hk hb.1 q hq
      · rw [← hp.1, ← exec_add]
        have := ih h hok' (by rw [exec_add, hp.1]; exact hb.2)
        rw [List.length_append, ← hp.1, ← Nat.add_assoc]; exact this

theorem Prog.Ok.mem {nl : Nat} {items : List Item} : Prog.Ok nl items → ∀ i ∈ items, i.Ok nl := by
  induction items with
  | nil => intro _ i h; cases h
  | cons x is ih =>
    intro h i hi
    rcases List.mem_cons.1 hi with rfl | hx
    · cases i <;> simp only [Prog.Ok] at h
      case label => trivial
      all_goals exact h.1
    · cases x <;> simp only [Prog.Ok] at h
      case jump => exact ih h.2.2 i hx
      case alabel => exact ih h.2.2 i hx
      all_goals exact ih h.2 i hx

/-- sljit_generate_code on ARM64. -/
theorem generate_ok (items : List Item) (base off : BitVec 64) (ho : Prog.Ok (Prog.labels items) items) (hr : Room items base off) :
    ∃ g, generate items base off = some g ∧ g.code.length ≤ g.alloc ∧ g.alloc ≤ usize items ∧
      ∀ c, WordsAt c (base + off) g.code → Placed c off (base + off) g.laddr items (base + off) 0 g.caddr g.jaddr (base + off + BitVec.ofNat 64 (4 * g.code.length)) := by
  obtain ⟨hr0, hr1, hr2, hr3, hr4, hr5⟩ := hr
  have hb : ∀ k, (labelSizes 0 items).getD k 0 ≤ usize items := by
    intro k
    by_cases h : k < (labelSizes 0 items).length
    · have := labelSizes_mem items 0 ((labelSizes 0 items)[k]) (List.getElem_mem h)
      simp only [List.getD, List.getElem?_eq_getElem h, Option.getD_some]; omega
    · simp only [List.getD, List.getElem?_eq_none (by omega : (labelSizes 0 items).length ≤ k), Option.getD_none]; omega
  generalize hred : reduce items 0 0 0 (labelSizes 0 items) = r
  obtain ⟨R, L, SR⟩ := r
  obtain ⟨g1, -, g3, -, -, g4, -, -, g6, g7⟩ := reduce_good (Prog.labels items) (usize items) items 0 0 0 (labelSizes 0 items) R L SR hred
    (labelSizes_length items 0) rfl (Nat.zero_le _) (Nat.le_refl _) ho (Nat.zero_add _) (fun k h => by omega) hb
  have hstrip : R.map RItem.strip = items := by have := reduce_strip items 0 0 0 (labelSizes 0 items); rw [hred] at this; exact this
  have hmem : ∀ i ∈ R, i.strip ∈ items := fun i hi => by rw [← hstrip]; exact List.mem_map_of_mem hi
  obtain ⟨s', F, X, ps, cs, l1, l2, l3, l4, l5, l6, l7, l8⟩ := genLoop_ok (e := ⟨base, off, usize items - SR⟩) (L := L) (T := usize items) R.length R (Nat.le_refl _)
    (s := ⟨[], L, 0, [], [], []⟩) (E := 0) g7 ⟨hr1, Nat.sub_le _ _, hr2, hr3, hr4, hr5, g6, Nat.le_refl _, Nat.zero_le _, rfl, fun k h => absurd h (Nat.not_lt_zero _), fun k _ => rfl⟩ rfl
  obtain ⟨Y, p1, p2, p3⟩ := patchAll_ok R l7
  replace p1 := p1 [] rfl
  simp only [List.nil_append, List.length_nil, Nat.zero_add] at l2 l3 l4 l8 p1 p3
  refine ⟨⟨Y, s'.laddr, s'.caddr, s'.pend.map (·.addr), usize items - SR⟩, ?_, Nat.le_trans (Nat.le_of_eq p2) l8, by simp only; omega, fun c hc => ?_⟩
  · simp only [generate, if_neg (show ¬ usize items = 0 by omega), hred, l1, Option.bind_some, l5, l3, l2, p1]
  · have h0 : Env.exec ⟨base, off, usize items - SR⟩ 0 = base + off := by simp [Env.exec]
    have := placed_of (c := c) R p3 (fun i hi nl hnl => by rw [hnl, l6.len_eq, g1]; exact ho.mem _ (hmem i hi)) (by rw [h0]; exact hc)
    rw [hstrip, h0, Nat.zero_add, exec_base] at this
    simp only [l5, l4, l3]
    exact this

end Verif.A64
