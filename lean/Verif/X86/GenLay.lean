import Verif.X86.GenLoop

/-! # The generating loop and the final pass on x86-64 (helper lemmas) -/

namespace Verif.X86

/-- The bytes `X` generated for the items at position `cp`, before the final pass (`fin = false`) and after it; `ps` are the jump records,
`cs` the addresses of the constants, `F` the positions of the labels. -/
def Lay (fin : Bool) (e : Env) (F : List Nat) : List RItem → (cp li : Nat) → (X : List Byte) → List Pending → List (BitVec 64) → Prop
  | [], _, li, X, ps, cs => X = [] ∧ ps = [] ∧ cs = [] ∧ li = F.length
  | .bytes bs :: is, cp, li, X, ps, cs => ∃ X', X = bs ++ X' ∧ Lay fin e F is (cp + bs.length) li X' ps cs
  | .label :: is, cp, li, X, ps, cs => li < F.length ∧ F.getD li 0 = cp ∧ Lay fin e F is cp (li + 1) X ps cs
  | .alabel al :: is, cp, li, X, ps, cs => ∃ n X', li < F.length ∧ F.getD li 0 = cp + n ∧ X = List.replicate n 0x90#8 ++ X' ∧
      (e.base + BitVec.ofNat 64 (cp + n)).toNat % 2 ^ al = 0 ∧ Lay fin e F is (cp + n) (li + 1) X' ps cs
  | .const bs :: is, cp, li, X, ps, cs => ∃ X' cs', X = bs ++ X' ∧ cs = (e.base + BitVec.ofNat 64 (cp + bs.length)) :: cs' ∧
      Lay fin e F is (cp + bs.length) li X' ps cs'
  | .jump j _ :: is, cp, li, X, ps, cs => ∃ k pb p X' ps', X = (if fin then jumpB e.win j.type (tgtPos e F j.tgt) (e.exec cp) k else pb) ++ X' ∧ ps = p :: ps' ∧
      KindOk j.type (tgtPos e F j.tgt) (e.exec cp) k ∧ (j.rew = true → k = .far false ∧ p.addr = cp + (farPre e.win j.type false).length) ∧
      Patches e F cp p pb (jumpB e.win j.type (tgtPos e F j.tgt) (e.exec cp) k) ∧ Lay fin e F is (cp + pb.length) li X' ps' cs
  | .mov reg t :: is, cp, li, X, ps, cs => ∃ k pb p X' ps', X = (if fin then movB e.win reg (tgtPos e F t) (e.exec cp) k else pb) ++ X' ∧ ps = p :: ps' ∧
      MKindOk (tgtPos e F t) (e.exec cp) k ∧
      Patches e F cp p pb (movB e.win reg (tgtPos e F t) (e.exec cp) k) ∧ Lay fin e F is (cp + pb.length) li X' ps' cs

theorem RGood_le {win : Bool} {L : List Nat} {n : Nat} (R : List RItem) : ∀ {li E}, RGood win L n R li E → E ≤ n := by
  induction R with
  | nil => intro li E h; exact Nat.le_of_eq h.1
  | cons i is ih =>
    intro li E h
    cases i <;> simp only [RGood] at h
    case bytes => have := ih h.2; omega
    case label => have := ih h.2.2; omega
    case alabel => have := ih h.2.2; omega
    case const => have := ih h.2; omega
    case jump => obtain ⟨_, _, _, est, _, _, h⟩ := h; have := ih h; omega
    case mov => obtain ⟨_, _, _, est, _, _, h⟩ := h; have := ih h; omega

theorem emitB_ok {e : Env} {out bs : List Byte} (h : out.length + bs.length ≤ e.n) : emitB e out bs = some (out ++ bs) := if_pos h

/-- After a label has been processed. -/
theorem Inv.label {e : Env} {L : List Nat} {T : Nat} {cur : List Nat} {li E cp E' cp' : Nat} (hi : Inv e L T cur li E cp) (hl : li < L.length)
    (hE : L.getD li 0 = E') (h1 : cp ≤ cp') (h2 : cp' ≤ E') (h3 : E' ≤ e.n) (h4 : E + cp' ≤ E' + cp) : Inv e L T (cur.set li cp') (li + 1) E' cp' where
  small := hi.small
  fit := hi.fit
  wrap := hi.wrap
  wrapx := hi.wrapx
  bound := hi.bound
  le := h2
  leE := h3
  len_eq := by rw [List.length_set]; exact hi.len_eq
  done k hk := by
    by_cases h : k = li
    · subst h; rw [getD_set_eq (by rw [hi.len_eq]; exact hl), hE]; omega
    · rw [getD_set_ne h]; have := hi.done k (by omega); omega
  todo k hk := by rw [getD_set_ne (by omega)]; exact hi.todo k (by omega)

/-- After another piece. -/
theorem Inv.move {e : Env} {L : List Nat} {T : Nat} {cur : List Nat} {li E cp a b : Nat} (hi : Inv e L T cur li E cp) (h1 : a ≤ b) (h3 : E + b ≤ e.n) :
    Inv e L T cur li (E + b) (cp + a) where
  small := hi.small
  fit := hi.fit
  wrap := hi.wrap
  wrapx := hi.wrapx
  bound := hi.bound
  le := by have := hi.le; omega
  leE := h3
  len_eq := hi.len_eq
  done k hk := by have := hi.done k hk; omega
  todo := hi.todo

theorem take_map_set {α : Type} (f : Nat → α) (l : List Nat) (li x : Nat) (h : li < l.length) :
    ((l.set li x).take (li + 1)).map f = (l.take li).map f ++ [f x] := by
  have hl : li < (l.set li x).length := by simpa using h
  rw [List.take_add_one, List.map_append, List.take_set_of_le (Nat.le_refl _)]
  simp [h]

theorem genLoop_ok {e : Env} {L : List Nat} {T : Nat} (R : List RItem) : ∀ {s : GSt} {E : Nat}, RGood e.win L e.n R s.li E → Inv e L T s.labels s.li E s.out.length →
    (∀ i ∈ R, NoEdge (e.base + e.off) T i.strip) → s.laddr = (s.labels.take s.li).map e.exec →
    ∃ s' F X ps cs, genLoop e R s = some s' ∧ s'.out = s.out ++ X ∧ s'.pend = s.pend ++ ps ∧ s'.caddr = s.caddr ++ cs ∧ s'.laddr = F.map e.exec ∧
      Fits L s.labels F s.li E s.out.length 0 ∧ Lay false e F R s.out.length s.li X ps cs ∧ s.out.length + X.length ≤ e.n := by
  induction R with
  | nil =>
    intro s E hg hi hne hla
    simp only [RGood] at hg
    have hle := hi.len_eq
    refine ⟨s, s.labels, [], [], [], rfl, by simp, by simp, by simp, ?_, ⟨hi.len_eq, fun _ _ => rfl, fun k h1 h2 => by omega⟩, ?_, ?_⟩
    · rw [hla, List.take_of_length_le (by omega)]
    · simp only [Lay, true_and]; omega
    · have := hi.le; simp; omega
  | cons i is ih =>
    intro s E hg hi hne hla
    have hne' : ∀ i ∈ is, NoEdge (e.base + e.off) T i.strip := fun i h => hne i (List.mem_cons_of_mem _ h)
    cases i with
    | bytes bs =>
      simp only [RGood] at hg
      have hn := RGood_le _ hg.2
      have hi' := hi.move (a := bs.length) (b := bs.length) (Nat.le_refl _) hn
      have hle := hi'.le
      obtain ⟨s', F, X, ps, cs, g1, g2, g3, g4, g5, g6, g7, g8⟩ := ih (s := { s with out := s.out ++ bs }) hg.2 (by simpa using hi') hne' hla
      simp only [List.length_append] at g6 g7 g8
      refine ⟨s', F, bs ++ X, ps, cs, ?_, by rw [g2, List.append_assoc], g3, g4, g5, ?_, ⟨X, rfl, g7⟩, by simp only [List.length_append]; omega⟩
      · rw [genLoop, emitB_ok (by omega)]; exact g1
      · exact ⟨g6.len_eq, g6.old, fun k a b => by have := g6.new k a b; omega⟩
    | const bs =>
      simp only [RGood] at hg
      have hn := RGood_le _ hg.2
      have hi' := hi.move (a := bs.length) (b := bs.length) (Nat.le_refl _) hn
      have hle := hi'.le
      obtain ⟨s', F, X, ps, cs, g1, g2, g3, g4, g5, g6, g7, g8⟩ :=
        ih (s := { s with out := s.out ++ bs, caddr := s.caddr ++ [e.base + BitVec.ofNat 64 (s.out ++ bs).length] }) hg.2 (by simpa using hi') hne' hla
      simp only [List.length_append] at g4 g6 g7 g8
      refine ⟨s', F, bs ++ X, ps, _ :: cs, ?_, by rw [g2, List.append_assoc], g3, by rw [g4, List.append_assoc]; rfl, g5, ?_, ⟨X, cs, rfl, rfl, g7⟩,
        by simp only [List.length_append]; omega⟩
      · rw [genLoop, emitB_ok (by omega)]; exact g1
      · exact ⟨g6.len_eq, g6.old, fun k a b => by have := g6.new k a b; omega⟩
    | label =>
      simp only [RGood] at hg
      have hn := RGood_le _ hg.2.2
      have hi' := hi.label hg.1 hg.2.1 (Nat.le_refl _) hi.le hn (by omega)
      have hlen : s.li < s.labels.length := by rw [hi.len_eq]; exact hg.1
      obtain ⟨s', F, X, ps, cs, g1, g2, g3, g4, g5, g6, g7, g8⟩ := ih (s := s.setLabel e) hg.2.2 hi' hne' (by
        simp only [GSt.setLabel]; rw [hla, take_map_set e.exec _ _ _ hlen])
      have hF : F.getD s.li 0 = s.out.length := by
        rw [g6.old s.li (by simp [GSt.setLabel])]; exact getD_set_eq hlen
      refine ⟨s', F, X, ps, cs, g1, g2, g3, g4, g5, ?_, ⟨by rw [g6.len_eq]; exact hg.1, hF, g7⟩, g8⟩
      refine ⟨g6.len_eq, fun k hk => ?_, fun k a b => ?_⟩
      · rw [g6.old k (by simp only [GSt.setLabel]; omega)]; exact getD_set_ne (by omega)
      · by_cases h : k = s.li
        · subst h; rw [hF, hg.2.1]; omega
        · exact g6.new k (by simp only [GSt.setLabel]; omega) b
    | alabel al =>
      simp only [RGood] at hg
      have hn := RGood_le _ hg.2.2
      have hle := hi.le
      have hal : al ≤ 40 := by
        have h1 := hi.fit
        have h2 := hi.small
        rcases Nat.lt_or_ge 40 al with h | h
        · have : 2 ^ 40 ≤ 2 ^ al := Nat.pow_le_pow_right (by omega) (by omega)
          have hm : alMask al = 2 ^ al - 1 := rfl
          omega
        · exact h
      obtain ⟨hp1, hp2⟩ := padding_ok (e := e) (cp := s.out.length) hal hi.wrap (by have := hi.fit; omega)
      generalize hpq : padding e s.out.length al = q at hp1 hp2
      have hi' := hi.label (cp' := s.out.length + q) hg.1 hg.2.1 (by omega) (by omega) hn (by omega)
      have hlen : s.li < s.labels.length := by rw [hi.len_eq]; exact hg.1
      have hol : (s.out ++ List.replicate q 0x90#8).length = s.out.length + q := by simp
      obtain ⟨s', F, X, ps, cs, g1, g2, g3, g4, g5, g6, g7, g8⟩ := ih (s := GSt.setLabel { s with out := s.out ++ List.replicate q 0x90#8 } e) hg.2.2
        (by simp only [GSt.setLabel, hol]; exact hi') hne' (by
        simp only [GSt.setLabel, hol]; rw [hla, take_map_set e.exec _ _ _ hlen])
      simp only [GSt.setLabel, hol] at g6 g7 g8
      have hF : F.getD s.li 0 = s.out.length + q := by
        rw [g6.old s.li (by omega)]; exact getD_set_eq hlen
      refine ⟨s', F, List.replicate q 0x90#8 ++ X, ps, cs, ?_, by rw [g2]; simp [GSt.setLabel], g3, g4, g5, ?_,
        ⟨q, X, by rw [g6.len_eq]; exact hg.1, hF, rfl, hp2, g7⟩, by simp only [List.length_append, List.length_replicate]; omega⟩
      · rw [genLoop, hpq, emitB_ok (by rw [List.length_replicate]; omega)]; exact g1
      · refine ⟨g6.len_eq, fun k hk => ?_, fun k a b => ?_⟩
        · rw [g6.old k (by omega)]; exact getD_set_ne (by omega)
        · by_cases h : k = s.li
          · subst h; rw [hF, hg.2.1]; omega
          · have := g6.new k (by omega) b; omega
    | jump j addr =>
      simp only [RGood] at hg
      obtain ⟨rfl, hty, htok, est, he, hfw, hg⟩ := hg
      have hn := RGood_le _ hg
      obtain ⟨h1, h2, h3⟩ := jump_ok hi hty htok he hfw (hne (.jump j addr) (by simp))
      generalize hr : detectJump e j s.out.length addr (tgtSize s.labels j.tgt) = r at h1 h2 h3
      have hi' := hi.move h1 hn
      have hle := hi'.le
      obtain ⟨s', F, X, ps, cs, g1, g2, g3, g4, g5, g6, g7, g8⟩ :=
        ih (s := { s with out := s.out ++ r.1, pend := s.pend ++ [⟨false, j.tgt, r.2.2, s.out.length + r.2.1⟩] }) hg (by simpa using hi') hne' hla
      simp only [List.length_append] at g6 g7 g8
      have hF : Fits L s.labels F s.li addr s.out.length r.1.length :=
        ⟨g6.len_eq, g6.old, fun k a b => by have := g6.new k a b; omega⟩
      obtain ⟨k, hk, hrw, hp⟩ := h3 F hF
      refine ⟨s', F, r.1 ++ X, _ :: ps, cs, ?_, by rw [g2, List.append_assoc], by rw [g3, List.append_assoc]; rfl, g4, g5, ?_,
        ⟨k, r.1, _, X, ps, by simp, rfl, hk, fun h => ?_, hp, g7⟩, by simp only [List.length_append]; omega⟩
      · simp only [genLoop, hr]; rw [emitB_ok (by omega)]; exact g1
      · exact ⟨hF.len_eq, hF.old, fun k a b => by have := hF.new k a b; omega⟩
      · have := hrw h; exact ⟨this.1, by simp only; rw [this.2]⟩
    | mov reg t =>
      simp only [RGood] at hg
      obtain ⟨hr1, hr2, hn10, est, he, hfw, hg⟩ := hg
      have hn := RGood_le _ hg
      have hle0 := hi.le
      obtain ⟨h1, h2, h3⟩ := mov_ok hi he (hne (.mov reg t) (by simp))
      generalize hr : movCode e reg t s.out.length (tgtSize s.labels t) = r at h1 h2 h3
      have hi' := hi.move h1 hn
      have hle := hi'.le
      obtain ⟨s', F, X, ps, cs, g1, g2, g3, g4, g5, g6, g7, g8⟩ :=
        ih (s := { s with out := s.out ++ r.1, pend := s.pend ++ [⟨true, t, r.2, s.out.length + r.1.length⟩] }) hg (by simpa using hi') hne' hla
      simp only [List.length_append] at g6 g7 g8
      have hF : Fits L s.labels F s.li E s.out.length r.1.length :=
        ⟨g6.len_eq, g6.old, fun k a b => by have := g6.new k a b; omega⟩
      obtain ⟨k, hk, hp⟩ := h3 F hF
      refine ⟨s', F, r.1 ++ X, _ :: ps, cs, ?_, by rw [g2, List.append_assoc], by rw [g3, List.append_assoc]; rfl, g4, g5, ?_,
        ⟨k, r.1, _, X, ps, by simp, rfl, hk, hp, g7⟩, by simp only [List.length_append]; omega⟩
      · have hl : (loadImm64 e.win reg 0#64).length = 10 := by simp [loadImm64, toLe_length]
        simp only [genLoop, hr]; rw [emitB_ok (by omega)]; exact g1
      · exact ⟨hF.len_eq, hF.old, fun k a b => by have := hF.new k a b; omega⟩

/-- The final pass. -/
theorem patchAll_ok {e : Env} {F : List Nat} (R : List RItem) : ∀ {cp li X ps cs}, Lay false e F R cp li X ps cs → ∀ A : List Byte, A.length = cp →
    ∃ X', patchAll e (F.map e.exec) ps (A ++ X) = some (A ++ X') ∧ X'.length = X.length ∧ Lay true e F R cp li X' ps cs := by
  induction R with
  | nil =>
    intro cp li X ps cs h A hA
    obtain ⟨rfl, rfl, rfl, rfl⟩ := h
    exact ⟨[], rfl, rfl, rfl, rfl, rfl, rfl⟩
  | cons i is ih =>
    intro cp li X ps cs h A hA
    cases i with
    | bytes bs =>
      obtain ⟨X', rfl, h⟩ := h
      obtain ⟨Y, g1, g2, g3⟩ := ih h (A ++ bs) (by simp [hA])
      exact ⟨bs ++ Y, by rw [← List.append_assoc, g1, List.append_assoc], by simp [g2], Y, rfl, g3⟩
    | const bs =>
      obtain ⟨X', cs', rfl, rfl, h⟩ := h
      obtain ⟨Y, g1, g2, g3⟩ := ih h (A ++ bs) (by simp [hA])
      exact ⟨bs ++ Y, by rw [← List.append_assoc, g1, List.append_assoc], by simp [g2], Y, cs', rfl, rfl, g3⟩
    | label =>
      obtain ⟨h1, h2, h⟩ := h
      obtain ⟨Y, g1, g2, g3⟩ := ih h A hA
      exact ⟨Y, g1, g2, h1, h2, g3⟩
    | alabel al =>
      obtain ⟨n, X', h1, h2, rfl, h3, h⟩ := h
      obtain ⟨Y, g1, g2, g3⟩ := ih h (A ++ List.replicate n 0x90#8) (by simp [hA])
      exact ⟨List.replicate n 0x90#8 ++ Y, by rw [← List.append_assoc, g1, List.append_assoc], by simp [g2], n, Y, h1, h2, rfl, h3, g3⟩
    | jump j addr =>
      obtain ⟨k, pb, p, X', ps', rfl, rfl, hk, hrw, hp, h⟩ := h
      simp only [Bool.false_eq_true, if_false] at *
      obtain ⟨Y, g1, g2, g3⟩ := ih h (A ++ jumpB e.win j.type (tgtPos e F j.tgt) (e.exec cp) k) (by simp [hA, hp.1])
      refine ⟨jumpB e.win j.type (tgtPos e F j.tgt) (e.exec cp) k ++ Y, ?_, by simp [g2, hp.1], k, pb, p, Y, ps', by simp, rfl, hk, hrw, hp, g3⟩
      rw [patchAll, hp.2 A X' hA, Option.bind_some, ← List.append_assoc, g1, List.append_assoc]
    | mov reg t =>
      obtain ⟨k, pb, p, X', ps', rfl, rfl, hk, hp, h⟩ := h
      simp only [Bool.false_eq_true, if_false] at *
      obtain ⟨Y, g1, g2, g3⟩ := ih h (A ++ movB e.win reg (tgtPos e F t) (e.exec cp) k) (by simp [hA, hp.1])
      refine ⟨movB e.win reg (tgtPos e F t) (e.exec cp) k ++ Y, ?_, by simp [g2, hp.1], k, pb, p, Y, ps', by simp, rfl, hk, hp, g3⟩
      rw [patchAll, hp.2 A X' hA, Option.bind_some, ← List.append_assoc, g1, List.append_assoc]

/-! ## The generated code -/

theorem nops_go {c : IMem} : ∀ (n : Nat) {p : PSt}, BytesAt c p.pc (List.replicate n 0x90#8) → Goes c [] p (p.pc + BitVec.ofNat 64 n) fun _ => True
  | 0, p, _ => ⟨p, .refl p, by simp, fun _ _ => rfl, rfl, rfl, trivial⟩
  | n + 1, p, h => by
    simp only [List.replicate_succ, BytesAt] at h
    have h1 := nop_step (c := c) (p := p) ⟨h.1, trivial⟩
    obtain ⟨p', g1, g2, g3, g4, g5, -⟩ := nops_go n (p := ⟨p.s, p.pc + 1#64⟩) h.2
    refine ⟨p', .step h1 g1, ?_, g3, g4, g5, trivial⟩
    rw [g2, BitVec.add_assoc, Nat.add_comm, BitVec.ofNat_add]

theorem placed_of {c : IMem} {e : Env} {F : List Nat} (R : List RItem) : ∀ {cp li X ps cs}, Lay true e F R cp li X ps cs → (∀ i ∈ R, ∀ nl, nl = F.length → Item.Ok nl i.strip) →
    BytesAt c (e.exec cp) X →
    Placed c e.win e.off (e.exec 0) (F.map e.exec) (R.map RItem.strip) (e.exec cp) li cs (ps.map (·.addr)) (e.exec (cp + X.length)) := by
  induction R with
  | nil =>
    intro cp li X ps cs h _ hb
    obtain ⟨rfl, rfl, rfl, rfl⟩ := h
    simp [Placed]
  | cons i is ih =>
    intro cp li X ps cs h hok hb
    have hok' : ∀ i ∈ is, ∀ nl, nl = F.length → Item.Ok nl i.strip := fun i h => hok i (List.mem_cons_of_mem _ h)
    have hlab : ∀ k, k < F.length → (F.map e.exec)[k]? = some (e.exec (F.getD k 0)) := by
      intro k hk; simp [List.getD, hk]
    have htgt : ∀ t : Tgt, t.Ok F.length → tgtOf (F.map e.exec) t = tgtPos e F t := by
      intro t ht
      cases t with
      | addr a => rfl
      | label k => have ht : k < F.length := ht; simp [tgtOf, tgtPos, List.getD, ht]
    cases i with
    | bytes bs =>
      obtain ⟨X', rfl, h⟩ := h
      rw [BytesAt.append] at hb
      simp only [List.map_cons, RItem.strip, Placed]
      refine ⟨hb.1, ?_⟩
      rw [← exec_add]
      have := ih h hok' (by rw [exec_add]; exact hb.2)
      rw [List.length_append, ← Nat.add_assoc]; exact this
    | const bs =>
      obtain ⟨X', cs', rfl, rfl, h⟩ := h
      rw [BytesAt.append] at hb
      simp only [List.map_cons, RItem.strip, Placed]
      refine ⟨hb.1, cs', ?_, ?_⟩
      · congr 1
        rw [← exec_add, Env.exec, BitVec.add_sub_cancel]
      · rw [← exec_add]
        have := ih h hok' (by rw [exec_add]; exact hb.2)
        rw [List.length_append, ← Nat.add_assoc]; exact this
    | label =>
      obtain ⟨h1, h2, h⟩ := h
      simp only [List.map_cons, RItem.strip, Placed]
      exact ⟨by rw [hlab li h1, h2], ih h hok' hb⟩
    | alabel al =>
      obtain ⟨n, X', h1, h2, rfl, h3, h⟩ := h
      rw [BytesAt.append] at hb
      simp only [List.map_cons, RItem.strip, Placed]
      refine ⟨e.exec (cp + n), by rw [hlab li h1, h2], ?_, fun p hp => ?_, ?_⟩
      · rw [Env.exec, BitVec.add_sub_cancel]; exact h3
      · rw [exec_add, ← hp]; exact nops_go n (by rw [hp]; exact hb.1)
      · have := ih h hok' (by rw [exec_add]; simpa using hb.2)
        rw [List.length_append, List.length_replicate, ← Nat.add_assoc]; exact this
    | jump j addr =>
      obtain ⟨k, pb, p, X', ps', rfl, rfl, hk, hrw, hp, h⟩ := h
      simp only [if_true] at *
      rw [BytesAt.append] at hb
      have hj := hok (.jump j addr) (by simp) _ rfl
      simp only [RItem.strip, Item.Ok] at hj
      simp only [List.map_cons, RItem.strip, Placed]
      rw [htgt _ hj.2]
      refine ⟨(jumpB e.win j.type (tgtPos e F j.tgt) (e.exec cp) k).length, _, _, rfl, fun q hq => ?_, fun hr => ?_, ?_⟩
      · have := jump_does (c := c) (p := q) (win := e.win) (type := j.type) (t := tgtPos e F j.tgt) (k := k) (by rw [hq]; exact hb.1) (by rw [hq]; exact hk)
        rw [hq] at this
        exact this
      · obtain ⟨rfl, ha⟩ := hrw hr
        refine ⟨farPre e.win j.type false, farPost e.win j.type, ?_, hb.1, fun c' t' hb' q hq => ?_⟩
        · rw [ha, ← exec_add, ← exec_add, Nat.zero_add]
        · have := jump_does (c := c') (p := q) (win := e.win) (type := j.type) (t := t') (k := .far false) (by rw [hq]; exact hb') (by simp [KindOk])
          rw [hq] at this
          simpa [jumpB, toLe_length] using this
      · rw [← hp.1, ← exec_add]
        have := ih h hok' (by rw [exec_add, hp.1]; exact hb.2)
        rw [List.length_append, ← hp.1, ← Nat.add_assoc]; exact this
    | mov reg t =>
      obtain ⟨k, pb, p, X', ps', rfl, rfl, hk, hp, h⟩ := h
      simp only [if_true] at *
      rw [BytesAt.append] at hb
      have hj := hok (.mov reg t) (by simp) _ rfl
      simp only [RItem.strip, Item.Ok] at hj
      simp only [List.map_cons, RItem.strip, Placed]
      rw [htgt _ hj.2.2]
      refine ⟨(movB e.win reg (tgtPos e F t) (e.exec cp) k).length, _, _, rfl, fun q hq => ?_, ?_⟩
      · have := mov_does (c := c) (p := q) (win := e.win) (reg := reg) (t := tgtPos e F t) (k := k) (by rw [hq]; exact hb.1) (by rw [hq]; exact hk)
        rw [hq] at this
        exact this
      · rw [← hp.1, ← exec_add]
        have := ih h hok' (by rw [exec_add, hp.1]; exact hb.2)
        rw [List.length_append, ← hp.1, ← Nat.add_assoc]; exact this

theorem Prog.Ok.mem {nl : Nat} {items : List Item} : Prog.Ok nl items → ∀ i ∈ items, i.Ok nl := by
  induction items with
  | nil => intro _ i h; cases h
  | cons x is ih =>
    intro h i hi
    rcases List.mem_cons.1 hi with rfl | hx
    · cases i <;> simp only [Prog.Ok] at h
      case label => trivial
      all_goals exact h.1
    · cases x <;> simp only [Prog.Ok] at h
      case mov => exact ih h.2.2.2 i hx
      all_goals exact ih h.2 i hx

/-- sljit_generate_code on x86-64. -/
theorem generate_ok (win : Bool) (items : List Item) (base off : BitVec 64) (ho : Prog.Ok (Prog.labels items) items) (hr : Room items base off)
    (hne : ∀ i ∈ items, NoEdge (base + off) (usize items) i) :
    ∃ g, generate win items base off = some g ∧ g.code.length ≤ g.alloc ∧ g.alloc ≤ usize items ∧
      ∀ c, BytesAt c (base + off) g.code → Placed c win off (base + off) g.laddr items (base + off) 0 g.caddr g.jaddr (base + off + BitVec.ofNat 64 g.code.length) := by
  obtain ⟨hr1, hr2, hr3⟩ := hr
  have hb : ∀ k, (labelSizes 0 items).getD k 0 ≤ usize items := by
    intro k
    by_cases h : k < (labelSizes 0 items).length
    · have := labelSizes_mem items 0 ((labelSizes 0 items)[k]) (List.getElem_mem h)
      simp only [List.getD, List.getElem?_eq_getElem h, Option.getD_some]; omega
    · simp only [List.getD, List.getElem?_eq_none (by omega : (labelSizes 0 items).length ≤ k), Option.getD_none]; omega
  generalize hred : reduce win items 0 0 0 false (labelSizes 0 items) = r
  obtain ⟨R, L, SR⟩ := r
  obtain ⟨g1, -, g3, g4, -, g6, g7⟩ := reduce_good win (Prog.labels items) (usize items) (by omega) items 0 0 0 (labelSizes 0 items) R L SR hred
    (labelSizes_length items 0) rfl (Nat.zero_le _) (Nat.le_refl _) ho (Nat.zero_add _) (fun k h => by omega) hb
  have hstrip : R.map RItem.strip = items := by have := reduce_strip win items 0 0 0 false (labelSizes 0 items); rw [hred] at this; exact this
  have hmem : ∀ i ∈ R, i.strip ∈ items := fun i hi => by rw [← hstrip]; exact List.mem_map_of_mem hi
  obtain ⟨s', F, X, ps, cs, l1, l2, l3, l4, l5, l6, l7, l8⟩ := genLoop_ok (e := ⟨win, base, off, usize items - SR⟩) (L := L) (T := usize items) R
    (s := ⟨[], L, 0, [], [], []⟩) (E := 0) g7 ⟨hr1, Nat.sub_le _ _, hr2, hr3, g6, Nat.le_refl _, Nat.zero_le _, rfl, fun k h => absurd h (Nat.not_lt_zero _), fun k _ => rfl⟩
    (fun i hi => hne _ (hmem i hi)) rfl
  obtain ⟨Y, p1, p2, p3⟩ := patchAll_ok R l7 [] rfl
  simp only [List.nil_append, List.length_nil, Nat.zero_add] at l2 l3 l4 l8 p1 p3
  refine ⟨⟨Y, s'.laddr, s'.caddr, s'.pend.map (·.addr), usize items - SR⟩, ?_, Nat.le_trans (Nat.le_of_eq p2) l8, by simp only; omega, fun c hc => ?_⟩
  · simp only [generate, hred, l1, Option.bind_some, l5, l3, l2, p1]
  · have h0 : Env.exec ⟨win, base, off, usize items - SR⟩ 0 = base + off := by simp [Env.exec]
    have := placed_of (c := c) R p3 (fun i hi nl hnl => by rw [hnl, l6.len_eq, g1]; exact ho.mem _ (hmem i hi)) (by rw [h0]; exact hc)
    rw [hstrip, h0, Nat.zero_add, exec_base] at this
    simp only [l5, l4, l3]
    exact this

end Verif.X86
