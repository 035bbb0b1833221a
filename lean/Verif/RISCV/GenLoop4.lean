import Verif.RISCV.GenLoop3

/-! # The generating loop: induction -/

namespace Verif.RV

theorem firstHalf_len {cfg : Cfg} {R : List RItem} (hT : TailOk cfg R) (nl : Nat)
    (hp : Prog.Ok cfg nl (R.map RItem.toItem)) : (firstHalf cfg R).toList.length ≤ rtotal cfg R := by
  induction R with
  | nil => simp [firstHalf]
  | cons i is ih =>
    cases i with
    | label d => simp only [List.map_cons, RItem.toItem, Prog.Ok] at hp; simpa [firstHalf, rtotal, RItem.rsize] using ih hT hp.2
    | code hs => cases hs <;> simp [firstHalf, rtotal, RItem.rsize]; omega
    | const hs => cases hs <;> simp [firstHalf, rtotal, RItem.rsize]; omega
    | alabel al =>
      rcases h : alNops cfg al with _ | ⟨x, xs⟩ <;> simp [firstHalf, rtotal, RItem.rsize, h]; omega
    | jump j a est lab =>
      simp only [TailOk] at hT
      have : (firstHalf cfg (.jump j a est lab :: is)).toList.length ≤ 1 := by
        generalize firstHalf cfg _ = o; cases o <;> simp
      simp only [rtotal, RItem.rsize]
      rcases Nat.eq_zero_or_pos est with h | h
      · have := hT.1 h; omega
      · omega
    | mov r t a est =>
      simp only [firstHalf, rtotal, RItem.rsize, Option.toList, List.length_cons, List.length_nil]; omega

theorem setLabel_inv {e : Env} {L : List Nat} {s : GSt} {rli E cp : Nat} (h : GInv e L s rli false E) (hl : rli < L.length) (hcp : s.cp = cp) (hE : L.getD rli 0 = E) :
    GInv e L (s.setLabel e cp) (rli + 1) false E := by
  obtain ⟨h1, h2, h3, h4, h5, h6, h7⟩ := h
  simp only [Bool.toNat_false, Nat.add_zero] at h3
  subst hcp h3
  refine ⟨h1, by simpa [GSt.setLabel] using h2, by simp [GSt.setLabel], ?_, ?_, by simp, ?_⟩
  · intro k hk
    simp only [GSt.setLabel] at *
    rcases Nat.lt_or_ge k s.li with hlt | hge
    · rw [getD_set_ne (by omega)]; exact h4 k hlt
    · have : k = s.li := by omega
      subst this
      rw [getD_set_eq (by omega)]; omega
  · intro k hk
    simp only [GSt.setLabel] at *
    rw [getD_set_ne (by omega)]; exact h5 k (by omega)
  · simp only [GSt.setLabel, h7]
    rw [take_set_map _ _ _ _ (by omega)]

theorem kback_le {cfg : Cfg} {j : JInfo} {k : Kind} (h : KindFor cfg j k) : kback j k ≤ j.br.words.length := by
  obtain ⟨br, rew, call, tgt⟩ := j
  cases k <;> cases br <;> simp_all [KindFor, kback, Br.words, Br.cond, Br.cond16, w16, w32]

theorem preW_len {cfg : Cfg} {j : JInfo} {k : Kind} (h : KindFor cfg j k) : (preW j k).length ≤ j.br.words.length + ksz j k := by
  obtain ⟨br, rew, call, tgt⟩ := j
  cases k <;> cases br <;> simp_all [KindFor, ksz, preW, brSkip, Br.words, Br.cond, Br.cond16, w16, w32]

/-- Number of labels. -/
def lcount : List RItem → Nat
  | [] => 0
  | .label _ :: is => lcount is + 1
  | .alabel _ :: is => lcount is + 1
  | _ :: is => lcount is

theorem RGood_bounds {cfg : Cfg} {L : List Nat} (R : List RItem) : ∀ (rli : Nat) (z : Bool) (E : Nat), RGood cfg L R rli z E →
    ∀ k, rli ≤ k → k < rli + lcount R → E ≤ L.getD k 0 ∧ L.getD k 0 ≤ E + rtotal cfg R := by
  induction R with
  | nil => intro rli z E h k h1 h2; simp only [lcount] at h2; omega
  | cons i is ih =>
    intro rli z E h k h1 h2
    cases i <;> simp only [RGood, lcount, rtotal, RItem.rsize] at h h2 ⊢
    case code hs => have := ih _ _ _ h.2 k h1 h2; omega
    case const hs => have := ih _ _ _ h.2 k h1 h2; omega
    case label d =>
      rcases Nat.eq_or_lt_of_le h1 with e | e
      · subst e; omega
      · have := ih _ _ _ h.2.2.2 k (by omega) (by omega); omega
    case alabel al =>
      rcases Nat.eq_or_lt_of_le h1 with e | e
      · subst e; omega
      · have := ih _ _ _ h.2.2.2 k (by omega) (by omega); omega
    case jump j a est lab => have := ih _ _ _ h.2.2.2.2.2.2.2.2 k h1 h2; omega
    case mov r t a est => have := ih _ _ _ h.2.2.2.2.2 k h1 h2; omega

theorem GInv_adv {e : Env} {L : List Nat} {s : GSt} {rli E c d : Nat} (h : GInv e L s rli false E) (hcd : c ≤ d) (m : HMem)
    (ca : List (BitVec 64)) (pe : List Pending) : GInv e L { s with m := m, cp := s.cp + c, caddr := ca, pend := pe } rli false (E + d) := by
  obtain ⟨h1, h2, h3, h4, h5, h6, h7⟩ := h
  exact ⟨by simp only; omega, h2, h3, fun k hk => by have := h4 k hk; simp only; omega, h5, by simp, h7⟩

theorem genLoop_ok {cfg : Cfg} {e : Env} {L : List Nat} (hw : e.NoWrap) (hn : e.n < 2 ^ 60)
    (hL : ∀ k, k < L.length → L.getD k 0 ≤ e.n) (hbad : ∀ x, x ≤ e.n → ¬ badWindow (e.exec x)) (R : List RItem) :
    ∀ (s : GSt) (rli : Nat) (z : Bool) (E : Nat), GInv e L s rli z E → RGood cfg L R rli z E →
      Prog.Ok cfg L.length (R.map RItem.toItem) → TailOk cfg R → E + rtotal cfg R ≤ e.n →
      L.length = rli + lcount R →
      ∃ s', genLoop cfg e R s = some s' ∧ GPost cfg e L R s s' rli E := by
  induction R with
  | nil =>
    intro s rli z E hI hR hp hT hE hF
    simp only [RGood] at hR
    subst hR
    have h3 := hI.li
    simp only [Bool.toNat_false, lcount] at h3 hF
    refine ⟨s, rfl, ⟨Nat.le_refl _, by simp only [rtotal]; omega, hI.len, fun _ _ => rfl, fun k h1 h2 => by omega, fun _ _ => rfl,
      ⟨[], [], by simp, by simp, rfl, rfl, rfl⟩, hI.laddr, Nat.le_refl _, by omega⟩⟩
  | cons i is ih =>
    intro s rli z E hI hR hp hT hE hF
    cases i with
    | code hs =>
      simp only [RGood] at hR
      obtain ⟨rfl, hR⟩ := hR
      simp only [rtotal, RItem.rsize] at hE
      have h1 := hI.cp
      obtain ⟨m', e1, e2, e3⟩ := hcopy_ok (n := e.n) (hs := hs) (m := s.m) (p := s.cp) (by omega)
      obtain ⟨s', f1, f2⟩ := ih _ rli false _ (GInv_adv hI (Nat.le_refl _) m' s.caddr s.pend) hR
        (by simp only [List.map_cons, RItem.toItem, Prog.Ok] at hp; exact hp.2) hT (by omega) hF
      obtain ⟨g1, g2, g3, g4, g5, g6, ⟨ps, cs, g7, g7c, g8⟩, g9, g10, g11⟩ := f2
      simp only at g1 g2 g4 g5 g6 g7 g7c g8 g10
      refine ⟨s', by rw [genLoop, e1]; exact f1, ⟨by omega, by simp only [rtotal, RItem.rsize]; omega, g3, g4,
        fun k a b => by have := g5 k a b; omega, fun k hk => by rw [g6 k (by omega), e3 k (by omega)], ⟨ps, cs, g7, g7c, ?_, g8⟩, g9, g10, g11⟩⟩
      exact MHas_congr (fun k a b => g6 k (by omega)) e2
    | const hs =>
      simp only [RGood] at hR
      obtain ⟨rfl, hR⟩ := hR
      simp only [rtotal, RItem.rsize] at hE
      have h1 := hI.cp
      obtain ⟨m', e1, e2, e3⟩ := hcopy_ok (n := e.n) (hs := hs) (m := s.m) (p := s.cp) (by omega)
      obtain ⟨s', f1, f2⟩ := ih _ rli false _ (GInv_adv hI (Nat.le_refl _) m' (s.caddr ++ [e.base + BitVec.ofNat 64 (2 * s.cp)]) s.pend) hR
        (by simp only [List.map_cons, RItem.toItem, Prog.Ok] at hp; exact hp.2) hT (by omega) hF
      obtain ⟨g1, g2, g3, g4, g5, g6, ⟨ps, cs, g7, g7c, g8⟩, g9, g10, g11⟩ := f2
      simp only at g1 g2 g4 g5 g6 g7 g7c g8 g10
      refine ⟨s', by rw [genLoop, e1]; exact f1, ⟨by omega, by simp only [rtotal, RItem.rsize]; omega, g3, g4,
        fun k a b => by have := g5 k a b; omega, fun k hk => by rw [g6 k (by omega), e3 k (by omega)], ⟨ps, _ :: cs, g7, by rw [g7c, List.append_assoc]; rfl, cs, rfl, ?_, g8⟩, g9, g10, g11⟩⟩
      exact MHas_congr (fun k a b => g6 k (by omega)) e2
    | label d =>
      simp only [RGood] at hR
      obtain ⟨rfl, hl, hLE, hR⟩ := hR
      simp only [rtotal, RItem.rsize, Nat.zero_add] at hE
      simp only [lcount] at hF
      simp only [List.map_cons, RItem.toItem, Prog.Ok] at hp
      have hI2 : GInv e L (if d then s else s.setLabel e s.cp) (rli + 1) false E := by
        cases d with
        | false => exact setLabel_inv hI hl rfl hLE
        | true =>
          obtain ⟨h1, h2, h3, h4, h5, h6, h7⟩ := hI
          exact ⟨h1, h2, by simpa using h3, h4, h5, by simp, h7⟩
      have hcp : (if d then s else s.setLabel e s.cp).cp = s.cp := by cases d <;> rfl
      have hm : (if d then s else s.setLabel e s.cp).m = s.m := by cases d <;> rfl
      have hpe : (if d then s else s.setLabel e s.cp).pend = s.pend := by cases d <;> rfl
      have hca : (if d then s else s.setLabel e s.cp).caddr = s.caddr := by cases d <;> rfl
      have hli : (if d then s else s.setLabel e s.cp).li = rli + 1 := by simpa using hI2.li
      have hsl : s.li = rli + d.toNat := hI.li
      have hlab : (if d then s else s.setLabel e s.cp).labels.getD rli 0 = s.cp := by
        cases d with
        | false =>
          simp only [Bool.toNat_false, Nat.add_zero] at hsl
          simp only [GSt.setLabel, hsl, Bool.false_eq_true, if_false]
          exact getD_set_eq (by rw [hI.len]; exact hl)
        | true => exact hI.z rfl
      have hlo : ∀ k, k < s.li → (if d then s else s.setLabel e s.cp).labels.getD k 0 = s.labels.getD k 0 := by
        intro k hk
        cases d with
        | false => simp only [GSt.setLabel, Bool.false_eq_true, if_false]; exact getD_set_ne (by omega)
        | true => rfl
      obtain ⟨s', f1, f2⟩ := ih _ (rli + 1) false E hI2 hR hp.2 hT hE (by omega)
      have f1' : genLoop cfg e (.label d :: is) s = some s' := f1
      clear hI2 f1
      generalize (if d then s else s.setLabel e s.cp) = s2 at *
      obtain ⟨g1, g2, g3, g4, g5, g6, ⟨ps, cs, g7, g7c, g8⟩, g9, g10, g11⟩ := f2
      rw [hcp] at g1 g2 g5 g6 g8
      rw [hli] at g4 g5 g10
      have hP : s'.labels.getD rli 0 = s.cp := by rw [g4 rli (by omega), hlab]
      have hle : s.li ≤ rli + 1 := by cases d <;> simp at hsl <;> omega
      refine ⟨s', f1', ⟨g1, by simpa only [rtotal, RItem.rsize, Nat.zero_add] using g2, g3, fun k hk => ?_, fun k a b => ?_, fun k hk => by rw [g6 k hk, hm],
        ⟨ps, cs, by rw [g7, hpe], by rw [g7c, hca], hP, g8⟩, g9, by omega, g11⟩⟩
      · rw [g4 k (by omega), hlo k hk]
      · rcases Nat.lt_or_ge k (rli + 1) with h | h
        · have : k = rli := by omega
          subst this
          rw [hP, hLE]; omega
        · exact g5 k h b
    | alabel al =>
      simp only [RGood] at hR
      obtain ⟨rfl, hl, hLE, hR⟩ := hR
      simp only [rtotal, RItem.rsize] at hE
      simp only [lcount] at hF
      simp only [List.map_cons, RItem.toItem, Prog.Ok, Item.Ok] at hp
      have h1 := hI.cp
      have hsl : s.li = rli := hI.li
      have hfl := firstHalf_len (R := is) hT _ hp.2.2
      have hal := alignDown_le e (s.cp + (alNops cfg al).length) (alMask cfg al)
      rw [← alNops_len hp.1.1 hp.1.2] at hal
      obtain ⟨m1, a1, a2, a3⟩ := hcopy_ok (n := e.n) (hs := alNops cfg al) (m := s.m) (p := s.cp) (by omega)
      obtain ⟨m2, b1, b2, b3⟩ := hcopy_ok (n := e.n) (hs := (firstHalf cfg is).toList) (m := m1) (p := s.cp + (alNops cfg al).length) (by omega)
      generalize hq : alignDown e (s.cp + (alNops cfg al).length) (alMask cfg al) = q at *
      have hI1 : GInv e L { s with m := m2, cp := q } rli false (E + (alNops cfg al).length) := by
        have := GInv_adv hI (c := q - s.cp) (d := (alNops cfg al).length) (by omega) m2 s.caddr s.pend
        rw [show s.cp + (q - s.cp) = q by omega] at this
        exact this
      have hI2 := setLabel_inv hI1 hl (cp := q) rfl hLE
      obtain ⟨s', f1, f2⟩ := ih _ (rli + 1) false _ hI2 hR hp.2.2 hT (by omega) (by omega)
      obtain ⟨g1, g2, g3, g4, g5, g6, ⟨ps, cs, g7, g7c, g8⟩, g9, g10, g11⟩ := f2
      simp only [GSt.setLabel, hsl] at g1 g2 g4 g5 g6 g7 g7c g8 g10
      have hP : s'.labels.getD rli 0 = q := by
        rw [g4 rli (by omega)]; exact getD_set_eq (by rw [hI.len]; exact hl)
      refine ⟨s', by rw [genLoop, a1, Option.bind_some, b1, Option.bind_some]; simp only [hq]; exact f1, ⟨by omega, by simp only [rtotal, RItem.rsize]; omega, g3, fun k hk => ?_,
        fun k a b => ?_, fun k hk => by rw [g6 k (by omega), b3 k (by omega), a3 k (by omega)], ⟨ps, cs, g7, g7c, q, hq.symm, by omega, by omega, ?_, hP, g8⟩, g9, by omega, g11⟩⟩
      · rw [g4 k (by omega), getD_set_ne (by omega)]
      · rcases Nat.lt_or_ge k (rli + 1) with h | h
        · have : k = rli := by omega
          subst this
          rw [hP, hLE]; omega
        · have := g5 k h b; omega
      · refine MHas_congr (fun k a b => ?_) (MHas_take _ a2)
        rw [List.length_take] at b
        rw [g6 k (by omega), b3 k (by omega)]
    | jump j a est lab =>
      simp only [RGood] at hR
      obtain ⟨rfl, ha, hlab0, hest, hEst, hlab, hfwd, hfwd2, hR⟩ := hR
      simp only [rtotal, RItem.rsize] at hE
      simp only [lcount] at hF
      simp only [List.map_cons, RItem.toItem, Prog.Ok] at hp
      simp only [TailOk] at hT
      have h1 := hI.cp
      have hsl : s.li = rli := hI.li
      have hne : 1 ≤ est + rtotal cfg is := by
        rcases Nat.eq_zero_or_pos est with h | h
        · have := hT.1 h; omega
        · omega
      obtain ⟨m1, a1, a2, a3⟩ := hcopy_ok (n := e.n) (hs := j.br.words ++ [0#16]) (m := s.m) (p := s.cp)
        (by simp only [List.length_append, List.length_cons, List.length_nil]; omega)
      rw [MHas_append] at a2
      obtain ⟨s1, hs1⟩ : ∃ s1, (if lab then s.setLabel e (s.cp + j.br.words.length) else s) = s1 := ⟨_, rfl⟩
      have q1 : s1.labels.length = L.length := by subst hs1; cases lab <;> simpa [GSt.setLabel] using hI.len
      have q2 : s1.li = rli + lab.toNat := by subst hs1; cases lab <;> simp [GSt.setLabel, hsl]
      have q3 : ∀ k, k < rli → s1.labels.getD k 0 = s.labels.getD k 0 := by
        intro k hk; subst hs1; cases lab
        · rfl
        · exact getD_set_ne (by omega)
      have q4 : lab = true → s1.labels.getD rli 0 = s.cp + j.br.words.length := by
        intro hb; subst hs1; rw [hb]; simp only [GSt.setLabel, if_true, hsl]; exact getD_set_eq (by rw [hI.len]; exact (hlab hb).1)
      have q5 : ∀ k, s1.li ≤ k → s1.labels.getD k 0 = L.getD k 0 := by
        intro k hk
        rw [q2] at hk
        subst hs1; cases lab
        · exact hI.new k (by simpa [hsl] using hk)
        · simp only [Bool.toNat_true] at hk
          simp only [GSt.setLabel, if_true]
          rw [getD_set_ne (by omega)]; exact hI.new k (by omega)
      have q6 : s1.laddr = (s1.labels.take s1.li).map e.exec := by
        subst hs1; cases lab
        · exact hI.laddr
        · simp only [GSt.setLabel, if_true, hI.laddr]
          rw [take_set_map _ _ _ _ (by have := (hlab rfl).1; rw [hI.len]; omega)]
      have q7 : s1.pend = s.pend := by subst hs1; cases lab <;> rfl
      have q9 : s1.caddr = s.caddr := by subst hs1; cases lab <;> rfl
      have q8 : s1.cp = s.cp := by subst hs1; cases lab <;> rfl
      have hLI : LInv L s1.labels s1.li (s.cp + j.br.words.length) a L.length := by
        refine ⟨by omega, fun k hk => ?_, q5, fun k b c => hfwd k (by omega) c⟩
        rcases Nat.lt_or_ge k rli with h | h
        · have := hI.old k (by omega)
          rw [q3 k h]; omega
        · have hb : lab = true := by cases lab <;> simp at q2 ⊢; omega
          have : k = rli := by rw [hb] at q2; simp at q2; omega
          subst this
          have := hlab hb
          have := q4 hb
          omega
      obtain ⟨d, hd⟩ : ∃ d, d = tgtDiff e j.tgt (s.cp + j.br.words.length) a (tgtSize s1.labels j.tgt) := ⟨_, rfl⟩
      obtain ⟨k, hk⟩ : ∃ k, k = jumpKind cfg j d.1 d.2 := ⟨_, rfl⟩
      have hkf : KindFor cfg j k := hk ▸ jumpKind_for ..
      have hkb : kback j k ≤ j.br.words.length := kback_le hkf
      obtain ⟨hks, hkok⟩ := jump_case (rli := rli) hw hn hLI hEst hp.1 (by
          cases lab with
          | false => left; simpa using q2
          | true => right; exact ⟨by simpa using q2, hlab0 rfl, (hlab rfl).2, q4 rfl⟩) hL hbad (by omega) (by omega) hd hk hkb
      obtain ⟨m2, b1, b2, b3, b4⟩ := applyKind_ok cfg e j k m1 s.cp hkf a2.1 (by omega)
      have hI2 : GInv e L { s1 with m := m2, cp := s.cp + j.br.words.length + ksz j k, pend := s1.pend ++ [.jump j k (s.cp + j.br.words.length - kback j k)] } rli lab (a + est) := by
        refine ⟨by simp only; omega, q1, q2, fun n hn => ?_, q5, fun hb => ?_, q6⟩
        · have := hLI.old n hn; simp only; omega
        · have := q4 hb; have := hlab0 hb; simp only; omega
      obtain ⟨s', f1, f2⟩ := ih _ rli lab _ hI2 hR hp.2 hT.2 (by omega) hF
      obtain ⟨g1, g2, g3, g4, g5, g6, ⟨ps, cs, g7, g7c, g8⟩, g9, g10, g11⟩ := f2
      simp only at g1 g2 g4 g5 g6 g7 g7c g8 g10
      refine ⟨s', ?_, ⟨by omega, by simp only [rtotal, RItem.rsize]; omega, g3, fun k hk => ?_, fun n c b => ?_,
        fun n hn => by rw [g6 n (by omega), b4 n (by omega), a3 n (by omega)], ⟨_, cs, by rw [g7, q7, List.append_assoc]; rfl, by rw [g7c, q9], k, ps, rfl, hkf, ?_, b2, hkok _ ?_ ?_, ?_, g8⟩, g9, by omega, g11⟩⟩
      · rw [genLoop, a1, Option.bind_some]
        simp only [hs1, ← hd, ← hk, b1, Option.bind_some]
        exact f1
      · rw [g4 k (by omega), q3 k (by omega)]
      · rcases Nat.lt_or_ge n s1.li with h | h
        · have hb : lab = true := by cases lab <;> simp at q2 ⊢; omega
          have hn : n = rli := by rw [hb] at q2; simp at q2; omega
          subst hn
          rw [g4 n h, q4 hb, (hlab hb).2]; omega
        · have := g5 n h b; omega
      · intro hr; rw [hk, jumpKind, if_pos hr]
      · exact g4
      · exact g5
      · have := preW_len hkf
        exact MHas_congr (fun n c b => g6 n (by omega)) b3
    | mov reg t a est =>
      simp only [RGood] at hR
      obtain ⟨rfl, rfl, hest, hEst, hfwd, hR⟩ := hR
      simp only [rtotal, RItem.rsize] at hE
      simp only [lcount] at hF
      simp only [List.map_cons, RItem.toItem, Prog.Ok] at hp
      have h1 := hI.cp
      have hsl : s.li = rli := hI.li
      obtain ⟨m1, a1, a2, a3⟩ := hcopy_ok (n := e.n) (hs := [BitVec.ofNat 16 reg]) (m := s.m) (p := s.cp)
        (by simp only [List.length_cons, List.length_nil]; omega)
      have hLI : LInv L s.labels rli s.cp a L.length :=
        ⟨h1, fun k hk => hI.old k (by omega), fun k hk => hI.new k (by omega), fun k b c => by have := hfwd k b c; omega⟩
      obtain ⟨d, hd⟩ : ∃ d, d = tgtDiff e t s.cp a (tgtSize s.labels t) := ⟨_, rfl⟩
      obtain ⟨p, hk⟩ : ∃ p, p = movKind d.1 d.2 := ⟨_, rfl⟩
      have hp1 : 1 ≤ p.len := by cases p <;> simp [Patch.len]
      obtain ⟨hks, hkok⟩ := mov_case (cfg := cfg) (reg := reg) hw hn hLI hEst hp.1 hL hbad (by omega) hd hk
      obtain ⟨s', f1, f2⟩ := ih _ rli false _ (GInv_adv hI hks m1 s.caddr (s.pend ++ [.mov t p s.cp])) hR hp.2 hT (by omega) hF
      obtain ⟨g1, g2, g3, g4, g5, g6, ⟨ps, cs, g7, g7c, g8⟩, g9, g10, g11⟩ := f2
      simp only at g1 g2 g4 g5 g6 g7 g7c g8 g10
      refine ⟨s', ?_, ⟨by omega, by simp only [rtotal, RItem.rsize]; omega, g3, g4, fun n c b => by have := g5 n c b; omega,
        fun n hn => by rw [g6 n (by omega), a3 n (by omega)], ⟨_, cs, by rw [g7, List.append_assoc]; rfl, g7c, p, ps, rfl, hkok _ (fun k hk => g4 k (by omega)) (fun n c b => ?_), ?_, g8⟩, g9, g10, g11⟩⟩
      · rw [genLoop, a1, Option.bind_some]
        simp only [← hd, ← hk]
        exact f1
      · have := g5 n (by omega) b; omega
      · rw [g6 _ (by omega)]; exact a2.1

end Verif.RV
