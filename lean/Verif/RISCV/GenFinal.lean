import Verif.RISCV.GenExec

/-! # From the final layout to executions (helper lemmas) -/

namespace Verif.RV

/-! ## Helper lemmas -/

theorem CodeAt_of_MHas {code : Code} {e : Env} {m : HMem} {n : Nat} (h : Loaded code e.base e.off m n) {hs : List (BitVec 16)} :
    ∀ {p : Nat}, MHas m p hs → p + hs.length ≤ n → CodeAt code (e.exec p) hs := by
  induction hs with
  | nil => intros; trivial
  | cons x xs ih =>
    intro p hm hn
    simp only [List.length_cons] at hn
    refine ⟨?_, ?_⟩
    · rw [← hm.1, ← h p (by omega), Env.exec, BitVec.add_assoc, BitVec.add_comm (BitVec.ofNat 64 _), ← BitVec.add_assoc]
    · have := ih hm.2 (by omega)
      rwa [exec_add] at this

theorem nops_run (x : List (BitVec 16)) (c : BitVec 64) (hx : ∀ (s : St) (r : List (BitVec 16)), run (x ++ r) s = run r ((s.wr 0#5 0#64).adv c)) (n : Nat) :
    ∀ s : St, ∃ s', run (List.replicate n x).flatten s = some s' ∧ Keep [] s s' := by
  induction n with
  | zero => intro s; exact ⟨s, rfl, Keep.refl _ _⟩
  | succ n ih =>
    intro s
    obtain ⟨s', h1, h2⟩ := ih ((s.wr 0#5 0#64).adv c)
    have hk : Keep [] s ((s.wr 0#5 0#64).adv c) := by
      refine ⟨fun r _ => ?_, rfl, rfl⟩
      rw [rd_adv, rd_wr]; split
      · next h => rw [h, rd_zero]
      · rfl
    exact ⟨s', by rw [List.replicate_succ, List.flatten_cons, hx]; exact h1, hk.trans h2⟩

theorem take_nops (cfg : Cfg) (al k : Nat) (hk : cfg.c = false → k % 2 = 0) (hl : k ≤ (alNops cfg al).length) (s : St) :
    ∃ s', run ((alNops cfg al).take k) s = some s' ∧ Keep [] s s' := by
  cases hc : cfg.c with
  | true =>
    have e : (alNops cfg al).take k = (List.replicate k (w16 C_NOP)).flatten := by
      have hf : ∀ n, (List.replicate n (w16 C_NOP)).flatten = List.replicate n C_NOP := by
        intro n; induction n with
        | zero => rfl
        | succ n ih => rw [List.replicate_succ, List.flatten_cons, ih]; rfl
      rw [alNops_length] at hl
      simp only [alNops, hc, if_true] at hl ⊢
      rw [hf, hf, List.take_replicate]
      congr 1; omega
    rw [e]
    exact nops_run _ 2#64 (fun s r => by rw [run16 dec_C_NOP]; simp [execS, IOp.eval]) _ _
  | false =>
    have e : (alNops cfg al).take k = (List.replicate (k / 2) (w32 NOP)).flatten := by
      have hk' := hk hc
      rw [alNops_length] at hl
      simp only [alNops, hc, Bool.false_eq_true, if_false] at hl ⊢
      generalize (alMask cfg al).toNat / 4 = N at *
      have : ∀ (j N : Nat), j ≤ N → (List.replicate N (w32 NOP)).flatten.take (2 * j) = (List.replicate j (w32 NOP)).flatten := by
        intro j
        induction j with
        | zero => intros; rfl
        | succ j ih =>
          intro N hN
          obtain ⟨M, rfl⟩ : ∃ M, N = M + 1 := ⟨N - 1, by omega⟩
          rw [List.replicate_succ, List.flatten_cons, List.replicate_succ, List.flatten_cons, ← ih M (by omega)]
          simp [w32, Nat.mul_succ]
      have := this (k / 2) N (by omega)
      rwa [show 2 * (k / 2) = k by omega] at this
    rw [e]
    exact nops_run _ 4#64 (fun s r => by rw [run32 dec_NOP]; simp [execS, IOp.eval]) _ _

/-- Without the C extension every record has an even number of half words. -/
theorem ksz_even {cfg : Cfg} {j : JInfo} {k : Kind} (hf : KindFor cfg j k) (hb : j.br.Ok cfg) (hc : cfg.c = false) :
    (j.br.words.length + ksz j k) % 2 = 0 := by
  have h16 : j.br.cond16 = false := by
    cases h : j.br <;> simp_all [Br.Ok, Br.cond16]
  have hw : j.br.words.length % 2 = 0 := by
    cases h : j.br <;> simp_all [Br.words, Br.cond16, w32]
  cases k with
  | seq p => cases p <;> simp only [ksz, Patch.len] <;> omega
  | j32 => simp only [ksz]; omega
  | b32 => simp only [ksz, h16]; simpa using hw
  | j16 => simp [KindFor, hc] at hf
  | b16 => simp [KindFor, hc] at hf

theorem alignDown_addr (e : Env) (c : Nat) (m : BitVec 64) (hm : m.toNat % 2 = 0) (hle : ((e.base + BitVec.ofNat 64 (2 * c)) &&& m).toNat / 2 ≤ c) :
    e.base + BitVec.ofNat 64 (2 * alignDown e c m) = (e.base + BitVec.ofNat 64 (2 * c)) &&& ~~~m := by
  rw [alignDown, and_compl]
  have h2 : ((e.base + BitVec.ofNat 64 (2 * c)) &&& m).toNat % 2 = 0 := by
    rw [BitVec.toNat_and]
    have := Nat.and_mod_two_pow (a := (e.base + BitVec.ofNat 64 (2 * c)).toNat) (b := m.toNat) (n := 1)
    simp only [Nat.pow_one] at this
    rw [this, hm, Nat.and_zero]
  have hs := and_compl (e.base + BitVec.ofNat 64 (2 * c)) m
  have h3 : e.base + BitVec.ofNat 64 (2 * c) - ((e.base + BitVec.ofNat 64 (2 * c)) &&& m) = (e.base + BitVec.ofNat 64 (2 * c)) &&& ~~~m := by
    rw [← hs]
    generalize e.base + BitVec.ofNat 64 (2 * c) = x
    generalize x &&& ~~~m = y
    bv_omega
  rw [← h3]
  generalize (e.base + BitVec.ofNat 64 (2 * c)) &&& m = y at *
  have : BitVec.ofNat 64 (2 * (c - y.toNat / 2)) = BitVec.ofNat 64 (2 * c) - y := by
    apply BitVec.eq_of_toNat_eq
    rw [BitVec.toNat_sub, BitVec.toNat_ofNat, BitVec.toNat_ofNat]
    have := y.isLt
    omega
  rw [this]
  generalize BitVec.ofNat 64 (2 * c) = z
  bv_omega

theorem masked_mod (cfg : Cfg) (al : Nat) (h : (if cfg.c then 2 else 3) ≤ al) (h' : al < 60) (x : BitVec 64)
    (hx : x.toNat % (if cfg.c then 2 else 4) = 0) : (x &&& ~~~(alMask cfg al)).toNat % 2 ^ al = 0 := by
  have hm := alMask_toNat h h'
  apply Nat.eq_of_testBit_eq
  intro k
  rw [Nat.testBit_mod_two_pow, Nat.zero_testBit]
  rcases Nat.lt_or_ge k al with hk | hk
  · simp only [hk, decide_true, Bool.true_and, BitVec.toNat_and, Nat.testBit_and]
    have hpow : 2 ^ al < 2 ^ 64 := Nat.pow_lt_pow_right (by omega) (by omega)
    have e1 : (~~~(alMask cfg al)).toNat.testBit k = !(alMask cfg al).toNat.testBit k := by
      have := BitVec.getLsbD_not (x := alMask cfg al) (i := k)
      simp only [show k < 64 by omega, decide_true, Bool.true_and] at this
      simpa only [BitVec.getLsbD] using this
    rw [e1, hm]
    cases hc : cfg.c with
    | true =>
      simp only [hc, if_true] at hx h ⊢
      rcases Nat.eq_zero_or_pos k with rfl | hk0
      · have : x.toNat.testBit 0 = false := by rw [Nat.testBit_zero]; simp; omega
        rw [this, Bool.false_and]
      · have : (2 ^ al - 2).testBit k = true := by
          have e2 : 2 ^ al - 2 = 2 * (2 ^ (al - 1) - 1) := by
            have : 2 ^ al = 2 * 2 ^ (al - 1) := by rw [← Nat.pow_succ']; congr 1; omega
            omega
          obtain ⟨k', rfl⟩ : ∃ k', k = k' + 1 := ⟨k - 1, by omega⟩
          rw [e2, Nat.testBit_succ, Nat.mul_div_cancel_left _ (by omega), Nat.testBit_two_pow_sub_one]
          simp; omega
        rw [this]; simp
    | false =>
      simp only [hc, Bool.false_eq_true, if_false] at hx h ⊢
      by_cases hk0 : k < 2
      · have : x.toNat.testBit k = false := by
          have : x.toNat.testBit k = (x.toNat % 2 ^ 2).testBit k := by rw [Nat.testBit_mod_two_pow]; simp [hk0]
          rw [this, show (2:Nat) ^ 2 = 4 from rfl, hx, Nat.zero_testBit]
        rw [this, Bool.false_and]
      · have : (2 ^ al - 4).testBit k = true := by
          have e2 : 2 ^ al - 4 = 2 ^ 2 * (2 ^ (al - 2) - 1) := by
            have : 2 ^ al = 4 * 2 ^ (al - 2) := by
              rw [show 4 = 2 ^ 2 from rfl, ← Nat.pow_add]; congr 1; omega
            omega
          obtain ⟨k', rfl⟩ : ∃ k', k = k' + 2 := ⟨k - 2, by omega⟩
          rw [e2, Nat.testBit_two_pow_mul, Nat.testBit_two_pow_sub_one]
          simp; omega
        rw [this]; simp
  · simp; omega

theorem Fin_le {cfg : Cfg} {e : Env} {m : HMem} {P : List Nat} {fin : Nat} (R : List RItem) :
    ∀ {cp rli cs}, Fin cfg e m P fin R cp rli cs → cp ≤ fin := by
  induction R with
  | nil => intro cp rli cs h; simp only [Fin] at h; omega
  | cons i is ih =>
    intro cp rli cs h
    cases i <;> simp only [Fin] at h
    case code => have := ih h.2; omega
    case label => have := ih h.2; omega
    case const => obtain ⟨_, _, _, h2⟩ := h; have := ih h2; omega
    case alabel => obtain ⟨q, _, h1, _, _, _, h2⟩ := h; have := ih h2; omega
    case jump => obtain ⟨k, _, _, _, _, _, h2⟩ := h; have := ih h2; omega
    case mov => obtain ⟨k, _, _, h2⟩ := h; have := ih h2; omega

theorem exec_sub_off (e : Env) (p : Nat) : e.exec p - e.off = e.base + BitVec.ofNat 64 (2 * p) := by
  rw [Env.exec, BitVec.add_sub_cancel]

theorem getD_map (e : Env) (P : List Nat) (n : Nat) (h : n < P.length) : (P.map e.exec).getD n 0#64 = e.exec (P.getD n 0) := by
  simp [List.getD, h]

theorem Placed_of_Fin {cfg : Cfg} {e : Env} {m : HMem} {P : List Nat} {fin : Nat} {code : Code} (hl : Loaded code e.base e.off m fin)
    (hb : e.base.toNat % (if cfg.c then 2 else 4) = 0) (ho : e.off &&& 1#64 = 0#64) (hn : fin < 2 ^ 60) (R : List RItem) :
    ∀ {cp rli cs}, Prog.Ok cfg P.length (R.map RItem.toItem) → P.length = rli + lcount R → (cfg.c = false → cp % 2 = 0) →
      Fin cfg e m P fin R cp rli cs →
      Placed code e.off (P.map e.exec) (R.map RItem.toItem) (e.exec cp) rli cs (e.exec fin) := by
  have hb1 : e.base &&& 1#64 = 0#64 := by
    apply BitVec.eq_of_toNat_eq
    rw [BitVec.toNat_and]
    simp only [BitVec.toNat_ofNat, Nat.reducePow, Nat.reduceMod, Nat.and_one_is_mod]
    split at hb <;> omega
  have hev := exec_even e hb1 ho
  have htgt : ∀ t : Tgt, t.Ok P.length → tgtOf (P.map e.exec) t = tgtPos e P t ∧ tgtPos e P t &&& 1#64 = 0#64 := by
    intro t ht
    cases t with
    | label n => exact ⟨getD_map e P n ht, hev _⟩
    | addr a => exact ⟨rfl, ht.1⟩
  induction R with
  | nil =>
    intro cp rli cs _ hc _ h
    simp only [Fin] at h
    simp only [lcount] at hc
    exact ⟨by rw [h.1], by simp; omega, h.2⟩
  | cons i is ih =>
    intro cp rli cs hp hc hev2 h
    cases i with
    | code hs =>
      simp only [Fin] at h
      simp only [lcount] at hc
      simp only [List.map_cons, RItem.toItem, Prog.Ok, Item.Ok] at hp ⊢
      have hle := Fin_le _ h.2
      refine ⟨CodeAt_of_MHas hl h.1 hle, ?_⟩
      rw [← exec_add]
      exact ih hp.2 hc (fun hcc => by have := hev2 hcc; have := hp.1.2 hcc; omega) h.2
    | const hs =>
      simp only [Fin] at h
      simp only [lcount] at hc
      simp only [List.map_cons, RItem.toItem, Prog.Ok, Item.Ok] at hp ⊢
      obtain ⟨cs', rfl, h1, h2⟩ := h
      have hle := Fin_le _ h2
      refine ⟨CodeAt_of_MHas hl h1 hle, cs', by rw [exec_sub_off], ?_⟩
      rw [← exec_add]
      exact ih hp.2 hc (fun hcc => by have := hev2 hcc; have := hp.1.2 hcc; omega) h2
    | label d =>
      simp only [Fin] at h
      simp only [lcount] at hc
      simp only [List.map_cons, RItem.toItem, Prog.Ok] at hp ⊢
      refine ⟨by rw [getD_map e P rli (by omega), h.1], ih hp.2 (by omega) hev2 h.2⟩
    | alabel al =>
      simp only [Fin] at h
      simp only [lcount] at hc
      simp only [List.map_cons, RItem.toItem, Prog.Ok, Item.Ok] at hp ⊢
      obtain ⟨q, hq, h1, h2, h3, h4, h5⟩ := h
      have hle := Fin_le _ h5
      have hla : (P.map e.exec).getD rli 0#64 = e.exec q := by rw [getD_map e P rli (by omega), h4]
      have hmm := alMask_toNat hp.1.1 hp.1.2
      have hpm : 2 ^ al % (if cfg.c then 2 else 4) = 0 := by
        cases hcc : cfg.c with
        | true =>
          have : al = (al - 1) + 1 := by have := hp.1.1; simp [hcc] at this; omega
          rw [this, Nat.pow_succ]; simp
        | false =>
          have : al = (al - 2) + 2 := by have := hp.1.1; simp [hcc] at this; omega
          rw [this, Nat.pow_add]; simp
      have hmask : (alMask cfg al).toNat % (if cfg.c then 2 else 4) = 0 := by
        rw [hmm]; split at hpm <;> simp only [*, if_true, if_false, Bool.false_eq_true] at * <;> omega
      have hnl := alNops_len hp.1.1 hp.1.2
      have hxx : (e.base + BitVec.ofNat 64 (2 * (cp + (alNops cfg al).length))).toNat % (if cfg.c then 2 else 4) = 0 := by
        rw [BitVec.toNat_add, BitVec.toNat_ofNat]
        cases hcc : cfg.c with
        | true => simp only [hcc, if_true] at hb ⊢; omega
        | false =>
          have := hev2 hcc
          simp only [hcc, Bool.false_eq_true, if_false] at hb hmask ⊢
          omega
      have haddr := alignDown_addr e (cp + (alNops cfg al).length) (alMask cfg al) (by split at hmask <;> omega) (by
        have : ((e.base + BitVec.ofNat 64 (2 * (cp + (alNops cfg al).length))) &&& alMask cfg al).toNat ≤ (alMask cfg al).toNat := by
          rw [BitVec.toNat_and]; exact Nat.and_le_right
        omega)
      rw [← hq] at haddr
      have hqe : cfg.c = false → q % 2 = 0 := by
        intro hcc
        have h4' : (e.base + BitVec.ofNat 64 (2 * q)).toNat % 4 = 0 := by
          have hmm2 := masked_mod cfg al hp.1.1 hp.1.2 _ hxx
          rw [← haddr] at hmm2
          have : 4 ∣ 2 ^ al := by
            rw [hcc] at hpm; simp only [Bool.false_eq_true, if_false] at hpm; omega
          exact Nat.mod_eq_zero_of_dvd (this.trans (Nat.dvd_of_mod_eq_zero hmm2))
        simp only [hcc, Bool.false_eq_true, if_false] at hb
        rw [BitVec.toNat_add, BitVec.toNat_ofNat] at h4'
        omega
      simp only [Placed, hla]
      refine ⟨?_, fun s hs => ?_, ih hp.2.2 (by omega) hqe h5⟩
      · rw [exec_sub_off, haddr]
        exact masked_mod cfg al hp.1.1 hp.1.2 _ hxx
      · obtain ⟨s', r1, r2⟩ := take_nops cfg al (q - cp) (fun hcc => by have := hqe hcc; have := hev2 hcc; omega) (by omega) s
        have hlen : ((alNops cfg al).take (q - cp)).length = q - cp := by rw [List.length_take]; omega
        refine ⟨s', steps_of_run (by rw [hs]; exact CodeAt_of_MHas hl h3 (by rw [hlen]; omega)) r1, ?_, r2, trivial⟩
        rw [run_pc r1, hs, hlen, ← exec_add]
        congr 1; omega
    | jump j a est lab =>
      simp only [Fin] at h
      simp only [lcount] at hc
      simp only [List.map_cons, RItem.toItem, Prog.Ok, Item.Ok] at hp ⊢
      obtain ⟨k, h1, h2, h3, h4, h5, h6⟩ := h
      have hle := Fin_le _ h6
      obtain ⟨ht1, ht2⟩ := htgt _ hp.1.2.2.1
      have hpc : e.exec cp + BitVec.ofNat 64 (2 * (j.br.words.length - kback j k)) = e.exec (cp + j.br.words.length - kback j k) := by
        rw [← exec_add]; congr 1; omega
      have hcode : CodeAt code (e.exec cp) (jumpW j k (tgtPos e P j.tgt) (e.exec (cp + j.br.words.length - kback j k))) :=
        CodeAt_of_MHas hl h5 (by rw [jumpW_length h1]; omega)
      refine ⟨j.br.words.length + ksz j k, fun s hs => ?_, fun hr => ?_, ?_⟩
      · rw [ht1]
        exact jump_sem hp.1.1 hp.1.2.1 h1 ht2 (by rw [hs]; exact hev _) (by rw [hs, hpc]; exact h4) (by rw [hs, hpc]; exact hcode)
      · have hk := h2 hr
        subst hk
        simp only [jumpW, kback, Nat.sub_zero] at hcode
        rw [CodeAt_append, brSkip_length] at hcode
        refine ⟨rfl, ?_⟩
        rw [ht1, ← exec_add]
        rw [← exec_add] at hcode
        exact hcode.2
      · rw [← exec_add, ← Nat.add_assoc]
        exact ih hp.2 hc (fun hcc => by have := hev2 hcc; have := ksz_even h1 hp.1.1 hcc; omega) h6
    | mov reg t a est =>
      simp only [Fin] at h
      simp only [lcount] at hc
      simp only [List.map_cons, RItem.toItem, Prog.Ok, Item.Ok] at hp ⊢
      obtain ⟨p, h1, h2, h3⟩ := h
      have hle := Fin_le _ h3
      obtain ⟨ht1, ht2⟩ := htgt _ hp.1.1
      refine ⟨p.len, fun s hs => ?_, ?_⟩
      · obtain ⟨s', r1, r2, r3⟩ := loadAddr_mov p reg (tgtPos e P t) (e.exec cp) s hp.1.2.2.1 hp.1.2.2.2 hs h1
        refine ⟨s', steps_of_run (by rw [hs]; exact CodeAt_of_MHas hl h2 (by rw [loadAddr_length]; omega)) r1, ?_, r3, r2.trans ht1.symm⟩
        rw [run_pc r1, hs, loadAddr_length]
      · rw [← exec_add]
        exact ih hp.2 hc (fun hcc => by have := hev2 hcc; cases p <;> simp only [Patch.len] <;> omega) h3

theorem labelSizes_length (cfg : Cfg) (items : List Item) : ∀ pos, (labelSizes cfg pos items).length = Prog.labels items := by
  induction items with
  | nil => intro; rfl
  | cons i is ih => intro pos; cases i <;> simp [labelSizes, Prog.labels, ih]

theorem reduce_items (cfg : Cfg) (items : List Item) : ∀ pos li sr z labels, (reduce cfg items pos li sr z labels).1.map RItem.toItem = items := by
  induction items with
  | nil => intros; rfl
  | cons i is ih => intro pos li sr z labels; cases i <;> simp [reduce, RItem.toItem, ih]

theorem lcount_items (R : List RItem) : lcount R = Prog.labels (R.map RItem.toItem) := by
  induction R with
  | nil => rfl
  | cons i is ih => cases i <;> simp [lcount, Prog.labels, RItem.toItem, ih]

theorem rtotal_pos (cfg : Cfg) (nl : Nat) (items : List Item) : ∀ pos li sr z labels, Prog.Ok cfg nl items → (∃ i ∈ items, i ≠ Item.label) →
    0 < rtotal cfg (reduce cfg items pos li sr z labels).1 := by
  induction items with
  | nil => intro _ _ _ _ _ _ h; simp at h
  | cons i is ih =>
    intro pos li sr z labels hp h
    cases i with
    | label =>
      simp only [List.mem_cons, exists_eq_or_imp, ne_eq, not_true, false_or] at h
      simp only [Prog.Ok] at hp
      have := ih pos (li + 1) sr false (labels.set li (labels.getD li 0 - sr)) hp.2 h
      simp only [reduce, rtotal, RItem.rsize]; omega
    | code hs =>
      simp only [Prog.Ok, Item.Ok] at hp
      have := List.length_pos_iff.mpr hp.1.1
      simp only [reduce, rtotal, RItem.rsize]; omega
    | const hs =>
      simp only [Prog.Ok, Item.Ok] at hp
      have := List.length_pos_iff.mpr hp.1.1
      simp only [reduce, rtotal, RItem.rsize]; omega
    | alabel al =>
      simp only [Prog.Ok, Item.Ok] at hp
      have := alNops_pos hp.1.1 hp.1.2
      simp only [reduce, rtotal, RItem.rsize]; omega
    | jump j =>
      have := jump_size_pos (cfg := cfg) (j := j) (a := pos + j.br.words.length - sr) (l := tgtSize labels j.tgt) (sr := sr)
      simp only [reduce, rtotal, RItem.rsize]; omega
    | mov r t => simp only [reduce, rtotal, RItem.rsize]; omega

theorem tailOk_reduce (cfg : Cfg) (nl : Nat) (items : List Item) : ∀ pos li sr z labels, Prog.Ok cfg nl items → Prog.Tail items →
    TailOk cfg (reduce cfg items pos li sr z labels).1 := by
  induction items with
  | nil => intros; trivial
  | cons i is ih =>
    intro pos li sr z labels hp ht
    cases i with
    | label => simp only [Prog.Ok] at hp; exact ih _ _ _ _ _ hp.2 ht
    | code hs => simp only [Prog.Ok] at hp; exact ih _ _ _ _ _ hp.2 ht
    | const hs => simp only [Prog.Ok] at hp; exact ih _ _ _ _ _ hp.2 ht
    | alabel al => simp only [Prog.Ok] at hp; exact ih _ _ _ _ _ hp.2.2 ht
    | mov r t => simp only [Prog.Ok] at hp; exact ih _ _ _ _ _ hp.2 ht
    | jump j =>
      simp only [Prog.Ok] at hp
      simp only [Prog.Tail] at ht
      refine ⟨fun he => rtotal_pos cfg nl is _ _ _ _ _ hp.2 (ht.1 ?_), ih _ _ _ _ _ hp.2 ht.2⟩
      cases hb : j.br.cond with
      | true => rfl
      | false =>
        have := jumpEst_pos (cfg := cfg) (j := j) (a := pos + j.br.words.length - sr) (l := tgtSize labels j.tgt) (sr := sr) (cond_none hb)
        omega

theorem endLabel_id (e : Env) (R : List RItem) (laddr : List (BitVec 64)) (h : e.off = 0#64 ∨ ¬ Prog.endsInLabel (R.map RItem.toItem)) :
    endLabel e R laddr = laddr := by
  rcases h with h | h
  · simp only [endLabel, h, BitVec.sub_zero]
    have : laddr.set (laddr.length - 1) (laddr.getLastD 0#64) = laddr := by
      apply List.ext_getElem?
      intro n
      rw [List.getElem?_set]
      split
      · next hn =>
        subst hn
        split
        · next hlt =>
          rw [List.getLastD_eq_getLast?, List.getLast?_eq_getElem?]
          simp [hlt]
        · next hlt => simp at hlt; simp [hlt]
      · rfl
    split
    · exact this
    · exact this
    · rfl
  · simp only [endLabel]
    split
    · next he => exact absurd ⟨.label, by rw [List.getLast?_map, he]; rfl, Or.inl rfl⟩ h
    · next al he => exact absurd ⟨.alabel al, by rw [List.getLast?_map, he]; rfl, Or.inr ⟨_, rfl⟩⟩ h
    · rfl

end Verif.RV
