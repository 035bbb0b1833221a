import Verif.RISCV.GenLoop4

/-! # The final pass: patching the records -/

namespace Verif.RV

/-- The words of a jump after the final pass; `t` is the target, `pc` the address of the patched instruction. -/
def jumpW (j : JInfo) (k : Kind) (t pc : BitVec 64) : List (BitVec 16) :=
  match k with
  | .seq p => brSkip k j.br ++ loadAddr p (if j.call then .call else .jump) t pc
  | .b16 => [(preW j k).getD 0 0#16 ||| C_BRN16 (t - pc)]
  | .b32 => [(preW j k).getD 0 0#16 ||| ((((t - pc) &&& 0x800#64) >>> 4) ||| (((t - pc) &&& 0x1e#64) <<< 7)).setWidth 16,
      (preW j k).getD 1 0#16 ||| ((((t - pc) &&& 0x7e0#64) <<< 4) ||| (((t - pc) &&& 0x1000#64) <<< 3)).setWidth 16]
  | .j16 => [C_J ||| C_JMP16 (t - pc)]
  | .j32 => brSkip k j.br ++ w32 (JAL ||| RD (if j.call then RETURN_ADDR_REG else TMP_ZERO) |||
        (((t - pc) &&& 0xff000#64) ||| (((t - pc) &&& 0x800#64) <<< 9) ||| (((t - pc) &&& 0x7fe#64) <<< 20) ||| (((t - pc) &&& 0x100000#64) <<< 11)).setWidth 32)

/-- The final layout. -/
def Fin (cfg : Cfg) (e : Env) (m : HMem) (P : List Nat) (fin : Nat) : List RItem → (cp rli : Nat) → List (BitVec 64) → Prop
  | [], cp, _, cs => cp = fin ∧ cs = []
  | .code hs :: is, cp, rli, cs => MHas m cp hs ∧ Fin cfg e m P fin is (cp + hs.length) rli cs
  | .label _ :: is, cp, rli, cs => P.getD rli 0 = cp ∧ Fin cfg e m P fin is cp (rli + 1) cs
  | .alabel al :: is, cp, rli, cs => ∃ q, q = alignDown e (cp + (alNops cfg al).length) (alMask cfg al) ∧ cp ≤ q ∧
      q ≤ cp + (alNops cfg al).length ∧ MHas m cp ((alNops cfg al).take (q - cp)) ∧ P.getD rli 0 = q ∧
      Fin cfg e m P fin is q (rli + 1) cs
  | .const hs :: is, cp, rli, cs => ∃ cs', cs = (e.base + BitVec.ofNat 64 (2 * cp)) :: cs' ∧ MHas m cp hs ∧
      Fin cfg e m P fin is (cp + hs.length) rli cs'
  | .jump j _ _ _ :: is, cp, rli, cs => ∃ k, KindFor cfg j k ∧
      (j.rew = true → k = .seq .full) ∧ kback j k ≤ j.br.words.length ∧
      KindOk k (tgtPos e P j.tgt) (e.exec (cp + j.br.words.length - kback j k)) ∧
      MHas m cp (jumpW j k (tgtPos e P j.tgt) (e.exec (cp + j.br.words.length - kback j k))) ∧
      Fin cfg e m P fin is (cp + j.br.words.length + ksz j k) rli cs
  | .mov reg t _ _ :: is, cp, rli, cs => ∃ p, p.fits (tgtPos e P t) (e.exec cp) ∧
      MHas m cp (loadAddr p (.mov reg) (tgtPos e P t) (e.exec cp)) ∧ Fin cfg e m P fin is (cp + p.len) rli cs

theorem Lay_le {cfg : Cfg} {e : Env} {m : HMem} {P : List Nat} {fin : Nat} (R : List RItem) :
    ∀ {cp rli ps cs}, Lay cfg e m P fin R cp rli ps cs → cp ≤ fin := by
  induction R with
  | nil => intro cp rli ps cs h; simp only [Lay] at h; omega
  | cons i is ih =>
    intro cp rli ps cs h
    cases i <;> simp only [Lay] at h
    case code => have := ih h.2; omega
    case label => have := ih h.2; omega
    case const => obtain ⟨_, _, _, h2⟩ := h; have := ih h2; omega
    case alabel => obtain ⟨q, _, h1, _, _, _, h2⟩ := h; have := ih h2; omega
    case jump => obtain ⟨k, ps', _, _, _, _, _, _, h2⟩ := h; have := ih h2; omega
    case mov => obtain ⟨k, ps', _, _, _, h2⟩ := h; have := ih h2; omega

theorem Lay_congr {cfg : Cfg} {e : Env} {m m' : HMem} {P : List Nat} {fin : Nat} (R : List RItem) :
    ∀ {cp rli ps cs}, (∀ k, cp ≤ k → m' k = m k) → Lay cfg e m P fin R cp rli ps cs → Lay cfg e m' P fin R cp rli ps cs := by
  induction R with
  | nil => intro cp rli ps cs _ h; exact h
  | cons i is ih =>
    intro cp rli ps cs hm h
    cases i <;> simp only [Lay] at h ⊢
    case code => exact ⟨MHas_congr (fun k a _ => hm k a) h.1, ih (fun k a => hm k (by omega)) h.2⟩
    case const =>
      obtain ⟨cs', h0, h1, h2⟩ := h
      exact ⟨cs', h0, MHas_congr (fun k a _ => hm k a) h1, ih (fun k a => hm k (by omega)) h2⟩
    case label => exact ⟨h.1, ih hm h.2⟩
    case alabel =>
      obtain ⟨q, h0, h1, h2, h3, h4, h5⟩ := h
      exact ⟨q, h0, h1, h2, MHas_congr (fun k a _ => hm k a) h3, h4, ih (fun k a => hm k (by omega)) h5⟩
    case jump =>
      obtain ⟨k, ps', h0, h1, h2, h3, h4, h5, h6⟩ := h
      exact ⟨k, ps', h0, h1, h2, h3, h4, MHas_congr (fun k a _ => hm k a) h5, ih (fun k a => hm k (by omega)) h6⟩
    case mov =>
      obtain ⟨k, ps', h0, h1, h2, h3⟩ := h
      exact ⟨k, ps', h0, h1, by rw [hm _ (Nat.le_refl _)]; exact h2, ih (fun k a => hm k (by omega)) h3⟩

theorem loadAddr_length (p : Patch) (u : Use) (a pc : BitVec 64) : (loadAddr p u a pc).length = p.len := by
  cases p <;> simp only [loadAddr, Patch.len] <;> (try split) <;> simp [w32]

theorem brSkip_length (k : Kind) (b : Br) : (brSkip k b).length = b.words.length := by
  cases b <;> simp [brSkip, Br.words, w16, w32]

theorem jumpW_length {cfg : Cfg} {j : JInfo} {k : Kind} {t pc : BitVec 64} (h : KindFor cfg j k) : (jumpW j k t pc).length = j.br.words.length + ksz j k := by
  cases k with
  | seq p => simp [jumpW, brSkip_length, loadAddr_length, ksz]
  | j32 => simp [jumpW, brSkip_length, ksz, w32]
  | j16 => simp only [KindFor] at h; simp [jumpW, ksz, h.2.2, Br.words]
  | b16 => simp only [KindFor] at h; cases hb : j.br <;> simp_all [jumpW, ksz, Br.words, Br.cond16, w16]
  | b32 => simp only [KindFor] at h; cases hb : j.br <;> simp_all [jumpW, ksz, Br.words, Br.cond, Br.cond16, w16, w32]

theorem patchJump_ok {cfg : Cfg} {e : Env} {laddr : List (BitVec 64)} {j : JInfo} {k : Kind} {m : HMem} {p : Nat} {t : BitVec 64}
    (hf : KindFor cfg j k) (ht : tgtAddr laddr j.tgt = t) (hm : MHas m p (preW j k)) (hn : p + j.br.words.length + ksz j k ≤ e.n) :
    ∃ m', patchOne e laddr m (.jump j k (p + j.br.words.length - kback j k)) = some m' ∧
      MHas m' p (jumpW j k t (e.exec (p + j.br.words.length - kback j k))) ∧
      ∀ q, q < p ∨ p + j.br.words.length + ksz j k ≤ q → m' q = m q := by
  have hl := jumpW_length (t := t) (pc := e.exec (p + j.br.words.length - kback j k)) hf
  cases k with
  | seq q =>
    simp only [kback, Nat.sub_zero, jumpW, ksz] at *
    obtain ⟨m1, a1, a2, a3⟩ := hcopy_ok (n := e.n) (hs := loadAddr q (if j.call then .call else .jump) t (e.exec (p + j.br.words.length))) (m := m)
      (p := p + j.br.words.length) (by rw [loadAddr_length]; omega)
    rw [loadAddr_length] at a3
    refine ⟨m1, by rw [patchOne, ht]; exact a1, ?_, fun x hx => a3 x (by omega)⟩
    rw [MHas_append, brSkip_length]
    exact ⟨MHas_congr (fun x a b => a3 x (by rw [brSkip_length] at b; omega)) hm, a2⟩
  | j32 =>
    simp only [kback, Nat.sub_zero, jumpW, ksz] at *
    obtain ⟨m1, a1, a2, a3⟩ := hcopy_ok (n := e.n) (hs := w32 _) (m := m) (p := p + j.br.words.length) (by simp only [w32, List.length_cons, List.length_nil]; omega)
    simp only [w32, List.length_cons, List.length_nil] at a3
    refine ⟨m1, by rw [patchOne, ht]; exact a1, ?_, fun x hx => a3 x (by omega)⟩
    rw [MHas_append, brSkip_length]
    exact ⟨MHas_congr (fun x a b => a3 x (by rw [brSkip_length] at b; omega)) hm, a2⟩
  | j16 =>
    simp only [KindFor] at hf
    simp only [kback, Nat.sub_zero, jumpW, ksz, hf.2.2, Br.words, List.length_nil, Nat.add_zero] at *
    refine ⟨_, by rw [patchOne, ht, hwr_some (by omega)], ⟨by simp, trivial⟩, fun x hx => if_neg (by omega)⟩
  | b16 =>
    simp only [KindFor] at hf
    have hb : ∃ ne r, j.br = .b16 ne r := by cases hb : j.br <;> simp_all [Br.cond16]
    obtain ⟨ne, r, hb⟩ := hb
    have hw : j.br.words.length = 1 := by rw [hb]; rfl
    simp only [kback, jumpW, ksz, hw, Nat.add_sub_cancel, Nat.add_zero] at *
    rw [patchOne, ht, hwr_some (by omega)]
    simp only [preW, hb, MHas, and_true] at hm
    refine ⟨_, rfl, ⟨?_, trivial⟩, fun x hx => if_neg (by omega)⟩
    simp only [if_true, preW, hb, hm]
    rfl
  | b32 =>
    simp only [KindFor] at hf
    have hkb : p + j.br.words.length - kback j .b32 = p ∧ 2 ≤ j.br.words.length + ksz j .b32 := by
      cases hb : j.br <;> simp_all [Br.cond, kback, ksz, Br.words, w16, w32, Br.cond16]
    obtain ⟨hk1, hk2⟩ := hkb
    rw [hk1] at hl ⊢
    simp only [jumpW] at *
    have hpl : (preW j .b32) = [(preW j .b32).getD 0 0#16, (preW j .b32).getD 1 0#16] := by
      cases hb : j.br <;> simp_all [Br.cond, preW]
    rw [hpl] at hm
    simp only [MHas, and_true] at hm
    rw [patchOne, ht]
    rw [hwr_some (by omega), Option.bind_some, hwr_some (by omega)]
    refine ⟨_, rfl, ⟨?_, ?_, trivial⟩, fun x hx => ?_⟩
    · have h1 : ¬ p = p + 1 := by omega
      simp only [h1, if_false, if_true, hm.1]
    · have h1 : ¬ p + 1 = p := by omega
      simp only [h1, if_false, if_true, hm.2]
    · have h1 : ¬ x = p + 1 := by have := hk2; omega
      have h2 : ¬ x = p := by have := hk2; omega
      simp only [h1, h2, if_false]

theorem patchAll_ok {cfg : Cfg} {e : Env} {P : List Nat} {fin nl : Nat} {laddr : List (BitVec 64)} (hfin : fin ≤ e.n)
    (hla : ∀ t : Tgt, t.Ok nl → tgtAddr laddr t = tgtPos e P t) (R : List RItem) :
    ∀ {m cp rli ps cs}, Prog.Ok cfg nl (R.map RItem.toItem) → Lay cfg e m P fin R cp rli ps cs →
      ∃ m', patchAll e laddr ps m = some m' ∧ (∀ k, k < cp → m' k = m k) ∧ Fin cfg e m' P fin R cp rli cs := by
  induction R with
  | nil => intro m cp rli ps cs _ h; simp only [Lay] at h; exact ⟨m, by rw [h.2.1]; rfl, fun _ _ => rfl, h.1, h.2.2⟩
  | cons i is ih =>
    intro m cp rli ps cs hp h
    cases i <;> simp only [Lay, Fin, List.map_cons, RItem.toItem, Prog.Ok] at h hp ⊢
    case code =>
      obtain ⟨m', e1, e2, e3⟩ := ih hp.2 h.2
      exact ⟨m', e1, fun k hk => e2 k (by omega), MHas_congr (fun k a b => e2 k (by omega)) h.1, e3⟩
    case const =>
      obtain ⟨cs', h0, h1, h2⟩ := h
      obtain ⟨m', e1, e2, e3⟩ := ih hp.2 h2
      exact ⟨m', e1, fun k hk => e2 k (by omega), cs', h0, MHas_congr (fun k a b => e2 k (by omega)) h1, e3⟩
    case label =>
      obtain ⟨m', e1, e2, e3⟩ := ih hp.2 h.2
      exact ⟨m', e1, fun k hk => e2 k (by omega), h.1, e3⟩
    case alabel =>
      obtain ⟨q, h0, h1, h2, h3, h4, h5⟩ := h
      obtain ⟨m', e1, e2, e3⟩ := ih hp.2.2 h5
      refine ⟨m', e1, fun k hk => e2 k (by omega), q, h0, h1, h2, MHas_congr (fun k a b => ?_) h3, h4, e3⟩
      rw [List.length_take] at b
      exact e2 k (by omega)
    case jump j a est lab =>
      obtain ⟨k, ps', rfl, h1, h2, h3, h4, h5, h6⟩ := h
      have hle := Lay_le _ h6
      have htg : tgtAddr laddr j.tgt = tgtPos e P j.tgt := hla _ (by simp only [Item.Ok] at hp; exact hp.1.2.2.1)
      obtain ⟨m1, a1, a2, a3⟩ := patchJump_ok (e := e) (laddr := laddr) h1 htg h5 (by omega)
      obtain ⟨m', e1, e2, e3⟩ := ih hp.2 (Lay_congr is (m' := m1) (fun q hq => a3 q (by omega)) h6)
      refine ⟨m', by rw [patchAll, a1]; exact e1, fun q hq => by rw [e2 q (by omega), a3 q (by omega)], k, h1, h2, h3, h4, ?_, e3⟩
      exact MHas_congr (fun q a b => e2 q (by rw [jumpW_length h1] at b; omega)) a2
    case mov reg t a est =>
      obtain ⟨p, ps', rfl, h1, h2, h3⟩ := h
      have hle := Lay_le _ h3
      simp only [Item.Ok] at hp
      have htg : tgtAddr laddr t = tgtPos e P t := hla _ hp.1.1
      have hr : (m cp).toNat = reg := by rw [h2, BitVec.toNat_ofNat]; omega
      obtain ⟨m1, a1, a2, a3⟩ := hcopy_ok (n := e.n) (hs := loadAddr p (.mov reg) (tgtPos e P t) (e.exec cp)) (m := m) (p := cp)
        (by rw [loadAddr_length]; omega)
      rw [loadAddr_length] at a3
      obtain ⟨m', e1, e2, e3⟩ := ih hp.2 (Lay_congr is (m' := m1) (fun q hq => a3 q (by omega)) h3)
      refine ⟨m', by rw [patchAll, patchOne, hr, htg, a1]; exact e1, fun q hq => by rw [e2 q (by omega), a3 q (by omega)], p, h1, ?_, e3⟩
      exact MHas_congr (fun q a b => e2 q (by rw [loadAddr_length] at b; omega)) a2

end Verif.RV
