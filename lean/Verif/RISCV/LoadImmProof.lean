import Verif.RISCV.LoadImmLemmas
namespace Verif.RV

/-- Result of a code sequence which sets `d` to `v` and may use `W` as scratch. -/
def Loads (code : Emit) (d : Nat) (W : List Reg) (v : BitVec 64) : Prop :=
  ∀ s, ∃ s', run code s = some s' ∧ s'.rd (regMap d) = v ∧ Keep W s s'

theorem loadImm32_ok (cfg : Cfg) (d : Nat) (v : BitVec 64) (hd : regMap d ≠ 0#5) (hd2 : regMap d ≠ 2#5)
    (h1 : v.toInt ≤ 0x7fffffff) (h2 : S32_MIN ≤ v.toInt) (h3 : 0x7ff < v.toInt ∨ v.toInt < -0x800) :
    Loads (loadImm32 cfg d v) d [regMap d] v := by
  intro s
  unfold loadImm32
  split
  · next h =>
    refine ⟨_, by rw [run32 (dec_LUI_hi ..), execS, Option.bind_some, run32' (dec_XORI ..)]; rfl, ?_, ?_⟩
    · simp only [rd_adv, rd_wr, hd, if_false, if_true, IOp.eval]
      exact xor_top v h h1
    · exact (((Keep.wr _ _ _ _ (by simp)).adv _).wr' _ _ (by simp)).adv _
  · next h =>
    have hS : v.toInt ≤ S32_MAX := by omega
    split
    · next hc =>
      simp only [Bool.and_eq_true, decide_eq_true_eq] at hc
      split
      · next ht =>
        refine ⟨_, by rw [run16 (dec_C_LUI_hi _ hd2), execS, Option.bind_some, run32' (dec_XORI ..)]; rfl, ?_, ?_⟩
        · simp only [rd_adv, rd_wr, hd, if_false, if_true, IOp.eval]
          exact xor_topC v ht hc.1.2
        · exact (((Keep.wr _ _ _ _ (by simp)).adv _).wr' _ _ (by simp)).adv _
      · next ht =>
        simp only [cLuiImm]
        rw [← round]
        have hnz := round_nz v (by omega) hc.2 h3
        rw [run16 (dec_C_LUI _ _ hd2 hnz)]
        simp only [Option.bind_some, execS]
        obtain ⟨s', hr, hv, hk⟩ := run_low cfg d (round v)
          ((s.wr (regMap d) (uimm (((round v).extractLsb' 12 6).signExtend 20))).adv 2#64) hd
        refine ⟨s', hr, ?_, ((Keep.wr _ _ _ _ (by simp)).adv _).trans hk⟩
        rw [hv]
        simp only [rd_adv, rd_wr, hd, if_false, if_true]
        rw [round_small v (by omega) hc.2]
        exact L1 v hS h2
    · simp only []
      rw [← round]
      rw [run32 (dec_LUI_mask ..)]
      simp only [Option.bind_some, execS]
      obtain ⟨s', hr, hv, hk⟩ := run_low cfg d (round v)
          ((s.wr (regMap d) (uimm ((round v).extractLsb' 12 20))).adv 4#64) hd
      refine ⟨s', hr, ?_, ((Keep.wr _ _ _ _ (by simp)).adv _).trans hk⟩
      rw [hv]
      simp only [rd_adv, rd_wr, hd, if_false, if_true]
      exact L1 v hS h2

theorem loadImmS32_ok (cfg : Cfg) (d : Nat) (v : BitVec 64) (hd : regMap d ≠ 0#5) (hd2 : regMap d ≠ 2#5)
    (h1 : v.toInt ≤ 0x7fffffff) (h2 : S32_MIN ≤ v.toInt) :
    Loads (loadImmS32 cfg d v) d [regMap d] v := by
  unfold loadImmS32
  split
  · next h =>
    simp only [Bool.and_eq_true, decide_eq_true_eq] at h
    intro s
    refine ⟨_, by rw [run16' (dec_C_LI ..)]; rfl, ?_, (Keep.wr _ _ _ _ (by simp)).adv _⟩
    simp only [rd_adv, rd_wr, hd, if_false, if_true, IOp.eval]
    rw [cli v h.1.2 h.2]; simp
  · split
    · next h =>
      intro s
      refine ⟨_, by rw [run32' (dec_ADDI ..)]; rfl, ?_, (Keep.wr _ _ _ _ (by simp)).adv _⟩
      simp only [rd_adv, rd_wr, hd, if_false, if_true, IOp.eval]
      rw [sext12_self v h.1 h.2]; simp [regMap]
    · next h => exact loadImm32_ok cfg d v hd hd2 h1 h2 (by omega)

theorem emitSlli_run (cfg : Cfg) (d : Nat) (n : BitVec 64) (hn : n.toNat < 64) (hd : regMap d ≠ 0#5) (s : St) :
    ∃ s', run (emitSlli cfg d n) s = some s' ∧ s'.rd (regMap d) = s.rd (regMap d) <<< n.toNat ∧ Keep [regMap d] s s' := by
  have hn6 : (n.setWidth 6).toNat = n.toNat := by simp; omega
  unfold emitSlli
  split
  · refine ⟨_, by rw [run16' (dec_C_SLLI ..)]; rfl, ?_, (Keep.wr _ _ _ _ (by simp)).adv _⟩
    simp only [rd_adv, rd_wr, hd, if_false, if_true, ShOp.eval, hn6]
  · refine ⟨_, by rw [run32' (dec_SLLI _ _ _ hn)]; rfl, ?_, (Keep.wr _ _ _ _ (by simp)).adv _⟩
    simp only [rd_adv, rd_wr, hd, if_false, if_true, ShOp.eval, hn6]

/-- One conditional shift step: the pair keeps representing `imm`. -/
theorem shift_step (imm h sh : BitVec 64) (n : Nat) (hn : n = 8 ∨ n = 4 ∨ n = 2 ∨ n = 1)
    (hz : h &&& BitVec.ofNat 64 (2 ^ n - 1) = 0#64) (he : h <<< sh.toNat = imm) (hs : sh.toNat + n < 128) :
    (h.sshiftRight n) <<< (sh + BitVec.ofNat 64 n).toNat = imm := by
  have hlow : ∀ k, k < n → h.getLsbD k = false := by
    intro k hk
    have := congrArg (fun x => x.getLsbD k) hz
    have hb : (2 ^ n - 1).testBit k = true := by rw [Nat.testBit_two_pow_sub_one]; simp [hk]
    have hk64 : k < 64 := by omega
    simpa [-BitVec.getLsbD_eq_getElem, BitVec.getLsbD_ofNat, hb, hk64] using this
  have e : (sh + BitVec.ofNat 64 n).toNat = sh.toNat + n := by
    simp; omega
  rw [e]
  subst he
  apply BitVec.eq_of_getLsbD_eq
  intro k hk
  simp only [BitVec.getLsbD_shiftLeft, BitVec.getLsbD_sshiftRight, hk, decide_true, Bool.true_and]
  by_cases h1 : k < sh.toNat
  · simp [h1, show k < sh.toNat + n by omega]
  · by_cases h2 : k < sh.toNat + n
    · simp [h2, hlow (k - sh.toNat) (by omega)]
    · have e1 : ¬ (64 ≤ k - (sh.toNat + n)) := by omega
      have e2 : n + (k - (sh.toNat + n)) = k - sh.toNat := by omega
      simp [-BitVec.getLsbD_eq_getElem, h1, h2, e1, e2, show k - sh.toNat < 64 by omega]

theorem shl_nz {imm h sh : BitVec 64} (hi : imm ≠ 0#64) (he : h <<< sh.toNat = imm) : sh.toNat < 64 := by
  by_contra hc
  apply hi
  rw [← he]
  exact BitVec.shiftLeft_eq_zero (by omega)

theorem shiftLoop_spec (imm : BitVec 64) (hi : imm ≠ 0#64) (n : Nat) (h sh : BitVec 64) (he : h <<< sh.toNat = imm) :
    (shiftLoop n h sh).1 <<< (shiftLoop n h sh).2.toNat = imm ∧
    ((shiftLoop n h sh).1 &&& 0xff#64 ≠ 0#64 ∨ (shiftLoop n h sh).2.toNat = sh.toNat + 8 * n) := by
  induction n generalizing h sh with
  | zero => exact ⟨he, Or.inr rfl⟩
  | succ n ih =>
    have hs := shl_nz hi he
    unfold shiftLoop
    split
    · next hz =>
      have := shift_step imm h sh 8 (Or.inl rfl) hz he (by omega)
      have h2 := ih (h.sshiftRight 8) (sh + 8#64) this
      refine ⟨h2.1, h2.2.imp_right fun e => ?_⟩
      rw [e]; simp; omega
    · next hz => exact ⟨he, Or.inl hz⟩

/-- The loop runs to its natural end: the recursion bound is never the reason to stop. -/
theorem shiftLoop_exit (imm : BitVec 64) (hi : imm ≠ 0#64) : (shiftLoop 8 imm 0#64).1 &&& 0xff#64 ≠ 0#64 := by
  have h := shiftLoop_spec imm hi 8 imm 0#64 (by simp)
  rcases h.2 with h2 | h2
  · exact h2
  · have := shl_nz hi h.1
    rw [h2] at this; simp at this

theorem shiftTail_spec (imm : BitVec 64) (hi : imm ≠ 0#64) (p : BitVec 64 × BitVec 64) (he : p.1 <<< p.2.toNat = imm) :
    (shiftTail p).1 <<< (shiftTail p).2.toNat = imm := by
  have step : ∀ (p : BitVec 64 × BitVec 64) (n : Nat) (m : BitVec 64), (n = 8 ∨ n = 4 ∨ n = 2 ∨ n = 1) →
      m = BitVec.ofNat 64 (2 ^ n - 1) → p.1 <<< p.2.toNat = imm →
      (if p.1 &&& m = 0#64 then (p.1.sshiftRight n, p.2 + BitVec.ofNat 64 n) else p).1 <<<
        (if p.1 &&& m = 0#64 then (p.1.sshiftRight n, p.2 + BitVec.ofNat 64 n) else p).2.toNat = imm := by
    intro p n m hn hm he
    have hs := shl_nz hi he
    split
    · next hz => exact shift_step imm p.1 p.2 n hn (hm ▸ hz) he (by omega)
    · exact he
  unfold shiftTail
  exact step _ 1 _ (by simp) rfl (step _ 2 _ (by simp) rfl (step _ 4 _ (by simp) rfl he))

theorem mid_xor (v : BitVec 64) :
    (if v &&& 0x800#64 ≠ 0#64 then ~~~(v.sshiftRight 12) else v.sshiftRight 12) <<< 12 ^^^ (v.setWidth 12).signExtend 64 = v := by
  have hb : (v &&& 0x800#64 ≠ 0#64) ↔ v.getLsbD 11 = true := by
    rw [and800, BitVec.getLsbD, Nat.testBit_eq_decide_div_mod_eq]; simp
  apply BitVec.eq_of_getLsbD_eq
  intro k hk
  rw [xor_hi _ _ _ hk]
  simp only [hb]
  by_cases h12 : k < 12
  · simp [h12]
  · have e : 12 + (k - 12) = k := by omega
    by_cases h11 : v.getLsbD 11 = true
    · simp [-BitVec.getLsbD_eq_getElem, BitVec.getLsbD_sshiftRight, h11, h12, hk, e, show k - 12 < 64 by omega, show ¬ (64 ≤ k - 12) by omega]
    · simp [-BitVec.getLsbD_eq_getElem, BitVec.getLsbD_sshiftRight, h11, h12, hk, e, show ¬ (64 ≤ k - 12) by omega]

theorem clui_ext (u : BitVec 64) (h1 : u.toInt ≤ 0x1ffff) (h2 : -0x20000 ≤ u.toInt) :
    (u.extractLsb' 12 6).signExtend 20 = u.extractLsb' 12 20 := by
  have hi := BitVec.toInt_eq_toNat_cond u
  have := u.isLt
  apply BitVec.eq_of_toInt_eq
  rw [BitVec.toInt_signExtend_of_le (by decide), BitVec.toInt_eq_toNat_cond, BitVec.toInt_eq_toNat_cond]
  simp only [BitVec.extractLsb'_toNat, Nat.shiftRight_eq_div_pow]
  omega

theorem round_nz' (v : BitVec 64) (h1 : (round v).toInt ≤ 0x1ffff) (h2 : -0x20000 ≤ (round v).toInt)
    (h3 : 0x7ff < v.toInt ∨ v.toInt < -0x800) : (round v).extractLsb' 12 6 ≠ 0#6 := by
  have hi := BitVec.toInt_eq_toNat_cond v
  have hi2 := BitVec.toInt_eq_toNat_cond (round v)
  have := v.isLt
  rw [ne_eq, ← BitVec.toNat_inj]
  simp only [BitVec.extractLsb'_toNat, round_toNat, Nat.shiftRight_eq_div_pow] at *
  have e6 : (0#6).toNat = 0 := rfl
  rw [e6]
  by_cases hb : v.toNat / 2048 % 2 = 1
  · simp only [hb, if_true] at hi2 ⊢
    split at hi <;> split at hi2 <;> omega
  · simp only [hb, if_false] at hi2 ⊢
    split at hi <;> split at hi2 <;> omega

/-- The `ADDI`/`C_ADDI` of a 12 bit constant (sljitNativeRISCV_64.c:174-178, :184-187). -/
theorem run_addi12 (cfg : Cfg) (d : Nat) (x : BitVec 64) (hx : x.toNat < 4096) (hd : regMap d ≠ 0#5) (s : St) :
    ∃ s', run (if cfg.c && (x.toInt ≤ 0x1f || 0xfe0 ≤ x.toInt) then w16 (C_ADDI ||| C_RD d ||| C_IMM_I x)
     else w32 (ADDI ||| RD d ||| RS1 d ||| IMM_I x)) s = some s' ∧
      s'.rd (regMap d) = s.rd (regMap d) + (x.setWidth 12).signExtend 64 ∧ Keep [regMap d] s s' := by
  split
  · next h =>
    simp only [Bool.and_eq_true, Bool.or_eq_true, decide_eq_true_eq] at h
    refine ⟨_, by rw [run16' (dec_C_ADDI ..)]; rfl, ?_, (Keep.wr _ _ _ _ (by simp)).adv _⟩
    simp only [rd_adv, rd_wr, hd, if_false, if_true, IOp.eval]
    rw [cimm12 _ h.2 hx]
  · refine ⟨_, by rw [run32' (dec_ADDI ..)]; rfl, ?_, (Keep.wr _ _ _ _ (by simp)).adv _⟩
    simp only [rd_adv, rd_wr, hd, if_false, if_true, IOp.eval]

theorem shl32_ext (a b : BitVec 64) (h : a.setWidth 32 = b.setWidth 32) : a <<< 32 = b <<< 32 := by
  apply BitVec.eq_of_getLsbD_eq
  intro k hk
  simp only [BitVec.getLsbD_shiftLeft, hk, decide_true, Bool.true_and]
  by_cases h32 : k < 32
  · simp [h32]
  · have := congrArg (fun x => x.getLsbD (k - 32)) h
    simpa [-BitVec.getLsbD_eq_getElem, h32, show k - 32 < 32 by omega] using this

theorem L1_32 (v : BitVec 64) :
    (uimm ((round v).extractLsb' 12 20) + ((round v &&& 0xfff#64).setWidth 12).signExtend 64) <<< 32 = v <<< 32 := by
  apply shl32_ext
  apply BitVec.eq_of_toNat_eq
  have hu : (uimm ((round v).extractLsb' 12 20)).toInt = _ := uimm_toInt _
  have hs := sext12_toInt ((round v &&& 0xfff#64).setWidth 12)
  rw [BitVec.toInt_eq_toNat_cond] at hu hs
  have := v.isLt
  have b1 := (uimm ((round v).extractLsb' 12 20)).isLt
  have b2 := (((round v &&& 0xfff#64).setWidth 12).signExtend 64).isLt
  rw [BitVec.toNat_setWidth, BitVec.toNat_setWidth, BitVec.toNat_add]
  generalize (uimm ((round v).extractLsb' 12 20)).toNat = U at *
  generalize (((round v &&& 0xfff#64).setWidth 12).signExtend 64).toNat = S at *
  simp only [BitVec.extractLsb'_toNat, BitVec.toNat_setWidth, andfff, round_toNat, Nat.shiftRight_eq_div_pow] at hu hs
  by_cases hb : v.toNat / 2048 % 2 = 1
  · simp only [hb, if_true] at hu hs
    split at hu <;> split at hu <;> split at hs <;> split at hs <;> omega
  · simp only [hb, if_false] at hu hs
    split at hu <;> split at hu <;> split at hs <;> split at hs <;> omega

theorem hi20 (h : BitVec 64) (h1 : h.toInt ≤ 0x7ffff) (h2 : -0x80000 ≤ h.toInt) :
    uimm (h.setWidth 20) <<< 20 = h <<< 32 := by
  have e : uimm (h.setWidth 20) = h <<< 12 := by
    apply BitVec.eq_of_toInt_eq
    have := h.isLt
    rw [uimm_toInt, BitVec.toInt_eq_toNat_cond]
    rw [BitVec.toInt_eq_toNat_cond] at h1 h2
    simp only [BitVec.toNat_setWidth, BitVec.toNat_shiftLeft, Nat.shiftLeft_eq]
    omega
  rw [e, ← BitVec.shiftLeft_add]

theorem and1000_zero (x : BitVec 64) (h : x.toNat < 4096) : x &&& 0x1000#64 = 0#64 := by
  have hb := high 12 h
  apply BitVec.eq_of_getLsbD_eq
  intro k hk
  by_cases h12 : k < 12
  · have : (0x1000#64).getLsbD k = false := by interval_cases k <;> decide
    simp [-BitVec.getLsbD_eq_getElem, this]
  · simp [-BitVec.getLsbD_eq_getElem, hb k (by omega)]

theorem andfff_self (x : BitVec 64) (h : x.toNat < 4096) : x &&& 0xfff#64 = x := by
  apply BitVec.eq_of_toNat_eq; rw [andfff]; omega

theorem hi_ok (tmp : Nat) (high : BitVec 64) (ht : regMap tmp ≠ 0#5) :
    ∃ (x A : BitVec 64) (c : Emit),
      (if high.toInt ≤ 0x7ffff ∧ -0x80000 ≤ high.toInt then
        ((0x1000#64, w32 (LUI ||| RD tmp ||| (high <<< 12).setWidth 32)) : BitVec 64 × Emit)
      else
        let high := if high &&& 0x800#64 ≠ 0#64 then high + 0x1000#64 else high
        (high &&& 0xfff#64, w32 (LUI ||| RD tmp ||| (high &&& ~~~0xfff#64).setWidth 32))) = (x, c) ∧
      Loads c tmp [regMap tmp] A ∧
      ((x = 0x1000#64 ∧ A <<< 20 = high <<< 32) ∨
       (x.toNat < 4096 ∧ (A + (x.setWidth 12).signExtend 64) <<< 32 = high <<< 32)) := by
  split
  · next h =>
    refine ⟨_, _, _, rfl, ?_, Or.inl ⟨rfl, hi20 high h.1 h.2⟩⟩
    intro s
    refine ⟨_, by rw [run32' (dec_LUI_shl ..)]; rfl, ?_, (Keep.wr _ _ _ _ (by simp)).adv _⟩
    simp only [rd_adv, rd_wr, ht, if_false, if_true]
  · simp only []
    rw [← round]
    refine ⟨_, _, _, rfl, ?_, Or.inr ⟨by rw [andfff]; omega, L1_32 high⟩⟩
    intro s
    refine ⟨_, by rw [run32' (dec_LUI_mask ..)]; rfl, ?_, (Keep.wr _ _ _ _ (by simp)).adv _⟩
    simp only [rd_adv, rd_wr, ht, if_false, if_true]

theorem lo_ok (cfg : Cfg) (d : Nat) (v : BitVec 64) (hd : regMap d ≠ 0#5) (hd2 : regMap d ≠ 2#5)
    (h1 : v.toInt ≤ 0x7fffffff) (h2 : S32_MIN ≤ v.toInt) :
    ∃ (x A : BitVec 64) (c : Emit),
      (if v.toInt ≤ SIMM_MAX ∧ SIMM_MIN ≤ v.toInt then
        ((0#64,
          if cfg.c && v.toInt ≤ 0x1f && -0x20 ≤ v.toInt then w16 (C_LI ||| C_RD d ||| C_IMM_I v)
          else w32 (ADDI ||| RD d ||| RS1 TMP_ZERO ||| IMM_I v)) : BitVec 64 × Emit)
      else if S32_MAX < v.toInt then
        (0x1000#64 ||| (v &&& 0xfff#64), w32 (LUI ||| RD d ||| 0x80000000#32))
      else
        let imm := if v &&& 0x800#64 ≠ 0#64 then v + 0x1000#64 else v
        (imm &&& 0xfff#64,
          if cfg.c && imm.toInt ≤ 0x1ffff && -0x20000 ≤ imm.toInt then w16 (C_LUI ||| C_RD d ||| cLuiImm imm)
          else w32 (LUI ||| RD d ||| (imm &&& ~~~0xfff#64).setWidth 32))) = (x, c) ∧
      Loads c d [regMap d] A ∧
      ((x &&& 0x1000#64 ≠ 0#64 ∧ A ^^^ (x.setWidth 12).signExtend 64 = v) ∨
       (x.toNat < 4096 ∧ A + (x.setWidth 12).signExtend 64 = v)) := by
  split
  · next h =>
    refine ⟨_, v, _, rfl, ?_, Or.inr ⟨by simp, by simp⟩⟩
    intro s
    split
    · next hc =>
      simp only [Bool.and_eq_true, decide_eq_true_eq] at hc
      refine ⟨_, by rw [run16' (dec_C_LI ..)]; rfl, ?_, (Keep.wr _ _ _ _ (by simp)).adv _⟩
      simp only [rd_adv, rd_wr, hd, if_false, if_true, IOp.eval]
      rw [cli v hc.1.2 hc.2]; simp
    · refine ⟨_, by rw [run32' (dec_ADDI ..)]; rfl, ?_, (Keep.wr _ _ _ _ (by simp)).adv _⟩
      simp only [rd_adv, rd_wr, hd, if_false, if_true, IOp.eval]
      rw [sext12_self v h.1 h.2]; simp [regMap]
  · next h =>
    split
    · next ht =>
      refine ⟨_, uimm 0x80000#20, _, rfl, ?_, Or.inl ⟨?_, ?_⟩⟩
      · intro s
        refine ⟨_, by rw [run32' (dec_LUI_hi ..)]; rfl, ?_, (Keep.wr _ _ _ _ (by simp)).adv _⟩
        simp only [rd_adv, rd_wr, hd, if_false, if_true]
      · intro hz
        have := congrArg (fun x => x.getLsbD 12) hz
        simp at this
      · have e : (0x1000#64 ||| (v &&& 0xfff#64)).setWidth 12 = v.setWidth 12 := by bits [Nat.reduceAdd]
        rw [e]
        exact xor_top v ht h1
    · next ht =>
      simp only []
      rw [← round]
      refine ⟨_, _, _, rfl, ?_, Or.inr ⟨by rw [andfff]; omega, L1 v (by omega) h2⟩⟩
      intro s
      split
      · next hc =>
        simp only [Bool.and_eq_true, decide_eq_true_eq] at hc
        have hnz := round_nz' v hc.1.2 hc.2 (by omega)
        refine ⟨_, by rw [cLuiImm, run16' (dec_C_LUI _ _ hd2 hnz)]; rfl, ?_, (Keep.wr _ _ _ _ (by simp)).adv _⟩
        simp only [rd_adv, rd_wr, hd, if_false, if_true]
        rw [clui_ext _ hc.1.2 hc.2]
      · refine ⟨_, by rw [run32' (dec_LUI_mask ..)]; rfl, ?_, (Keep.wr _ _ _ _ (by simp)).adv _⟩
        simp only [rd_adv, rd_wr, hd, if_false, if_true]

theorem combine_bits (v : BitVec 64) :
    ((v.setWidth 32).signExtend 64) ^^^
      ((if (v.setWidth 32).signExtend 64 &&& 0x80000000#64 ≠ 0#64 then ~~~(v.sshiftRight 32) else v.sshiftRight 32) <<< 32) = v := by
  have hb : ((v.setWidth 32).signExtend 64 &&& 0x80000000#64 ≠ 0#64) ↔ v.getLsbD 31 = true := by
    constructor
    · intro h
      by_contra hc
      apply h
      apply BitVec.eq_of_getLsbD_eq
      intro k hk
      by_cases hk31 : k = 31
      · subst hk31
        simp [-BitVec.getLsbD_eq_getElem, BitVec.getLsbD_signExtend, Bool.eq_false_iff.mpr hc]
      · have : (0x80000000#64).getLsbD k = false := by
          rw [show (0x80000000#64) = BitVec.twoPow 64 31 from rfl, BitVec.getLsbD_twoPow]
          simp; omega
        simp [-BitVec.getLsbD_eq_getElem, this]
    · intro h hz
      have := congrArg (fun x => x.getLsbD 31) hz
      simp [-BitVec.getLsbD_eq_getElem, BitVec.getLsbD_signExtend, h] at this
  simp only [hb]
  apply BitVec.eq_of_getLsbD_eq
  intro k hk
  simp only [BitVec.getLsbD_xor, BitVec.getLsbD_signExtend, BitVec.getLsbD_shiftLeft, hk, decide_true, Bool.true_and]
  by_cases h32 : k < 32
  · simp [-BitVec.getLsbD_eq_getElem, h32]
  · have e : 32 + (k - 32) = k := by omega
    by_cases h31 : v.getLsbD 31 = true
    · simp [-BitVec.getLsbD_eq_getElem, BitVec.getLsbD_sshiftRight, BitVec.msb_eq_getLsbD_last, h31, h32, e,
        show k - 32 < 64 by omega, show ¬ (64 ≤ k - 32) by omega, hk]
    · simp [-BitVec.getLsbD_eq_getElem, BitVec.getLsbD_sshiftRight, BitVec.msb_eq_getLsbD_last, h31, h32, e,
        show ¬ (64 ≤ k - 32) by omega, hk]

theorem loadImm64_ok (cfg : Cfg) (d t : Nat) (v : BitVec 64) (hd : regMap d ≠ 0#5) (hd2 : regMap d ≠ 2#5)
    (ht : regMap t ≠ 0#5) (hne : regMap d ≠ regMap t) :
    Loads (loadImm64 cfg d v t) d [regMap d, regMap t] v := by
  intro s
  have hne' : regMap t ≠ regMap d := fun h => hne h.symm
  have hcomb := combine_bits v
  unfold loadImm64
  simp only []
  have hv1 : ((v.setWidth 32).signExtend 64).toInt ≤ 0x7fffffff ∧ -0x80000000 ≤ ((v.setWidth 32).signExtend 64).toInt := by
    rw [BitVec.toInt_signExtend_of_le (by decide)]
    have h1 := BitVec.toInt_lt (x := v.setWidth 32)
    have h2 := BitVec.le_toInt (x := v.setWidth 32)
    omega
  generalize (v.setWidth 32).signExtend 64 = w at *
  generalize (if w &&& 0x80000000#64 ≠ 0#64 then ~~~(v.sshiftRight 32) else v.sshiftRight 32) = high at *
  obtain ⟨x, A, cx, ex, hA, hx⟩ := hi_ok t high ht
  obtain ⟨y, B, cy, ey, hB, hy⟩ := lo_ok cfg d w hd hd2 hv1.1 hv1.2
  rw [ex, ey]
  simp only []
  obtain ⟨s1, r1, v1, k1⟩ := hA s
  obtain ⟨s2, r2, v2, k2⟩ := hB s1
  have hs2t : s2.rd (regMap t) = A := by rw [k2.reg _ (by simp [hne']), v1]
  -- the adjustment of the high part
  have stepH : ∃ s3 n, (if x &&& 0x1000#64 ≠ 0#64 then 20#64 else 32#64) = n ∧ n.toNat < 64 ∧
      run (if x &&& 0xfff#64 ≠ 0#64 then
        (if cfg.c && (x.toInt ≤ 0x1f || 0xfe0 ≤ x.toInt) then w16 (C_ADDI ||| C_RD t ||| C_IMM_I x)
         else w32 (ADDI ||| RD t ||| RS1 t ||| IMM_I x)) else []) s2 = some s3 ∧
      s3.rd (regMap t) <<< n.toNat = high <<< 32 ∧ Keep [regMap t] s2 s3 := by
    rcases hx with ⟨hx, e⟩ | ⟨hx, e⟩
    · subst hx
      refine ⟨s2, 20#64, by decide, by decide, by simp [run], ?_, Keep.refl _ _⟩
      rw [hs2t]; exact e
    · have h1k := and1000_zero x hx
      rw [andfff_self x hx]
      by_cases hz : x = 0#64
      · subst hz
        refine ⟨s2, 32#64, by decide, by decide, by simp [run], ?_, Keep.refl _ _⟩
        rw [hs2t]; simpa using e
      · obtain ⟨s3, r3, v3, k3⟩ := run_addi12 cfg t x hx ht s2
        refine ⟨s3, 32#64, by simp [h1k], by decide, by rw [if_pos hz]; exact r3, ?_, k3⟩
        rw [v3, hs2t]; exact e
  obtain ⟨s3, n, en, hn, r3, v3, k3⟩ := stepH
  have hs3d : s3.rd (regMap d) = B := by rw [k3.reg _ (by simp [hne]), v2]
  have stepL : ∃ s4,
      run (if y &&& 0x1000#64 ≠ 0#64 then w32 (XORI ||| RD d ||| RS1 d ||| IMM_I y)
       else if y ≠ 0#64 then
        (if cfg.c && (y.toInt ≤ 0x1f || 0xfe0 ≤ y.toInt) then w16 (C_ADDI ||| C_RD d ||| C_IMM_I y)
         else w32 (ADDI ||| RD d ||| RS1 d ||| IMM_I y)) else []) s3 = some s4 ∧
      s4.rd (regMap d) = w ∧ Keep [regMap d] s3 s4 := by
    rcases hy with ⟨hy, e⟩ | ⟨hy, e⟩
    · rw [if_pos hy]
      refine ⟨_, by rw [run32' (dec_XORI ..)]; rfl, ?_, (Keep.wr _ _ _ _ (by simp)).adv _⟩
      simp only [rd_adv, rd_wr, hd, if_false, if_true, IOp.eval]
      rw [hs3d]; exact e
    · have h1k := and1000_zero y hy
      rw [if_neg (by simp [h1k])]
      by_cases hz : y = 0#64
      · subst hz
        refine ⟨s3, by simp [run], ?_, Keep.refl _ _⟩
        rw [hs3d]; simpa using e
      · obtain ⟨s4, r4, v4, k4⟩ := run_addi12 cfg d y hy hd s3
        refine ⟨s4, by rw [if_pos hz]; exact r4, ?_, k4⟩
        rw [v4, hs3d]; exact e
  obtain ⟨s4, r4, v4, k4⟩ := stepL
  rw [en]
  obtain ⟨s5, r5, v5, k5⟩ := emitSlli_run cfg t n hn ht s4
  have hs5d : s5.rd (regMap d) = w := by rw [k5.reg _ (by simp [hne]), v4]
  have hs5t : s5.rd (regMap t) = high <<< 32 := by rw [v5, k4.reg _ (by simp [hne']), v3]
  refine ⟨_, run_seq (run_seq (run_seq (run_seq (run_seq r1 r2) r3) r4) r5)
    (by rw [run32' (dec_XOR ..)]; rfl), ?_, ?_⟩
  · simp only [rd_adv, rd_wr, hd, if_false, if_true, ROp.eval]
    rw [hs5d, hs5t]; exact hcomb
  · have m1 : ∀ {a b : St}, Keep [regMap d] a b → Keep [regMap d, regMap t] a b := fun h => h.mono (by simp)
    have m2 : ∀ {a b : St}, Keep [regMap t] a b → Keep [regMap d, regMap t] a b := fun h => h.mono (by simp)
    exact ((((((m2 k1).trans (m1 k2)).trans (m2 k3)).trans (m1 k4)).trans (m2 k5)).wr' _ _ (by simp)).adv _

/-- load_immediate puts exactly the requested constant into the destination register, for every
constant, with and without the compressed instruction set. -/
theorem loadImm_ok (cfg : Cfg) (d t : Nat) (v : BitVec 64) (hd : regMap d ≠ 0#5) (hd2 : regMap d ≠ 2#5)
    (ht : regMap t ≠ 0#5) (hne : regMap d ≠ regMap t) :
    Loads (loadImm cfg d v t) d [regMap d, regMap t] v := by
  have mono : ∀ {c : Emit} {v : BitVec 64}, Loads c d [regMap d] v → Loads c d [regMap d, regMap t] v := by
    intro c v h s
    obtain ⟨s', r, e, k⟩ := h s
    exact ⟨s', r, e, k.mono (by simp)⟩
  unfold loadImm
  split
  · next h =>
    apply mono
    apply loadImmS32_ok cfg d v hd hd2
    · simp only [Bool.and_eq_true, decide_eq_true_eq] at h; omega
    · simp only [Bool.and_eq_true, decide_eq_true_eq] at h; omega
  · next h =>
    simp only []
    have hv : ¬ (v.toInt ≤ 0x7fffffff ∧ S32_MIN ≤ v.toInt) := fun hc => h (Or.inr hc)
    have hnz : v ≠ 0#64 := by
      intro e; subst e; simp at hv
    split
    · next hp =>
      apply mono
      intro s
      have hs := shiftTail_spec v hnz _ (shiftLoop_spec v hnz 8 v 0#64 (by simp)).1
      obtain ⟨s1, r1, v1, k1⟩ := loadImmS32_ok cfg d _ hd hd2 hp.1 hp.2 s
      obtain ⟨s2, r2, v2, k2⟩ := emitSlli_run cfg d _ (shl_nz hnz hs) hd s1
      refine ⟨s2, run_seq r1 r2, ?_, k1.trans k2⟩
      rw [v2, v1, hs]
    · split
      · next h44 =>
        apply mono
        intro s
        have hb := BitVec.toInt_eq_toNat_cond v
        have hr : (v.sshiftRight 12).toInt = v.toInt / 4096 := by
          rw [BitVec.toInt_sshiftRight, Int.shiftRight_eq_div_pow]; rfl
        have hn : (~~~(v.sshiftRight 12)).toInt = - (v.toInt / 4096) - 1 := by
          rw [BitVec.toInt_not, ← hr, BitVec.toInt_eq_toNat_cond]
          have := (v.sshiftRight 12).isLt
          unfold Int.bmod
          simp only []
          split <;> split <;> omega
        have hrange : ∀ u : BitVec 64, (u = ~~~(v.sshiftRight 12) ∨ u = v.sshiftRight 12) →
            (u.toInt ≤ 0x7fffffff ∧ S32_MIN ≤ u.toInt ∧ (0x7ff < u.toInt ∨ u.toInt < -0x800)) := by
          rintro u (e | e)
          · rw [e, hn]; omega
          · rw [e, hr]; omega
        have hu := hrange (if v &&& 0x800#64 ≠ 0#64 then ~~~(v.sshiftRight 12) else v.sshiftRight 12)
          (by split <;> simp)
        have hx := mid_xor v
        generalize (if v &&& 0x800#64 ≠ 0#64 then ~~~(v.sshiftRight 12) else v.sshiftRight 12) = u at hu hx ⊢
        obtain ⟨s1, r1, v1, k1⟩ := loadImm32_ok cfg d u hd hd2 hu.1 hu.2.1 hu.2.2 s
        obtain ⟨s2, r2, v2, k2⟩ := emitSlli_run cfg d 12#64 (by decide) hd s1
        refine ⟨_, run_seq (run_seq r1 r2) (by rw [run32' (dec_XORI ..)]; rfl), ?_, ((k1.trans k2).wr' _ _ (by simp)).adv _⟩
        simp only [rd_adv, rd_wr, hd, if_false, if_true, IOp.eval]
        rw [v2, v1]; exact hx
      · exact loadImm64_ok cfg d t v hd hd2 ht hne

end Verif.RV
