import Verif.A64.JumpWords
import Verif.A64.Post

/-! # Jumps and move addresses after patching (helper lemmas) -/

namespace Verif.A64
open Verif.Imm (bits_range bits_lt)
open Verif.Imm.A64 (fld)
open Verif.Imm.Arm64 (regMap RD RN MOVZ MOVK)

theorem taken_off (j : JInfo) (s : St) : taken j s = match j.skip with | none => true | some k => k.off s := by
  unfold taken
  cases j.skip with
  | none => rfl
  | some k => cases k <;> rfl

theorem movzk_words (r : BitVec 5) (a : BitVec 64) (n : Nat) : movzk (r.setWidth 32) a n =
    [wideW false 0#2 (a.setWidth 16) r, wideW true 1#2 ((a >>> 16).setWidth 16) r] ++
    (if 3 ≤ n then [wideW true 2#2 ((a >>> 32).setWidth 16) r] else []) ++ (if 4 ≤ n then [wideW true 3#2 ((a >>> 48).setWidth 16) r] else []) := by
  have e0 := movz_w (a.setWidth 32) r
  have e1 := movk_w 1#2 ((a.sshiftRight 16).setWidth 32) r
  have e2 := movk_w 2#2 ((a.sshiftRight 32).setWidth 32) r
  have e3 := movk_w 3#2 ((a >>> 48).setWidth 32) r
  have m3 : (a >>> 48).setWidth 32 &&& 0xffff#32 = (a >>> 48).setWidth 32 := by
    apply BitVec.eq_of_getLsbD_eq; intro i hi; interval_cases i <;> simp [-BitVec.getLsbD_eq_getElem, -BitVec.setWidth_eq]
  rw [m3] at e3
  have w0 : (a.setWidth 32).setWidth 16 = a.setWidth 16 := by
    apply BitVec.eq_of_getLsbD_eq; intro i hi; interval_cases i <;> simp [-BitVec.getLsbD_eq_getElem, -BitVec.setWidth_eq]
  have w1 : ((a.sshiftRight 16).setWidth 32).setWidth 16 = (a >>> 16).setWidth 16 := by
    apply BitVec.eq_of_getLsbD_eq; intro i hi; interval_cases i <;> simp [-BitVec.getLsbD_eq_getElem, -BitVec.setWidth_eq, BitVec.getLsbD_sshiftRight]
  have w2 : ((a.sshiftRight 32).setWidth 32).setWidth 16 = (a >>> 32).setWidth 16 := by
    apply BitVec.eq_of_getLsbD_eq; intro i hi; interval_cases i <;> simp [-BitVec.getLsbD_eq_getElem, -BitVec.setWidth_eq, BitVec.getLsbD_sshiftRight]
  have w3 : ((a >>> 48).setWidth 32).setWidth 16 = (a >>> 48).setWidth 16 := by
    apply BitVec.eq_of_getLsbD_eq; intro i hi; interval_cases i <;> simp [-BitVec.getLsbD_eq_getElem, -BitVec.setWidth_eq]
  rw [w0] at e0; rw [w1] at e1; rw [w2] at e2; rw [w3] at e3
  rw [movzk, e0, ← e1, ← e2, ← e3]; rfl

theorem setJumpAddr_movzk (w : BitVec 32) (r : BitVec 5) (hw : w &&& 0x1f#32 = r.setWidth 32) (t : BitVec 64) :
    setJumpAddr w t = movzk (r.setWidth 32) t 4 := by
  have s1 : (t >>> 16).setWidth 32 &&& 0xffff#32 = (t.sshiftRight 16).setWidth 32 &&& 0xffff#32 := by
    apply BitVec.eq_of_getLsbD_eq; intro i hi; interval_cases i <;> simp [-BitVec.getLsbD_eq_getElem, -BitVec.setWidth_eq, BitVec.getLsbD_sshiftRight]
  have s2 : (t >>> 32).setWidth 32 &&& 0xffff#32 = (t.sshiftRight 32).setWidth 32 &&& 0xffff#32 := by
    apply BitVec.eq_of_getLsbD_eq; intro i hi; interval_cases i <;> simp [-BitVec.getLsbD_eq_getElem, -BitVec.setWidth_eq, BitVec.getLsbD_sshiftRight]
  have oc : ∀ a b c : BitVec 32, a ||| b ||| c = a ||| c ||| b := by intros; ac_rfl
  have oc4 : ∀ a b c d : BitVec 32, a ||| b ||| c ||| d = a ||| c ||| d ||| b := by intros; ac_rfl
  simp only [setJumpAddr, hw, s1, s2, movzk, oc MOVZ (r.setWidth 32), oc4 MOVK (r.setWidth 32)]
  rfl

theorem movzk_len (d : BitVec 32) (a : BitVec 64) (n : Nat) : (movzk d a n).length = 2 + (if 3 ≤ n then 1 else 0) + (if 4 ≤ n then 1 else 0) := by
  simp only [movzk]; split <;> split <;> rfl

/-- MOVZ and MOVK load an address of at most n halfwords. -/
theorem movzk_run (r : BitVec 5) (hr : r ≠ 31#5) (a : BitVec 64) (n : Nat) (hn : n = 2 ∨ n = 3 ∨ n = 4) (ha : a.toNat < 2 ^ (16 * n)) (s : St) :
    runs (movzk (r.setWidth 32) a n) s = some (s.set r a) := by
  rw [movzk_words]
  rcases hn with rfl | rfl | rfl
  · exact wide2_run a ha r hr s
  · exact wide3_run a ha r hr s
  · exact wide4_run a r hr s

/-! ## ADR and ADRP -/

def adrW (page : Bool) (i : BitVec 21) (r : BitVec 5) : BitVec 32 :=
  (if page then 1#1 else 0#1) ++ i.extractLsb' 0 2 ++ 0b10000#5 ++ i.extractLsb' 2 19 ++ r

theorem ctl_adr (page : Bool) (i : BitVec 21) (r : BitVec 5) :
    ctl (adrW page i r) = some (.adr page (if page then (i ++ 0#12 : BitVec 33).signExtend 64 else i.signExtend 64) r) := by
  generalize e : adrW page i r = w
  have bb : ∀ k, k < 32 → w.getLsbD k = if k < 5 then r.getLsbD k else if k < 24 then i.getLsbD (k - 3) else if k < 29 then (0b10000#5).getLsbD (k - 24) else
      if k < 31 then i.getLsbD (k - 29) else page := by
    intro k hk
    subst e
    simp only [adrW, BitVec.getLsbD_append]
    interval_cases k <;> cases page <;> simp [-BitVec.getLsbD_eq_getElem, -BitVec.setWidth_eq]
  have ff : ∀ lo n (v : BitVec n), lo + n ≤ 32 → (∀ k, k < n → w.getLsbD (lo + k) = v.getLsbD k) → fld w lo n = v := by
    intro lo n v _ h
    apply BitVec.eq_of_getLsbD_eq; intro k hk; rw [fld_bit _ _ _ _ hk]; exact h k hk
  have h0 : fld w 24 5 = 0b10000#5 := by
    apply ff _ _ _ (by decide); intro k hk; rw [bb _ (by omega)]; interval_cases k <;> rfl
  have h1 : ¬ fld w 26 5 = 0b00101#5 := by
    intro h
    have := congrArg (fun v : BitVec 5 => v.getLsbD 0) h
    simp only [fld_bit w 26 5 0 (by decide), bb _ (show 26 + 0 < 32 by decide)] at this
    exact absurd this (by simp [-BitVec.getLsbD_eq_getElem])
  have h2 : ¬ fld w 24 8 = 0x54#8 := by
    intro h
    have := congrArg (fun v : BitVec 8 => v.getLsbD 2) h
    simp only [fld_bit w 24 8 2 (by decide), bb _ (show 24 + 2 < 32 by decide)] at this
    exact absurd this (by simp [-BitVec.getLsbD_eq_getElem])
  have h3 : ¬ fld w 25 6 = 0b011010#6 := by
    intro h
    have := congrArg (fun v : BitVec 6 => v.getLsbD 1) h
    simp only [fld_bit w 25 6 1 (by decide), bb _ (show 25 + 1 < 32 by decide)] at this
    exact absurd this (by simp [-BitVec.getLsbD_eq_getElem])
  have h4 : bit w 31 = page := by rw [bit, bb _ (by decide)]; rfl
  have h5 : fld w 0 5 = r := by
    apply ff _ _ _ (by decide); intro k hk; rw [bb _ (by omega), if_pos (by omega)]; congr 1; omega
  have h6 : (fld w 5 19 ++ fld w 29 2 : BitVec 21) = i := by
    apply BitVec.eq_of_getLsbD_eq; intro k hk
    rw [BitVec.getLsbD_append]
    split
    · rw [fld_bit _ _ _ _ (by omega), bb _ (by omega)]
      simp only [if_neg (show ¬ 29 + k < 5 by omega), if_neg (show ¬ 29 + k < 24 by omega), if_neg (show ¬ 29 + k < 29 by omega), if_pos (show 29 + k < 31 by omega)]
      congr 1; omega
    · rw [fld_bit _ _ _ _ (by omega), bb _ (by omega)]
      simp only [if_neg (show ¬ 5 + (k - 2) < 5 by omega), if_pos (show 5 + (k - 2) < 24 by omega)]
      congr 1; omega
  rw [ctl, if_neg h1, if_neg h2, if_neg h3, if_pos h0]
  simp only [h4, h5, h6]

theorem adr_word (d : BitVec 64) (r : BitVec 5) :
    ADR ||| ((d.setWidth 32 &&& 3#32) <<< 29) ||| (((d.sshiftRight 2).setWidth 32 &&& 0x7ffff#32) <<< 5) ||| r.setWidth 32 = adrW false (d.setWidth 21) r := by
  apply BitVec.eq_of_getLsbD_eq; intro k hk
  simp only [adrW, BitVec.getLsbD_append]
  interval_cases k <;> simp [-BitVec.getLsbD_eq_getElem, -BitVec.setWidth_eq, ADR, BitVec.getLsbD_sshiftRight]

theorem adrp_word (d : BitVec 64) (r : BitVec 5) :
    ADRP ||| (((d.sshiftRight 12).setWidth 32 &&& 3#32) <<< 29) ||| (((d.sshiftRight 14).setWidth 32 &&& 0x7ffff#32) <<< 5) ||| r.setWidth 32 =
      adrW true ((d.sshiftRight 12).setWidth 21) r := by
  apply BitVec.eq_of_getLsbD_eq; intro k hk
  simp only [adrW, BitVec.getLsbD_append]
  interval_cases k <;> simp [-BitVec.getLsbD_eq_getElem, -BitVec.setWidth_eq, ADRP, BitVec.getLsbD_sshiftRight]

theorem adr_sext {d : BitVec 64} (h1 : -(2 ^ 20 : Int) ≤ d.toInt) (h2 : d.toInt < 2 ^ 20) : (d.setWidth 21).signExtend 64 = d := by
  have hr := bits_range (n := 20) (by decide) h1 h2
  apply BitVec.eq_of_getLsbD_eq; intro k hk
  rw [BitVec.getLsbD_signExtend, BitVec.msb_eq_getLsbD_last, BitVec.getLsbD_setWidth, BitVec.getLsbD_setWidth]
  simp only [hk, decide_true, Bool.true_and]
  split
  · next h => simp [h]
  · next h =>
    rw [hr k (by omega) hk, hr 20 (by omega) (by omega)]; rfl

theorem adrp_sext {d : BitVec 64} (h1 : -(2 ^ 32 : Int) ≤ d.toInt) (h2 : d.toInt < 2 ^ 32) :
    (((d.sshiftRight 12).setWidth 21 ++ 0#12 : BitVec 33)).signExtend 64 = d &&& ~~~0xfff#64 := by
  have hr := bits_range (n := 32) (by decide) h1 h2
  have low : ∀ k, k < 33 → ((d.sshiftRight 12).setWidth 21 ++ 0#12 : BitVec 33).getLsbD k = (decide (12 ≤ k) && d.getLsbD k) := by
    intro k hk
    rw [BitVec.getLsbD_append]
    interval_cases k <;> simp [-BitVec.getLsbD_eq_getElem, -BitVec.setWidth_eq, BitVec.getLsbD_sshiftRight]
  apply BitVec.eq_of_getLsbD_eq; intro k hk
  rw [BitVec.getLsbD_signExtend, BitVec.msb_eq_getLsbD_last]
  have m : (d &&& ~~~0xfff#64).getLsbD k = (decide (12 ≤ k) && d.getLsbD k) := by
    clear low hr h1 h2
    interval_cases k <;> simp [-BitVec.getLsbD_eq_getElem]
  rw [m]
  simp only [hk, decide_true, Bool.true_and]
  split
  · next h => exact low k h
  · next h =>
    rw [low _ (by omega), hr k (by omega) hk, hr (33 - 1) (by omega) (by omega)]
    have e : 12 ≤ k := by omega
    simp [e]

theorem e_addi (sub : Bool) (imm : BitVec 64) (rn rd : BitVec 5) (s : St) :
    exec (.addImm true sub false imm rn rd) s = some (s.set rd (if sub then s.r rn - imm else s.r rn + imm)) := by
  simp only [exec, Bool.false_eq_true, if_false]
  congr 2
  cases sub
  · simp only [Bool.false_eq_true, if_false, awc, lo, up]
    apply BitVec.eq_of_toNat_eq
    simp [W]
  · simp only [if_true]
    rw [awc_sub _ _ (by decide)]
    simp only [lo, up, W]
    simp
    rfl

/-- ADRP and ADD load an address in the range of 4 GB. -/
theorem adrpAdd_run {c : IMem} {p : PSt} (reg : Nat) (hr : regMap reg ≠ 31#5) (t : BitVec 64)
    (h1 : -(2 ^ 32 : Int) ≤ (t - (p.pc &&& ~~~0xfff#64)).toInt) (h2 : (t - (p.pc &&& ~~~0xfff#64)).toInt < 2 ^ 32)
    (hw : WordsAt c p.pc (adrpAdd (RD reg) (t - (p.pc &&& ~~~0xfff#64)))) :
    PSteps c p { p with s := p.s.set (regMap reg) t, pc := p.pc + 8#64 } := by
  generalize hd : t - (p.pc &&& ~~~0xfff#64) = d at *
  obtain ⟨w1, w2, -⟩ := hw
  rw [show RD reg = (regMap reg).setWidth 32 from rfl, adrp_word] at w1
  refine .step (pstep_ctl w1 (ctl_adr _ _ _)) ?_
  simp only [ctlExec, if_true, adrp_sext h1 h2]
  have i12 : ((d &&& 0xfff#64).setWidth 32 <<< 10) = ((d.setWidth 12).setWidth 32 <<< 10) := by
    congr 1
    apply BitVec.eq_of_getLsbD_eq; intro k hk; interval_cases k <;> simp [-BitVec.getLsbD_eq_getElem, -BitVec.setWidth_eq]
  rw [i12] at w2
  have ea := s_addi (d := reg) (n := reg) (s := p.s.set (regMap reg) ((p.pc &&& ~~~0xfff#64) + (d &&& ~~~0xfff#64))) ⟨false, false, false⟩ false (d.setWidth 12)
  have ew : ((if false = true then SUBI else ADDI) ^^^ Fl.chk ⟨false, false, false⟩ (1#32 <<< 29)) ||| RD reg ||| RN reg ||| (d.setWidth 12).setWidth 32 <<< 10 =
    ADDI ||| RD reg ||| (RD reg <<< 5) ||| ((d.setWidth 12).setWidth 32 <<< 10) := by
    have : ((if false = true then SUBI else ADDI) ^^^ Fl.chk ⟨false, false, false⟩ (1#32 <<< 29)) = ADDI := by decide
    rw [this]; rfl
  rw [ew] at ea
  simp only [St.setX, if_neg hr]
  refine PSteps.one ?_
  have hs : step (ADDI ||| RD reg ||| (RD reg <<< 5) ||| ((d.setWidth 12).setWidth 32 <<< 10)) (p.s.set (regMap reg) ((p.pc &&& ~~~0xfff#64) + (d &&& ~~~0xfff#64))) =
      some (p.s.set (regMap reg) t) := by
    rw [ea]
    show exec (.addImm true false false _ _ _) _ = _
    rw [e_addi, if_neg (by decide), wset_set]
    congr 2
    show (p.s.set (regMap reg) _).r (regMap reg) + _ = t
    have hv : d &&& ~~~0xfff#64 = d - (d.setWidth 12).setWidth 64 := by
      have e1 : (d &&& ~~~0xfff#64) + (d.setWidth 12).setWidth 64 = d := by
        rw [BitVec.add_eq_or_of_and_eq_zero]
        · bits64 []
        · bits64 []
      rw [eq_comm, BitVec.sub_eq_iff_eq_add]; exact e1.symm
    simp only [St.set, if_true]
    rw [hv, ← hd, BitVec.add_assoc, BitVec.sub_add_cancel, BitVec.add_comm, BitVec.sub_add_cancel]
  rw [pstep_plain (p := { p with s := p.s.set (regMap reg) ((p.pc &&& ~~~0xfff#64) + (d &&& ~~~0xfff#64)), pc := p.pc + 4#64 }) w2 hs]
  simp only [BitVec.add_assoc]; rfl

/-! ## Jumps after the final pass -/

/-- The words of a jump at `a` (address of its first word) to `t`. -/
def jumpFin (j : JInfo) (t a : BitVec 64) : Patch → List (BitVec 32)
  | .cond => j.skipW fun k => cw true k (((t - a).sshiftRight 2).setWidth 19)
  | .b => j.skipW (fun k => cw false k 2#19) ++
      [(if j.call then BL else B) ||| (((t - (a + BitVec.ofNat 64 (4 * j.pre))).sshiftRight 2) &&& 0x3ffffff#64).setWidth 32]
  | .b32 => j.skipW (fun k => cw false k 4#19) ++ (adrpAdd (RD TMP_REG2) (t - ((a + BitVec.ofNat 64 (4 * j.pre)) &&& ~~~0xfff#64)) ++ [j.br])
  | .abs32 => j.skipW (fun k => cw false k 4#19) ++ (movzk (RD TMP_REG2) t 2 ++ [j.br])
  | .abs48 => j.skipW (fun k => cw false k 5#19) ++ (movzk (RD TMP_REG2) t 3 ++ [j.br])
  | .abs64 => j.skipW (fun k => cw false k 6#19) ++ (movzk (RD TMP_REG2) t 4 ++ [j.br])

/-- The encoding fits. -/
def JumpFits (j : JInfo) (t a : BitVec 64) : Patch → Prop
  | .cond => j.skip.isSome = true ∧ (t - a).toNat % 4 = 0 ∧ -(2 ^ 20 : Int) ≤ (t - a).toInt ∧ (t - a).toInt < 2 ^ 20
  | .b => (t - (a + BitVec.ofNat 64 (4 * j.pre))).toNat % 4 = 0 ∧ -(2 ^ 27 : Int) ≤ (t - (a + BitVec.ofNat 64 (4 * j.pre))).toInt ∧
      (t - (a + BitVec.ofNat 64 (4 * j.pre))).toInt < 2 ^ 27
  | .b32 => -(2 ^ 32 : Int) ≤ (t - ((a + BitVec.ofNat 64 (4 * j.pre)) &&& ~~~0xfff#64)).toInt ∧
      (t - ((a + BitVec.ofNat 64 (4 * j.pre)) &&& ~~~0xfff#64)).toInt < 2 ^ 32
  | .abs32 => t.toNat < 2 ^ 32
  | .abs48 => t.toNat < 2 ^ 48
  | .abs64 => True

/-- The words after the conditional branch go to `t`. -/
theorem tail_does {c : IMem} {j : JInfo} {t : BitVec 64} {ws : List (BitVec 32)} {p0 : BitVec 64}
    (h : ∀ p : PSt, p.pc = p0 + BitVec.ofNat 64 (4 * j.pre) → WordsAt c p.pc ws → if j.call then Goes c [10#5, 30#5] p t fun p' => p'.s.r 30#5 = p.pc + BitVec.ofNat 64 (4 * ws.length)
      else Goes c [10#5] p t fun _ => True)
    (hs : ∀ k, j.skip = some k → k.Ok ∧ j.call = false) (i : BitVec 19) (hi : (i ++ 0#2 : BitVec 21).signExtend 64 = BitVec.ofNat 64 (4 * (ws.length + 1)))
    {p : PSt} (hp : p.pc = p0) (hw : WordsAt c p.pc (j.skipW (fun k => cw false k i) ++ ws)) :
    JumpDoes c j t (j.skipW (fun k => cw false k i) ++ ws).length p := by
  unfold JInfo.skipW at hw ⊢
  unfold JumpDoes
  cases hj : j.skip with
  | none =>
    rw [hj] at hw
    have := h p (by simp [hp, JInfo.pre, hj]) hw
    rw [taken_off, hj]
    exact this
  | some k =>
    rw [hj] at hw
    obtain ⟨hk, hc⟩ := hs k hj
    obtain ⟨w1, w2⟩ := hw
    rw [hc, if_neg (by decide), taken_off, hj]
    have st := pstep_cw hk w1
    by_cases ho : k.off p.s = true
    · rw [ho, if_neg (by decide)] at st
      have := h { p with pc := p.pc + 4#64 } (by simp [hp, JInfo.pre, hj]) w2
      rw [hc, if_neg (by decide)] at this
      obtain ⟨p', a1, a2⟩ := this
      simp only [ho, if_true]
      exact ⟨p', .step st a1, a2⟩
    · have ho' : k.off p.s = false := by simpa using ho
      rw [ho', if_pos rfl, hi] at st
      simp only [ho', Bool.false_eq_true, if_false]
      refine ⟨_, .one st, ?_, fun _ _ => rfl, rfl, rfl, rfl, trivial⟩
      simp only [List.length_append, List.length_singleton, Nat.add_comm]

theorem ctl_br (j : JInfo) : ctl j.br = some (.br j.call 10#5) := by
  unfold JInfo.br
  cases j.call <;> decide +kernel

/-- Loading the address and branching to it. -/
theorem load_br {c : IMem} {j : JInfo} {t : BitVec 64} {p : PSt} {n : Nat} (h : PSteps c p { p with s := p.s.set 10#5 t, pc := p.pc + BitVec.ofNat 64 (4 * n) })
    (hw : c (p.pc + BitVec.ofNat 64 (4 * n)) = j.br) :
    if j.call then Goes c [10#5, 30#5] p t fun p' => p'.s.r 30#5 = p.pc + BitVec.ofNat 64 (4 * (n + 1)) else Goes c [10#5] p t fun _ => True := by
  have st := h.trans (.one (pstep_ctl (p := { p with s := p.s.set 10#5 t, pc := p.pc + BitVec.ofNat 64 (4 * n) }) hw (ctl_br j)))
  have ex : (p.s.set 10#5 t).x 10#5 = t := wx_set _ _ (by decide) _
  split
  · next hc =>
    simp only [ctlExec, hc, if_true, ex] at st
    refine ⟨_, st, rfl, ?_, rfl, rfl, rfl, ?_⟩
    · intro q hq
      simp only [List.mem_cons, List.not_mem_nil, or_false, not_or] at hq
      simp only [St.setX, St.set, if_neg hq.1, if_neg hq.2, show ¬ (30#5 = 31#5) by decide, if_false]
    · simp only [St.setX, St.set, show ¬ (30#5 = 31#5) by decide, if_false, if_true]
      rw [Nat.mul_add, BitVec.ofNat_add, BitVec.add_assoc]
  · next hc =>
    simp only [ctlExec, Bool.eq_false_iff.mpr hc, Bool.false_eq_true, if_false, ex] at st
    refine ⟨_, st, rfl, ?_, rfl, rfl, rfl, trivial⟩
    intro q hq
    simp only [List.mem_singleton] at hq
    simp only [St.set, if_neg hq]

theorem movzk_br {c : IMem} {j : JInfo} {t : BitVec 64} {n : Nat} (hn : n = 2 ∨ n = 3 ∨ n = 4) (ha : t.toNat < 2 ^ (16 * n)) (p : PSt)
    (hw : WordsAt c p.pc (movzk (RD TMP_REG2) t n ++ [j.br])) :
    if j.call then Goes c [10#5, 30#5] p t fun p' => p'.s.r 30#5 = p.pc + BitVec.ofNat 64 (4 * (movzk (RD TMP_REG2) t n ++ [j.br]).length)
    else Goes c [10#5] p t fun _ => True := by
  rw [WordsAt.append] at hw
  rw [List.length_append]
  exact load_br (psteps_runs _ hw.1 (movzk_run 10#5 (by decide) t n hn ha p.s)) hw.2.1

/-- A patched jump does what it has to do. -/
theorem jumpFin_does {c : IMem} {j : JInfo} {t a : BitVec 64} {k : Patch} (hf : JumpFits j t a k) (hs : ∀ k, j.skip = some k → k.Ok ∧ j.call = false)
    (hw : WordsAt c a (jumpFin j t a k)) (p : PSt) (hp : p.pc = a) : JumpDoes c j t (jumpFin j t a k).length p := by
  subst hp
  cases k with
  | cond =>
    obtain ⟨f1, f2, f3, f4⟩ := hf
    obtain ⟨k, hk⟩ := Option.isSome_iff_exists.mp f1
    simp only [jumpFin, JInfo.skipW, hk] at hw ⊢
    obtain ⟨k1, k2⟩ := hs k hk
    have st := pstep_cw k1 hw.1
    rw [disp_sext (n := 19) (by decide) f2 f3 f4] at st
    rw [JumpDoes, k2, if_neg (by decide), taken_off, hk]
    refine ⟨_, .one st, ?_, fun _ _ => rfl, rfl, rfl, rfl, trivial⟩
    simp only [List.length_singleton]
    split
    · rw [BitVec.add_comm, BitVec.sub_add_cancel]
    · rfl
  | b =>
    obtain ⟨f2, f3, f4⟩ := hf
    refine tail_does (fun p' hp' hw' => ?_) hs 2#19 (by simp) rfl hw
    have st := pstep_ctl hw'.1 (ctl_b _ _)
    rw [disp_sext (n := 26) (by decide) f2 f3 f4, ← hp'] at st
    split
    · next hc =>
      simp only [ctlExec, hc, if_true] at st
      refine ⟨_, .one st, ?_, ?_, rfl, rfl, rfl, ?_⟩
      · show p'.pc + (t - p'.pc) = t
        rw [BitVec.add_comm, BitVec.sub_add_cancel]
      · intro q hq
        simp only [List.mem_cons, List.not_mem_nil, or_false, not_or] at hq
        simp only [St.setX, St.set, if_neg hq.2, show ¬ (30#5 = 31#5) by decide, if_false]
      · simp only [St.setX, St.set, show ¬ (30#5 = 31#5) by decide, if_false, if_true]; rfl
    · next hc =>
      simp only [ctlExec, Bool.eq_false_iff.mpr hc, Bool.false_eq_true, if_false] at st
      refine ⟨_, .one st, ?_, fun _ _ => rfl, rfl, rfl, rfl, trivial⟩
      show p'.pc + (t - p'.pc) = t
      rw [BitVec.add_comm, BitVec.sub_add_cancel]
  | b32 =>
    obtain ⟨f3, f4⟩ := hf
    refine tail_does (fun p' hp' hw' => ?_) hs 4#19 (by simp [adrpAdd]) rfl hw
    rw [WordsAt.append, ← hp'] at hw'
    rw [← hp'] at f3 f4 ⊢
    rw [List.length_append]
    exact load_br (adrpAdd_run TMP_REG2 (by decide) t f3 f4 hw'.1) hw'.2.1
  | abs32 => exact tail_does (fun p _ hp => movzk_br (.inl rfl) hf p hp) hs 4#19 (by simp [movzk_len]) rfl hw
  | abs48 => exact tail_does (fun p _ hp => movzk_br (.inr (.inl rfl)) hf p hp) hs 5#19 (by simp [movzk_len]) rfl hw
  | abs64 => exact tail_does (fun p _ hp => movzk_br (.inr (.inr rfl)) t.isLt p hp) hs 6#19 (by simp [movzk_len]) rfl hw

/-! ## Move addresses after the final pass -/

/-- The words of a move address at `a`. -/
def movFin (reg : Nat) (t a : BitVec 64) : Patch → List (BitVec 32)
  | .cond | .b => [ADR ||| (((t - a).setWidth 32 &&& 3#32) <<< 29) ||| ((((t - a).sshiftRight 2).setWidth 32 &&& 0x7ffff#32) <<< 5) ||| RD reg]
  | .b32 => adrpAdd (RD reg) (t - (a &&& ~~~0xfff#64))
  | k => movzk (RD reg) t (absN k)

/-- The encoding fits. -/
def MovFits (t a : BitVec 64) : Patch → Prop
  | .cond | .b => -(2 ^ 20 : Int) ≤ (t - a).toInt ∧ (t - a).toInt < 2 ^ 20
  | .b32 => -(2 ^ 32 : Int) ≤ (t - (a &&& ~~~0xfff#64)).toInt ∧ (t - (a &&& ~~~0xfff#64)).toInt < 2 ^ 32
  | .abs32 => t.toNat < 2 ^ 32
  | .abs48 => t.toNat < 2 ^ 48
  | .abs64 => True

theorem goes_set {c : IMem} {p : PSt} {r : BitVec 5} {t b : BitVec 64} (h : PSteps c p { p with s := p.s.set r t, pc := b }) :
    Goes c [r] p b fun p' => p'.s.r r = t := by
  refine ⟨_, h, rfl, ?_, rfl, rfl, rfl, ?_⟩
  · intro q hq
    simp only [List.mem_singleton] at hq
    simp only [St.set, if_neg hq]
  · simp only [St.set, if_true]

theorem movFin_does {c : IMem} {reg : Nat} (hr : regMap reg ≠ 31#5) {t a : BitVec 64} {k : Patch} (hf : MovFits t a k)
    (hw : WordsAt c a (movFin reg t a k)) (p : PSt) (hp : p.pc = a) :
    Goes c [regMap reg] p (a + BitVec.ofNat 64 (4 * (movFin reg t a k).length)) fun p' => p'.s.r (regMap reg) = t := by
  subst hp
  have adr : ∀ (hf : -(2 ^ 20 : Int) ≤ (t - p.pc).toInt ∧ (t - p.pc).toInt < 2 ^ 20)
      (_ : WordsAt c p.pc [ADR ||| (((t - p.pc).setWidth 32 &&& 3#32) <<< 29) ||| ((((t - p.pc).sshiftRight 2).setWidth 32 &&& 0x7ffff#32) <<< 5) ||| RD reg]),
      Goes c [regMap reg] p (p.pc + BitVec.ofNat 64 (4 * 1)) fun p' => p'.s.r (regMap reg) = t := by
    intro hf hw
    have w1 := hw.1
    rw [show RD reg = (regMap reg).setWidth 32 from rfl, adr_word] at w1
    have st := pstep_ctl w1 (ctl_adr _ _ _)
    simp only [ctlExec, Bool.false_eq_true, if_false, adr_sext hf.1 hf.2, St.setX, if_neg hr] at st
    rw [BitVec.add_comm p.pc (t - p.pc), BitVec.sub_add_cancel] at st
    exact goes_set (.one st)
  have mk : ∀ n, (n = 2 ∨ n = 3 ∨ n = 4) → t.toNat < 2 ^ (16 * n) → WordsAt c p.pc (movzk (RD reg) t n) →
      Goes c [regMap reg] p (p.pc + BitVec.ofNat 64 (4 * (movzk (RD reg) t n).length)) fun p' => p'.s.r (regMap reg) = t := by
    intro n hn ha hw
    exact goes_set (psteps_runs _ hw (movzk_run (regMap reg) hr t n hn ha p.s))
  cases k with
  | cond => exact adr hf hw
  | b => exact adr hf hw
  | b32 => exact goes_set (adrpAdd_run reg hr t hf.1 hf.2 hw)
  | abs32 => exact mk 2 (.inl rfl) hf hw
  | abs48 => exact mk 3 (.inr (.inl rfl)) hf hw
  | abs64 => exact mk 4 (.inr (.inr rfl)) t.isLt hw

end Verif.A64
