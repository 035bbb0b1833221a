import Verif.A64.GenSpec
import Verif.A64.MachLemmas
import Verif.A64.StepsI

/-! # The words of jumps and move addresses on the A64 machine (helper lemmas) -/

namespace Verif.A64
open Verif.Imm (bits_range bits_lt)
open Verif.Imm.A64 (fld bitMask)
open Verif.Imm.Arm64 (regMap RD RN TMP_ZERO W_OP ORRI MOVZ MOVK)

/-! ## Steps -/

theorem pstep_ctl {c : IMem} {p : PSt} {w : BitVec 32} {k : Ctl} (h : c p.pc = w) (hk : ctl w = some k) : pstep c p = some (ctlExec k p) := by
  simp only [pstep, h, hk]

theorem pstep_plain {c : IMem} {p : PSt} {w : BitVec 32} {s : St} (h : c p.pc = w) (hs : step w p.s = some s) :
    pstep c p = some { p with s := s, pc := p.pc + 4#64 } := by
  have hd : ∃ i, decode w = some i := by
    unfold step at hs
    cases hd : decode w with
    | none => rw [hd] at hs; exact absurd hs (by simp)
    | some i => exact ⟨i, rfl⟩
  obtain ⟨i, hd⟩ := hd
  simp only [pstep, h, ctl_not hd, xfer_not hd, hs, Option.map_some]

/-- Plain words one after the other. -/
theorem psteps_runs {c : IMem} : ∀ (ws : List (BitVec 32)) {p : PSt} {s : St}, WordsAt c p.pc ws → runs ws p.s = some s →
    PSteps c p { p with s := s, pc := p.pc + BitVec.ofNat 64 (4 * ws.length) }
  | [], p, s, _, h => by
    simp only [runs, Option.some.injEq] at h
    subst h
    simp only [List.length_nil, Nat.mul_zero, BitVec.ofNat_eq_ofNat, BitVec.add_zero]
    exact .refl _
  | w :: ws, p, s, hw, h => by
    simp only [runs] at h
    cases hs : step w p.s with
    | none => rw [hs] at h; exact absurd h (by simp)
    | some s1 =>
      rw [hs, Option.bind_some] at h
      refine .step (pstep_plain hw.1 hs) ?_
      have := psteps_runs ws (p := { p with s := s1, pc := p.pc + 4#64 }) hw.2 h
      simp only at this
      have e : p.pc + BitVec.ofNat 64 (4 * (w :: ws).length) = p.pc + 4#64 + BitVec.ofNat 64 (4 * ws.length) := by
        rw [List.length_cons, Nat.mul_add, BitVec.ofNat_add, BitVec.add_assoc, BitVec.add_comm (BitVec.ofNat 64 (4 * 1))]
      rw [e]; exact this

theorem WordsAt.append {c : IMem} (xs ys : List (BitVec 32)) : ∀ (a : BitVec 64), WordsAt c a (xs ++ ys) ↔
    WordsAt c a xs ∧ WordsAt c (a + BitVec.ofNat 64 (4 * xs.length)) ys := by
  induction xs with
  | nil => intro a; simp [WordsAt]
  | cons x xs ih =>
    intro a
    have e : a + BitVec.ofNat 64 (4 * (x :: xs).length) = a + 4#64 + BitVec.ofNat 64 (4 * xs.length) := by
      rw [List.length_cons, Nat.mul_add, BitVec.ofNat_add, BitVec.add_assoc, BitVec.add_comm (BitVec.ofNat 64 (4 * 1))]
    simp only [List.cons_append, WordsAt, ih, e, and_assoc]

/-! ## Displacements -/

theorem mod4_bits {x : BitVec 64} (h : x.toNat % 4 = 0) : x.getLsbD 0 = false ∧ x.getLsbD 1 = false := by
  have e : x.setWidth 2 = 0#2 := by
    apply BitVec.eq_of_toNat_eq; rw [BitVec.toNat_setWidth]; simpa using h
  constructor
  · have := congrArg (fun v : BitVec 2 => v.getLsbD 0) e
    simpa [BitVec.getLsbD_setWidth, -BitVec.getLsbD_eq_getElem] using this
  · have := congrArg (fun v : BitVec 2 => v.getLsbD 1) e
    simpa [BitVec.getLsbD_setWidth, -BitVec.getLsbD_eq_getElem] using this

/-- A difference which is a multiple of 4 in the range of n + 1 bits. -/
theorem disp_sext {n : Nat} (hn : n < 63) {x : BitVec 64} (h4 : x.toNat % 4 = 0) (h1 : -(2 ^ (n + 1) : Int) ≤ x.toInt) (h2 : x.toInt < 2 ^ (n + 1)) :
    (((x.sshiftRight 2).setWidth n ++ 0#2 : BitVec (n + 2)).signExtend 64) = x := by
  obtain ⟨b0, b1⟩ := mod4_bits h4
  apply BitVec.eq_of_getLsbD_eq
  intro k hk
  have hr := fun k a b => bits_range (n := n + 1) (by omega) h1 h2 k a b
  have low : ∀ k, k < n + 2 → ((x.sshiftRight 2).setWidth n ++ 0#2 : BitVec (n + 2)).getLsbD k = x.getLsbD k := by
    intro k hk
    rw [BitVec.getLsbD_append]
    by_cases h : k < 2
    · rw [if_pos h, BitVec.getLsbD_zero]
      interval_cases k
      · exact b0.symm
      · exact b1.symm
    · rw [if_neg h, BitVec.getLsbD_setWidth, BitVec.getLsbD_sshiftRight]
      have e1 : k - 2 < n := by omega
      have e2 : ¬ 64 ≤ k - 2 := by omega
      have e3 : 2 + (k - 2) = k := by omega
      simp only [e1, e2, e3, decide_true, decide_false, Bool.not_false, Bool.true_and]
      rw [if_pos (by omega)]
  rw [BitVec.getLsbD_signExtend]
  simp only [hk, decide_true, Bool.true_and]
  split
  · next h => exact low k h
  · next h =>
    rw [BitVec.msb_eq_getLsbD_last, low _ (by omega), hr k (by omega) (by omega)]
    have e : n + 2 - 1 = n + 1 := by omega
    rw [e, ← hr (n + 1) (by omega) (by omega)]

macro "fbits" "[" ls:Lean.Parser.Tactic.simpLemma,* "]" : tactic =>
  `(tactic| (apply BitVec.eq_of_getLsbD_eq; intro k hk; rw [fld_bit _ _ _ _ hk]; interval_cases k <;> simp [-BitVec.getLsbD_eq_getElem, -BitVec.setWidth_eq, $ls,*]))

theorem ctl_b (call : Bool) (x : BitVec 64) : ctl ((if call then BL else B) ||| (x &&& 0x3ffffff#64).setWidth 32) =
    some (.b call ((x.setWidth 26 ++ 0#2 : BitVec 28).signExtend 64)) := by
  have h1 : fld ((if call then BL else B) ||| (x &&& 0x3ffffff#64).setWidth 32) 26 5 = 0b00101#5 := by
    cases call <;> fbits [BL, B]
  have h2 : bit ((if call then BL else B) ||| (x &&& 0x3ffffff#64).setWidth 32) 31 = call := by
    cases call <;> simp [-BitVec.getLsbD_eq_getElem, -BitVec.setWidth_eq, bit, BL, B]
  have h3 : fld ((if call then BL else B) ||| (x &&& 0x3ffffff#64).setWidth 32) 0 26 = x.setWidth 26 := by
    cases call <;> fbits [BL, B]
  rw [ctl, if_pos h1, h2, h3]

/-! ## Conditional branches -/

/-- The conditional branch in front of a jump with the distance `i` (in words); `fl`: inverted. -/
def cw (fl : Bool) (k : Skip) (i : BitVec 19) : BitVec 32 :=
  match k with
  | .cc c => B_CC ||| (i.setWidth 32 <<< 5) ||| (if fl then c ^^^ 1#4 else c).setWidth 32
  | .cbz w32 eq reg => 0x34000000#32 ||| (if w32 then 0#32 else 0x80000000#32) ||| (if eq = fl then 0#32 else 0x1000000#32) |||
      (i.setWidth 32 <<< 5) ||| (regMap reg).setWidth 32

/-- It is not taken. -/
def Skip.off (k : Skip) (s : St) : Bool :=
  match k with
  | .cc c => !cond c s.f
  | .cbz w32 eq reg => if eq then decide (lo (!w32) (s.x (regMap reg)) = 0#_) else decide (lo (!w32) (s.x (regMap reg)) ≠ 0#_)

theorem ctl_cc (c : BitVec 4) (i : BitVec 19) : ctl (B_CC ||| (i.setWidth 32 <<< 5) ||| c.setWidth 32) = some (.bcond c ((i ++ 0#2 : BitVec 21).signExtend 64)) := by
  have h0 : fld (B_CC ||| (i.setWidth 32 <<< 5) ||| c.setWidth 32) 24 8 = 0x54#8 := by fbits [B_CC]
  have h1 : ¬ fld (B_CC ||| (i.setWidth 32 <<< 5) ||| c.setWidth 32) 26 5 = 0b00101#5 := by
    have : fld (B_CC ||| (i.setWidth 32 <<< 5) ||| c.setWidth 32) 26 5 = 0b10101#5 := by fbits [B_CC]
    rw [this]; decide
  have h2 : bit (B_CC ||| (i.setWidth 32 <<< 5) ||| c.setWidth 32) 4 = false := by
    simp [-BitVec.getLsbD_eq_getElem, -BitVec.setWidth_eq, bit, B_CC]
  have h3 : fld (B_CC ||| (i.setWidth 32 <<< 5) ||| c.setWidth 32) 0 4 = c := by fbits [B_CC]
  have h4 : fld (B_CC ||| (i.setWidth 32 <<< 5) ||| c.setWidth 32) 5 19 = i := by fbits [B_CC]
  rw [ctl, if_neg h1, if_pos h0, h2, h3, h4]; rfl

theorem ctl_cbz (sf nz : Bool) (r : BitVec 5) (i : BitVec 19) :
    ctl (0x34000000#32 ||| (if sf then 0x80000000#32 else 0#32) ||| (if nz then 0x1000000#32 else 0#32) ||| (i.setWidth 32 <<< 5) ||| r.setWidth 32) =
    some (.cbz sf nz r ((i ++ 0#2 : BitVec 21).signExtend 64)) := by
  generalize hw : (0x34000000#32 ||| (if sf then 0x80000000#32 else 0#32) ||| (if nz then 0x1000000#32 else 0#32) ||| (i.setWidth 32 <<< 5) ||| r.setWidth 32) = w
  have h0 : fld w 25 6 = 0b011010#6 := by subst hw; cases sf <;> cases nz <;> fbits []
  have h1 : ¬ fld w 26 5 = 0b00101#5 := by
    have : fld w 26 5 = 0b01101#5 := by subst hw; cases sf <;> cases nz <;> fbits []
    rw [this]; decide
  have h2 : ¬ fld w 24 8 = 0x54#8 := by
    intro h
    have e := congrArg (fun v : BitVec 8 => v.getLsbD 5) h
    simp only [fld_bit w 24 8 5 (by decide)] at e
    subst hw
    cases sf <;> cases nz <;> simp [-BitVec.getLsbD_eq_getElem, -BitVec.setWidth_eq] at e
  have h3 : fld w 0 5 = r := by subst hw; cases sf <;> cases nz <;> fbits []
  have h4 : fld w 5 19 = i := by subst hw; cases sf <;> cases nz <;> fbits []
  have h5 : bit w 31 = sf := by subst hw; cases sf <;> cases nz <;> simp [-BitVec.getLsbD_eq_getElem, -BitVec.setWidth_eq, bit]
  have h6 : bit w 24 = nz := by subst hw; cases sf <;> cases nz <;> simp [-BitVec.getLsbD_eq_getElem, -BitVec.setWidth_eq, bit]
  rw [ctl, if_neg h1, if_neg h2, if_pos h0, h3, h4, h5, h6]

theorem cond_flip (c : BitVec 4) (h : c.toNat < 14) (f : Flags) : cond (c ^^^ 1#4) f = !cond c f := by
  obtain ⟨n, z, c', v⟩ := f
  revert h n z c' v; revert c; decide +kernel

theorem pstep_cw {c : IMem} {p : PSt} {fl : Bool} {k : Skip} (hk : k.Ok) {i : BitVec 19} (h : c p.pc = cw fl k i) :
    pstep c p = some { p with pc := if k.off p.s = fl then p.pc + (i ++ 0#2 : BitVec 21).signExtend 64 else p.pc + 4#64 } := by
  cases k with
  | cc cc =>
    rw [pstep_ctl h (ctl_cc _ _)]
    cases fl
    · simp only [ctlExec, Skip.off, Bool.false_eq_true, if_false]
      by_cases hc : cond cc p.s.f = true <;> simp [hc]
    · simp only [ctlExec, Skip.off, if_true, cond_flip cc hk]
      by_cases hc : cond cc p.s.f = true <;> simp [hc]
  | cbz w32 eq reg =>
    have e : cw fl (.cbz w32 eq reg) i = 0x34000000#32 ||| (if !w32 then 0x80000000#32 else 0#32) ||| (if eq != fl then 0x1000000#32 else 0#32) |||
      (i.setWidth 32 <<< 5) ||| (regMap reg).setWidth 32 := by cases w32 <;> cases eq <;> cases fl <;> rfl
    rw [e] at h
    rw [pstep_ctl h (ctl_cbz _ _ _ _)]
    simp only [ctlExec, Skip.off]
    by_cases hz : lo (!w32) (p.s.x (regMap reg)) = 0#_ <;> cases eq <;> cases fl <;> simp [hz]

theorem skip_word (k : Skip) : k.word = cw false k 6#19 ∧ k.word - (4#32 <<< 5) = cw false k 2#19 ∧
    k.word - (2#32 <<< 5) = cw false k 4#19 ∧ k.word - (1#32 <<< 5) = cw false k 5#19 := by
  cases k with
  | cc c => revert c; decide +kernel
  | cbz w32 eq reg =>
    simp only [Skip.word, cw, RT]
    generalize regMap reg = r
    revert w32 eq r; decide +kernel

theorem skip_patch (k : Skip) (x : BitVec 64) :
    ((k.word ^^^ k.flip) &&& ~~~0xffffe0#32) ||| ((x &&& 0x7ffff#64) <<< 5).setWidth 32 = cw true k (x.setWidth 19) := by
  have hx : ((x &&& 0x7ffff#64) <<< 5).setWidth 32 = (x.setWidth 19).setWidth 32 <<< 5 := by
    apply BitVec.eq_of_getLsbD_eq; intro k hk; interval_cases k <;> simp [-BitVec.getLsbD_eq_getElem, -BitVec.setWidth_eq]
  rw [hx]
  generalize x.setWidth 19 = i
  have key : ((k.word ^^^ k.flip) &&& ~~~0xffffe0#32) = cw true k 0#19 := by
    cases k with
    | cc c => revert c; decide +kernel
    | cbz w32 eq reg =>
      simp only [Skip.word, Skip.flip, cw, RT]
      generalize regMap reg = r
      revert w32 eq r; decide +kernel
  rw [key]
  cases k with
  | cc c => simp only [cw]; simp only [BitVec.setWidth_zero, BitVec.zero_shiftLeft, BitVec.or_zero]; ac_rfl
  | cbz w32 eq reg => simp only [cw]; simp only [BitVec.setWidth_zero, BitVec.zero_shiftLeft, BitVec.or_zero]; ac_rfl

/-! ## Loading addresses -/

/-- MOVZ and MOVK. -/
def wideW (k : Bool) (hw : BitVec 2) (imm : BitVec 16) (r : BitVec 5) : BitVec 32 := (if k then 0b111100101#9 else 0b110100101#9) ++ hw ++ imm ++ r

theorem s_wide (k : Bool) (hw : BitVec 2) (imm : BitVec 16) (r : BitVec 5) (s : St) :
    step (wideW k hw imm r) s = exec (.wide true (if k then 3#2 else 2#2) hw imm r) s := by
  generalize e : wideW k hw imm r = w
  have bb : ∀ i, w.getLsbD i = if i < 5 then r.getLsbD i else if i < 21 then imm.getLsbD (i - 5) else if i < 23 then hw.getLsbD (i - 21) else
      (if k then 0b111100101#9 else 0b110100101#9 : BitVec 9).getLsbD (i - 23) := by
    intro i
    subst e
    rw [wideW, BitVec.getLsbD_append, BitVec.getLsbD_append, BitVec.getLsbD_append]
    by_cases c1 : i < 5
    · simp only [if_pos c1]
    · by_cases c2 : i < 21
      · simp only [if_neg c1, if_pos c2, if_pos (show i - 5 < 16 by omega)]
      · have e1 : i - 5 - 16 = i - 21 := by omega
        have e2 : i - 5 - 16 - 2 = i - 23 := by omega
        by_cases c3 : i < 23
        · simp only [if_neg c1, if_neg c2, if_pos c3, if_neg (show ¬ i - 5 < 16 by omega), e1, if_pos (show i - 21 < 2 by omega)]
        · simp only [if_neg c1, if_neg c2, if_neg c3, if_neg (show ¬ i - 5 < 16 by omega), if_neg (show ¬ i - 5 - 16 < 2 by omega), e2]
  have h1 : fld w 23 3 = 5#3 := by
    apply BitVec.eq_of_getLsbD_eq; intro i hi; rw [fld_bit _ _ _ _ hi, bb]; interval_cases i <;> cases k <;> simp [-BitVec.getLsbD_eq_getElem]
  have h2 : fld w 26 3 = 4#3 := by
    apply BitVec.eq_of_getLsbD_eq; intro i hi; rw [fld_bit _ _ _ _ hi, bb]; interval_cases i <;> cases k <;> simp [-BitVec.getLsbD_eq_getElem]
  have h3 : fld w 29 2 = if k then 3#2 else 2#2 := by
    apply BitVec.eq_of_getLsbD_eq; intro i hi; rw [fld_bit _ _ _ _ hi, bb]; interval_cases i <;> cases k <;> simp [-BitVec.getLsbD_eq_getElem]
  have h4 : bit w 31 = true := by rw [bit, bb]; cases k <;> rfl
  have h5 : fld w 21 2 = hw := by
    apply BitVec.eq_of_getLsbD_eq; intro i hi; rw [fld_bit _ _ _ _ hi, bb]; interval_cases i <;> simp [-BitVec.getLsbD_eq_getElem]
  have h6 : fld w 5 16 = imm := by
    apply BitVec.eq_of_getLsbD_eq; intro i hi; rw [fld_bit _ _ _ _ hi, bb]; interval_cases i <;> simp [-BitVec.getLsbD_eq_getElem]
  have h7 : fld w 0 5 = r := by
    apply BitVec.eq_of_getLsbD_eq; intro i hi; rw [fld_bit _ _ _ _ hi, bb]; interval_cases i <;> simp [-BitVec.getLsbD_eq_getElem]
  have dd : decode w = some (.wide true (if k then 3#2 else 2#2) hw imm r) := by
    rw [decode, h2, if_pos (by decide), decodeImm, h1]
    show (if fld w 29 2 = 1#2 ∨ (!bit w 31 && bit w 22) = true then none else _) = _
    rw [h3, h4, h5, h6, h7, if_neg (by cases k <;> simp)]
  rw [step, dd, Option.bind_some]

theorem or4_comm (a b c d : BitVec 32) : a ||| b ||| c ||| d = a ||| d ||| b ||| c := by ac_rfl

theorem movz_w (x : BitVec 32) (r : BitVec 5) : MOVZ ||| ((x &&& 0xffff#32) <<< 5) ||| r.setWidth 32 = wideW false 0#2 (x.setWidth 16) r := by
  apply BitVec.eq_of_getLsbD_eq; intro i hi
  simp only [wideW, BitVec.getLsbD_append]
  interval_cases i <;> simp [-BitVec.getLsbD_eq_getElem, -BitVec.setWidth_eq, MOVZ]

theorem movk_w (h : BitVec 2) (x : BitVec 32) (r : BitVec 5) :
    MOVK ||| ((x &&& 0xffff#32) <<< 5) ||| (h.setWidth 32 <<< 21) ||| r.setWidth 32 = wideW true h (x.setWidth 16) r := by
  apply BitVec.eq_of_getLsbD_eq; intro i hi
  simp only [wideW, BitVec.getLsbD_append]
  interval_cases i <;> simp [-BitVec.getLsbD_eq_getElem, -BitVec.setWidth_eq, MOVK]

theorem wset_set (s : St) (r : BitVec 5) (a b : BitVec 64) : (s.set r a).set r b = s.set r b := by
  simp only [St.set, St.mk.injEq, and_true]
  funext q; split <;> rfl

theorem wx_set (s : St) (r : BitVec 5) (h : r ≠ 31#5) (a : BitVec 64) : (s.set r a).x r = a := by
  simp only [St.x, if_neg h, St.set, if_true]

theorem e_movz (imm : BitVec 16) (r : BitVec 5) (hr : r ≠ 31#5) (s : St) :
    exec (.wide true 2#2 0#2 imm r) s = some (s.set r (imm.setWidth 64)) := by
  simp only [exec, St.setX, if_neg hr]
  rw [up_lo_true]
  simp

theorem e_movk (hw : BitVec 2) (imm : BitVec 16) (r : BitVec 5) (hr : r ≠ 31#5) (s : St) (a : BitVec 64) :
    exec (.wide true 3#2 hw imm r) (s.set r a) = some (s.set r ((a &&& ~~~ (0xffff#64 <<< (16 * hw.toNat))) ||| (imm.setWidth 64 <<< (16 * hw.toNat)))) := by
  simp only [exec, St.setX, if_neg hr]
  rw [up_lo_true, wset_set, wx_set _ _ hr]
  rfl

/-- MOVZ and three MOVK load any address. -/
theorem wide4_run (a : BitVec 64) (r : BitVec 5) (hr : r ≠ 31#5) (s : St) :
    runs [wideW false 0#2 (a.setWidth 16) r, wideW true 1#2 ((a >>> 16).setWidth 16) r, wideW true 2#2 ((a >>> 32).setWidth 16) r, wideW true 3#2 ((a >>> 48).setWidth 16) r] s =
      some (s.set r a) := by
  simp only [runs, s_wide, if_true, Bool.false_eq_true, if_false, e_movz _ _ hr, e_movk _ _ _ hr, Option.bind_some]
  congr 2
  bits64 []

theorem wide3_run (a : BitVec 64) (ha : a.toNat < 2 ^ 48) (r : BitVec 5) (hr : r ≠ 31#5) (s : St) :
    runs [wideW false 0#2 (a.setWidth 16) r, wideW true 1#2 ((a >>> 16).setWidth 16) r, wideW true 2#2 ((a >>> 32).setWidth 16) r] s = some (s.set r a) := by
  have hb := bits_lt ha
  simp only [runs, s_wide, if_true, Bool.false_eq_true, if_false, e_movz _ _ hr, e_movk _ _ _ hr, Option.bind_some]
  congr 2
  bits64 [hb]

theorem wide2_run (a : BitVec 64) (ha : a.toNat < 2 ^ 32) (r : BitVec 5) (hr : r ≠ 31#5) (s : St) :
    runs [wideW false 0#2 (a.setWidth 16) r, wideW true 1#2 ((a >>> 16).setWidth 16) r] s = some (s.set r a) := by
  have hb := bits_lt ha
  simp only [runs, s_wide, if_true, Bool.false_eq_true, if_false, e_movz _ _ hr, e_movk _ _ _ hr, Option.bind_some]
  congr 2
  bits64 [hb]

end Verif.A64
