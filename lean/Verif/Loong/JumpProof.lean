import Verif.Loong.Jump
import Verif.Loong.CmpProof
import Verif.Loong.ConstProof
import Verif.Loong.MemProof

/-! # Jumps on LoongArch64 (helper lemmas) -/

set_option linter.all false

namespace Verif.LA
open Verif.Imm.Loong (LU12I_W LU32I_D LU52I_D ORI regMap)
open Verif.Imm (bits_lt)

theorem StepsJ.trans {code : Code} {a b c : St} (h : StepsJ code a b) (g : StepsJ code b c) : StepsJ code a c := by
  induction h with
  | refl => exact g
  | step h1 _ ih => exact .step h1 (ih g)

theorem stepJ_of {code : Code} {s t : St} (h : step code s = some t) : stepJ code s = some t := by
  unfold stepJ; rw [h]

theorem Steps.J {code : Code} {a b : St} (h : Steps code a b) : StepsJ code a b := by
  induction h with
  | refl => exact .refl _
  | step h1 _ ih => exact .step (stepJ_of h1) ih

/-! ## Decoding -/

theorem dec17_noneJ {o : BitVec 17} {d j k : Reg} (h : (0x3800 ≤ o.toNat ∧ o.toNat < 0x3c00) ∨ 0x9800 ≤ o.toNat) : dec17 o d j k = none := by
  unfold dec17
  repeat (rw [if_neg (by rintro rfl; revert h; decide)])

theorem dec16_noneJ {o : BitVec 16} {d j : Reg} {n : BitVec 6} (h : (0x1c00 ≤ o.toNat ∧ o.toNat < 0x1e00) ∨ 0x4c00 ≤ o.toNat) : dec16 o d j n = none := by
  unfold dec16
  repeat (rw [if_neg (by rintro rfl; revert h; decide)])

theorem dec22_noneJ {o : BitVec 22} {d j : Reg} (h : (0x70000 ≤ o.toNat ∧ o.toNat < 0x78000) ∨ 0x130000 ≤ o.toNat) : dec22 o d j = none := by
  unfold dec22
  repeat (rw [if_neg (by rintro rfl; revert h; decide)])
  rw [if_neg]
  rintro ⟨h1, -⟩
  have h2 := congrArg BitVec.toNat h1
  simp [BitVec.extractLsb'_toNat] at h2
  omega

theorem decode_noneJ {w : BitVec 32} (h : fld w 25 7 = 0xe#7 ∨ fld w 26 6 = 0x13#6 ∨ fld w 26 6 = 0x14#6 ∨ fld w 26 6 = 0x15#6) : decode w = none := by
  have h10 : ok10 (fld w 22 10) = true := by
    rw [fld7, fld10] at h
    revert h
    generalize fld w 22 10 = x
    revert x
    decide +kernel
  have hb := w.isLt
  have hw : (0xe * 2 ^ 25 ≤ w.toNat ∧ w.toNat < 0xf * 2 ^ 25) ∨ 0x13 * 2 ^ 26 ≤ w.toNat := by
    rcases h with h | h | h | h
    all_goals
      have h := congrArg BitVec.toNat h
      simp only [fld, BitVec.extractLsb'_toNat, Nat.shiftRight_eq_div_pow, BitVec.toNat_ofNat] at h
      omega
  rw [decode_ok10 h10, dec17_noneJ, dec16_noneJ, dec22_noneJ]
  all_goals simp only [fld, BitVec.extractLsb'_toNat, Nat.shiftRight_eq_div_pow]; omega

theorem fld26 (w : BitVec 32) : fld w 26 6 = (fld w 25 7).extractLsb' 1 6 := by fbits []

theorem step_noneJ {code : Code} {s : St} (h : fld (code s.pc) 25 7 = 0xe#7 ∨ fld (code s.pc) 26 6 = 0x13#6 ∨ fld (code s.pc) 26 6 = 0x14#6 ∨
    fld (code s.pc) 26 6 = 0x15#6) : step code s = none := by
  unfold step
  have hd : decBr (fld (code s.pc) 26 6) = none := by
    rcases h with h | h | h | h
    · rw [fld26, h]; decide
    · rw [h]; decide
    · rw [h]; decide
    · rw [h]; decide
  simp only [decode_noneJ h, hd]

theorem stepJ_jirl {code : Code} {s : St} {j d : BitVec 5} {i : BitVec 16} (hc : code s.pc = w16 0x13#6 j d i) :
    stepJ code s = some ⟨s.core.x j + (i.signExtend 64 <<< 2), s.core.wr d (s.pc + 4#64)⟩ := by
  unfold stepJ
  rw [step_noneJ (by rw [hc, w16_26]; exact .inr (.inl rfl))]
  simp only [hc, w16_26, w16_0, w16_5, w16_10, if_true]

theorem I26_offs (o : BitVec 6) (v : BitVec 64) : offs26 (o.setWidth 32 <<< 26 ||| I26 v) = v.setWidth 26 := by
  fbits [offs26, I26]
theorem I26_op (o : BitVec 6) (v : BitVec 64) : fld (o.setWidth 32 <<< 26 ||| I26 v) 26 6 = o := by fbits [I26]

theorem stepJ_b {code : Code} {s : St} {v : BitVec 64} (hc : code s.pc = JB ||| I26 v) :
    stepJ code s = some ⟨s.pc + ((v.setWidth 26).signExtend 64 <<< 2), s.core⟩ := by
  have e : code s.pc = (0x14#6).setWidth 32 <<< 26 ||| I26 v := hc
  unfold stepJ
  rw [step_noneJ (by rw [e, I26_op]; exact .inr (.inr (.inl rfl)))]
  simp only [e, I26_op, I26_offs]
  rw [if_neg (by decide), if_pos trivial]

theorem stepJ_bl {code : Code} {s : St} {v : BitVec 64} (hc : code s.pc = JBL ||| I26 v) :
    stepJ code s = some ⟨s.pc + ((v.setWidth 26).signExtend 64 <<< 2), s.core.wr 1#5 (s.pc + 4#64)⟩ := by
  have e : code s.pc = (0x15#6).setWidth 32 <<< 26 ||| I26 v := hc
  unfold stepJ
  rw [step_noneJ (by rw [e, I26_op]; exact .inr (.inr (.inr rfl)))]
  simp only [e, I26_op, I26_offs]
  rw [if_neg (by decide), if_neg (by decide), if_pos trivial]

theorem pc_7 (r : BitVec 5) (v : BitVec 64) : fld (PCADDU12I ||| r.setWidth 32 ||| I20 v) 25 7 = 0xe#7 := by fbits [I20, PCADDU12I]
theorem pc_6 (r : BitVec 5) (v : BitVec 64) : fld (PCADDU12I ||| r.setWidth 32 ||| I20 v) 26 6 = 0x7#6 := by fbits [I20, PCADDU12I]
theorem pc_0 (r : BitVec 5) (v : BitVec 64) : fld (PCADDU12I ||| r.setWidth 32 ||| I20 v) 0 5 = r := by fbits [I20, PCADDU12I]
theorem pc_5 (r : BitVec 5) (v : BitVec 64) : fld (PCADDU12I ||| r.setWidth 32 ||| I20 v) 5 20 = v.extractLsb' 12 20 := by fbits [I20, PCADDU12I]

theorem stepJ_pc {code : Code} {s : St} {r : Nat} {v : BitVec 64} (hc : code s.pc = PCADDU12I ||| RD r ||| I20 v) :
    stepJ code s = some ⟨s.pc + 4#64, s.core.wr (regMap r) (s.pc + ((v.extractLsb' 12 20).signExtend 64 <<< 12))⟩ := by
  have e : code s.pc = PCADDU12I ||| (regMap r).setWidth 32 ||| I20 v := hc
  unfold stepJ
  rw [step_noneJ (by rw [e, pc_7]; exact .inl rfl)]
  simp only [e, pc_7, pc_6, pc_0, pc_5]
  rw [if_neg (by decide), if_neg (by decide), if_neg (by decide), if_pos trivial]

/-! ## Numbers -/

theorem sext18 {d : BitVec 64} (h1 : -(0x8000 * 4) ≤ d.toInt) (h2 : d.toInt ≤ 0x7fff * 4) : ∃ u : BitVec 18, d = u.signExtend 64 := by
  refine ⟨d.setWidth 18, ?_⟩
  apply BitVec.eq_of_toInt_eq
  rw [BitVec.toInt_signExtend_of_le (by decide), BitVec.toInt_setWidth]
  rw [BitVec.toInt_eq_toNat_cond] at *
  have := d.isLt
  unfold Int.bmod
  split at h1 <;> simp at * <;> omega
theorem sext28 {d : BitVec 64} (h1 : -(0x2000000 * 4) ≤ d.toInt) (h2 : d.toInt ≤ 0x1ffffff * 4) : ∃ u : BitVec 28, d = u.signExtend 64 := by
  refine ⟨d.setWidth 28, ?_⟩
  apply BitVec.eq_of_toInt_eq
  rw [BitVec.toInt_signExtend_of_le (by decide), BitVec.toInt_setWidth]
  rw [BitVec.toInt_eq_toNat_cond] at *
  have := d.isLt
  unfold Int.bmod
  split at h1 <;> simp at * <;> omega
theorem sext32 {d : BitVec 64} (h1 : -0x80000000 ≤ d.toInt) (h2 : d.toInt ≤ 0x7fffffff) : ∃ u : BitVec 32, d = u.signExtend 64 := by
  refine ⟨d.setWidth 32, ?_⟩
  apply BitVec.eq_of_toInt_eq
  rw [BitVec.toInt_signExtend_of_le (by decide), BitVec.toInt_setWidth]
  rw [BitVec.toInt_eq_toNat_cond] at *
  have := d.isLt
  unfold Int.bmod
  split at h1 <;> simp at * <;> omega

/-- A multiple of four. -/
def Al (v : BitVec 64) : Prop := v.getLsbD 0 = false ∧ v.getLsbD 1 = false

theorem al_sub {a b : BitVec 64} (ha : a &&& 3#64 = 0#64) (hb : b &&& 3#64 = 0#64) : Al (a - b) := by
  have e : ∀ x : BitVec 64, x &&& 3#64 = 0#64 → x.toNat % 4 = 0 := by
    intro x hx
    have := congrArg BitVec.toNat hx
    rw [BitVec.toNat_and, show (3#64).toNat = 2 ^ 2 - 1 from rfl, Nat.and_two_pow_sub_one_eq_mod] at this
    exact this
  have h1 := e a ha
  have h2 := e b hb
  have h3 : (a - b).toNat % 4 = 0 := by rw [BitVec.toNat_sub]; have := b.isLt; omega
  constructor
  · rw [← BitVec.testBit_toNat]; simp only [Nat.testBit_zero]; simp; omega
  · rw [← BitVec.testBit_toNat, Nat.testBit_succ, Nat.testBit_zero]; simp; omega

theorem al_of {a : BitVec 64} (ha : a &&& 3#64 = 0#64) : Al a := by
  have := al_sub ha (show (0#64 : BitVec 64) &&& 3#64 = 0#64 by decide)
  rwa [BitVec.sub_zero] at this

theorem off16 {d : BitVec 64} (h1 : -(0x8000 * 4) ≤ d.toInt) (h2 : d.toInt ≤ 0x7fff * 4) (ha : Al d) :
    ((d >>> 2).setWidth 16).signExtend 64 <<< 2 = d := by
  obtain ⟨u, rfl⟩ := sext18 h1 h2
  obtain ⟨a0, a1⟩ := ha
  apply BitVec.eq_of_getLsbD_eq; intro k hk
  simp [-BitVec.getLsbD_eq_getElem, BitVec.getLsbD_signExtend] at a0 a1
  interval_cases k <;> simp [-BitVec.getLsbD_eq_getElem, -BitVec.setWidth_eq, BitVec.getLsbD_signExtend, BitVec.msb_eq_getLsbD_last, a0, a1]
theorem off26 {d : BitVec 64} (h1 : -(0x2000000 * 4) ≤ d.toInt) (h2 : d.toInt ≤ 0x1ffffff * 4) (ha : Al d) :
    ((d >>> 2).setWidth 26).signExtend 64 <<< 2 = d := by
  obtain ⟨u, rfl⟩ := sext28 h1 h2
  obtain ⟨a0, a1⟩ := ha
  apply BitVec.eq_of_getLsbD_eq; intro k hk
  simp [-BitVec.getLsbD_eq_getElem, BitVec.getLsbD_signExtend] at a0 a1
  interval_cases k <;> simp [-BitVec.getLsbD_eq_getElem, -BitVec.setWidth_eq, BitVec.getLsbD_signExtend, BitVec.msb_eq_getLsbD_last, a0, a1]

/-- Upper part and offset of JIRL. -/
theorem lowpart (v : BitVec 64) (ha : Al v) : (v &&& ~~~0xfff#64) + ((((v &&& 0xfff#64) >>> 2).setWidth 16).signExtend 64 <<< 2) = v := by
  have e : (((v &&& 0xfff#64) >>> 2).setWidth 16).signExtend 64 <<< 2 = v &&& 0xfff#64 := by
    obtain ⟨a0, a1⟩ := ha
    apply BitVec.eq_of_getLsbD_eq; intro k hk
    interval_cases k <;> simp [-BitVec.getLsbD_eq_getElem, -BitVec.setWidth_eq, BitVec.getLsbD_signExtend, BitVec.msb_eq_getLsbD_last, a0, a1]
  rw [e, BitVec.add_eq_or_of_and_eq_zero _ _ (by bits64 [])]
  bits64 []

theorem hi32s {d : BitVec 64} (h1 : -0x80000000 ≤ d.toInt) (h2 : d.toInt ≤ 0x7fffffff) :
    (d.extractLsb' 12 20).signExtend 64 <<< 12 = d &&& ~~~0xfff#64 := by
  obtain ⟨u, rfl⟩ := sext32 h1 h2
  bits64 [BitVec.getLsbD_signExtend, BitVec.msb_eq_getLsbD_last]

/-! ## The upper part of an absolute address -/

theorem lu12_eq (r : Nat) (v : BitVec 64) : LU12I_W ||| RD r ||| ((((v &&& 0xffffffff#64) >>> 12) <<< 5).setWidth 32) = wLu12 r v := by
  unfold wLu12; congr 1; bits64 [BitVec.getLsbD_sshiftRight]
theorem lu32_eq (r : Nat) (v : BitVec 64) : LU32I_D ||| RD r ||| ((((v >>> 32) &&& 0xfffff#64) <<< 5).setWidth 32) = wLu32 r v := by
  unfold wLu32; congr 1; bits64 [BitVec.getLsbD_sshiftRight]
theorem lu52_eq (r : Nat) (v : BitVec 64) : LU52I_D ||| RD r ||| RJ r ||| IMM_I12 (v >>> 52) = wLu52 r v := by
  unfold wLu52; congr 1; unfold IMM_I12; bits64 [BitVec.getLsbD_sshiftRight]

/-- The words before the last one. -/
def preWords (p : Patch) (r : Nat) (v : BitVec 64) : Emit :=
  match p with
  | .abs32 => [wLu12 r v]
  | .abs52 => [wLu12 r v, wLu32 r v]
  | _ => [wLu12 r v, wLu32 r v, wLu52 r v]

/-- The form can hold the address. -/
def AbsOk (p : Patch) (v : BitVec 64) : Prop :=
  (p = .abs32 → v.toNat ≤ 0x7fffffff) ∧ (p = .abs52 → v.toNat ≤ 0x7ffffffffffff)

theorem narrow {n : Nat} {v : BitVec 64} (h : v.toNat < 2 ^ n) : ∃ u : BitVec n, v = u.setWidth 64 := by
  refine ⟨v.setWidth n, ?_⟩
  apply BitVec.eq_of_toNat_eq
  have := v.isLt
  rw [BitVec.toNat_setWidth, BitVec.toNat_setWidth, Nat.mod_eq_of_lt h, Nat.mod_eq_of_lt this]

open Verif.Imm Verif.Imm.Loong in
theorem pre32 {r : Nat} (hr : regMap r ≠ 0#5) (v : BitVec 64) (x : La.Regs) (h : v.toNat ≤ 0x7fffffff) :
    La.run [wLu12 r v] x = some (La.put x (regMap r) (v &&& ~~~0xfff#64)) := by
  obtain ⟨u, rfl⟩ := narrow (n := 31) (v := v) (by omega)
  have e1 := dec_LU12I (regMap r) (u.setWidth 64)
  simp only [La.run, show La.decode (wLu12 r _) = _ from e1, Option.bind_some, La.exec, get_put hr, put_put]
  congr 2
  bits64 [BitVec.getLsbD_signExtend, BitVec.msb_eq_getLsbD_last]

open Verif.Imm Verif.Imm.Loong in
theorem pre52 {r : Nat} (hr : regMap r ≠ 0#5) (v : BitVec 64) (x : La.Regs) (h : v.toNat ≤ 0x7ffffffffffff) :
    La.run [wLu12 r v, wLu32 r v] x = some (La.put x (regMap r) (v &&& ~~~0xfff#64)) := by
  obtain ⟨u, rfl⟩ := narrow (n := 51) (v := v) (by omega)
  have e1 := dec_LU12I (regMap r) (u.setWidth 64)
  have e2 := dec_LU32I (regMap r) (u.setWidth 64)
  simp only [La.run, show La.decode (wLu12 r _) = _ from e1, show La.decode (wLu32 r _) = _ from e2, Option.bind_some, La.exec, get_put hr, put_put]
  congr 2
  bits64 [BitVec.getLsbD_signExtend, BitVec.msb_eq_getLsbD_last]

open Verif.Imm Verif.Imm.Loong in
theorem pre64 {r : Nat} (hr : regMap r ≠ 0#5) (v : BitVec 64) (x : La.Regs) :
    La.run [wLu12 r v, wLu32 r v, wLu52 r v] x = some (La.put x (regMap r) (v &&& ~~~0xfff#64)) := by
  have e1 := dec_LU12I (regMap r) v
  have e2 := dec_LU32I (regMap r) v
  have e3 := dec_LU52I (regMap r) (regMap r) (v.sshiftRight 52)
  simp only [La.run, show La.decode (wLu12 r _) = _ from e1, show La.decode (wLu32 r _) = _ from e2, show La.decode (wLu52 r _) = _ from e3,
      Option.bind_some, La.exec, get_put hr, put_put]
  congr 2
  bits64 [BitVec.getLsbD_signExtend, BitVec.msb_eq_getLsbD_last, BitVec.getLsbD_sshiftRight]

open Verif.Imm Verif.Imm.Loong in
theorem pre_run0 (p : Patch) {r : Nat} (hr : regMap r ≠ 0#5) (v : BitVec 64) (x : La.Regs) (h : AbsOk p v) :
    La.run (preWords p r v) x = some (La.put x (regMap r) (v &&& ~~~0xfff#64)) := by
  cases p
  case abs32 => exact pre32 hr v x (h.1 rfl)
  case abs52 => exact pre52 hr v x (h.2 rfl)
  all_goals exact pre64 hr v x

theorem pre_run (p : Patch) {r : Nat} (hr : regMap r ≠ 0#5) (v : BitVec 64) (c : Core) (h : AbsOk p v) :
    run (preWords p r v) c = some (c.wr (regMap r) (v &&& ~~~0xfff#64)) := by
  have hx : ∀ q, Verif.Imm.La.get c.x q = c.x q := by
    intro q; unfold Verif.Imm.La.get; split
    · next hq => rw [hq, x_zero]
    · rfl
  obtain ⟨c', h1, h2, h3, h4⟩ := la_run (pre_run0 p hr v c.x h) c hx
  have : c' = c.wr (regMap r) (v &&& ~~~0xfff#64) := by
    refine Core.ext' (funext fun q => ?_) h3 h4
    rw [h2, x_wr]
    unfold Verif.Imm.La.get Verif.Imm.La.put
    by_cases hq : q = 0#5
    · subst hq; rw [if_pos rfl, if_neg (fun h => hr h.1.symm), x_zero]
    · rw [if_neg hq]
      by_cases hq' : q = regMap r
      · subst hq'; rw [if_pos rfl, if_pos ⟨rfl, hr⟩]
      · rw [if_neg hq', if_neg (fun h => hq' h.1)]
  rw [h1, this]

/-! ## The last word -/

/-- The register a jump writes. -/
def lnk (call : Bool) : BitVec 5 := if call then 1#5 else 0#5

/-- JIRL of a jump or a call. -/
def jirlW (call : Bool) : BitVec 32 := if call then 0x4c0001a1#32 else 0x4c0001a0#32

theorem jumpJirl_eq (type : Nat) : jumpJirl type = jirlW (decide (37 ≤ type)) := by
  unfold jumpJirl jirlW
  by_cases h : 37 ≤ type
  · simp only [h, if_true, decide_true]; decide
  · simp only [h, if_false, decide_false]; decide

theorem last_is (call : Bool) : jirlW call &&& (0x3f#32 <<< 26) = JIRL := by cases call <;> decide
theorem last_eq (call : Bool) (v : BitVec 64) :
    (jirlW call &&& (0x3f#32 <<< 26 ||| 0x3ff#32)) ||| I16 v = w16 0x13#6 (regMap TMP_REG1) (lnk call) (v.setWidth 16) := by
  rw [show regMap TMP_REG1 = 13#5 by decide]
  cases call <;> unfold jirlW lnk w16 I16 <;> bits64 []

/-- The words of the jump proper. -/
def bodyWords (p : Patch) (call : Bool) (ja addr : BitVec 64) : Option Emit :=
  match p with
  | .j =>
    let d := addr - ja
    if -(0x2000000 * 4) ≤ d.toInt ∧ d.toInt ≤ 0x1ffffff * 4 then some [(if call then JBL else JB) ||| I26 (d >>> 2)] else none
  | p => loadAddr p TMP_REG1 (some (jirlW call)) ja addr

theorem load_abs {p : Patch} {call : Bool} {ja addr : BitVec 64} {e : Emit} (hp : p = .abs32 ∨ p = .abs52 ∨ p = .full)
    (h : loadAddr p TMP_REG1 (some (jirlW call)) ja addr = some e) :
    e = preWords p TMP_REG1 addr ++ [w16 0x13#6 (regMap TMP_REG1) (lnk call) (((addr &&& 0xfff#64) >>> 2).setWidth 16)] ∧
      (p = .abs32 → addr.toNat ≤ 0x7fffffff) := by
  unfold loadAddr at h
  simp only [last_is, last_eq, if_true, lu12_eq, lu32_eq, lu52_eq] at h
  rcases hp with rfl | rfl | rfl
  · simp only at h
    split at h
    · next hh => cases h; exact ⟨rfl, fun _ => hh⟩
    · cases h
  · cases h; exact ⟨rfl, fun h => by cases h⟩
  · cases h; exact ⟨rfl, fun h => by cases h⟩

/-- What a jump leaves alone. -/
def JSame (call : Bool) (s s' : Core) : Prop :=
  (∀ q, q ≠ 13#5 → (call = true → q ≠ 1#5) → s'.x q = s.x q) ∧ s'.mem = s.mem ∧ s'.f = s.f

theorem JSame.wr13 {call : Bool} {s : Core} {v : BitVec 64} {w : BitVec 64} : JSame call s ((s.wr 13#5 v).wr (lnk call) w) := by
  refine ⟨fun q h1 h2 => ?_, rfl, rfl⟩
  cases call
  · simp [lnk, h1]
  · simp [lnk, h1, h2]
theorem JSame.wr0 {s : Core} {w : BitVec 64} : JSame true s (s.wr 1#5 w) := by
  refine ⟨fun q h1 h2 => ?_, rfl, rfl⟩
  simp [h2]
theorem JSame.refl {call : Bool} {s : Core} : JSame call s s := ⟨fun _ _ _ => rfl, rfl, rfl⟩

theorem body_abs {p : Patch} {call : Bool} {ja addr : BitVec 64} {e : Emit} {code : Code} {s : Core} (hp : p = .abs32 ∨ p = .abs52 ∨ p = .full)
    (h52 : p = .abs52 → addr.toNat ≤ 0x7ffffffffffff) (hal : Al addr)
    (h : loadAddr p TMP_REG1 (some (jirlW call)) ja addr = some e) (hc : CodeAt code ja e) :
    ∃ s', StepsJ code ⟨ja, s⟩ ⟨addr, s'⟩ ∧ (call = true → s'.x 1#5 = ja + BitVec.ofNat 64 (4 * e.length)) ∧ JSame call s s' := by
  obtain ⟨rfl, h32⟩ := load_abs hp h
  rw [CodeAt_append] at hc
  have r1 := steps_of_run hc.1 (pre_run p (by decide) addr s ⟨h32, h52⟩)
  have r2 := stepJ_jirl (s := ⟨_, s.wr (regMap TMP_REG1) (addr &&& ~~~0xfff#64)⟩) hc.2.1
  have hx : (s.wr (regMap TMP_REG1) (addr &&& ~~~0xfff#64)).x (regMap TMP_REG1) = addr &&& ~~~0xfff#64 := by
    rw [x_wr, if_pos ⟨rfl, by decide⟩]
  simp only [hx, lowpart addr hal] at r2
  refine ⟨_, r1.J.trans (.step r2 (.refl _)), ?_, JSame.wr13⟩
  rintro rfl
  simp only [lnk, if_true]
  rw [x_wr, if_pos ⟨rfl, by decide⟩, List.length_append]
  simp only [List.length_cons, List.length_nil]
  apply BitVec.eq_of_toNat_eq
  simp; omega

theorem body_rel {call : Bool} {ja addr d : BitVec 64} {e : Emit} {code : Code} {s : Core}
    (hd : d = if (addr - ja) &&& 0x800#64 ≠ 0#64 then addr - ja + 0x1000#64 else addr - ja)
    (h1 : -0x80000000 ≤ d.toInt) (h2 : d.toInt ≤ 0x7fffffff) (hal : Al d)
    (h : loadAddr .rel32 TMP_REG1 (some (jirlW call)) ja addr = some e) (hc : CodeAt code ja e) :
    ∃ s', StepsJ code ⟨ja, s⟩ ⟨ja + d, s'⟩ ∧ (call = true → s'.x 1#5 = ja + BitVec.ofNat 64 (4 * e.length)) ∧ JSame call s s' := by
  unfold loadAddr at h
  simp only [last_is, last_eq, if_true, ← hd] at h
  split at h
  · cases h
    have r1 := stepJ_pc (s := ⟨ja, s⟩) hc.1
    have r2 := stepJ_jirl (s := ⟨ja + 4#64, s.wr (regMap TMP_REG1) (ja + ((d.extractLsb' 12 20).signExtend 64 <<< 12))⟩) hc.2.1
    have hx : (s.wr (regMap TMP_REG1) (ja + ((d.extractLsb' 12 20).signExtend 64 <<< 12))).x (regMap TMP_REG1) = ja + (d &&& ~~~0xfff#64) := by
      rw [x_wr, if_pos ⟨rfl, by decide⟩, hi32s h1 h2]
    simp only [hx, BitVec.add_assoc, lowpart d hal] at r2
    refine ⟨_, .step r1 (.step r2 (.refl _)), ?_, JSame.wr13⟩
    rintro rfl
    simp only [lnk, if_true]
    rw [x_wr, if_pos ⟨rfl, by decide⟩]
    rfl
  · cases h

theorem bit11 {d : BitVec 64} : (d &&& 0x800#64 ≠ 0#64) ↔ d.getLsbD 11 = true := by
  rw [← not_iff_not]
  simp only [ne_eq, not_not, Bool.not_eq_true]
  constructor
  · intro h
    have := congrArg (·.getLsbD 11) h
    simpa [-BitVec.getLsbD_eq_getElem] using this
  · intro h; bits64 [h]

theorem body_ok {p : Patch} {call : Bool} {ja addr : BitVec 64} {e : Emit} {code : Code} {s : Core} (hp : p ≠ .b)
    (hrel : p = .rel32 → (addr - ja).getLsbD 11 = false) (h52 : p = .abs52 → addr.toNat ≤ 0x7ffffffffffff) (ha : ja &&& 3#64 = 0#64)
    (hb : addr &&& 3#64 = 0#64) (h : bodyWords p call ja addr = some e) (hc : CodeAt code ja e) :
    ∃ s', StepsJ code ⟨ja, s⟩ ⟨addr, s'⟩ ∧ (call = true → s'.x 1#5 = ja + BitVec.ofNat 64 (4 * e.length)) ∧ JSame call s s' := by
  have e0 : ja + (addr - ja) = addr := by rw [BitVec.add_comm, BitVec.sub_add_cancel]
  cases p
  case b => exact absurd rfl hp
  case j =>
    simp only [bodyWords] at h
    split at h
    · next hr =>
      cases h
      have ho := off26 hr.1 hr.2 (al_sub hb ha)
      cases call
      · have r := stepJ_b (s := ⟨ja, s⟩) hc.1
        simp only [ho, e0] at r
        exact ⟨_, .step r (.refl _), (by intro h; cases h), JSame.refl⟩
      · have r := stepJ_bl (s := ⟨ja, s⟩) hc.1
        simp only [ho, e0] at r
        refine ⟨_, .step r (.refl _), fun _ => ?_, JSame.wr0⟩
        rw [x_wr, if_pos ⟨rfl, by decide⟩]; rfl
    · cases h
  case rel32 =>
    have hd : addr - ja = if (addr - ja) &&& 0x800#64 ≠ 0#64 then addr - ja + 0x1000#64 else addr - ja := by
      rw [if_neg]; rw [bit11, hrel rfl]; simp
    have hr : -0x80000000 ≤ (addr - ja).toInt ∧ (addr - ja).toInt ≤ 0x7fffffff := by
      by_contra hn
      simp only [bodyWords, loadAddr, if_neg hn] at h
      cases h
    have := body_rel (s := s) hd hr.1 hr.2 (al_sub hb ha) h hc
    rwa [e0] at this
  all_goals exact body_abs (by simp) h52 (al_of hb) h hc

theorem body_len {p : Patch} {call : Bool} {ja addr : BitVec 64} {e : Emit} (hp : p ≠ .b) (h : bodyWords p call ja addr = some e) :
    p.skip = e.length + 1 := by
  cases p
  case b => exact absurd rfl hp
  case j => simp only [bodyWords] at h; split at h <;> cases h; rfl
  case rel32 =>
    simp only [bodyWords, loadAddr, last_is, if_true] at h
    split at h <;> cases h; rfl
  case abs32 => obtain ⟨rfl, -⟩ := load_abs (p := .abs32) (ja := ja) (.inl rfl) h; rfl
  case abs52 => obtain ⟨rfl, -⟩ := load_abs (p := .abs52) (ja := ja) (.inr (.inl rfl)) h; rfl
  case full => obtain ⟨rfl, -⟩ := load_abs (p := .full) (ja := ja) (.inr (.inr rfl)) h; rfl

/-- The branch over the jump. -/
structure BrW (w : BitVec 32) (s : Core) (taken : Bool) : Prop where
  ex : ∃ b j d o, w = w16 b j d 0#16 ∧ decBr b = some o ∧ o.eval (s.x j) (s.x d) = !taken

theorem w16_or (b : BitVec 6) (j d : BitVec 5) (n : Nat) : w16 b j d 0#16 ||| IMM_I16 n = w16 b j d (BitVec.ofNat 16 n) := by
  rw [imm16]; unfold w16; generalize BitVec.ofNat 16 n = x; bits64 []
theorem w16_flip (b : BitVec 6) (j d : BitVec 5) (v : BitVec 64) :
    ((w16 b j d 0#16 &&& 0xfc0003ff#32) ^^^ 0x4000000#32) ||| I16 v = w16 (b ^^^ 1#6) j d (v.setWidth 16) := by
  unfold w16 I16; bits64 []

theorem flip_eval {b : BitVec 6} {o : BrOp} (h : decBr b = some o) : ∃ o', decBr (b ^^^ 1#6) = some o' ∧ ∀ x y, o'.eval x y = !o.eval x y := by
  unfold decBr at h
  repeat' (split at h)
  all_goals first | (cases h; done) | skip
  all_goals
    next hb =>
    subst hb; cases h
    refine ⟨_, rfl, fun x y => ?_⟩
    simp [BrOp.eval, bne]

/-- The jump, with its branch. -/
theorem jump_ok {p : Patch} {br : Option (BitVec 32)} {call : Bool} {a ja addr : BitVec 64} {e : Emit} {code : Code} {s : Core} {taken : Bool}
    (hbr : (br = none ∧ taken = true ∧ ja = a) ∨ ∃ w, br = some w ∧ BrW w s taken ∧ ja = a + 4#64)
    (hrel : p = .rel32 → (addr - ja).getLsbD 11 = false) (h52 : p = .abs52 → addr.toNat ≤ 0x7ffffffffffff) (ha : a &&& 3#64 = 0#64)
    (hb : addr &&& 3#64 = 0#64) (h : jumpWords p br (jirlW call) call a addr = some e) (hc : CodeAt code a e) :
    ∃ s', StepsJ code ⟨a, s⟩ ⟨if taken then addr else a + BitVec.ofNat 64 (4 * e.length), s'⟩ ∧
      (taken = true → p ≠ .b → call = true → s'.x 1#5 = a + BitVec.ofNat 64 (4 * e.length)) ∧ JSame call s s' := by
  have e0 : a + (addr - a) = addr := by rw [BitVec.add_comm, BitVec.sub_add_cancel]
  by_cases hp : p = .b
  · subst hp
    simp only [jumpWords] at h
    split at h
    · next hr =>
      rcases hbr with ⟨rfl, -, -⟩ | ⟨w, rfl, ⟨b, j, d, o, rfl, ho, hev⟩, -⟩
      · cases h
      · rw [Option.map_some, w16_flip] at h
        cases h
        obtain ⟨o', ho', hev'⟩ := flip_eval ho
        have r := step_br (s := ⟨a, s⟩) hc.1 ho'
        rw [hev', hev, Bool.not_not, off16 hr.1 hr.2 (al_sub hb ha)] at r
        simp only [e0] at r
        exact ⟨s, .step (stepJ_of r) (.refl _), fun _ h => absurd rfl h, JSame.refl⟩
    · cases h
  · rcases hbr with ⟨rfl, rfl, rfl⟩ | ⟨w, rfl, ⟨b, j, d, o, rfl, ho, hev⟩, rfl⟩
    · have h' : bodyWords p call ja addr = some e := by
        cases p <;> simp only [jumpWords, bodyWords, List.length_nil, List.nil_append, Nat.mul_zero, BitVec.add_zero, Option.map_id', Option.map_id_fun', id] at h ⊢
        all_goals first | exact absurd rfl hp | exact h
      obtain ⟨s', r1, r2, r3⟩ := body_ok hp hrel h52 ha hb h' hc
      exact ⟨s', r1, fun _ _ => r2, r3⟩
    · obtain ⟨body, h', rfl⟩ : ∃ body, bodyWords p call (a + 4#64) addr = some body ∧ e = w16 b j d (BitVec.ofNat 16 p.skip) :: body := by
        rw [← w16_or]
        cases p
        case b => exact absurd rfl hp
        case j =>
          simp only [jumpWords, bodyWords, List.length_cons, List.length_nil] at h ⊢
          split at h
          · next hr => cases h; rw [if_pos hr]; exact ⟨_, rfl, rfl⟩
          · cases h
        all_goals
          simp only [jumpWords, bodyWords, List.length_cons, List.length_nil, Option.map_eq_some_iff] at h ⊢
          obtain ⟨x, hx, rfl⟩ := h
          exact ⟨x, hx, rfl⟩
      have hl := body_len hp h'
      have r := step_br (s := ⟨a, s⟩) hc.1 ho
      rw [hev] at r
      have ha4 : (a + 4#64) &&& 3#64 = 0#64 := by
        apply BitVec.eq_of_toNat_eq
        have := congrArg BitVec.toNat ha
        rw [BitVec.toNat_and, show (3#64).toNat = 2 ^ 2 - 1 from rfl, Nat.and_two_pow_sub_one_eq_mod] at this ⊢
        simp at this ⊢; omega
      cases taken with
      | true =>
        simp only [Bool.not_true, Bool.false_eq_true, if_false] at r
        obtain ⟨s', r1, r2, r3⟩ := body_ok (s := s) hp hrel h52 ha4 hb h' hc.2
        refine ⟨s', .step (stepJ_of r) r1, fun _ _ hcall => ?_, r3⟩
        rw [r2 hcall]
        apply BitVec.eq_of_toNat_eq
        simp; omega
      | false =>
        simp only [Bool.not_false, if_true] at r
        have : (BitVec.ofNat 16 p.skip).signExtend 64 <<< 2 = BitVec.ofNat 64 (4 * (w16 b j d (BitVec.ofNat 16 p.skip) :: body).length) := by
          rw [List.length_cons, ← hl]
          cases p <;> rfl
        rw [this] at r
        exact ⟨s, .step (stepJ_of r) (.refl _), (by intro h; cases h), JSame.refl⟩

end Verif.LA
