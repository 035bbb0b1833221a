import Verif.Loong.Div
import Verif.Props.C34
import Verif.Props.C62

/-!
# C67: SLJIT_LMUL, SLJIT_DIVMOD, SLJIT_DIV on LoongArch64

The specification is the arithmetic one of C34 (`Verif.Props.C34.spec`).  The division instructions leave some results open; the
theorem is about every execution the architecture allows.
-/

namespace Verif.Props.C67
open Verif.LA
open Verif.RV (Op0 R0 R1 sx32 lo32 Sx ROp WOp)
open Verif.Props.C34 (uval sval smin Ext spec)
open Verif.Props.C62 (UserReg Src32 zeroFlag varFlag carryFlag demo)
open Verif.Imm.Loong (regMap)

theorem divu_res {is32 : Bool} {a b v : BitVec 64} (h32 : is32 = true → Sx a ∧ Sx b) (h : DivRes .divu is32 a b v) (hb : uval is32 b ≠ 0) :
    uval is32 v = uval is32 a / uval is32 b ∧ Ext is32 v := by
  have h2 := (C34.divu_spec is32 a b hb).1
  cases is32
  · have hb' : b ≠ 0#64 := by rintro rfl; exact hb rfl
    have hv : v = a / b := h ⟨hb', by simp⟩
    simp only [Bool.false_eq_true, if_false, ROp.eval, hb', BitVec.udiv_eq] at h2
    rw [hv]
    exact ⟨h2, fun e => by cases e⟩
  · have hb' : lo32 b ≠ 0#32 := by
      intro e; apply hb
      have := congrArg BitVec.toNat e
      simpa [uval, lo32] using this
    have hv : v = sx32 (lo32 a / lo32 b) := h (h32 rfl).1 (h32 rfl).2 ⟨hb', by simp⟩
    simp only [if_true, WOp.eval32, hb', if_false, BitVec.udiv_eq] at h2
    rw [hv]
    exact ⟨h2, C34.ext_sx _ _⟩

theorem modu_res {is32 : Bool} {a b v : BitVec 64} (h32 : is32 = true → Sx a ∧ Sx b) (h : DivRes .modu is32 a b v) (hb : uval is32 b ≠ 0) :
    uval is32 v = uval is32 a % uval is32 b ∧ Ext is32 v := by
  have h2 := (C34.divu_spec is32 a b hb).2
  cases is32
  · have hb' : b ≠ 0#64 := by rintro rfl; exact hb rfl
    have hv : v = a % b := h ⟨hb', by simp⟩
    simp only [Bool.false_eq_true, if_false, ROp.eval, hb', BitVec.umod_eq] at h2
    rw [hv]
    exact ⟨h2, fun e => by cases e⟩
  · have hb' : lo32 b ≠ 0#32 := by
      intro e; apply hb
      have := congrArg BitVec.toNat e
      simpa [uval, lo32] using this
    have hv : v = sx32 (lo32 a % lo32 b) := h (h32 rfl).1 (h32 rfl).2 ⟨hb', by simp⟩
    simp only [if_true, WOp.eval32, hb', if_false, BitVec.umod_eq] at h2
    rw [hv]
    exact ⟨h2, C34.ext_sx _ _⟩

theorem defd64 {o : DOp} {a b : BitVec 64} (hb : sval false b ≠ 0) (hm : ¬ (sval false a = smin false ∧ sval false b = -1)) : o.defd a b := by
  refine ⟨by rintro rfl; exact hb rfl, fun _ => ?_⟩
  rintro ⟨rfl, rfl⟩; exact hm ⟨by decide, by decide⟩

theorem defd32 {o : DOp} {a b : BitVec 64} (hb : sval true b ≠ 0) (hm : ¬ (sval true a = smin true ∧ sval true b = -1)) :
    o.defd (lo32 a) (lo32 b) := by
  refine ⟨?_, fun _ => ?_⟩
  · intro e; apply hb
    simp only [sval, if_true]
    exact congrArg BitVec.toInt e
  · rintro ⟨e1, e2⟩; refine hm ⟨?_, ?_⟩
    · simp only [sval, smin, if_true]; exact (congrArg BitVec.toInt e1).trans (by decide)
    · simp only [sval, if_true]; exact (congrArg BitVec.toInt e2).trans (by decide)

theorem div_res {is32 : Bool} {a b v : BitVec 64} (h32 : is32 = true → Sx a ∧ Sx b) (h : DivRes .div is32 a b v) (hb : sval is32 b ≠ 0)
    (hm : ¬ (sval is32 a = smin is32 ∧ sval is32 b = -1)) :
    sval is32 v = (sval is32 a).tdiv (sval is32 b) ∧ Ext is32 v := by
  have h2 := (C34.div_spec is32 a b hb hm).1
  cases is32
  · have hd : DOp.defd .div a b := defd64 hb hm
    have hv : v = a.sdiv b := h hd
    simp only [Bool.false_eq_true, if_false, ROp.eval, hd.1] at h2
    rw [hv]
    exact ⟨h2, fun e => by cases e⟩
  · have hd : DOp.defd .div (lo32 a) (lo32 b) := defd32 hb hm
    have hv : v = sx32 ((lo32 a).sdiv (lo32 b)) := h (h32 rfl).1 (h32 rfl).2 hd
    simp only [if_true, WOp.eval32, hd.1, if_false] at h2
    rw [hv]
    exact ⟨h2, C34.ext_sx _ _⟩

theorem mod_res {is32 : Bool} {a b v : BitVec 64} (h32 : is32 = true → Sx a ∧ Sx b) (h : DivRes .mod is32 a b v) (hb : sval is32 b ≠ 0)
    (hm : ¬ (sval is32 a = smin is32 ∧ sval is32 b = -1)) :
    sval is32 v = (sval is32 a).tmod (sval is32 b) ∧ Ext is32 v := by
  have h2 := (C34.div_spec is32 a b hb hm).2
  cases is32
  · have hd : DOp.defd .mod a b := defd64 hb hm
    have hv : v = a.srem b := h hd
    simp only [Bool.false_eq_true, if_false, ROp.eval, hd.1] at h2
    rw [hv]
    exact ⟨h2, fun e => by cases e⟩
  · have hd : DOp.defd .mod (lo32 a) (lo32 b) := defd32 hb hm
    have hv : v = sx32 ((lo32 a).srem (lo32 b)) := h (h32 rfl).1 (h32 rfl).2 hd
    simp only [if_true, WOp.eval32, hd.1, if_false] at h2
    rw [hv]
    exact ⟨h2, C34.ext_sx _ _⟩

/-- Everything but R0, R1 and TMP_REG1. -/
structure Rest (c c' : Core) : Prop where
  x : ∀ q, q ≠ 4#5 → q ≠ 5#5 → q ≠ 13#5 → c'.x q = c.x q
  mem : c'.mem = c.mem
  f : c'.f = c.f

theorem op0_ok (o : Op0) (is32 : Bool) (c : Core) (h32 : is32 = true → Sx (c.x 4#5) ∧ Sx (c.x 5#5)) :
    wpD (emitOp0 o is32) c fun c' => spec o is32 (c.x 4#5) (c.x 5#5) (c'.x 4#5) (c'.x 5#5) ∧ Rest c c' := by
  have e0 : regMap R0 = 4#5 := by decide
  have e1 : regMap R1 = 5#5 := by decide
  have et : regMap TMP_REG1 = 13#5 := by decide
  have cp : run (ins (INST ADDI_W ADDI_D is32 ||| RD TMP_REG1 ||| RJ R0 ||| IMM_I12 0#64)) c = some (c.wr 13#5 (c.x 4#5)) := by
    obtain ⟨c', h1, h2⟩ := (wp_ADDIxz (w := is32) (c := c) (Q := fun c' => c' = c.wr 13#5 (c.x 4#5)) TMP_REG1 R0).mpr (by
      rw [e0, et]
      congr 1
      cases is32
      · simp [Verif.RV.addw]
      · have := (h32 rfl).1
        simp only [Verif.RV.addw, if_true, show lo32 0#64 = 0#32 from rfl, BitVec.add_zero]
        exact this.symm)
    rw [← h2]; exact h1
  cases o
  case nop =>
    have : decode NOP = some (.imm .andi 0#5 0#5 0#12) := by decide +kernel
    unfold emitOp0
    rw [← List.append_nil (ins NOP)]
    refine wpD_ins this (wpD_nil ⟨⟨?_, ?_⟩, fun q _ _ _ => ?_, ?_, ?_⟩) <;> simp [exec]
  case lmulUw =>
    unfold emitOp0
    refine wp.D ?_
    rw [wp_ADDI_D_s _ _ fits0, wp_MULH_DU_s, wp_MUL_D, e0, e1, et]
    refine ⟨?_, fun q h0 h1 h6 => by simp_all, rfl, rfl⟩
    simp only [spec]
    simpa using C34.mulhu_spec (c.x 4#5) (c.x 5#5)
  case lmulSw =>
    unfold emitOp0
    refine wp.D ?_
    rw [wp_ADDI_D_s _ _ fits0, wp_MULH_D_s, wp_MUL_D, e0, e1, et]
    refine ⟨?_, fun q h0 h1 h6 => by simp_all, rfl, rfl⟩
    simp only [spec]
    simpa using C34.mulh_spec (c.x 4#5) (c.x 5#5)
  case divmodUw =>
    unfold emitOp0
    refine wpD_append cp ?_
    refine wpD_dvI .divu 0x42#17 0x46#17 rfl rfl rfl rfl _ _ _ fun v hv => ?_
    rw [← List.append_nil (ins (INST MOD_WU MOD_DU is32 ||| RD R1 ||| RJ TMP_REG1 ||| RK R1))]
    refine wpD_dvI .modu 0x43#17 0x47#17 rfl rfl rfl rfl _ _ _ fun u hu => wpD_nil ?_
    rw [e0, e1, et] at *
    simp only [x_wr] at hv hu
    simp at hv hu
    refine ⟨?_, fun q h0 h1 h6 => by simp_all, rfl, rfl⟩
    intro hb
    simp
    exact ⟨(divu_res h32 hv hb).1, (modu_res h32 hu hb).1, (divu_res h32 hv hb).2, (modu_res h32 hu hb).2⟩
  case divmodSw =>
    unfold emitOp0
    refine wpD_append cp ?_
    refine wpD_dvI .div 0x40#17 0x44#17 rfl rfl rfl rfl _ _ _ fun v hv => ?_
    rw [← List.append_nil (ins (INST MOD_W MOD_D is32 ||| RD R1 ||| RJ TMP_REG1 ||| RK R1))]
    refine wpD_dvI .mod 0x41#17 0x45#17 rfl rfl rfl rfl _ _ _ fun u hu => wpD_nil ?_
    rw [e0, e1, et] at *
    simp only [x_wr] at hv hu
    simp at hv hu
    refine ⟨?_, fun q h0 h1 h6 => by simp_all, rfl, rfl⟩
    intro hb hm
    simp
    exact ⟨(div_res h32 hv hb hm).1, (mod_res h32 hu hb hm).1, (div_res h32 hv hb hm).2, (mod_res h32 hu hb hm).2⟩
  case divUw =>
    unfold emitOp0
    rw [← List.append_nil (ins _)]
    refine wpD_dvI .divu 0x42#17 0x46#17 rfl rfl rfl rfl _ _ _ fun v hv => wpD_nil ?_
    rw [e0, e1] at *
    refine ⟨?_, fun q h0 h1 h6 => by simp_all, rfl, rfl⟩
    intro hb
    simp
    exact divu_res h32 hv hb
  case divSw =>
    unfold emitOp0
    rw [← List.append_nil (ins _)]
    refine wpD_dvI .div 0x40#17 0x44#17 rfl rfl rfl rfl _ _ _ fun v hv => wpD_nil ?_
    rw [e0, e1] at *
    refine ⟨?_, fun q h0 h1 h6 => by simp_all, rfl, rfl⟩
    intro hb hm
    simp
    exact div_res h32 hv hb hm
  case memoryBarrier =>
    unfold emitOp0
    refine ⟨⟨c, .dbar rfl (.nil c)⟩, fun c' h' => ?_⟩
    cases h' with
    | ins hd' h' => rw [dbar_none] at hd'; cases hd'
    | div _ hd' _ _ =>
      rw [show decDiv (fld DBAR 15 17) = none by decide] at hd'
      cases hd'
    | dbar _ h' =>
      cases h'
      exact ⟨⟨rfl, rfl⟩, fun _ _ _ _ => rfl, rfl, rfl⟩
  all_goals
    unfold emitOp0
    exact wpD_nil ⟨⟨rfl, rfl⟩, fun _ _ _ _ => rfl, rfl, rfl⟩

/-- **C67.**  For every value of R0 and R1 (of a 32 bit operation: every value a 32 bit operation may have produced) the emitted code
runs to its end, and however the architecture fills in the results it leaves open, R0 and R1 hold the documented result; no other
register of the application, no memory and no float register changes, nor do the flags. -/
theorem c67_op0 (o : Op0) (is32 : Bool) (s : Core) (h32 : is32 = true → Src32 s (.reg 1) ∧ Src32 s (.reg 2)) :
    (∃ s', Exec (emitOp0 o is32) s s') ∧ ∀ s', Exec (emitOp0 o is32) s s' →
      spec o is32 (s.x (regMap 1)) (s.x (regMap 2)) (s'.x (regMap 1)) (s'.x (regMap 2)) ∧
      (∀ r, UserReg r → r ≠ 1 → r ≠ 2 → s'.x (regMap r) = s.x (regMap r)) ∧ s'.mem = s.mem ∧ s'.f = s.f ∧
      (s'.x 2#5 = s.x 2#5 ∧ s'.x 21#5 = s.x 21#5) ∧
      (zeroFlag s' ↔ zeroFlag s) ∧ (varFlag s' ↔ varFlag s) ∧ ∀ b, carryFlag s' b ↔ carryFlag s b := by
  obtain ⟨h1, h2⟩ := op0_ok o is32 s h32
  refine ⟨h1, fun s' h => ?_⟩
  obtain ⟨h3, k, km, kf⟩ := h2 s' h
  refine ⟨h3, ?_, km, kf, ⟨k _ (by decide) (by decide) (by decide), k _ (by decide) (by decide) (by decide)⟩, ?_, ?_, ?_⟩
  · intro r hr h1 h2
    refine k _ ?_ ?_ ?_
    · exact fun e => h1 (C62.user_inj r 1 hr ⟨by decide, by decide⟩ e)
    · exact fun e => h2 (C62.user_inj r 2 hr ⟨by decide, by decide⟩ e)
    · have key : ∀ a : _root_.Fin 25, regMap a.1 ≠ 13#5 := by decide +kernel
      exact key ⟨r, by have := hr.2; omega⟩
  · unfold zeroFlag; rw [k 12#5 (by decide) (by decide) (by decide)]
  · unfold varFlag; rw [k 15#5 (by decide) (by decide) (by decide)]
  · intro b; unfold carryFlag; rw [k 15#5 (by decide) (by decide) (by decide)]

/-- **C67 fails** after an operation that does not sign extend (`c62_addc32_false`): SLJIT_ADDC32 computes `0x7fffffff + 1` into R0, and
then SLJIT_DIV_UW | SLJIT_32 by `R1 = 1` may leave 0 in R0 instead of `0x80000000`: DIV.WU is not defined for that operand. -/
theorem c67_after_addc32_false : ∃ s s' : Core, carryFlag s false ∧ Src32 s (.reg 1) ∧ Src32 s (.reg 2) ∧
    Exec (emitOp2 ⟨.addc, true, false, .none⟩ (.reg 1) (.reg 1) (.reg 2) ++ emitOp0 .divUw true) s s' ∧
    uval true (s'.x (regMap 1)) ≠ (uval true (s.x (regMap 1)) + uval true (s.x (regMap 2))) / uval true (s.x (regMap 2)) := by
  refine ⟨demo 0x7fffffff#64 1#64 0#64 0#64 0#64 0#64 0#8, ?_⟩
  have hr : (run (emitOp2 ⟨.addc, true, false, .none⟩ (.reg 1) (.reg 1) (.reg 2)) (demo 0x7fffffff#64 1#64 0#64 0#64 0#64 0#64 0#8)).map
      (fun s' => s'.x 4#5) = some 0x80000000#64 := by decide +kernel
  obtain ⟨s1, r1, r2⟩ := Option.map_eq_some_iff.mp hr
  have aux : ∀ (e e2 : Emit) (c c1 c2 : Core), run e c = some c1 → Exec e2 c1 c2 → Exec (e ++ e2) c c2 := by
    intro e
    induction e with
    | nil => intro e2 c c1 c2 h h2; cases h; exact h2
    | cons w e ih =>
      intro e2 c c1 c2 h h2
      simp only [run] at h
      cases hd : decode w with
      | none => rw [hd] at h; cases h
      | some i => rw [hd] at h; exact .ins hd (ih _ _ _ _ h h2)
  refine ⟨s1.wr 4#5 0#64, by unfold carryFlag; decide +kernel, by unfold Src32; decide +kernel, by unfold Src32; decide +kernel,
    aux _ _ _ _ _ r1 (.div (o := .divu) (b := true) (v := 0#64) (by decide +kernel) (by decide +kernel) ?_ (.nil _)), ?_⟩
  · rw [show fld (INST DIV_WU DIV_DU true ||| RD R0 ||| RJ R0 ||| RK R1) 5 5 = 4#5 by decide +kernel, r2]
    intro h
    exact absurd h (by unfold Sx; decide)
  · rw [show (s1.wr 4#5 0#64).x (regMap 1) = 0#64 by rw [x_wr]; rfl]
    decide +kernel

/-! ## The hypotheses can be met -/

/-- A product with a negative high word: every execution ends with -21. -/
example (s' : Core) (h : Exec (emitOp0 .lmulSw false) (demo (-3#64) 7#64 0#64 0#64 0#64 0#64 0#8) s') :
    (s'.x 5#5).toInt * 2 ^ 64 + (s'.x 4#5).toNat = -21 :=
  ((c67_op0 .lmulSw false (demo (-3#64) 7#64 0#64 0#64 0#64 0#64 0#8) (by simp)).2 s' h).1.trans (by decide +kernel)

/-- A 32 bit signed division with remainder: -7 / 2 is -3, remainder -1. -/
example (s' : Core) (h : Exec (emitOp0 .divmodSw true) (demo (-7#64) 2#64 0#64 0#64 0#64 0#64 0#8) s') :
    sval true (s'.x 4#5) = -3 ∧ sval true (s'.x 5#5) = -1 := by
  have := ((c67_op0 .divmodSw true (demo (-7#64) 2#64 0#64 0#64 0#64 0#64 0#8)
    (fun _ => ⟨by unfold Src32; decide +kernel, by unfold Src32; decide +kernel⟩)).2 s' h).1 (by decide +kernel) (by decide +kernel)
  exact ⟨this.1.trans (by decide +kernel), this.2.1.trans (by decide +kernel)⟩

end Verif.Props.C67
