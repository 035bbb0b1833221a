import Verif.RISCV.OpMemProof
import Verif.Props.RvSpec

/-!
# C34: SLJIT_LMUL, SLJIT_DIVMOD, SLJIT_DIV (RV64)

The specification is arithmetic on natural numbers and integers.
-/

namespace Verif.Props.C34
open Verif.RV Verif.Props.Rv

/-- The unsigned number in a register, of which a 32 bit operation uses the lower half. -/
def uval (is32 : Bool) (v : BitVec 64) : Nat := if is32 then v.toNat % 2 ^ 32 else v.toNat
/-- The signed number in a register. -/
def sval (is32 : Bool) (v : BitVec 64) : Int := if is32 then (v.setWidth 32).toInt else v.toInt
/-- Smallest signed number. -/
def smin (is32 : Bool) : Int := if is32 then -2 ^ 31 else -2 ^ 63
/-- A valid 32 bit result. -/
def Ext (is32 : Bool) (v : BitVec 64) : Prop := is32 = true → v = (v.setWidth 32).signExtend 64

/-- What the operation does with R0 = `a` and R1 = `b` (sljitLir.h:1178-1214); `a'` and `b'` are the values afterwards. -/
def spec (o : Op0) (is32 : Bool) (a b a' b' : BitVec 64) : Prop :=
  match o with
  | .lmulUw => b'.toNat * 2 ^ 64 + a'.toNat = a.toNat * b.toNat
  | .lmulSw => b'.toInt * 2 ^ 64 + a'.toNat = a.toInt * b.toInt
  | .divmodUw => uval is32 b ≠ 0 →
      uval is32 a' = uval is32 a / uval is32 b ∧ uval is32 b' = uval is32 a % uval is32 b ∧ Ext is32 a' ∧ Ext is32 b'
  | .divmodSw => sval is32 b ≠ 0 → ¬ (sval is32 a = smin is32 ∧ sval is32 b = -1) →
      sval is32 a' = (sval is32 a).tdiv (sval is32 b) ∧ sval is32 b' = (sval is32 a).tmod (sval is32 b) ∧
      Ext is32 a' ∧ Ext is32 b'
  | .divUw => uval is32 b ≠ 0 → uval is32 a' = uval is32 a / uval is32 b ∧ b' = b ∧ Ext is32 a'
  | .divSw => sval is32 b ≠ 0 → ¬ (sval is32 a = smin is32 ∧ sval is32 b = -1) →
      sval is32 a' = (sval is32 a).tdiv (sval is32 b) ∧ b' = b ∧ Ext is32 a'
  | _ => a' = a ∧ b' = b

/-! ## Arithmetic -/

theorem mulhu_spec (a b : BitVec 64) : (ROp.mulhu.eval a b).toNat * 2 ^ 64 + (a * b).toNat = a.toNat * b.toNat := by
  have h1 := a.isLt
  have h2 := b.isLt
  have h3 : a.toNat * b.toNat < 2 ^ 128 := by
    have := Nat.mul_lt_mul'' h1 h2
    exact Nat.lt_of_lt_of_le this (by decide)
  simp only [ROp.eval, BitVec.extractLsb'_toNat, BitVec.toNat_mul, BitVec.toNat_setWidth, Nat.shiftRight_eq_div_pow]
  rw [Nat.mod_eq_of_lt (a := a.toNat) (by omega), Nat.mod_eq_of_lt (a := b.toNat) (by omega), Nat.mod_eq_of_lt h3]
  generalize a.toNat * b.toNat = p at *
  omega

theorem mulh_spec (a b : BitVec 64) : (ROp.mulh.eval a b).toInt * 2 ^ 64 + ((a * b).toNat : Int) = a.toInt * b.toInt := by
  have ha := a.two_mul_toInt_lt
  have ha' := a.le_two_mul_toInt
  have hb := b.two_mul_toInt_lt
  have hb' := b.le_two_mul_toInt
  have hp : (a * b).toNat = ((a.toInt * b.toInt) % 2 ^ 64).toNat := by
    have : a * b = BitVec.ofInt 64 (a.toInt * b.toInt) := by
      apply BitVec.eq_of_toInt_eq
      rw [BitVec.toInt_mul, BitVec.toInt_ofInt]
    rw [this, BitVec.toNat_ofInt]; rfl
  have hw : (a.signExtend 128 * b.signExtend 128) = BitVec.ofInt 128 (a.toInt * b.toInt) := by
    apply BitVec.eq_of_toInt_eq
    rw [BitVec.toInt_mul, BitVec.toInt_ofInt, BitVec.toInt_signExtend_of_le (by decide), BitVec.toInt_signExtend_of_le (by decide)]
  have hlo : -2 ^ 126 ≤ a.toInt * b.toInt := by nlinarith
  have hhi : a.toInt * b.toInt ≤ 2 ^ 126 := by nlinarith
  have hq : (ROp.mulh.eval a b) = BitVec.ofInt 64 ((a.toInt * b.toInt) / 2 ^ 64) := by
    simp only [ROp.eval, hw]
    apply BitVec.eq_of_toNat_eq
    rw [BitVec.extractLsb'_toNat, BitVec.toNat_ofInt, BitVec.toNat_ofInt, Nat.shiftRight_eq_div_pow]
    generalize a.toInt * b.toInt = p at *
    omega
  rw [hq, hp, BitVec.toInt_ofInt]
  generalize a.toInt * b.toInt = p at *
  have : (p / 2 ^ 64).bmod (2 ^ 64) = p / 2 ^ 64 := by
    rw [Int.bmod_def]; omega
  rw [this]; omega

theorem sdiv_spec {w : Nat} (a b : BitVec w) (h : ¬ (a = BitVec.intMin w ∧ b = -1#w)) : (a.sdiv b).toInt = a.toInt.tdiv b.toInt :=
  BitVec.toInt_sdiv_of_ne_or_ne a b (by tauto)

theorem uval_sx (v : BitVec 32) : uval true (sx32 v) = v.toNat := by
  have : (lo32 (sx32 v)).toNat = v.toNat := by rw [lo32_sx32]
  simpa [uval, lo32] using this
theorem sval_sx (v : BitVec 32) : sval true (sx32 v) = v.toInt := by
  simp only [sval, if_true]
  exact congrArg BitVec.toInt (lo32_sx32 v)
theorem ext_sx (is32 : Bool) (v : BitVec 32) : Ext is32 (sx32 v) := by
  intro _
  exact (congrArg sx32 (lo32_sx32 v)).symm

theorem divu_spec (is32 : Bool) (a b : BitVec 64) (h : uval is32 b ≠ 0) :
    uval is32 (if is32 then sx32 (WOp.divu.eval32 (lo32 a) (lo32 b)) else ROp.divu.eval a b) = uval is32 a / uval is32 b ∧
    uval is32 (if is32 then sx32 (WOp.remu.eval32 (lo32 a) (lo32 b)) else ROp.remu.eval a b) = uval is32 a % uval is32 b := by
  cases is32
  · have : b ≠ 0#64 := by rintro rfl; exact h rfl
    simp [uval, ROp.eval, this, BitVec.udiv_eq, BitVec.umod_eq]
  · have hb : lo32 b ≠ 0#32 := by
      intro e; apply h
      have := congrArg BitVec.toNat e
      simpa [uval, lo32] using this
    simp only [if_true, uval_sx, WOp.eval32, hb, if_false, BitVec.udiv_eq, BitVec.umod_eq, BitVec.toNat_udiv, BitVec.toNat_umod]
    simp [lo32, uval]

theorem div_spec (is32 : Bool) (a b : BitVec 64) (h : sval is32 b ≠ 0) (hm : ¬ (sval is32 a = smin is32 ∧ sval is32 b = -1)) :
    sval is32 (if is32 then sx32 (WOp.div.eval32 (lo32 a) (lo32 b)) else ROp.div.eval a b) = (sval is32 a).tdiv (sval is32 b) ∧
    sval is32 (if is32 then sx32 (WOp.rem.eval32 (lo32 a) (lo32 b)) else ROp.rem.eval a b) = (sval is32 a).tmod (sval is32 b) := by
  cases is32
  · have hb : b ≠ 0#64 := by rintro rfl; exact h rfl
    simp only [sval, smin, Bool.false_eq_true, if_false, ROp.eval, hb] at *
    refine ⟨sdiv_spec _ _ ?_, BitVec.toInt_srem ..⟩
    rintro ⟨rfl, rfl⟩; exact hm ⟨by decide, by decide⟩
  · have hb : lo32 b ≠ 0#32 := by
      intro e; apply h
      simp only [sval, if_true]
      exact congrArg BitVec.toInt e
    simp only [if_true, sval_sx, WOp.eval32, hb, if_false]
    refine ⟨sdiv_spec _ _ ?_, BitVec.toInt_srem ..⟩
    rintro ⟨e1, e2⟩; refine hm ⟨?_, ?_⟩
    · simp only [sval, smin, if_true]; exact (congrArg BitVec.toInt e1).trans (by decide)
    · simp only [sval, if_true]; exact (congrArg BitVec.toInt e2).trans (by decide)

/-! ## The theorem -/

/-- Everything but R0, R1 and TMP_REG1. -/
structure Rest (c c' : Core) : Prop where
  x : ∀ q, q ≠ regMap R0 → q ≠ regMap R1 → q ≠ 6#5 → c'.x q = c.x q
  mem : c'.mem = c.mem
  f : c'.f = c.f

theorem op0_ok (cfg : Cfg) (o : Op0) (is32 : Bool) (c : Core) :
    wp (emitOp0 cfg o is32) c fun c' =>
      spec o is32 (c.x (regMap R0)) (c.x (regMap R1)) (c'.x (regMap R0)) (c'.x (regMap R1)) ∧ Rest c c' := by
  have e0 : regMap R0 = 10#5 := by decide
  have e1 : regMap R1 = 11#5 := by decide
  rw [e0, e1]
  have w0 : ∀ {e : Emit} {Q}, wp e c Q → wp e c Q := id
  cases o
  case nop =>
    unfold emitOp0
    cases cfg.c
    · simp only [Bool.false_eq_true, if_false]
      have : decode32 NOP = some (.opi .add 0#5 0#5 0#12) := by decide +kernel
      refine (wp_step32' this rfl rfl).mpr ?_
      exact ⟨⟨by simp, by simp⟩, fun _ _ _ _ => by simp, rfl, rfl⟩
    · simp only [if_true]
      have : decode16 C_NOP = some (.opi .add 0#5 0#5 0#12) := by decide +kernel
      refine (wp_step16' this rfl rfl).mpr ?_
      exact ⟨⟨by simp, by simp⟩, fun _ _ _ _ => by simp, rfl, rfl⟩
  case lmulUw =>
    unfold emitOp0
    wps [e0, e1, IOp.eval]
    refine ⟨?_, fun q h0 h1 h6 => by simp_all, rfl, rfl⟩
    simp only [spec]
    exact mulhu_spec _ _
  case lmulSw =>
    unfold emitOp0
    wps [e0, e1, IOp.eval]
    refine ⟨?_, fun q h0 h1 h6 => by simp_all, rfl, rfl⟩
    simp only [spec]
    exact mulh_spec _ _
  case divmodUw =>
    unfold emitOp0
    wps [e0, e1, IOp.eval]
    refine ⟨?_, fun q h0 h1 h6 => by simp_all, rfl, rfl⟩
    intro h
    exact ⟨(divu_spec is32 _ _ h).1, (divu_spec is32 _ _ h).2, by cases is32; (intro h; cases h); exact ext_sx _ _, by cases is32; (intro h; cases h); exact ext_sx _ _⟩
  case divmodSw =>
    unfold emitOp0
    wps [e0, e1, IOp.eval]
    refine ⟨?_, fun q h0 h1 h6 => by simp_all, rfl, rfl⟩
    intro h h'
    exact ⟨(div_spec is32 _ _ h h').1, (div_spec is32 _ _ h h').2, by cases is32; (intro h; cases h); exact ext_sx _ _, by cases is32; (intro h; cases h); exact ext_sx _ _⟩
  case divUw =>
    unfold emitOp0
    wps [e0, e1, IOp.eval]
    refine ⟨?_, fun q h0 h1 h6 => by simp_all, rfl, rfl⟩
    intro h
    exact ⟨(divu_spec is32 _ _ h).1, rfl, by cases is32; (intro h; cases h); exact ext_sx _ _⟩
  case divSw =>
    unfold emitOp0
    wps [e0, e1, IOp.eval]
    refine ⟨?_, fun q h0 h1 h6 => by simp_all, rfl, rfl⟩
    intro h h'
    exact ⟨(div_spec is32 _ _ h h').1, rfl, by cases is32; (intro h; cases h); exact ext_sx _ _⟩
  case memoryBarrier =>
    unfold emitOp0
    have : decode32 (FENCE ||| 0x0ff00000#32) = some .fence := by decide +kernel
    refine (wp_step32' this rfl rfl).mpr ?_
    rw [core_st]; exact ⟨⟨rfl, rfl⟩, fun _ _ _ _ => rfl, rfl, rfl⟩
  all_goals
    unfold emitOp0
    rw [wp_nil]
    exact ⟨⟨rfl, rfl⟩, fun _ _ _ _ => rfl, rfl, rfl⟩

/-- **C34.**  For every value of R0 and R1 the emitted code runs to its end and R0 and R1 hold the documented result; no
other register of the application, no memory and no float register changes, nor do the flags. -/
theorem c34_op0 (cfg : Cfg) (o : Op0) (is32 : Bool) (s : St) :
    ∃ s', run (emitOp0 cfg o is32) s = some s' ∧
      spec o is32 (s.rd (regMap 1)) (s.rd (regMap 2)) (s'.rd (regMap 1)) (s'.rd (regMap 2)) ∧
      (∀ r, UserReg r → r ≠ 1 → r ≠ 2 → s'.rd (regMap r) = s.rd (regMap r)) ∧ s'.mem = s.mem ∧ s'.f = s.f ∧
      (zeroFlag s' ↔ zeroFlag s) ∧ (varFlag s' ↔ varFlag s) ∧ ∀ b, carryFlag s' b ↔ carryFlag s b := by
  obtain ⟨s', h1, h2, h3⟩ := op0_ok cfg o is32 s.core s rfl
  have k : ∀ q, q ≠ regMap R0 → q ≠ regMap R1 → q ≠ 6#5 → s'.rd q = s.rd q := h3.x
  refine ⟨s', h1, h2, ?_, h3.mem, h3.f, ?_, ?_, ?_⟩
  · intro r hr h1 h2
    refine k _ ?_ ?_ (user_ne hr.2).2.2.1
    · exact fun e => h1 (user_inj r 1 hr ⟨by decide, by decide⟩ e)
    · exact fun e => h2 (user_inj r 2 hr ⟨by decide, by decide⟩ e)
  · unfold zeroFlag; rw [k 5#5 (by decide) (by decide) (by decide)]
  · unfold varFlag; rw [k 28#5 (by decide) (by decide) (by decide)]
  · intro b; unfold carryFlag; rw [k 28#5 (by decide) (by decide) (by decide)]

/-- A case with a negative high word. -/
example : ∃ s', run (emitOp0 ⟨true, false, false⟩ .lmulSw false)
    ⟨fun r => if r = 10#5 then -3#64 else if r = 11#5 then 7#64 else 0#64, fun _ => 0#64, fun _ => 0#8, 0#64⟩ = some s' ∧
    s'.rd 10#5 = -21#64 ∧ s'.rd 11#5 = -1#64 := by
  obtain ⟨s', h, -⟩ := c34_op0 ⟨true, false, false⟩ .lmulSw false
    ⟨fun r => if r = 10#5 then -3#64 else if r = 11#5 then 7#64 else 0#64, fun _ => 0#64, fun _ => 0#8, 0#64⟩
  refine ⟨s', h, ?_⟩
  have : (run (emitOp0 ⟨true, false, false⟩ .lmulSw false)
    ⟨fun r => if r = 10#5 then -3#64 else if r = 11#5 then 7#64 else 0#64, fun _ => 0#64, fun _ => 0#8, 0#64⟩).map
      (fun s' => (s'.rd 10#5, s'.rd 11#5)) = some (-21#64, -1#64) := by decide +kernel
  rw [h] at this
  simpa using this

end Verif.Props.C34
