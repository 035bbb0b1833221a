import Verif.A64.Steps
import Verif.RISCV.OpSpec

/-! # Results and flags against the specification (helper lemmas) -/

namespace Verif.A64
open Verif (RV.OpC RV.Op RV.Flag RV.val RV.flagVal RV.Op.flagOk)

/-- The variable flag as the flags of the machine hold it. -/
def ccOf (o : RV.OpC) (g : RV.Flag) (f : Flags) : Bool :=
  match g with
  | .none => false
  | .carry => if o = .add ∨ o = .addc then f.c else !f.c
  | .less => !f.c
  | .overflow => if o = .mul then !f.z else f.v
  | .greater => f.c && !f.z
  | .sigLess => f.n ^^ f.v
  | .sigGreater => !f.z && f.n == f.v

/-- The result and the flags of a binary operation on w bits. -/
structure Post {w : Nat} (op : RV.Op) (a b : BitVec w) (cin : Bool) (x : BitVec w) (f : Flags) : Prop where
  val : x = RV.val op.code a b cin
  zero : op.setZ = true → f.z = decide (x = 0#w)
  flag : op.flag ≠ .none → ccOf op.code op.flag f = RV.flagVal op.code op.flag a b cin

/-- The flags of a result triple. -/
def flT {w : Nat} (t : BitVec w × Bool × Bool) : Flags := nzcv t.1 t.2.1 t.2.2

variable {w : Nat}

theorem awc_comm (x y : BitVec w) (c : Bool) : awc x y c = awc y x c := by
  unfold awc; rw [Nat.add_comm x.toNat, Int.add_comm x.toInt]

theorem awc_ext {x y x' y' : BitVec w} {c c' : Bool} (h1 : x.toNat + y.toNat + c.toNat = x'.toNat + y'.toNat + c'.toNat)
    (h2 : x.toInt + y.toInt + c.toNat = x'.toInt + y'.toInt + c'.toNat) : awc x y c = awc x' y' c' := by
  simp only [awc, h1, h2]

theorem post_add {op : RV.Op} (hc : op.code = .add) (hf : op.flagOk) (a b : BitVec w) (cin : Bool) : Post op a b cin (awc a b false).1 (flT (awc a b false)) := by
  simp only [RV.Op.flagOk, hc] at hf
  refine ⟨by rw [hc]; rfl, fun _ => rfl, fun h => ?_⟩
  rcases hf with hf | hf | hf
  · exact absurd hf h
  · simp [hf, hc, ccOf, awc, flT, nzcv, RV.flagVal]
  · simp [hf, hc, ccOf, awc, flT, nzcv, RV.flagVal]

theorem post_addc {op : RV.Op} (hc : op.code = .addc) (hf : op.flagOk) (a b : BitVec w) (cin : Bool) : Post op a b cin (awc a b cin).1 (flT (awc a b cin)) := by
  simp only [RV.Op.flagOk, hc] at hf
  refine ⟨by rw [hc]; rfl, fun _ => rfl, fun h => ?_⟩
  rcases hf.1 with hf | hf
  · exact absurd hf h
  · simp [hf, hc, ccOf, awc, flT, nzcv, RV.flagVal]

theorem not_nat (b : BitVec w) : (~~~ b).toNat = 2 ^ w - 1 - b.toNat := BitVec.toNat_not
theorem not_int (b : BitVec w) (hw : 0 < w) : (~~~ b).toInt = -b.toInt - 1 := by
  have hb := b.isLt
  obtain ⟨n, rfl⟩ : ∃ n, w = n + 1 := ⟨w - 1, by omega⟩
  rw [BitVec.toInt_eq_toNat_cond, BitVec.toInt_eq_toNat_cond, not_nat]
  have hp : 2 ^ (n + 1) = 2 * 2 ^ n := by rw [pow_succ, Nat.mul_comm]
  rw [hp] at hb ⊢
  have : ((2 * 2 ^ n : Nat) : Int) = 2 * ((2 ^ n : Nat) : Int) := by push_cast; rfl
  split <;> split <;> omega

/-- Subtraction as the addition of the complement. -/
theorem awc_sub (a b : BitVec w) (hw : 0 < w) : awc a (~~~ b) true =
    (a - b, !decide (a.toNat < b.toNat), decide (a.toInt - b.toInt < -2 ^ (w - 1) ∨ 2 ^ (w - 1) ≤ a.toInt - b.toInt)) := by
  have ha := a.isLt; have hb := b.isLt
  unfold awc
  refine Prod.ext ?_ (Prod.ext ?_ ?_)
  · apply BitVec.eq_of_toNat_eq
    show (a.toNat + (~~~ b).toNat + 1) % 2 ^ w = _
    rw [not_nat, BitVec.toNat_sub]; congr 1; omega
  · show decide (2 ^ w ≤ a.toNat + (~~~ b).toNat + 1) = _
    rw [not_nat, ← decide_not]; congr 1; rw [eq_iff_iff]; omega
  · show decide (a.toInt + (~~~ b).toInt + ((1 : Nat) : Int) < -2 ^ (w - 1) ∨ 2 ^ (w - 1) ≤ a.toInt + (~~~ b).toInt + ((1 : Nat) : Int)) = _
    rw [not_int b hw]
    have : a.toInt + (-b.toInt - 1) + ((1 : Nat) : Int) = a.toInt - b.toInt := by omega
    rw [this]

theorem sub_zero_iff {w : Nat} (a b : BitVec w) : a - b = 0#w ↔ a = b := by
  constructor
  · intro h; have := congrArg (· + b) h; simpa [BitVec.sub_add_cancel] using this
  · rintro rfl; exact BitVec.sub_self a

/-- The sign of the difference and the overflow give the signed order. -/
theorem sign_sub {w : Nat} (a b : BitVec w) (hw : 0 < w) :
    ((a - b).msb ^^ decide (a.toInt - b.toInt < -2 ^ (w - 1) ∨ 2 ^ (w - 1) ≤ a.toInt - b.toInt)) = decide (a.toInt < b.toInt) := by
  have ha := BitVec.toInt_lt (x := a)
  have ha' := BitVec.le_toInt (x := a)
  have hb := BitVec.toInt_lt (x := b)
  have hb' := BitVec.le_toInt (x := b)
  obtain ⟨n, rfl⟩ : ∃ n, w = n + 1 := ⟨w - 1, by omega⟩
  simp only [Nat.add_sub_cancel] at *
  have hp : (2 : Int) ^ (n + 1) = 2 * 2 ^ n := by rw [pow_succ, Int.mul_comm]
  have hpos : (0 : Int) < 2 ^ n := Int.pow_pos (by decide)
  have hm : (a - b).msb = decide ((a - b).toInt < 0) := BitVec.msb_eq_toInt
  have hcast : ((2 ^ (n + 1) : Nat) : Int) = 2 * 2 ^ n := by push_cast; exact hp
  rw [hm, BitVec.toInt_sub]
  by_cases h1 : a.toInt - b.toInt < -2 ^ n
  · have : (a.toInt - b.toInt).bmod (2 ^ (n + 1)) = a.toInt - b.toInt + 2 * 2 ^ n := by
      rw [← Int.add_bmod_right, hcast]
      apply Int.bmod_eq_of_le
      · rw [hcast]; omega
      · rw [hcast]; omega
    rw [this]
    have e1 : decide (a.toInt - b.toInt + 2 * 2 ^ n < 0) = false := by simp; omega
    have e2 : decide (a.toInt - b.toInt < -2 ^ n ∨ 2 ^ n ≤ a.toInt - b.toInt) = true := by simp [h1]
    have e3 : decide (a.toInt < b.toInt) = true := by simp; omega
    rw [e1, e2, e3]; rfl
  · by_cases h2 : 2 ^ n ≤ a.toInt - b.toInt
    · have : (a.toInt - b.toInt).bmod (2 ^ (n + 1)) = a.toInt - b.toInt - 2 * 2 ^ n := by
        rw [← Int.sub_bmod_right, hcast]
        apply Int.bmod_eq_of_le
        · rw [hcast]; omega
        · rw [hcast]; omega
      rw [this]
      have e1 : decide (a.toInt - b.toInt - 2 * 2 ^ n < 0) = true := by simp; omega
      have e2 : decide (a.toInt - b.toInt < -2 ^ n ∨ 2 ^ n ≤ a.toInt - b.toInt) = true := by simp [h2]
      have e3 : decide (a.toInt < b.toInt) = false := by simp; omega
      rw [e1, e2, e3]; rfl
    · have : (a.toInt - b.toInt).bmod (2 ^ (n + 1)) = a.toInt - b.toInt := by
        apply Int.bmod_eq_of_le
        · rw [hcast]; omega
        · rw [hcast]; omega
      rw [this]
      have e2 : decide (a.toInt - b.toInt < -2 ^ n ∨ 2 ^ n ≤ a.toInt - b.toInt) = false := by simp [h1, h2]
      rw [e2, Bool.xor_false]
      congr 1
      simp only [eq_iff_iff]; omega

theorem val_sub (a b : BitVec w) (cin : Bool) : RV.val .sub a b cin = a - b := by
  apply BitVec.eq_of_toInt_eq
  simp [RV.val, BitVec.toInt_sub, BitVec.toInt_ofInt, BitVec.toInt_eq_toNat_bmod (x := a), BitVec.toInt_eq_toNat_bmod (x := b)]

theorem val_add (a b : BitVec w) (cin : Bool) : RV.val .add a b cin = a + b := by
  apply BitVec.eq_of_toNat_eq; simp [RV.val, BitVec.toNat_add]

theorem val_mul (a b : BitVec w) (cin : Bool) : RV.val .mul a b cin = a * b := by
  apply BitVec.eq_of_toNat_eq; simp [RV.val, BitVec.toNat_mul]

theorem post_sub {op : RV.Op} (hc : op.code = .sub) (hw : 0 < w) (a b : BitVec w) (cin : Bool) : Post op a b cin (awc a (~~~ b) true).1 (flT (awc a (~~~ b) true)) := by
  have hs := sign_sub a b hw
  have hz := sub_zero_iff a b
  rw [awc_sub a b hw]
  refine ⟨by rw [hc, val_sub], fun _ => rfl, fun h => ?_⟩
  rw [hc]
  cases hg : op.flag with
  | none => exact absurd hg h
  | less => simp [ccOf, flT, nzcv, RV.flagVal]
  | carry => simp [ccOf, flT, nzcv, RV.flagVal]
  | overflow => simp [ccOf, flT, nzcv, RV.flagVal]
  | greater =>
    simp only [ccOf, flT, nzcv, RV.flagVal]
    have : (a - b = 0#w) ↔ a.toNat = b.toNat := by rw [hz, BitVec.toNat_eq]
    by_cases h1 : a.toNat < b.toNat
    · simp [h1]; omega
    · by_cases h2 : a.toNat = b.toNat
      · simp [this.2 h2, h2]
      · simp only [h1, this, h2, decide_false, Bool.not_false, Bool.and_self]
        exact (decide_eq_true (by omega)).symm
  | sigLess =>
    simp only [ccOf, flT, nzcv, RV.flagVal]
    exact hs
  | sigGreater =>
    simp only [ccOf, flT, nzcv, RV.flagVal]
    have he : ∀ x y : Bool, (x == y) = !(x ^^ y) := by decide
    rw [he, hs]
    have : (a - b = 0#w) ↔ a.toInt = b.toInt := by rw [hz, BitVec.toInt_inj]
    by_cases h1 : a.toInt < b.toInt
    · simp [h1]; omega
    · by_cases h2 : a.toInt = b.toInt
      · simp [this.2 h2, h2]
      · simp only [h1, this, h2, decide_false, Bool.not_false, Bool.and_self]
        exact (decide_eq_true (by omega)).symm

theorem post_subc {op : RV.Op} (hc : op.code = .subc) (hf : op.flagOk) (a b : BitVec w) (cin : Bool) : Post op a b cin (awc a (~~~ b) !cin).1 (flT (awc a (~~~ b) !cin)) := by
  have ha := a.isLt; have hb := b.isLt
  have hx : (awc a (~~~ b) !cin).1 = RV.val .subc a b cin := by
    apply BitVec.eq_of_toInt_eq
    show (BitVec.ofNat w (a.toNat + (~~~ b).toNat + (!cin).toNat)).toInt = (BitVec.ofInt w ((a.toNat : Int) - b.toNat - cin.toNat)).toInt
    rw [not_nat, BitVec.toInt_ofInt, BitVec.toInt_ofNat']
    have : ((a.toNat + (2 ^ w - 1 - b.toNat) + (!cin).toNat : Nat) : Int) = ((a.toNat : Int) - b.toNat - cin.toNat) + ((2 ^ w : Nat) : Int) := by
      cases cin <;> simp only [Bool.not_false, Bool.not_true, Bool.toNat_false, Bool.toNat_true] <;> omega
    rw [this, Int.add_bmod_right]
  simp only [RV.Op.flagOk, hc] at hf
  refine ⟨by rw [hc, hx], fun _ => rfl, fun h => ?_⟩
  rcases hf.1 with hf | hf
  · exact absurd hf h
  · have : (awc a (~~~ b) !cin).2.1 = !decide (a.toNat < b.toNat + cin.toNat) := by
      show decide (2 ^ w ≤ a.toNat + (~~~ b).toNat + (!cin).toNat) = _
      rw [not_nat, ← decide_not]; congr 1; rw [eq_iff_iff]; cases cin <;> simp <;> omega
    simp [hf, hc, ccOf, flT, nzcv, RV.flagVal, this]

/-- Operations with no flag but zero. -/
theorem post_z {op : RV.Op} (hf : op.flag = .none) {a b : BitVec w} {cin : Bool} {x : BitVec w} {f : Flags} (hx : x = RV.val op.code a b cin) (hz : f.z = decide (x = 0#w)) : Post op a b cin x f :=
  ⟨hx, fun _ => hz, fun h => absurd hf h⟩

/-- Only the result matters. -/
theorem post_plain {op : RV.Op} (hf : hasFlags op = false) {a b : BitVec w} {cin : Bool} {x : BitVec w} {f : Flags} (hx : x = RV.val op.code a b cin) : Post op a b cin x f := by
  simp only [hasFlags, Bool.or_eq_false_iff, decide_eq_false_iff_not, not_not] at hf
  exact ⟨hx, fun h => (by rw [hf.1] at h; cases h), fun h => absurd hf.2 h⟩

/-! ## Negated constants -/

theorem neg_nat {b : BitVec w} (h : b ≠ 0#w) : (-b).toNat = 2 ^ w - b.toNat := by
  have hb := b.isLt
  have h' : b.toNat ≠ 0 := fun e => h (BitVec.eq_of_toNat_eq (by simpa using e))
  rw [BitVec.toNat_neg]; exact Nat.mod_eq_of_lt (by omega)

/-- a - (-b) is a + b, with the flags. -/
theorem awc_neg_sub (a : BitVec w) {b : BitVec w} (hw : 0 < w) (h0 : b ≠ 0#w) (hm : b ≠ BitVec.intMin w) : awc a (~~~ (-b)) true = awc a b false := by
  have hb := b.isLt
  have e1 : (~~~ (-b)).toNat + 1 = b.toNat := by
    have h' : b.toNat ≠ 0 := fun e => h0 (BitVec.eq_of_toNat_eq (by simpa using e))
    rw [not_nat, neg_nat h0]; omega
  have e2 : (~~~ (-b)).toInt + 1 = b.toInt := by rw [not_int _ hw, BitVec.toInt_neg_of_ne_intMin hm]; omega
  refine awc_ext ?_ ?_
  · show _ + _ + 1 = _ + _ + 0; omega
  · show _ + _ + ((1 : Nat) : Int) = _ + _ + ((0 : Nat) : Int); omega

/-- a + (-b) is a - b, with the flags. -/
theorem awc_neg_add (a : BitVec w) {b : BitVec w} (hw : 0 < w) (h0 : b ≠ 0#w) (hm : b ≠ BitVec.intMin w) : awc a (-b) false = awc a (~~~ b) true := by
  have : -(-b) = b := by rw [BitVec.neg_neg]
  rw [← awc_neg_sub a (b := -b) hw (fun e => h0 (by rw [← this, e]; simp)) (fun e => hm (by rw [← this, e]; exact BitVec.neg_intMin)), this]

end Verif.A64
