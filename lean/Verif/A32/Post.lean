import Verif.A32.Shift

/-! # Results and flags of the operations against the specification (helper lemmas) -/

namespace Verif.A32
open Verif.Imm.A32 (fld expand)
open Verif.Imm.Arm32 (regMap getImm computeImm getImm_sound computeImm_sound)
open Verif (RV.OpC RV.Op RV.Flag RV.val RV.flagVal RV.Op.flagOk)

/-- The flags after the operation op on a and b, as get_cc relies on them. -/
structure FlagsOk (op : RV.Op) (a b : BitVec 32) (cin n z c v : Bool) : Prop where
  zero : op.setZ = true → z = decide (RV.val op.code a b cin = 0#32)
  carryA : op.flag = .carry → op.code = .add ∨ op.code = .addc → c = RV.flagVal op.code .carry a b cin
  carryS : op.flag = .carry → op.code = .sub ∨ op.code = .subc → c = !RV.flagVal op.code .carry a b cin
  ovf : op.flag = .overflow → op.code = .add ∨ op.code = .sub → v = RV.flagVal op.code .overflow a b cin
  ovfM : op.flag = .overflow → op.code = .mul → z = !RV.flagVal op.code .overflow a b cin
  less : op.flag = .less → op.code = .sub → c = !decide (a.toNat < b.toNat)
  greater : op.flag = .greater → op.code = .sub → (c && !z) = decide (b.toNat < a.toNat)
  sigLess : op.flag = .sigLess → op.code = .sub → (n != v) = decide (a.toInt < b.toInt)
  sigGreater : op.flag = .sigGreater → op.code = .sub → (!z && n == v) = decide (b.toInt < a.toInt)

/-- The triple is what the operation has to yield. -/
def PostT (op : RV.Op) (a b : BitVec 32) (cin : Bool) (t : BitVec 32 × Bool × Bool) : Prop :=
  t.1 = RV.val op.code a b cin ∧ ∀ n z c v, FlagsAre t n z c v → FlagsOk op a b cin n z c v

theorem awc_comm (x y : BitVec 32) (c : Bool) : awc x y c = awc y x c := by
  unfold awc; rw [Nat.add_comm x.toNat, Int.add_comm x.toInt]

theorem awc_ext {x y x' y' : BitVec 32} {c c' : Bool} (h1 : x.toNat + y.toNat + c.toNat = x'.toNat + y'.toNat + c'.toNat)
    (h2 : x.toInt + y.toInt + c.toNat = x'.toInt + y'.toInt + c'.toNat) : awc x y c = awc x' y' c' := by
  simp only [awc, h1, h2]

theorem post_add {op : RV.Op} (h : op.code = .add) (hf : op.flagOk) (a b : BitVec 32) (cin : Bool) : PostT op a b cin (awc a b false) := by
  refine ⟨by rw [h]; rfl, fun n z c v ⟨hn, hz, hc, hv⟩ => ?_⟩
  rw [RV.Op.flagOk, h] at hf
  refine ⟨fun _ => ?_, fun _ _ => ?_, fun _ e => ?_, fun _ _ => ?_, fun _ e => ?_, fun _ e => ?_, fun _ e => ?_, fun _ e => ?_, fun _ e => ?_⟩
  · rw [hz, h]; rfl
  · rw [hc, h]; rfl
  · rw [h] at e; simp at e
  · rw [hv, h]; simp [awc, RV.flagVal]
  all_goals rw [h] at e; cases e

theorem post_addc {op : RV.Op} (h : op.code = .addc) (hf : op.flagOk) (a b : BitVec 32) (cin : Bool) : PostT op a b cin (awc a b cin) := by
  refine ⟨by rw [h]; rfl, fun n z c v ⟨hn, hz, hc, hv⟩ => ?_⟩
  rw [RV.Op.flagOk, h] at hf
  refine ⟨fun e => ?_, fun _ _ => ?_, fun _ e => ?_, fun e _ => ?_, fun _ e => ?_, fun _ e => ?_, fun _ e => ?_, fun _ e => ?_, fun _ e => ?_⟩
  · rw [hz, h]; rfl
  · rw [hc, h]; rfl
  · rw [h] at e; simp at e
  · rcases hf.1 with f | f <;> rw [f] at e <;> cases e
  all_goals rw [h] at e; cases e

theorem not_nat (b : BitVec 32) : (~~~ b).toNat = 2 ^ 32 - 1 - b.toNat := BitVec.toNat_not
theorem not_int (b : BitVec 32) : (~~~ b).toInt = -b.toInt - 1 := by
  have := b.isLt
  rw [BitVec.toInt_eq_toNat_cond, BitVec.toInt_eq_toNat_cond, not_nat]
  split <;> split <;> omega

theorem sub_val (a b : BitVec 32) : (awc a (~~~ b) true).1 = a - b := by
  apply BitVec.eq_of_toNat_eq
  have := a.isLt; have := b.isLt
  show (a.toNat + (~~~ b).toNat + 1) % 2 ^ 32 = _
  rw [not_nat, BitVec.toNat_sub]; congr 1; omega

theorem post_sub {op : RV.Op} (h : op.code = .sub) (a b : BitVec 32) (cin : Bool) : PostT op a b cin (awc a (~~~ b) true) := by
  have hx : (awc a (~~~ b) true).1 = RV.val .sub a b cin := by
    rw [sub_val]
    show _ = BitVec.ofInt 32 ((a.toNat : Int) - b.toNat)
    apply BitVec.eq_of_toInt_eq
    rw [BitVec.toInt_sub, BitVec.toInt_ofInt, BitVec.toInt_eq_toNat_bmod, BitVec.toInt_eq_toNat_bmod]; simp
  have ha := a.isLt; have hb := b.isLt
  have hal := BitVec.two_mul_toInt_lt (x := a); have hbl := BitVec.two_mul_toInt_lt (x := b)
  have hal' := BitVec.le_two_mul_toInt (x := a); have hbl' := BitVec.le_two_mul_toInt (x := b)
  have hC : (awc a (~~~ b) true).2.1 = !decide (a.toNat < b.toNat) := by
    show decide (2 ^ 32 ≤ a.toNat + (~~~ b).toNat + 1) = _
    rw [not_nat, ← decide_not]; congr 1; rw [eq_iff_iff]; omega
  have hV : (awc a (~~~ b) true).2.2 = decide (a.toInt - b.toInt < -2 ^ 31 ∨ 2 ^ 31 ≤ a.toInt - b.toInt) := by
    show decide (a.toInt + (~~~ b).toInt + 1 < -2 ^ 31 ∨ 2 ^ 31 ≤ a.toInt + (~~~ b).toInt + 1) = _
    rw [not_int]; congr 1; rw [eq_iff_iff]; omega
  have hZ : decide ((awc a (~~~ b) true).1 = 0#32) = decide (a = b) := by
    rw [sub_val]; congr 1; rw [eq_iff_iff, BitVec.sub_eq_iff_eq_add, BitVec.zero_add]
  have hN : (awc a (~~~ b) true).1.getLsbD 31 = decide ((a - b).toInt < 0) := by
    rw [sub_val]
    exact BitVec.msb_eq_toInt (x := a - b)
  have hd : (a - b).toInt = (a.toInt - b.toInt).bmod (2 ^ 32) := BitVec.toInt_sub ..
  have hsl : (decide ((a - b).toInt < 0) != decide (a.toInt - b.toInt < -2 ^ 31 ∨ 2 ^ 31 ≤ a.toInt - b.toInt)) = decide (a.toInt < b.toInt) := by
    rw [hd, Int.bmod_def]
    by_cases h1 : a.toInt < b.toInt <;> by_cases h2 : a.toInt - b.toInt < -2 ^ 31 ∨ 2 ^ 31 ≤ a.toInt - b.toInt <;>
      simp only [h1, h2, decide_true, decide_false, Bool.bne_true, Bool.bne_false, Bool.not_eq_true', decide_eq_true_eq, decide_eq_false_iff_not, not_lt, not_le, Bool.not_eq_false'] <;> split <;> omega
  have heq : a = b ↔ a.toInt = b.toInt := BitVec.toInt_inj.symm
  have heqn : a = b ↔ a.toNat = b.toNat := BitVec.toNat_inj.symm
  have hqn : decide (a = b) = decide (a.toNat = b.toNat) := by rw [decide_eq_decide]; exact heqn
  have hqi : decide (a = b) = decide (a.toInt = b.toInt) := by rw [decide_eq_decide]; exact heq
  refine ⟨by rw [h]; exact hx, fun n z c v ⟨hn, hz, hc, hv⟩ => ?_⟩
  rw [hN] at hn; rw [hC] at hc; rw [hV] at hv
  refine ⟨fun e => ?_, fun _ e => ?_, fun _ _ => ?_, fun _ _ => ?_, fun _ e => ?_, fun _ _ => hc, fun _ _ => ?_, fun _ _ => ?_, fun _ _ => ?_⟩
  · rw [hz, h, hx]
  · rw [h] at e; simp at e
  · rw [hc, h]; rfl
  · rw [hv, h]; rfl
  · rw [h] at e; cases e
  · rw [hc, hz, hZ, hqn]
    rw [Bool.eq_iff_iff]; simp only [Bool.and_eq_true, Bool.not_eq_true', decide_eq_false_iff_not, decide_eq_true_eq]; omega
  · rw [hn, hv, hsl]
  · rw [hZ] at hz
    have : (n == v) = !decide (a.toInt < b.toInt) := by rw [← hsl, ← hn, ← hv]; cases n <;> cases v <;> rfl
    rw [this, hz, hqi]
    rw [Bool.eq_iff_iff]; simp only [Bool.and_eq_true, Bool.not_eq_true', decide_eq_false_iff_not, decide_eq_true_eq]; omega

theorem post_subc {op : RV.Op} (h : op.code = .subc) (hf : op.flagOk) (a b : BitVec 32) (cin : Bool) : PostT op a b cin (awc a (~~~ b) !cin) := by
  have ha := a.isLt; have hb := b.isLt
  have hx : (awc a (~~~ b) !cin).1 = RV.val .subc a b cin := by
    apply BitVec.eq_of_toNat_eq
    show (a.toNat + (~~~ b).toNat + (!cin).toNat) % 2 ^ 32 = (BitVec.ofInt 32 ((a.toNat : Int) - b.toNat - cin.toNat)).toNat
    rw [not_nat, BitVec.toNat_ofInt]
    cases cin <;> simp <;> omega
  refine ⟨by rw [h]; exact hx, fun n z c v ⟨hn, hz, hc, hv⟩ => ?_⟩
  rw [RV.Op.flagOk, h] at hf
  refine ⟨fun e => ?_, fun _ e => ?_, fun _ _ => ?_, fun e _ => ?_, fun _ e => ?_, fun _ e => ?_, fun _ e => ?_, fun _ e => ?_, fun _ e => ?_⟩
  · rw [hz, h, hx]
  · rw [h] at e; simp at e
  · rw [hc, h]
    show decide (2 ^ 32 ≤ a.toNat + (~~~ b).toNat + (!cin).toNat) = !decide (a.toNat < b.toNat + cin.toNat)
    rw [not_nat, ← decide_not]; congr 1; rw [eq_iff_iff]; cases cin <;> simp <;> omega
  · rcases hf.1 with f | f <;> rw [f] at e <;> cases e
  all_goals rw [h] at e; cases e

/-- Operations with no flag but zero. -/
theorem post_z {op : RV.Op} (hf : op.flag = .none) (a b : BitVec 32) (cin : Bool) {t : BitVec 32 × Bool × Bool} (h : t.1 = RV.val op.code a b cin) : PostT op a b cin t := by
  refine ⟨h, fun n z c v ⟨hn, hz, hc, hv⟩ => ?_⟩
  refine ⟨fun _ => by rw [hz, h], fun e => ?_, fun e => ?_, fun e => ?_, fun e => ?_, fun e => ?_, fun e => ?_, fun e => ?_, fun e => ?_⟩
  all_goals rw [hf] at e; cases e

/-! ## Negated constants -/

theorem int_min {b : BitVec 32} (h : b ≠ 0x80000000#32) : -b.toInt = (-b).toInt := by
  have hb := b.isLt
  have h' : b.toNat ≠ 2147483648 := fun e => h (BitVec.eq_of_toNat_eq e)
  rw [BitVec.toInt_eq_toNat_cond, BitVec.toInt_eq_toNat_cond, BitVec.toNat_neg]
  split <;> split <;> omega

theorem neg_nat {b : BitVec 32} (h : b ≠ 0#32) : (-b).toNat = 2 ^ 32 - b.toNat := by
  have hb := b.isLt
  have h' : b.toNat ≠ 0 := fun e => h (BitVec.eq_of_toNat_eq e)
  rw [BitVec.toNat_neg]; omega

/-- a - (-b) is a + b, with the flags. -/
theorem awc_neg_sub (a : BitVec 32) {b : BitVec 32} (h0 : b ≠ 0#32) (hm : b ≠ 0x80000000#32) : awc a (~~~ (-b)) true = awc a b false := by
  have hb := b.isLt
  have e1 : (~~~ (-b)).toNat + 1 = b.toNat := by
    have h' : b.toNat ≠ 0 := fun e => h0 (BitVec.eq_of_toNat_eq e)
    rw [not_nat, neg_nat h0]; omega
  have e2 : (~~~ (-b)).toInt + 1 = b.toInt := by rw [not_int, ← int_min hm]; omega
  refine awc_ext ?_ ?_
  · show _ + _ + 1 = _ + _ + 0; omega
  · show _ + _ + ((1 : Nat) : Int) = _ + _ + ((0 : Nat) : Int); omega

/-- a + (-b) is a - b, with the flags. -/
theorem awc_neg_add (a : BitVec 32) {b : BitVec 32} (h0 : b ≠ 0#32) (hm : b ≠ 0x80000000#32) : awc a (-b) false = awc a (~~~ b) true := by
  have : -(-b) = b := by rw [BitVec.neg_neg]
  rw [← awc_neg_sub a (b := -b) (fun e => h0 (by rw [← this, e]; rfl)) (fun e => hm (by rw [← this, e]; rfl)), this]

end Verif.A32
