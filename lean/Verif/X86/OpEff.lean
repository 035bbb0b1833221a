import Verif.X86.ShiftEff
import Verif.RISCV.OpSpec

/-! # The binary operations of sljit_emit_op2 (helper lemmas) -/

namespace Verif.X86

variable {win m32 : Bool} {s : St}

/-! ## Sequences with an instruction which sets flags only -/

theorem Eff.after {c d : Code} {v1 v2 : BitVec 64} {dst : Option Opd} {a1 a2 b1 b2 : Bool} {f1 f2 : Flags} (h1 : Eff win m32 c s none v1 a1 a2 f1)
    (h2 : ∀ s1, Res win m32 s s1 none v1 a1 a2 → s1.f = f1 → Eff win m32 d s1 dst v2 b1 b2 f2) (hg : ∀ d, dst = some d → Good d) :
    Eff win m32 (c +> d) s dst v2 (a1 || b1) (a2 || b2) f2 := by
  obtain ⟨s1, e1, r1, hf1⟩ := h1
  obtain ⟨s2, e2, r2, hf2⟩ := h2 s1 r1 hf1
  refine ⟨s2, e1.cat e2, ⟨fun q x y z => ?_, r2.val, ?_⟩, hf2⟩
  · simp only [Bool.or_eq_false_iff] at y z
    rw [r2.regs q x (fun e => (y e).2) (fun e => (z e).2)]
    exact r1.regs q (fun d e => by cases e) (fun e => (y e).1) (fun e => (z e).1)
  · rw [r2.mem]
    have hm : s1.m = s.m := r1.mem
    cases dst with
    | none => exact hm
    | some d =>
      cases d with
      | reg r => exact hm
      | imm v => exact hm
      | mem base offs w =>
        simp only [wrMem]
        rw [hm, r1.ea (hg _ rfl) (fun d e => by cases e)]

theorem Eff.before {c d : Code} {t : Nat} {v1 v2 : BitVec 64} {a1 a2 : Bool} {f1 f2 : Flags} (h1 : Eff win m32 c s (some (.reg t)) v1 a1 a2 f1)
    (h2 : ∀ s1, Res win m32 s s1 (some (.reg t)) v1 a1 a2 → s1.f = f1 → Eff win m32 d s1 none v2 false false f2) : Eff win m32 (c +> d) s (some (.reg t)) v1 a1 a2 f2 := by
  obtain ⟨s1, e1, r1, hf1⟩ := h1
  obtain ⟨s2, e2, r2, hf2⟩ := h2 s1 r1 hf1
  have k : ∀ q, s2.r q = s1.r q := fun q => r2.regs q (fun d e => by cases e) (fun _ => rfl) (fun _ => rfl)
  refine ⟨s2, e1.cat e2, ⟨fun q x y z => ?_, fun d e => ?_, ?_⟩, hf2⟩
  · rw [k, r1.regs q x y z]
  · rw [k, r1.val d e]
  · rw [r2.mem, show wrMem win m32 s1 none v2 = s1.m from rfl, r1.mem]

/-- cmp r, 0 -/
theorem e_cmp0 {r : Nat} (hr : Good (.reg r)) {v : BitVec 64} {f : Flags} (ha : aluN m32 7#3 (opv win m32 s (.reg r)) 0#64 s.f = some (v, f)) :
    Eff win m32 (cmpBinary win m32 (.reg r) (.imm 0#64)) s none v false false f := by
  have hC : CMP = binOf 7#3 := binOf_table.2.2.2.2.2.2.2
  have he : ¬ useEax m32 (.reg r) 0#64 := fun h => h.2.1 (by decide)
  unfold cmpBinary binImm
  simp only [he, if_false]
  rw [if_pos (Or.inl (by decide)), hC]
  exact e_gimm hr rfl (fun _ => by decide) ha

/-! ## What the instructions compute -/

/-- Condition of a jump: the variable flag. -/
def ccOf (g : RV.Flag) (f : Flags) : Option Bool :=
  match g with
  | .none => none
  | .carry | .less => f.cf
  | .overflow => f.of
  | .greater => f.cf.bind fun c => f.zf.map fun z => !c && !z
  | .sigLess => f.sf.bind fun s => f.of.map fun o => s ^^ o
  | .sigGreater => f.zf.bind fun z => f.sf.bind fun s => f.of.map fun o => !z && s == o

/-- The result and the flags of a binary operation on w bits. -/
structure Post {w : Nat} (op : RV.Op) (a b : BitVec w) (cin : Bool) (x : BitVec w) (f : Flags) : Prop where
  val : x = RV.val op.code a b cin
  zero : op.setZ = true → f.zf = some (decide (x = 0#w))
  flag : op.flag ≠ .none → ccOf op.flag f = some (RV.flagVal op.code op.flag a b cin)

theorem add_val {w : Nat} (a b : BitVec w) (c : Bool) : (addF a b c).1 = BitVec.ofNat w (a.toNat + b.toNat + c.toNat) := by
  apply BitVec.eq_of_toNat_eq
  cases c <;> simp [addF, BitVec.toNat_add]

theorem sub_val {w : Nat} (a b : BitVec w) (c : Bool) : (subF a b c).1 = BitVec.ofInt w (a.toNat - b.toNat - c.toNat) := by
  apply BitVec.eq_of_toInt_eq
  simp only [subF, BitVec.toInt_sub, BitVec.toInt_ofInt, BitVec.toInt_eq_toNat_bmod (x := a), BitVec.toInt_eq_toNat_bmod (x := b)]
  cases c <;> simp

theorem zs_zero {w : Nat} (v : BitVec w) : (v == 0#w) = decide (v = 0#w) := rfl

theorem post_add {w : Nat} {op : RV.Op} (hc : op.code = .add) (hf : op.flagOk) (a b : BitVec w) (cin : Bool) : Post op a b cin (addF a b false).1 (addF a b false).2 := by
  simp only [RV.Op.flagOk, hc] at hf
  refine ⟨by rw [add_val, hc]; rfl, fun _ => rfl, fun h => ?_⟩
  rcases hf with hf | hf | hf
  · exact absurd hf h
  · simp [hf, hc, ccOf, addF, zs, RV.flagVal]
  · simp [hf, hc, ccOf, addF, zs, RV.flagVal]

theorem post_addc {w : Nat} {op : RV.Op} (hc : op.code = .addc) (hf : op.flagOk) (a b : BitVec w) (cin : Bool) : Post op a b cin (addF a b cin).1 (addF a b cin).2 := by
  simp only [RV.Op.flagOk, hc] at hf
  refine ⟨by rw [add_val, hc]; rfl, fun _ => rfl, fun h => ?_⟩
  rcases hf.1 with hf | hf
  · exact absurd hf h
  · simp [hf, hc, ccOf, addF, zs, RV.flagVal]

theorem post_subc {w : Nat} {op : RV.Op} (hc : op.code = .subc) (hf : op.flagOk) (a b : BitVec w) (cin : Bool) : Post op a b cin (subF a b cin).1 (subF a b cin).2 := by
  simp only [RV.Op.flagOk, hc] at hf
  refine ⟨by rw [sub_val, hc]; rfl, fun _ => rfl, fun h => ?_⟩
  rcases hf.1 with hf | hf
  · exact absurd hf h
  · simp [hf, hc, ccOf, subF, zs, RV.flagVal]

theorem sub_zero_iff {w : Nat} (a b : BitVec w) : a - b = 0#w ↔ a = b := by
  constructor
  · intro h; have := congrArg (· + b) h; simpa [BitVec.sub_add_cancel] using this
  · rintro rfl; exact BitVec.sub_self a

/-- The sign of the difference and the overflow give the signed order. -/
theorem sign_sub {w : Nat} (a b : BitVec w) (hw : 0 < w) :
    ((a - b).msb ^^ decide (a.toInt - b.toInt < -2 ^ (w - 1) ∨ 2 ^ (w - 1) ≤ a.toInt - b.toInt)) = decide (a.toInt < b.toInt) := by
  have ha := BitVec.toInt_lt (x := a)
  have ha' := BitVec.le_toInt (x := a)
  have hb := BitVec.toInt_lt (x := b)
  have hb' := BitVec.le_toInt (x := b)
  obtain ⟨n, rfl⟩ : ∃ n, w = n + 1 := ⟨w - 1, by omega⟩
  simp only [Nat.add_sub_cancel] at *
  have hp : (2 : Int) ^ (n + 1) = 2 * 2 ^ n := by rw [pow_succ, Int.mul_comm]
  have hpos : (0 : Int) < 2 ^ n := Int.pow_pos (by decide)
  have hm : (a - b).msb = decide ((a - b).toInt < 0) := BitVec.msb_eq_toInt
  have hcast : ((2 ^ (n + 1) : Nat) : Int) = 2 * 2 ^ n := by push_cast; exact hp
  rw [hm, BitVec.toInt_sub]
  by_cases h1 : a.toInt - b.toInt < -2 ^ n
  · have : (a.toInt - b.toInt).bmod (2 ^ (n + 1)) = a.toInt - b.toInt + 2 * 2 ^ n := by
      rw [← Int.add_bmod_right, hcast]
      apply Int.bmod_eq_of_le
      · rw [hcast]; omega
      · rw [hcast]; omega
    rw [this]
    have e1 : decide (a.toInt - b.toInt + 2 * 2 ^ n < 0) = false := by simp; omega
    have e2 : decide (a.toInt - b.toInt < -2 ^ n ∨ 2 ^ n ≤ a.toInt - b.toInt) = true := by simp [h1]
    have e3 : decide (a.toInt < b.toInt) = true := by simp; omega
    rw [e1, e2, e3]; rfl
  · by_cases h2 : 2 ^ n ≤ a.toInt - b.toInt
    · have : (a.toInt - b.toInt).bmod (2 ^ (n + 1)) = a.toInt - b.toInt - 2 * 2 ^ n := by
        rw [← Int.sub_bmod_right, hcast]
        apply Int.bmod_eq_of_le
        · rw [hcast]; omega
        · rw [hcast]; omega
      rw [this]
      have e1 : decide (a.toInt - b.toInt - 2 * 2 ^ n < 0) = true := by simp; omega
      have e2 : decide (a.toInt - b.toInt < -2 ^ n ∨ 2 ^ n ≤ a.toInt - b.toInt) = true := by simp [h2]
      have e3 : decide (a.toInt < b.toInt) = false := by simp; omega
      rw [e1, e2, e3]; rfl
    · have : (a.toInt - b.toInt).bmod (2 ^ (n + 1)) = a.toInt - b.toInt := by
        apply Int.bmod_eq_of_le
        · rw [hcast]; omega
        · rw [hcast]; omega
      rw [this]
      have e2 : decide (a.toInt - b.toInt < -2 ^ n ∨ 2 ^ n ≤ a.toInt - b.toInt) = false := by simp [h1, h2]
      rw [e2, Bool.xor_false]
      congr 1
      simp only [eq_iff_iff]; omega

theorem post_sub {w : Nat} {op : RV.Op} (hc : op.code = .sub) (hw : 0 < w) (a b : BitVec w) (cin : Bool) : Post op a b cin (subF a b false).1 (subF a b false).2 := by
  have e : ∀ x : BitVec w, x - BitVec.setWidth w (BitVec.ofBool false) = x := fun x => by simp
  have hs := sign_sub a b hw
  have hz := sub_zero_iff a b
  have hv : (subF a b false).1 = a - b := e _
  have hf : (subF a b false).2 = zs (a - b) (some (decide (a.toNat < b.toNat)))
      (some (decide (a.toInt - b.toInt < -2 ^ (w - 1) ∨ 2 ^ (w - 1) ≤ a.toInt - b.toInt))) := by
    simp only [subF, e, Bool.toNat_false, Nat.add_zero, Nat.cast_zero, Int.sub_zero]
  refine ⟨by rw [sub_val, hc]; simp [RV.val], fun _ => rfl, fun h => ?_⟩
  rw [hf, hc]
  cases hg : op.flag with
  | none => exact absurd hg h
  | less => simp [ccOf, zs, RV.flagVal]
  | carry => simp [ccOf, zs, RV.flagVal]
  | overflow => simp [ccOf, zs, RV.flagVal]
  | greater =>
    simp only [ccOf, zs, RV.flagVal, Option.bind_some, Option.map_some, Option.some.injEq, zs_zero]
    have : (a - b = 0#w) ↔ a.toNat = b.toNat := by rw [hz, BitVec.toNat_eq]
    by_cases h1 : a.toNat < b.toNat
    · simp [h1]; omega
    · by_cases h2 : a.toNat = b.toNat
      · simp [this.2 h2, h2]
      · simp only [h1, this, h2, decide_false, Bool.not_false, Bool.and_self]
        exact (decide_eq_true (by omega)).symm
  | sigLess =>
    simp only [ccOf, zs, RV.flagVal, Option.bind_some, Option.map_some, Option.some.injEq]
    exact hs
  | sigGreater =>
    simp only [ccOf, zs, RV.flagVal, Option.bind_some, Option.map_some, Option.some.injEq, zs_zero]
    have he : ∀ x y : Bool, (x == y) = !(x ^^ y) := by decide
    rw [he, hs]
    have : (a - b = 0#w) ↔ a.toInt = b.toInt := by rw [hz, BitVec.toInt_inj]
    by_cases h1 : a.toInt < b.toInt
    · simp [h1]; omega
    · by_cases h2 : a.toInt = b.toInt
      · simp [this.2 h2, h2]
      · simp only [h1, this, h2, decide_false, Bool.not_false, Bool.and_self]
        exact (decide_eq_true (by omega)).symm

theorem post_mul {w : Nat} {op : RV.Op} (hc : op.code = .mul) (hf : op.flagOk) (a b : BitVec w) (cin : Bool) : Post op a b cin (mulF a b).1 (mulF a b).2 := by
  simp only [RV.Op.flagOk, hc] at hf
  refine ⟨?_, fun h => (by rw [hf.2] at h; cases h), fun h => ?_⟩
  · rw [hc]
    apply BitVec.eq_of_toNat_eq
    simp [mulF, RV.val, BitVec.toNat_mul]
  · rcases hf.1 with hf | hf
    · exact absurd hf h
    · simp [hf, hc, ccOf, mulF, RV.flagVal]

theorem post_log {w : Nat} {op : RV.Op} (hc : op.code = .and ∨ op.code = .or ∨ op.code = .xor) (hf : op.flagOk) (a b : BitVec w) (cin : Bool) (x : BitVec w)
    (hx : x = RV.val op.code a b cin) : Post op a b cin (logF x).1 (logF x).2 := by
  refine ⟨hx, fun _ => rfl, fun h => absurd ?_ h⟩
  rcases hc with hc | hc | hc <;> (simp only [RV.Op.flagOk, hc] at hf; exact hf)

/-- Only the result matters. -/
theorem post_plain {w : Nat} {op : RV.Op} (hf : hasFlags op = false) {a b : BitVec w} {cin : Bool} {x : BitVec w} (f : Flags) (hx : x = RV.val op.code a b cin) : Post op a b cin x f := by
  simp only [hasFlags, Bool.or_eq_false_iff, bne_eq_false_iff_eq] at hf
  exact ⟨hx, fun h => (by rw [hf.1] at h; cases h), fun h => absurd hf.2 h⟩

/-! ## Shifts -/

/-- Group 2 and the operation. -/
def shiftCode (c : RV.OpC) : Option (BitVec 3) :=
  match c with
  | .shl | .mshl => some 4#3
  | .lshr | .mlshr => some 5#3
  | .ashr | .mashr => some 7#3
  | .rotl => some 0#3
  | .rotr => some 1#3
  | _ => none

/-- Group 2 is defined. -/
theorem shift_val {w : Nat} {c : RV.OpC} {k : BitVec 3} (hk : shiftCode c = some k) (a b : BitVec w) (cin : Bool) (f : Flags) :
    ∃ g, shiftF k a (b.toNat % w) f = some (RV.val c a b cin, g) ∧
      (k ≠ 0#3 → k ≠ 1#3 → f.zf = some (decide (a = 0#w)) ∨ b.toNat % w ≠ 0 → g.zf = some (decide (RV.val c a b cin = 0#w))) := by
  have key : ∀ v : BitVec w, (b.toNat % w = 0 → v = a) → (k ≠ 2#3 ∧ k ≠ 3#3 ∧ k ≠ 6#3) →
      (b.toNat % w ≠ 0 → ∃ g, shiftF k a (b.toNat % w) f = some (v, g) ∧ (k ≠ 0#3 → k ≠ 1#3 → g.zf = some (decide (v = 0#w)))) →
      ∃ g, shiftF k a (b.toNat % w) f = some (v, g) ∧ (k ≠ 0#3 → k ≠ 1#3 → f.zf = some (decide (a = 0#w)) ∨ b.toNat % w ≠ 0 → g.zf = some (decide (v = 0#w))) := by
    intro v h0 hk h1
    by_cases e : b.toNat % w = 0
    · rw [h0 e]
      refine ⟨f, ?_, fun _ _ h => h.resolve_right (by simp [e])⟩
      rw [e, shiftF, if_pos rfl, if_neg (by simp [hk])]
    · obtain ⟨g, g1, g2⟩ := h1 e
      exact ⟨g, g1, fun x y _ => g2 x y⟩
  have rotL : ∀ x : BitVec w, x.rotateLeft 0 = x := by
    intro x
    apply BitVec.eq_of_toNat_eq
    simp [BitVec.rotateLeft_def, BitVec.toNat_ushiftRight, Nat.shiftRight_eq_zero x.toNat w x.isLt]
  have rotR : ∀ x : BitVec w, x.rotateRight 0 = x := by
    intro x
    apply BitVec.eq_of_toNat_eq
    simp [BitVec.rotateRight_def]
  cases c <;> simp only [shiftCode, Option.some.injEq, reduceCtorEq] at hk <;> subst hk <;> refine key _ (fun e => ?_) (by decide) (fun e => ?_)
  all_goals first
    | (simp only [RV.val, e]; simp [rotL, rotR]; done)
    | (refine ⟨_, by rw [shiftF, if_neg e]; rfl, fun h h' => ?_⟩
       first
        | rfl
        | exact absurd rfl h
        | exact absurd rfl h')

/-- The bits of an operation. -/
abbrev B (m32 : Bool) : Nat := 8 * NB m32

theorem B_W (m32 : Bool) : B m32 = W m32 := by cases m32 <;> rfl

/-- The operand as a B m32 bit number. -/
def lo (m32 : Bool) (a : BitVec 64) : BitVec (B m32) := a.setWidth (B m32)
/-- The result in 64 bits. -/
def up (m32 : Bool) (x : BitVec (B m32)) : BitVec 64 := x.setWidth 64

theorem trunc_up (m32 : Bool) (a : BitVec 64) : up m32 (lo m32 a) = trunc m32 a := by
  cases m32
  · simp [up, lo, trunc, B, NB]
  · rfl

theorem lo_trunc (m32 : Bool) (a : BitVec 64) : lo m32 (trunc m32 a) = lo m32 a := by
  cases m32
  · rfl
  · simp [lo, trunc, B, NB]

theorem lo_up (m32 : Bool) (x : BitVec (B m32)) : lo m32 (up m32 x) = x := by
  apply BitVec.eq_of_toNat_eq
  have hx := x.isLt
  have h1 : (lo m32 (up m32 x)).toNat = (up m32 x).toNat % 2 ^ B m32 := BitVec.toNat_setWidth ..
  have h2 : (up m32 x).toNat = x.toNat % 2 ^ 64 := BitVec.toNat_setWidth ..
  rw [h1, h2]
  generalize x.toNat = n at hx
  cases m32
  · rw [show B false = 64 from rfl] at hx ⊢; omega
  · rw [show B true = 32 from rfl] at hx ⊢; omega

theorem cnt_lo (m32 : Bool) (c : BitVec 64) : cnt m32 c = (lo m32 c).toNat % B m32 := by
  have : (lo m32 c).toNat = c.toNat % 2 ^ B m32 := BitVec.toNat_setWidth ..
  rw [this]
  cases m32
  · rw [show B false = 64 from rfl, cnt, show W false = 64 from rfl]; omega
  · rw [show B true = 32 from rfl, cnt, show W true = 32 from rfl]; omega

theorem user_imm (v : BitVec 64) : User (.imm v) := trivial

theorem aluN_of {i : BitVec 3} {a b : BitVec 64} {f : Flags} {x : BitVec (B m32)} {g : Flags} (h : alu i (lo m32 a) (lo m32 b) f = some (x, g)) :
    aluN m32 i a b f = some (up m32 x, g) := by
  simp only [aluN, bin]
  rw [show alu i (a.setWidth (8 * NB m32)) (b.setWidth (8 * NB m32)) f = some (x, g) from h]
  rfl

theorem mulN_of (a b : BitVec 64) : mulN m32 a b = some (up m32 (mulF (lo m32 a) (lo m32 b)).1, (mulF (lo m32 a) (lo m32 b)).2) := rfl

theorem shN_of {k : BitVec 3} {a : BitVec 64} {n : Nat} {f g : Flags} {x : BitVec (B m32)} (h : shiftF k (lo m32 a) n f = some (x, g)) : shN m32 k a n f = some (up m32 x, g) := by
  simp only [shN, bin]
  rw [show shiftF k (a.setWidth (8 * NB m32)) n f = some (x, g) from h]
  rfl

theorem mask_cnt (m32 : Bool) (v : BitVec 64) : (v &&& if m32 then 0x1f#64 else 0x3f#64).toNat = cnt m32 v := by
  cases m32
  · simp only [Bool.false_eq_true, if_false, cnt, W, BitVec.toNat_and, show (0x3f#64).toNat = 2 ^ 6 - 1 by decide, Nat.and_two_pow_sub_one_eq_mod]
  · simp only [if_true, cnt, W, BitVec.toNat_and, show (0x1f#64).toNat = 2 ^ 5 - 1 by decide, Nat.and_two_pow_sub_one_eq_mod]

/-- emit_shift_with_flags. -/
theorem e_shiftFl {c : RV.OpC} {k : BitVec 3} (hk : shiftCode c = some k) {sf : Bool} (hsf : sf = true → k ≠ 0#3 ∧ k ≠ 1#3) {dst src1 src2 : Opd} (hd : Dst dst) (h1 : User src1) (h2 : User src2)
    (hal : long src2 = true → ∃ d, dst = .reg d ∧ d ≠ TMP_REG1 ∧ (d = PREF_SHIFT_REG ∨ dependsOn src2 d = false)) (cin : Bool) :
    ∃ f, Eff win m32 (shiftWithFlags win m32 (k.setWidth 8 <<< 3) sf dst src1 src2) s (some dst)
        (up m32 (RV.val c (lo m32 (opv win m32 s src1)) (lo m32 (opv win m32 s src2)) cin)) true true f ∧
      (sf = true → f.zf = some (decide (RV.val c (lo m32 (opv win m32 s src1)) (lo m32 (opv win m32 s src2)) cin = 0#(B m32)))) := by
  have reg : src2.isImm = false → ∃ f, Eff win m32 (if ¬ sf = true then emitShift win m32 (k.setWidth 8 <<< 3) dst src1 src2
      else
        (if ¬ dst.isReg = true then cmpBinary win m32 src1 (.imm 0#64) else some []) +> emitShift win m32 (k.setWidth 8 <<< 3) dst src1 src2 +>
          if dst.isReg then cmpBinary win m32 dst (.imm 0#64) else some []) s (some dst)
        (up m32 (RV.val c (lo m32 (opv win m32 s src1)) (lo m32 (opv win m32 s src2)) cin)) true true f ∧
      (sf = true → f.zf = some (decide (RV.val c (lo m32 (opv win m32 s src1)) (lo m32 (opv win m32 s src2)) cin = 0#(B m32)))) := by
    intro hi
    have hc : ∀ u : BitVec 64, src2 = .imm u → u.toNat < W m32 := fun u e => by rw [e] at hi; cases hi
    have sh : ∀ s1 : St, opv win m32 s1 src1 = opv win m32 s src1 → opv win m32 s1 src2 = opv win m32 s src2 →
        ∃ f, Eff win m32 (emitShift win m32 (k.setWidth 8 <<< 3) dst src1 src2) s1 (some dst)
          (up m32 (RV.val c (lo m32 (opv win m32 s src1)) (lo m32 (opv win m32 s src2)) cin)) true true f ∧
          (k ≠ 0#3 → k ≠ 1#3 → s1.f.zf = some (decide (lo m32 (opv win m32 s src1) = 0#(B m32))) →
            f.zf = some (decide (RV.val c (lo m32 (opv win m32 s src1)) (lo m32 (opv win m32 s src2)) cin = 0#(B m32)))) := by
      intro s1 e1 e2
      obtain ⟨g, g1, g2⟩ := shift_val hk (lo m32 (opv win m32 s src1)) (lo m32 (opv win m32 s src2)) cin s1.f
      refine ⟨g, e_shift hd h1 h2 hc hal ?_, fun x y z => g2 x y (Or.inl z)⟩
      rw [e1, e2, cnt_lo]
      exact shN_of g1
    cases sf with
    | false =>
      obtain ⟨f, hf, -⟩ := sh s rfl rfl
      exact ⟨f, by simpa using hf, fun h => by cases h⟩
    | true =>
      simp only [not_true_eq_false, if_false]
      cases dst with
      | imm _ => exact hd.elim
      | reg d =>
        simp only [Opd.isReg, not_true_eq_false, if_false, if_true]
        obtain ⟨f, ⟨s1, m1, r1, hf1⟩, -⟩ := sh s rfl rfl
        have E : Eff win m32 (some [] +> emitShift win m32 (k.setWidth 8 <<< 3) (.reg d) src1 src2) s (some (.reg d))
            (up m32 (RV.val c (lo m32 (opv win m32 s src1)) (lo m32 (opv win m32 s src2)) cin)) true true f := ⟨s1, (Emits.nil s).cat m1, r1, hf1⟩
        generalize RV.val c (lo m32 (opv win m32 s src1)) (lo m32 (opv win m32 s src2)) cin = x at *
        refine ⟨(subF x 0#_ false).2, E.before (v2 := up m32 (subF x 0#_ false).1) (fun s1 r1 hf => ?_), fun _ => ?_⟩
        · refine e_cmp0 hd.good ?_
          rw [opv.eq_1, r1.val _ rfl, trunc_trunc, (aluN_trunc m32 _ _ _ _).1]
          refine aluN_of ?_
          rw [lo_up, show lo m32 0#64 = 0#_ by simp [lo]]
          rfl
        · simp only [subF, zs, zs_zero]; simp
      | mem base offs w =>
        simp only [Opd.isReg, Bool.false_eq_true, not_false_eq_true, if_true, if_false, cat_nil]
        have h0 : Eff win m32 (cmpBinary win m32 src1 (.imm 0#64)) s none (up m32 (subF (lo m32 (opv win m32 s src1)) 0#_ false).1) true true
            (subF (lo m32 (opv win m32 s src1)) 0#_ false).2 := by
          refine e_cmp h1.good (h1.ne (by decide)) (user_imm _) ?_
          refine aluN_of ?_
          rw [opv.eq_2, lo_trunc, show lo m32 0#64 = 0#_ by simp [lo]]
          rfl
        obtain ⟨s1, m1, r1, hf1⟩ := h0
        have o1 : ∀ b, User b → opv win m32 s1 b = opv win m32 s b := fun b hb => r1.opv hb.good (fun d e => by cases e) (fun _ => hb.ne (by decide)) (fun _ => hb.ne (by decide)) m32
        obtain ⟨f, hf, hz⟩ := sh s1 (o1 _ h1) (o1 _ h2)
        refine ⟨f, ?_, fun _ => hz (hsf rfl).1 (hsf rfl).2 (by rw [hf1]; simp only [subF, zs, zs_zero]; simp)⟩
        obtain ⟨s2, m2, r2, hf2⟩ := hf
        refine ⟨s2, m1.cat m2, ⟨fun q x y z => ?_, r2.val, ?_⟩, hf2⟩
        · rw [r2.regs q x y z]
          exact r1.regs q (fun d e => by cases e) y z
        · rw [r2.mem]
          simp only [wrMem]
          rw [r1.mem, r1.ea hd.good (fun d e => by cases e)]
          rfl
  unfold shiftWithFlags
  cases src2 with
  | reg r => exact reg rfl
  | mem _ _ _ => exact reg rfl
  | imm v =>
    simp only
    obtain ⟨g, g1, g2⟩ := shift_val hk (lo m32 (opv win m32 s src1)) (lo m32 (opv win m32 s (.imm v))) cin s.f
    have hm := mask_cnt m32 v
    generalize hv' : (v &&& if m32 = true then 0x1f#64 else 0x3f#64) = v' at *
    have hcv : cnt m32 (opv win m32 s (.imm v)) = v'.toNat := by rw [opv.eq_2, cnt_trunc, hm]
    have hw : 0 < W m32 := by cases m32 <;> decide
    have hlt : v'.toNat < W m32 := by rw [hm]; exact Nat.mod_lt _ hw
    rw [← cnt_lo, hcv] at g1 g2
    by_cases e : v' = 0#64
    · have hx : RV.val c (lo m32 (opv win m32 s src1)) (lo m32 (opv win m32 s (.imm v))) cin = lo m32 (opv win m32 s src1) := by
        rw [e, shiftF] at g1
        simp only [BitVec.toNat_ofNat, Nat.zero_mod, if_true] at g1
        split at g1
        · cases g1
        · simp only [Option.some.injEq, Prod.mk.injEq] at g1; exact g1.1.symm
      rw [if_neg (not_not.2 e), hx]
      cases sf with
      | false =>
        refine ⟨s.f, ?_, fun h => by cases h⟩
        simp only [Bool.false_eq_true, not_false_eq_true, if_true]
        rw [trunc_up]
        exact Eff.congr (Eff.weaken (e_mov hd.good hd.imm h1.good (fun _ => h1.ne (by decide))) (fun h => by cases h) (fun h => by cases h)) (trunc_trunc _ _).symm
      | true =>
        simp only [not_true_eq_false, if_false]
        refine ⟨(logF (lo m32 (opv win m32 s src1))).2, ?_, fun _ => rfl⟩
        rw [show OR = binOf 1#3 from binOf_table.2.1]
        refine e_cum (by decide) hd h1 (user_imm _) (fun d _ _ => rfl) (aluN_of ?_)
        rw [opv.eq_2, lo_trunc, show lo m32 0#64 = 0#_ by simp [lo]]
        simp [alu, logF]
    · rw [if_pos e]
      refine ⟨g, e_shift hd h1 (user_imm _) (fun u e => by cases e; exact hlt) (fun h => by cases h) ?_, fun h => ?_⟩
      · rw [opv.eq_2, cnt_trunc, show cnt m32 v' = v'.toNat from Nat.mod_eq_of_lt hlt]
        exact shN_of g1
      · exact g2 (hsf h).1 (hsf h).2 (Or.inr (fun h0 => e (BitVec.eq_of_toNat_eq (by simpa using h0))))

/-! ## sljit_emit_op2 -/

/-- The operations of sljit_emit_op2. -/
def isOp2 (c : RV.OpC) : Bool :=
  match c with
  | .add | .addc | .sub | .subc | .mul | .and | .or | .xor | .shl | .mshl | .lshr | .mlshr | .ashr | .mashr | .rotl | .rotr => true
  | _ => false

/-- What is required of the operands.  An address of the second operand does not use the destination; for a shift, the second operand is no memory
operand with a long displacement, unless the destination is a register which it does not use. -/
def Safe (c : RV.OpC) (dst src1 src2 : Opd) : Prop :=
  if (shiftCode c).isSome then long src2 = true → ∃ d, dst = .reg d ∧ d ≠ TMP_REG1 ∧ (d = PREF_SHIFT_REG ∨ dependsOn src2 d = false)
  else ∀ d, dst = .reg d → dst ≠ src1 → dependsOn src2 d = false

theorem trunc_upv (m32 : Bool) (x : BitVec (B m32)) : trunc m32 (up m32 x) = up m32 x := by rw [← trunc_up, lo_up]

/-- The value of an effect, by its low bits. -/
theorem Eff.lo {c : Code} {dst : Option Opd} {v : BitVec 64} {c1 c2 : Bool} {f : Flags} (h : Eff win m32 c s dst v c1 c2 f) {x : BitVec (B m32)} (hx : X86.lo m32 v = x) :
    Eff win m32 c s dst (up m32 x) c1 c2 f := Eff.congr h (by rw [← hx, trunc_up, trunc_trunc])

theorem lo_add (m32 : Bool) (a b : BitVec 64) : lo m32 (a + b) = lo m32 a + lo m32 b := by
  cases m32
  · exact BitVec.setWidth_add a b (by decide)
  · exact BitVec.setWidth_add a b (by decide)

theorem lo_neg (m32 : Bool) (a : BitVec 64) : lo m32 (-a) = - lo m32 a := by
  cases m32
  · exact BitVec.setWidth_neg_of_le (by decide)
  · exact BitVec.setWidth_neg_of_le (by decide)

theorem lo_not (m32 : Bool) (a : BitVec 64) : lo m32 (~~~ a) = ~~~ lo m32 a := by
  cases m32
  · exact BitVec.setWidth_not (by decide)
  · exact BitVec.setWidth_not (by decide)

theorem lo_ones (m32 : Bool) : lo m32 (-1#64) = BitVec.allOnes _ := by cases m32 <;> decide

theorem val_add {w : Nat} (a b : BitVec w) (cin : Bool) : RV.val .add a b cin = a + b := by
  apply BitVec.eq_of_toNat_eq; simp [RV.val, BitVec.toNat_add]

theorem val_sub {w : Nat} (a b : BitVec w) (cin : Bool) : RV.val .sub a b cin = a - b := by
  have := sub_val a b false
  simp only [Bool.toNat_false, Nat.cast_zero, Int.sub_zero] at this
  rw [RV.val, ← this]
  simp [subF]

theorem modes : (0#8 : Byte) = (0#3 : BitVec 3).setWidth 8 ∧ (1#8 : Byte) = (1#3 : BitVec 3).setWidth 8 ∧ (2#8 : Byte) = (2#3 : BitVec 3).setWidth 8 ∧ (3#8 : Byte) = (3#3 : BitVec 3).setWidth 8 ∧
    (4#8 : Byte) = (4#3 : BitVec 3).setWidth 8 ∧ (5#8 : Byte) = (5#3 : BitVec 3).setWidth 8 ∧ (7#8 : Byte) = (7#3 : BitVec 3).setWidth 8 := by decide

set_option maxHeartbeats 1000000 in
/-- sljit_emit_op2. -/
theorem e_op2 {op : RV.Op} (hop : isOp2 op.code = true) (hf : op.flagOk) {dst src1 src2 : Opd} (hd : Dst dst) (h1 : User src1) (h2 : User src2) (hs : Safe op.code dst src1 src2) {cin : Bool}
    (hcin : op.code = .addc ∨ op.code = .subc → s.f.cf = some cin) :
    ∃ (x : BitVec (B op.is32)) (f : Flags), Eff win op.is32 (emitOp2 win op dst src1 src2) s (some dst) (up op.is32 x) true true f ∧
      Post op (lo op.is32 (opv win op.is32 s src1)) (lo op.is32 (opv win op.is32 s src2)) cin x f := by
  obtain ⟨code, m32, setZ, flag⟩ := op
  have hB : 0 < B m32 := by cases m32 <;> decide
  simp only at hop hs hcin ⊢
  generalize hA : lo m32 (opv win m32 s src1) = a
  generalize hBb : lo m32 (opv win m32 s src2) = b
  obtain ⟨t0, t1, t2, t3, t4, t5, t6, t7⟩ := binOf_table
  obtain ⟨m0, m1, m2, m3, m4, m5, m7⟩ := modes
  -- the common case
  have cum : ∀ (i : BitVec 3) (x : BitVec (B m32)) (f : Flags), (i ≠ 3#3 ∧ i ≠ 5#3 ∧ i ≠ 7#3) → shiftCode code = none → alu i a b s.f = some (x, f) →
      Eff win m32 (cumBinary win m32 (binOf i) dst src1 src2) s (some dst) (up m32 x) true true f := by
    intro i x f hi hc h
    rw [Safe, if_neg (by rw [hc]; decide)] at hs
    exact e_cum hi hd h1 h2 hs (aluN_of (by rw [hA, hBb]; exact h))
  have ncum : ∀ (i : BitVec 3) (x : BitVec (B m32)) (f : Flags), i ≠ 7#3 → shiftCode code = none → alu i a b s.f = some (x, f) →
      Eff win m32 (nonCumBinary win m32 (binOf i) dst src1 src2) s (some dst) (up m32 x) true true f := by
    intro i x f hi hc h
    rw [Safe, if_neg (by rw [hc]; decide)] at hs
    exact e_nonCum hi hd h1 h2 hs (aluN_of (by rw [hA, hBb]; exact h))
  have sh : ∀ (k : BitVec 3) (sf : Bool), shiftCode code = some k → (sf = true → k ≠ 0#3 ∧ k ≠ 1#3) → flag = .none → (setZ = true → sf = true) →
      ∃ (x : BitVec (B m32)) (f : Flags), Eff win m32 (shiftWithFlags win m32 (k.setWidth 8 <<< 3) sf dst src1 src2) s (some dst) (up m32 x) true true f ∧
        Post ⟨code, m32, setZ, flag⟩ a b cin x f := by
    intro k sf hk hsf hfl hz
    rw [Safe, if_pos (by rw [hk]; rfl)] at hs
    obtain ⟨f, e, z⟩ := e_shiftFl (win := win) (m32 := m32) (s := s) hk hsf hd h1 h2 hs cin
    rw [hA, hBb] at e z
    exact ⟨_, f, e, ⟨rfl, fun h => z (hz h), fun h => absurd hfl h⟩⟩
  cases code <;> simp only [isOp2, Bool.false_eq_true, reduceCtorEq] at hop <;> simp only [emitOp2]
  case add =>
    by_cases hfl : hasFlags ⟨.add, m32, setZ, flag⟩ = true
    · rw [addLea, if_pos hfl]
      exact ⟨_, _, by rw [t0]; exact cum 0#3 _ _ (by decide) rfl rfl, post_add rfl hf a b cin⟩
    · rw [addLea, if_neg hfl]
      cases hl : leaBinary win m32 dst src1 src2 with
      | none => exact ⟨_, _, by simp only [t0]; exact cum 0#3 _ _ (by decide) rfl rfl, post_add rfl hf a b cin⟩
      | some c =>
        refine ⟨_, _, (e_leaBinary hl hd h1 h2).lo (by rw [lo_add, hA, hBb]), post_plain (by simpa using hfl) _ ?_⟩
        rw [val_add]
  case addc => exact ⟨_, _, by rw [t2]; exact cum 2#3 (addF a b cin).1 (addF a b cin).2 (by decide) rfl (by simp [alu, hcin]), post_addc rfl hf a b cin⟩
  case subc => exact ⟨_, _, by rw [t3]; exact ncum 3#3 (subF a b cin).1 (subF a b cin).2 (by decide) rfl (by simp [alu, hcin]), post_subc rfl hf a b cin⟩
  case and => exact ⟨_, _, by rw [t4]; exact cum 4#3 _ _ (by decide) rfl rfl, post_log (Or.inl rfl) hf a b cin _ rfl⟩
  case or => exact ⟨_, _, by rw [t1]; exact cum 1#3 _ _ (by decide) rfl rfl, post_log (Or.inr (Or.inl rfl)) hf a b cin _ rfl⟩
  case mul =>
    rw [Safe, if_neg (by decide)] at hs
    refine ⟨_, _, e_mul hd h1 h2 (fun d e h => Or.inl (hs d e h)) (mulN_of _ _), ?_⟩
    rw [hA, hBb]
    exact post_mul rfl hf a b cin
  case sub =>
    by_cases c1 : src1 = .imm 0#64
    · rw [if_pos c1, m3]
      subst c1
      have ha : a = 0#_ := by rw [← hA, opv.eq_2, lo_trunc]; simp [lo]
      refine ⟨_, _, e_unary (k := 3#3) (Or.inr rfl) hd h2 (v := up m32 (subF a b false).1) (f := (subF a b false).2) ?_, post_sub rfl hB a b cin⟩
      rw [unN, if_neg (by decide)]
      refine aluN_of ?_
      rw [hBb, show lo m32 0#64 = 0#_ by simp [lo], ha]
      rfl
    · rw [if_neg c1]
      cases hl : subLea win m32 (hasFlags ⟨.sub, m32, setZ, flag⟩) dst src1 src2 with
      | some c =>
        simp only
        unfold subLea at hl
        split at hl
        · cases hl
        next hfl =>
          cases src2 with
          | reg _ => cases hl
          | mem _ _ _ => cases hl
          | imm v =>
            refine ⟨_, _, (e_leaBinary hl hd h1 (user_imm _)).lo rfl, post_plain (by simpa using hfl) _ ?_⟩
            rw [lo_add, hA, opv.eq_2, lo_trunc, lo_neg, val_sub, ← hBb, opv.eq_2, lo_trunc, BitVec.sub_eq_add_neg]
      | none =>
        simp only
        by_cases c2 : ¬ hasFlags ⟨.sub, m32, setZ, flag⟩ = true ∧ dst.isReg = true ∧ src2 = dst
        · rw [if_pos c2]
          obtain ⟨hfl, hr, rfl⟩ := c2
          cases src2 with
          | imm _ => cases hr
          | mem _ _ _ => cases hr
          | reg d =>
            have E1 : Eff win m32 (nonCumBinary win m32 (binOf 5#3) (.reg d) (.reg d) src1) s (some (.reg d)) (up m32 (subF b a false).1) true true (subF b a false).2 :=
              e_nonCum (by decide) hd h2 h1 (fun _ _ h => absurd rfl h) (aluN_of (by rw [hA, hBb]; rfl))
            refine ⟨(subF 0#_ (subF b a false).1 false).1, (subF 0#_ (subF b a false).1 false).2, ?_, post_plain (by simpa using hfl) _ ?_⟩
            · rw [t5, m3]
              refine Eff.weaken (Eff.comp E1 (fun s1 r1 hf1 => e_unary (k := 3#3) (Or.inr rfl) hd h2 (v := up m32 (subF 0#_ (subF b a false).1 false).1) ?_)
                (fun q e => by cases e; exact hd.good) (Or.inr (Or.inr rfl))) (fun h => by cases h) (fun h => by cases h)
              rw [unN, if_neg (by decide)]
              refine aluN_of ?_
              rw [opv.eq_1, r1.val d rfl, lo_trunc, lo_trunc, lo_up, show lo m32 0#64 = 0#_ by simp [lo]]
              rfl
            · rw [val_sub]
              simp only [subF, show (BitVec.ofBool false).setWidth (B m32) = 0#_ by simp, BitVec.sub_zero]
              rw [BitVec.zero_sub, BitVec.neg_sub, BitVec.sub_eq_add_neg, BitVec.add_comm]
        · rw [if_neg c2, t5]
          exact ⟨_, _, ncum 5#3 _ _ (by decide) rfl rfl, post_sub rfl hB a b cin⟩
  case xor =>
    have nt : ∀ src : Opd, User src → ∀ x : BitVec (B m32), lo m32 (opv win m32 s src) = x → Eff win m32 (unary win m32 (2#8 <<< 3) dst src) s (some dst) (up m32 (~~~ x)) true true s.f := by
      intro src hsrc x hx
      rw [m2]
      refine (e_unary (k := 2#3) (Or.inl rfl) hd hsrc (v := ~~~ opv win m32 s src) (f := s.f) (by rw [unN, if_pos rfl])).lo ?_
      rw [lo_not, hx]
    by_cases c1 : ¬ hasFlags ⟨.xor, m32, setZ, flag⟩ = true ∧ src2 = .imm (-1#64)
    · rw [if_pos c1]
      refine ⟨_, _, nt src1 h1 a hA, post_plain (by simpa using c1.1) _ ?_⟩
      rw [← hBb, c1.2, opv.eq_2, lo_trunc, lo_ones, RV.val, BitVec.xor_allOnes]
    · rw [if_neg c1]
      by_cases c2 : ¬ hasFlags ⟨.xor, m32, setZ, flag⟩ = true ∧ src1 = .imm (-1#64)
      · rw [if_pos c2]
        refine ⟨_, _, nt src2 h2 b hBb, post_plain (by simpa using c2.1) _ ?_⟩
        rw [← hA, c2.2, opv.eq_2, lo_trunc, lo_ones, RV.val, BitVec.xor_comm, BitVec.xor_allOnes]
      · rw [if_neg c2, t6]
        exact ⟨_, _, cum 6#3 _ _ (by decide) rfl rfl, post_log (Or.inr (Or.inr rfl)) hf a b cin _ rfl⟩
  case rotl => rw [m0]; exact sh 0#3 false rfl (fun h => by cases h) hf.1 (fun h => by rw [show setZ = false from hf.2] at h; cases h)
  case rotr => rw [m1]; exact sh 1#3 false rfl (fun h => by cases h) hf.1 (fun h => by rw [show setZ = false from hf.2] at h; cases h)
  case shl => rw [m4]; exact sh 4#3 _ rfl (fun _ => by decide) hf (fun h => by simp [hasFlags, h])
  case mshl => rw [m4]; exact sh 4#3 _ rfl (fun _ => by decide) hf (fun h => by simp [hasFlags, h])
  case lshr => rw [m5]; exact sh 5#3 _ rfl (fun _ => by decide) hf (fun h => by simp [hasFlags, h])
  case mlshr => rw [m5]; exact sh 5#3 _ rfl (fun _ => by decide) hf (fun h => by simp [hasFlags, h])
  case ashr => rw [m7]; exact sh 7#3 _ rfl (fun _ => by decide) hf (fun h => by simp [hasFlags, h])
  case mashr => rw [m7]; exact sh 7#3 _ rfl (fun _ => by decide) hf (fun h => by simp [hasFlags, h])

end Verif.X86
