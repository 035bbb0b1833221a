import Verif.A64.Alu

/-! # emit_op_imm with constants (helper lemmas) -/

namespace Verif.A64
open Verif.Imm.Arm64 (regMap RD RN TMP_ZERO W_OP ORRI logicalImm loadImmediate)
open Verif (RV.OpC RV.Op RV.Flag RV.val RV.flagVal RV.Op.flagOk)

variable {sf : Bool} {op : RV.Op} {f : Fl} {s : St} {dst : Nat} {a b : BitVec (W sf)} {cin : Bool}

/-! ## Numbers -/

theorem lo_nat (sf : Bool) (c : BitVec 64) : (lo sf c).toNat = c.toNat % 2 ^ W sf := BitVec.toNat_setWidth ..

theorem small_nat {c : BitVec 64} {n : Nat} (h : 0 < c.toInt) (h' : c.toInt ≤ n) : 0 < c.toNat ∧ c.toNat ≤ n := by
  rcases int_nat c with h1 | h1 <;> omega

theorem small_lo {c : BitVec 64} (h : 0 < c.toInt) (h' : c.toInt ≤ 0xffffff) : lo sf c ≠ 0#_ ∧ lo sf c ≠ BitVec.intMin _ := by
  obtain ⟨h1, h2⟩ := small_nat (n := 0xffffff) h h'
  have e := lo_nat sf c
  refine ⟨fun q => ?_, fun q => ?_⟩
  · rw [q] at e
    cases sf
    · rw [show W false = 32 from rfl] at e; simp at e; omega
    · rw [show W true = 64 from rfl] at e; simp at e; omega
  · rw [q, BitVec.toNat_intMin] at e
    cases sf
    · rw [show W false = 32 from rfl] at e; omega
    · rw [show W true = 64 from rfl] at e; omega

theorem imm12 {c : BitVec 64} (h' : c.toNat ≤ 0xfff) : c.setWidth 32 = ((c.setWidth 32).setWidth 12).setWidth 32 ∧ ((c.setWidth 32).setWidth 12).setWidth 64 = c := by
  constructor
  · exact fit12 (by rw [BitVec.toNat_setWidth]; omega)
  · apply BitVec.eq_of_toNat_eq; simp only [BitVec.toNat_setWidth]; omega

theorem imm24 {c : BitVec 64} (h' : c.toNat ≤ 0xffffff) : c.setWidth 32 >>> 12 = ((c.setWidth 32 >>> 12).setWidth 12).setWidth 32 ∧
    (((c.setWidth 32 >>> 12).setWidth 12).setWidth 64 <<< 12).toNat = c.toNat / 4096 * 4096 := by
  constructor
  · exact fit12 (by rw [BitVec.toNat_ushiftRight, Nat.shiftRight_eq_div_pow, BitVec.toNat_setWidth]; omega)
  · simp only [BitVec.toNat_shiftLeft, BitVec.toNat_setWidth, BitVec.toNat_ushiftRight, Nat.shiftRight_eq_div_pow, Nat.shiftLeft_eq]; omega

theorem imm12l (c : BitVec 64) : c.setWidth 32 &&& 0xfff#32 = ((c.setWidth 32 &&& 0xfff#32).setWidth 12).setWidth 32 ∧
    (((c.setWidth 32 &&& 0xfff#32).setWidth 12).setWidth 64).toNat = c.toNat % 4096 := by
  have e := and_fff (c.setWidth 32)
  rw [BitVec.toNat_setWidth] at e
  constructor
  · exact fit12 (by rw [e]; omega)
  · simp only [BitVec.toNat_setWidth, e]; omega

theorem lo_add (sf : Bool) (x y : BitVec 64) : lo sf (x + y) = lo sf x + lo sf y := by
  cases sf
  · exact BitVec.setWidth_add _ _ (by decide)
  · exact BitVec.setWidth_add _ _ (by decide)
theorem lo_neg (sf : Bool) (x : BitVec 64) : lo sf (-x) = -lo sf x := by
  cases sf
  · show (-x).setWidth 32 = -x.setWidth 32
    apply BitVec.eq_of_toNat_eq; simp only [BitVec.toNat_setWidth, BitVec.toNat_neg]; omega
  · show (-x).setWidth 64 = -x.setWidth 64
    simp

/-! ## Additions of constants -/

theorem exec_addI {rn : BitVec 5} (sub : Bool) (c : BitVec 64) (hn : rn ≠ 31#5) (hd : f.set = false → regMap (f.dst dst) ≠ 31#5) :
    exec (.addImm sf sub f.set c rn (regMap (f.dst dst))) s = some (aft f.set s (regMap (f.dst dst)) (awc (lo sf (s.x rn)) (if sub then ~~~ lo sf c else lo sf c) sub)) := by
  unfold aft
  cases h : f.set
  · simp only [exec, Bool.false_eq_true, if_false, x_ne hn, setX_ne _ _ (hd h)]
  · simp only [exec, if_true, x_ne hn]; rfl

/-- The operation and its constant operand, `imm` is added. -/
def AddOf (op : RV.Op) (sub : Bool) (imm : BitVec 64) (b : BitVec (W sf)) : Prop :=
  (sub = false ∧ op.code = .add ∧ b = lo sf imm) ∨ (sub = true ∧ op.code = .sub ∧ b = lo sf (-imm))

theorem post_plus {imm : BitVec 64} {sub : Bool} (ho : AddOf op sub imm b) (hf : op.flagOk) (h0 : lo sf imm ≠ 0#_) (hm : lo sf imm ≠ BitVec.intMin _) :
    Post op a b cin (awc a (lo sf imm) false).1 (flT (awc a (lo sf imm) false)) := by
  rcases ho with ⟨_, ho, rfl⟩ | ⟨_, ho, rfl⟩
  · exact post_add ho hf _ _ _
  · rw [← awc_neg_sub a (W_pos _) h0 hm, ← lo_neg]; exact post_sub ho (W_pos _) _ _ _

theorem post_minus {imm : BitVec 64} {sub : Bool} (ho : AddOf op sub imm b) (hf : op.flagOk) (h0 : lo sf (-imm) ≠ 0#_) (hm : lo sf (-imm) ≠ BitVec.intMin _) :
    Post op a b cin (awc a (~~~ lo sf (-imm)) true).1 (flT (awc a (~~~ lo sf (-imm)) true)) := by
  rcases ho with ⟨_, ho, rfl⟩ | ⟨_, ho, rfl⟩
  · rw [← awc_neg_add a (W_pos _) h0 hm, ← lo_neg, BitVec.neg_neg]; exact post_add ho hf _ _ _
  · exact post_sub ho (W_pos _) _ _ _

theorem val_plus {imm : BitVec 64} {sub : Bool} (ho : AddOf op sub imm b) : RV.val op.code a b cin = a + lo sf imm := by
  rcases ho with ⟨_, ho, rfl⟩ | ⟨_, ho, rfl⟩
  · rw [ho, val_add]
  · rw [ho, val_sub, lo_neg, BitVec.sub_eq_add_neg, BitVec.neg_neg]

theorem addForm_eff {imm : BitVec 64} {sub : Bool} {reg : Nat} {is : List (BitVec 32)} {b : BitVec (W !f.int)} (h : addForm sub f dst reg imm = some is) (ho : AddOf op sub imm b) (hf : op.flagOk)
    (hset : f.set = hasFlags op) (hd : regMap dst ≠ 31#5) (hr : regMap reg ≠ 31#5) : Eff op f.unused s (some is) dst (lo (!f.int) (s.x (regMap reg))) b cin := by
  have hdd : f.set = false → regMap (f.dst dst) ≠ 31#5 := fun h => by simp [Fl.dst, h, hd]
  have nz : f.set = false → f.chk (1#32 <<< 29) = f.inv := fun h => by simp [Fl.chk, h]
  have dz : f.set = false → f.dst dst = dst := fun h => by simp [Fl.dst, h]
  simp only [addForm] at h
  split at h
  · next h0 =>
    cases h
    subst h0
    refine eff_triple (awc _ (if sub then ~~~ lo (!f.int) 0#64 else lo (!f.int) 0#64) sub) hset hd ((s_addi0 f sub).trans (exec_addI _ _ hr hdd)) ?_
    rcases ho with ⟨rfl, ho, rfl⟩ | ⟨rfl, ho, rfl⟩
    · exact post_add ho hf _ _ _
    · rw [if_pos rfl, show -0#64 = 0#64 from rfl]; exact post_sub ho (W_pos _) _ _ _
  · split at h
    · next h1 =>
      cases h
      obtain ⟨e1, e2⟩ := imm12 (small_nat (n := 0xfff) h1.1 h1.2).2
      obtain ⟨l0, lm⟩ := small_lo (sf := !f.int) h1.1 (by omega)
      rw [e1]
      exact eff_triple _ hset hd ((s_addi f false _).trans (by rw [e2]; exact exec_addI false _ hr hdd)) (post_plus ho hf l0 lm)
    · split at h
      · next h1 =>
        cases h
        obtain ⟨e1, e2⟩ := imm12 (small_nat (n := 0xfff) h1.1 h1.2).2
        obtain ⟨l0, lm⟩ := small_lo (sf := !f.int) h1.1 (by omega)
        rw [e1]
        exact eff_triple _ hset hd ((s_addi f true _).trans (by rw [e2]; exact exec_addI true _ hr hdd)) (post_minus ho hf l0 lm)
      · split at h
        · next h1 =>
          cases h
          have hn := small_nat (n := 0xffffff) h1.1 h1.2.1
          obtain ⟨e1, e2⟩ := imm24 hn.2
          obtain ⟨l0, lm⟩ := small_lo (sf := !f.int) h1.1 h1.2.1
          have e3 : ((imm.setWidth 32 >>> 12).setWidth 12).setWidth 64 <<< 12 = imm := by
            apply BitVec.eq_of_toNat_eq; rw [e2]
            have := and_fff64 imm; rw [h1.2.2] at this
            have : 0 = imm.toNat % 4096 := this
            omega
          rw [e1]
          exact eff_triple _ hset hd ((s_addi12 f false _).trans (by rw [e3]; exact exec_addI false _ hr hdd)) (post_plus ho hf l0 lm)
        · split at h
          · next h1 =>
            cases h
            have hn := small_nat (n := 0xffffff) h1.1 h1.2.1
            obtain ⟨e1, e2⟩ := imm24 hn.2
            obtain ⟨l0, lm⟩ := small_lo (sf := !f.int) h1.1 h1.2.1
            have e3 : (((-imm).setWidth 32 >>> 12).setWidth 12).setWidth 64 <<< 12 = -imm := by
              apply BitVec.eq_of_toNat_eq; rw [e2]
              have := and_fff64 (-imm); rw [h1.2.2] at this
              have : 0 = (-imm).toNat % 4096 := this
              omega
            rw [e1]
            exact eff_triple _ hset hd ((s_addi12 f true _).trans (by rw [e3]; exact exec_addI true _ hr hdd)) (post_minus ho hf l0 lm)
          · have two : ∀ (sb : Bool) (c : BitVec 64), c.toNat ≤ 0xffffff → f.set = false → lo (!f.int) (s.x (regMap reg)) + lo (!f.int) imm = (if sb then lo (!f.int) (s.x (regMap reg)) - lo (!f.int) c else lo (!f.int) (s.x (regMap reg)) + lo (!f.int) c) →
                Eff op f.unused s (some [((if sb then SUBI else ADDI) ^^^ f.inv) ||| RD dst ||| RN reg ||| ((c.setWidth 32 >>> 12) <<< 10) ||| (1#32 <<< 22), ((if sb then SUBI else ADDI) ^^^ f.inv) ||| RD dst ||| RN dst ||| ((c.setWidth 32 &&& 0xfff#32) <<< 10)]) dst (lo (!f.int) (s.x (regMap reg))) b cin := by
              intro sb c hc hs0 hv
              obtain ⟨e1, e2⟩ := imm24 hc
              obtain ⟨e3, e4⟩ := imm12l c
              generalize hx : (c.setWidth 32 >>> 12).setWidth 12 = x at *
              generalize hy : (c.setWidth 32 &&& 0xfff#32).setWidth 12 = y at *
              have hsum : x.setWidth 64 <<< 12 + y.setWidth 64 = c := by
                apply BitVec.eq_of_toNat_eq; rw [BitVec.toNat_add, e2, e4]; omega
              let v1 : BitVec (W !f.int) := if sb then lo (!f.int) (s.x (regMap reg)) - lo (!f.int) (x.setWidth 64 <<< 12) else lo (!f.int) (s.x (regMap reg)) + lo (!f.int) (x.setWidth 64 <<< 12)
              let v2 : BitVec (W !f.int) := if sb then v1 - lo (!f.int) (y.setWidth 64) else v1 + lo (!f.int) (y.setWidth 64)
              have st : ∀ (u q : BitVec (W !f.int)), (awc u (if sb then ~~~ q else q) sb).1 = if sb then u - q else u + q := by
                intro u q; cases sb
                · simp only [Bool.false_eq_true, if_false]; rw [awc_val]; simp
                · simp only [if_true]; rw [awc_sub _ _ (W_pos _)]
              have g1 : step (((if sb then SUBI else ADDI) ^^^ f.inv) ||| RD dst ||| RN reg ||| (x.setWidth 32 <<< 10) ||| (1#32 <<< 22)) s = some (s.set (regMap dst) (up v1)) := by
                have := s_addi12 (s := s) (d := dst) (n := reg) f sb x
                rw [nz hs0] at this
                rw [this]
                simp only [exec, hs0, Bool.false_eq_true, if_false, st, ← x_ne (s := s) hr]; rfl
              have g2 : step (((if sb then SUBI else ADDI) ^^^ f.inv) ||| RD dst ||| RN dst ||| (y.setWidth 32 <<< 10)) (s.set (regMap dst) (up v1)) = some ((s.set (regMap dst) (up v1)).setX (regMap dst) (up v2)) := by
                have := s_addi (s := s.set (regMap dst) (up v1)) (d := dst) (n := dst) f sb y
                rw [nz hs0] at this
                rw [this, setX_ne _ _ hd]
                simp only [exec, hs0, Bool.false_eq_true, if_false, st, set_self, lo_up]; rfl
              rw [e1, e3]
              have r := res_set' (s := s.set (regMap dst) (up v1)) hd f.unused v2
              refine ⟨_, _, v2, rfl, runs_two g1 g2, ⟨r.m, fun q q1 q2 q3 q4 => (r.keep q q1 q2 q3 q4).trans (set_ne _ _ q1), r.val⟩, post_plain (by rw [← hset, hs0]) ?_⟩
              rw [val_plus ho, hv, ← hsum, lo_add]
              cases sb
              · simp only [v2, v1, Bool.false_eq_true, if_false, BitVec.add_assoc]
              · simp only [v2, v1, if_true, BitVec.sub_eq_add_neg, BitVec.neg_add]; ac_rfl
            split at h
            · next h1 => cases h; exact two false imm (small_nat (n := 0xffffff) h1.1 h1.2.1).2 h1.2.2 rfl
            · split at h
              · next h1 =>
                cases h
                exact two true (-imm) (small_nat (n := 0xffffff) h1.1 h1.2.1).2 h1.2.2 (by rw [if_pos rfl, lo_neg, BitVec.sub_eq_add_neg, BitVec.neg_neg])
              · cases h

end Verif.A64
