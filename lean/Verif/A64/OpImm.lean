import Verif.A64.AluI

/-! # emit_op_imm (helper lemmas) -/

namespace Verif.A64
open Verif.Imm.Arm64 (regMap RD RN TMP_ZERO W_OP ORRI logicalImm loadImmediate logicalImm_sound logicalImm_some)
open Verif.Imm.A64 (bitMask)
open Verif (RV.OpC RV.Op RV.Flag RV.val RV.flagVal RV.Op.flagOk)

variable {sf : Bool} {op : RV.Op} {f : Fl} {s : St} {dst : Nat} {a b : BitVec (W sf)} {cin : Bool}

/-! ## Logical constants -/

theorem log_total (imm : BitVec 64) (int : Bool) : ∃ b, logicalImm imm (if int then 16 else 32) true = some b := by
  by_cases ht : ((if int then 16 else 32) = 32 ∧ (imm = 0#64 ∨ imm = -1#64)) ∨ ((if int then 16 else 32) = 16 ∧ (imm.setWidth 32 = 0#32 ∨ imm.setWidth 32 = -1#32))
  · simp only [logicalImm, ht, if_true]; exact ⟨_, rfl⟩
  · refine logicalImm_some ?_
    simp only [not_or, not_and] at ht
    cases int
    · exact .inr ⟨rfl, ht.1 rfl⟩
    · exact .inl ⟨rfl, ht.2 rfl⟩

theorem log_mask {imm : BitVec 64} {int : Bool} {b : BitVec 32} (h : logicalImm imm (if int then 16 else 32) true = some b) (hb : b ≠ 0#32) :
    ∃ (g : BitVec 13) (m : BitVec 64), b = g.setWidth 32 <<< 10 ∧ bitMask (sfb !int) g = some m ∧ lo (!int) m = lo (!int) imm := by
  obtain ⟨g, e, m, hm, hk⟩ := logicalImm_sound (by cases int <;> simp) h hb
  refine ⟨g, m, e, ?_, ?_⟩
  · cases int <;> exact hm
  · apply BitVec.eq_of_getLsbD_eq; intro k hk'
    simp only [lo, BitVec.getLsbD_setWidth, hk', decide_true, Bool.true_and]
    refine hk k ?_
    cases int <;> (simp [W] at hk' ⊢; omega)

/-- The bits of the mask are not those of the instruction. -/
theorem mask_or (g : BitVec 13) (x : BitVec 32) (i : Bool) (hx : x.getLsbD 31 = true) :
    ((g.setWidth 32 <<< 10) ||| x) ^^^ iv i = (x ^^^ iv i) ||| (g.setWidth 32 <<< 10) := by
  apply BitVec.eq_of_getLsbD_eq; intro k hk
  have hg : k = 31 → g.getLsbD (31 - 10) = false := fun _ => BitVec.getLsbD_of_ge _ _ (by decide)
  have hi : k ≠ 31 → (iv i).getLsbD k = false := by
    intro h; cases i
    · simp [iv]
    · simp only [iv, if_true, W_OP]
      have key : ∀ k < 32, k ≠ 31 → (0x80000000#32).getLsbD k = false := by decide
      exact key k hk h
  simp only [BitVec.getLsbD_xor, BitVec.getLsbD_or]
  by_cases h : k = 31
  · subst h
    have : (g.setWidth 32 <<< 10).getLsbD 31 = false := by
      simp only [BitVec.getLsbD_shiftLeft, BitVec.getLsbD_setWidth, hg rfl]; simp
    rw [this, hx]; simp
  · rw [hi h]; simp [Bool.or_comm]

theorem or_last (w x y z : BitVec 32) : w ||| z ||| x ||| y = w ||| x ||| y ||| z := by
  simp only [BitVec.or_assoc]; congr 1; rw [BitVec.or_comm, BitVec.or_assoc]

/-- ORRI, EORI and ANDI without flags. -/
theorem s_logi' {base : BitVec 32} {opc : BitVec 2} {i : Bool} {n : Nat} {g : BitVec 13} {m : BitVec 64} (hb : (base = ORRI ∧ opc = 1#2) ∨ (base = EORI ∧ opc = 2#2)) (hm : bitMask (sfb !i) g = some m) (hd : regMap dst ≠ 31#5) :
    step ((((g.setWidth 32 <<< 10) ||| base) ^^^ iv i) ||| RD dst ||| RN n) s = some (s.setX (regMap dst) (up (logF opc (lo (!i) (s.x (regMap n))) (lo (!i) m)))) := by
  rw [mask_or _ _ _ (by rcases hb with ⟨rfl, _⟩ | ⟨rfl, _⟩ <;> decide), or_last, s_logi (i := i) (st := false) (opc := opc) ?_ (by simp) ?_ hm]
  · rw [setX_ne _ _ hd]
    rcases hb with ⟨_, rfl⟩ | ⟨_, rfl⟩ <;> rfl
  · rcases hb with ⟨rfl, rfl⟩ | ⟨rfl, rfl⟩ <;> rfl
  · rcases hb with ⟨_, rfl⟩ | ⟨_, rfl⟩ <;> decide

/-- Exchanged operands. -/
theorem Post.swap {x : BitVec (W sf)} {g : Flags} (ho : op.code = .add ∨ op.code = .and ∨ op.code = .or ∨ op.code = .xor) (hf : op.flagOk) (h : Post op a b cin x g) : Post op b a cin x g := by
  obtain ⟨h1, h2, h3⟩ := h
  rcases ho with ho | ho | ho | ho
  · refine ⟨by rw [h1, ho, val_add, val_add, BitVec.add_comm], h2, fun q => ?_⟩
    rw [h3 q]
    simp only [RV.Op.flagOk, ho] at hf
    rcases hf with hf | hf | hf
    · exact absurd hf q
    · simp only [hf, ho, RV.flagVal, Int.add_comm]
    · simp only [hf, ho, RV.flagVal, Nat.add_comm]
  all_goals
    simp only [RV.Op.flagOk, ho] at hf
    refine ⟨?_, h2, fun q => absurd hf q⟩
    rw [h1, ho]
  · exact BitVec.and_comm ..
  · exact BitVec.or_comm ..
  · exact BitVec.xor_comm ..

theorem Eff.swap {c : Code} {u : Bool} (ho : op.code = .add ∨ op.code = .and ∨ op.code = .or ∨ op.code = .xor) (hf : op.flagOk) (h : Eff op u s c dst a b cin) : Eff op u s c dst b a cin := by
  obtain ⟨is, s', x, h1, h2, h3, h4⟩ := h
  exact ⟨is, s', x, h1, h2, h3, h4.swap ho hf⟩

/-! ## Counts -/

/-- The mask of a count. -/
def cm (int : Bool) : BitVec 32 := if int then 0x1f#32 else 0x3f#32

theorem cm_nat (int : Bool) (x : BitVec 32) : (x &&& cm int).toNat = x.toNat % W (!int) := by
  cases int
  · rw [BitVec.toNat_and]; exact Nat.and_two_pow_sub_one_eq_mod x.toNat 6
  · rw [BitVec.toNat_and]; exact Nat.and_two_pow_sub_one_eq_mod x.toNat 5

theorem W_le (sf : Bool) : W sf ≤ 64 := by cases sf <;> decide

theorem cnt (int : Bool) (imm : BitVec 64) : (imm.setWidth 32 &&& cm int).toNat = (lo (!int) imm).toNat % W (!int) := by
  rw [cm_nat, lo_nat, BitVec.toNat_setWidth]
  cases int
  · show _ % 64 = _ % 2 ^ 64 % 64; omega
  · show _ % 32 = _ % 2 ^ 32 % 32; omega

theorem cnt_neg (int : Bool) (x : BitVec 32) : (-x &&& cm int).toNat = (W (!int) - x.toNat % W (!int)) % W (!int) := by
  rw [cm_nat, BitVec.toNat_neg]
  have := x.isLt
  cases int
  · show _ % 64 = (64 - _ % 64) % 64; omega
  · show _ % 32 = (32 - _ % 32) % 32; omega

theorem six {int : Bool} {x : BitVec 32} (h : x.toNat < W (!int)) : x = (x.setWidth 6).setWidth 32 ∧ (x.setWidth 6).toNat = x.toNat ∧ (int = true → (x.setWidth 6).getLsbD 5 = false) := by
  have h' := W_le (!int)
  refine ⟨fit6 (by omega), by rw [BitVec.toNat_setWidth]; omega, fun q => ?_⟩
  subst q
  have : x.toNat < 32 := h
  rw [BitVec.getLsbD_setWidth]
  show (_ && x.toNat.testBit 5) = false
  rw [Nat.testBit_lt_two_pow (by omega)]; rfl

theorem cm_lt (int : Bool) (x : BitVec 32) : (x &&& cm int).toNat < W (!int) := by
  rw [cm_nat]; exact Nat.mod_lt _ (W_pos _)

/-- The emitted bitfield move. -/
theorem s_bf {n : Nat} (i sg : Bool) {immr imms : BitVec 32} (hr : immr.toNat < W (!i)) (hs : imms.toNat < W (!i)) :
    step (((if sg then SBFM else UBFM) ^^^ (iv i ||| (iv i >>> 9))) ||| RD dst ||| RN n ||| bfBits i immr imms) s =
      some (s.setX (regMap dst) (up (bfm sg (lo (!i) (s.x (regMap n))) immr.toNat imms.toNat))) := by
  obtain ⟨r1, r2, r3⟩ := six hr
  obtain ⟨t1, t2, t3⟩ := six hs
  rw [r1, t1, s_bfm i sg _ _ (fun h => ⟨r3 h, t3 h⟩), r2, t2, ← r1, ← t1]; rfl

theorem s_bf' {n : Nat} (i : Bool) {immr imms : BitVec 32} (hr : immr.toNat < W (!i)) (hs : imms.toNat < W (!i)) :
    step ((UBFM ^^^ (iv i ||| (iv i >>> 9) ||| (1#32 <<< 30))) ||| RD dst ||| RN n ||| bfBits i immr imms) s =
      some (s.setX (regMap dst) (up (bfm true (lo (!i) (s.x (regMap n))) immr.toNat imms.toNat))) := by
  rw [← s_bf i true hr hs]
  have key : ∀ i, UBFM ^^^ (iv i ||| (iv i >>> 9) ||| (1#32 <<< 30)) = (if true then SBFM else UBFM) ^^^ (iv i ||| (iv i >>> 9)) := by decide
  rw [key]

theorem s_ex {n m : Nat} (i : Bool) {k : BitVec 32} (hk : k.toNat < W (!i)) :
    step ((EXTR ^^^ (iv i ||| (iv i >>> 9))) ||| RD dst ||| RN n ||| RM m ||| (k <<< 10)) s =
      some (s.setX (regMap dst) (up ((lo (!i) (s.x (regMap n)) ++ lo (!i) (s.x (regMap m))).extractLsb' k.toNat (W !i)))) := by
  obtain ⟨r1, r2, r3⟩ := six hk
  rw [r1, s_extr i _ r3, r2, ← r1]; rfl

theorem setf9 (i : Bool) (dst : Nat) (s : St) : step ((SUBS ^^^ (iv i ||| (iv i >>> 9))) ||| RD TMP_ZERO ||| RN dst ||| RM TMP_ZERO) s = exec (.addReg (!i) true true (if i then 1#2 else 0#2) 0 (regMap TMP_ZERO) (regMap dst) (regMap TMP_ZERO)) s := s_setFlags9 i
theorem setf9' (i : Bool) (dst : Nat) (s : St) : step ((SUBS ^^^ (iv i ||| (iv i >>> 9) ||| (1#32 <<< 30))) ||| RD TMP_ZERO ||| RN dst ||| RM TMP_ZERO) s = exec (.addReg (!i) false true (if i then 1#2 else 0#2) 0 (regMap TMP_ZERO) (regMap dst) (regMap TMP_ZERO)) s := s_setFlags9' i
theorem ty01 (i : Bool) : (if i then 1#2 else 0#2) = 0#2 ∨ (if i then 1#2 else 0#2) = 1#2 := by cases i <;> decide

/-! ## One constant -/

/-- The operands in their order. -/
def args {α : Type} (first : Bool) (r c : α) : α × α := if first then (c, r) else (r, c)

/-- Where a form with a constant exists, it computes the operation. -/
theorem immForm_eff {reg : Nat} {imm : BitVec 64} {first : Bool} {c : Code} (h : immForm (.op op.code) f dst reg imm first = some c) (hf : op.flagOk)
    (hset : f.set = hasFlags op) (hd : regMap dst ≠ 31#5) (hr : op.code = .add ∨ op.code = .sub → regMap reg ≠ 31#5) :
    Eff op f.unused s c dst (args first (lo (!f.int) (s.x (regMap reg))) (lo (!f.int) imm)).1 (args first (lo (!f.int) (s.x (regMap reg))) (lo (!f.int) imm)).2 cin := by
  have comm : (op.code = .add ∨ op.code = .and ∨ op.code = .or ∨ op.code = .xor) → Eff op f.unused s c dst (lo (!f.int) (s.x (regMap reg))) (lo (!f.int) imm) cin →
      Eff op f.unused s c dst (args first (lo (!f.int) (s.x (regMap reg))) (lo (!f.int) imm)).1 (args first (lo (!f.int) (s.x (regMap reg))) (lo (!f.int) imm)).2 cin := by
    intro h1 h2
    cases first
    · exact h2
    · exact h2.swap h1 hf
  obtain ⟨lb, hlb⟩ := log_total imm f.int
  have kl : (imm.setWidth 32 &&& cm f.int).toNat < W (!f.int) := cm_lt ..
  have ml : (cm f.int).toNat = W (!f.int) - 1 := by cases f.int <;> rfl
  have wp := W_pos (!f.int)
  cases ho : op.code <;> simp only [ho, immForm] at h <;> first | (cases h; done) | skip
  case add =>
    refine comm (by simp [ho]) ?_
    cases h1 : addForm false f dst reg imm with
    | none => rw [h1] at h; cases h
    | some is =>
      rw [h1] at h; cases h
      exact addForm_eff h1 (.inl ⟨rfl, ho, rfl⟩) hf hset hd (hr (.inl ho))
  case sub =>
    cases first
    · simp only [Bool.false_eq_true, if_false] at h
      cases h1 : addForm true f dst reg (-imm) with
      | none => rw [h1] at h; cases h
      | some is =>
        rw [h1] at h; cases h
        exact addForm_eff h1 (.inr ⟨rfl, ho, by rw [BitVec.neg_neg]; rfl⟩) hf hset hd (hr (.inr ho))
    · cases h
  case and =>
    refine comm (by simp [ho]) ?_
    rw [hlb] at h; simp only at h
    split at h
    · cases h
    · next h0 =>
      cases h
      obtain ⟨g, m, rfl, hm, hl⟩ := log_mask hlb h0
      simp only [RV.Op.flagOk, ho] at hf
      refine eff_triple (lo _ (s.x (regMap reg)) &&& lo _ imm, false, false) hset hd ?_ (post_z hf (by rw [ho]; rfl) rfl)
      rw [s_logi (i := f.int) (st := f.set) (opc := if f.set then 3#2 else 0#2) ?_ (by cases f.set <;> rfl) (by intro h; rw [h]; decide) hm]
      · simp only [exec, hl]; unfold aft
        cases h : f.set
        · rw [if_neg (by decide), if_neg (by decide), setX_ne _ _ (by simp [Fl.dst, h, hd])]; rfl
        · rfl
      · have key : ∀ i t u : Bool, ANDI ^^^ (Fl.mk i t u).chk (3#32 <<< 29) = (if t then ANDI ^^^ (3#32 <<< 29) else if (if t then 3#2 else 0#2) = 1#2 then ORRI else if (if t then 3#2 else 0#2) = 2#2 then EORI else ANDI) ^^^ iv i := by decide
        exact key f.int f.set f.unused
  case or =>
    refine comm (by simp [ho]) ?_
    rw [hlb] at h; simp only at h
    split at h
    · cases h
    · next h0 =>
      cases h
      obtain ⟨g, m, rfl, hm, hl⟩ := log_mask hlb h0
      simp only [RV.Op.flagOk, ho] at hf
      refine eff_set hset hd (s_logi' (i := f.int) (.inl ⟨rfl, rfl⟩) hm hd) hf (by rw [ho, hl]; rfl) (.inl rfl) (setf f.int dst)
  case xor =>
    refine comm (by simp [ho]) ?_
    simp only [RV.Op.flagOk, ho] at hf
    split at h
    · next h1 =>
      cases h; subst h1
      refine eff_set hset hd (x := ~~~ lo _ (s.x (regMap reg))) ?_ hf ?_ (.inl rfl) (setf f.int dst)
      · rw [show f.inv = iv f.int from rfl, s_orn]
        simp only [exec, sh0]
        rw [show s.x (regMap TMP_ZERO) = 0#64 from rfl, lo_zero]
        simp [logF]
      · rw [ho]
        show _ = _ ^^^ lo _ (-1#64)
        have : lo (!f.int) (-1#64) = BitVec.allOnes _ := by cases f.int <;> rfl
        rw [this, BitVec.xor_allOnes]
    · rw [hlb] at h; simp only at h
      split at h
      · cases h
      · next h0 =>
        cases h
        obtain ⟨g, m, rfl, hm, hl⟩ := log_mask hlb h0
        refine eff_set hset hd (s_logi' (i := f.int) (.inr ⟨rfl, rfl⟩) hm hd) hf (by rw [ho, hl]; rfl) (.inl rfl) (setf f.int dst)
  case shl | mshl =>
    cases first
    · simp only [Bool.false_eq_true, if_false] at h
      cases h
      simp only [RV.Op.flagOk, ho] at hf
      have en := cnt_neg f.int (imm.setWidth 32 &&& cm f.int)
      have es : (cm f.int - (imm.setWidth 32 &&& cm f.int)).toNat = W (!f.int) - 1 - (imm.setWidth 32 &&& cm f.int).toNat := by
        rw [BitVec.toNat_sub_of_le (by rw [BitVec.le_def]; omega), ml]
      refine eff_set hset hd (s_bf f.int false (immr := -(imm.setWidth 32 &&& cm f.int) &&& cm f.int) (imms := cm f.int - (imm.setWidth 32 &&& cm f.int)) (cm_lt ..) (by rw [es]; omega)) hf ?_ (ty01 f.int) (setf9 f.int dst)
      rw [ho, en, es, Nat.mod_eq_of_lt kl, bfm_shl _ kl, cnt]; rfl
    · cases h
  case lshr | mlshr =>
    cases first
    · simp only [Bool.false_eq_true, if_false] at h
      cases h
      simp only [RV.Op.flagOk, ho] at hf
      refine eff_set hset hd (s_bf f.int false (immr := imm.setWidth 32 &&& cm f.int) (imms := cm f.int) kl (by rw [ml]; omega)) hf ?_ (ty01 f.int) (setf9 f.int dst)
      rw [ho, ml, bfm_shr _ kl, cnt]; rfl
    · cases h
  case ashr | mashr =>
    cases first
    · simp only [Bool.false_eq_true, if_false] at h
      cases h
      simp only [RV.Op.flagOk, ho] at hf
      refine eff_set hset hd (s_bf' f.int (immr := imm.setWidth 32 &&& cm f.int) (imms := cm f.int) kl (by rw [ml]; omega)) hf ?_ (ty01 f.int) (setf9' f.int dst)
      rw [ho, ml, bfm_sar _ kl, cnt]; rfl
    · cases h
  case rotl =>
    cases first
    · simp only [Bool.false_eq_true, if_false] at h
      cases h
      simp only [RV.Op.flagOk, ho] at hf
      refine eff_plain (by simp [hasFlags, hf.1, hf.2]) hd _ (s_ex f.int (k := -(imm.setWidth 32) &&& cm f.int) (cm_lt ..)) ?_
      rw [extr_rotr _ (cm_lt ..), ho]
      show _ = (lo (!f.int) (s.x (regMap reg))).rotateLeft ((lo (!f.int) imm).toNat % W (!f.int))
      refine (rotl_rotr _ _ _ ?_).symm
      rw [cnt_neg, ← cnt, cm_nat]
      generalize (imm.setWidth 32).toNat = n
      rcases W_or (!f.int) with h | h <;> rw [h] <;> omega
    · cases h
  case rotr =>
    cases first
    · simp only [Bool.false_eq_true, if_false] at h
      cases h
      simp only [RV.Op.flagOk, ho] at hf
      refine eff_plain (by simp [hasFlags, hf.1, hf.2]) hd _ (s_ex f.int (k := imm.setWidth 32 &&& cm f.int) (cm_lt ..)) ?_
      rw [extr_rotr _ (cm_lt ..), ho, cnt]; rfl
    · cases h

/-- Code before which a constant is loaded into a temporary register. -/
theorem Eff.after {c1 c2 : Code} {ws : List (BitVec 32)} {u : Bool} {t : BitVec 5} {v : BitVec 64} (h1 : c1 = some ws) (hr : runs ws s = some (s.set t v)) (ht : t = 9#5 ∨ t = 10#5)
    (h : Eff op u (s.set t v) c2 dst a b cin) : Eff op u s (c1 +> c2) dst a b cin := by
  obtain ⟨is, s', x, e1, e2, e3, e4⟩ := h
  subst h1; subst e1
  refine ⟨_, s', x, rfl, by rw [runs_app hr]; exact e2, ⟨e3.m, fun q q1 q2 q3 q4 => ?_, e3.val⟩, e4⟩
  rw [e3.keep q q1 q2 q3 q4]
  exact set_ne _ _ (by rcases ht with rfl | rfl <;> assumption)

/-- emit_op_imm with one constant, :874-1046. -/
theorem oneImm_eff {reg : Nat} {imm : BitVec 64} {first : Bool} (hk : known op.code = true) (hf : op.flagOk) (hset : f.set = hasFlags op) (hd : regMap dst ≠ 31#5) (hd' : regMap dst ≠ 30#5)
    (hr : op.code = .add ∨ op.code = .sub → regMap reg ≠ 31#5) (h1 : first = false → regMap reg ≠ 10#5) (h2 : first = true → regMap reg ≠ 9#5) (h3 : regMap reg ≠ 30#5) (hc : CarryOk op cin s.f) :
    Eff op f.unused s (oneImm (.op op.code) f dst reg imm first) dst (args first (lo (!f.int) (s.x (regMap reg))) (lo (!f.int) imm)).1 (args first (lo (!f.int) (s.x (regMap reg))) (lo (!f.int) imm)).2 cin := by
  unfold oneImm
  cases h : immForm (.op op.code) f dst reg imm first with
  | some c => exact immForm_eff h hf hset hd hr
  | none =>
    simp only
    cases first
    · rw [if_neg (by decide)]
      split
      · next h0 => subst h0; exact regOp_eff hk hf hset hd hd' (h1 rfl) h3 (by decide) hc
      · obtain ⟨ws, e1, e2⟩ := li_run TMP_REG2 (by decide) imm s
        refine Eff.after e1 e2 (.inr rfl) ?_
        have := regOp_eff (s := s.set (regMap TMP_REG2) imm) (f := f) (a1 := reg) (a2 := TMP_REG2) hk hf hset hd hd' (h1 rfl) h3 (by decide) hc
        rw [x_set (d := regMap TMP_REG2) (h1 rfl)] at this
        exact this
    · rw [if_pos rfl]
      split
      · next h0 => subst h0; exact regOp_eff hk hf hset hd hd' (by decide) (by decide) h3 hc
      · obtain ⟨ws, e1, e2⟩ := li_run TMP_REG1 (by decide) imm s
        refine Eff.after e1 e2 (.inl rfl) ?_
        have := regOp_eff (s := s.set (regMap TMP_REG1) imm) (f := f) (a1 := TMP_REG1) (a2 := reg) hk hf hset hd hd' (by decide) (by decide) h3 hc
        rw [x_set (d := regMap TMP_REG1) (h2 rfl)] at this
        exact this

/-- The value of an argument of emit_op_imm. -/
def argV (s : St) : Arg → BitVec 64
  | .reg r => s.x (regMap r)
  | .imm v => v

/-- The registers an argument may be in: `t` is the temporary register of the other one. -/
def ArgOk (t : BitVec 5) : Arg → Prop
  | .reg r => regMap r ≠ t ∧ regMap r ≠ 30#5 ∧ regMap r ≠ 31#5
  | .imm _ => True

/-- emit_op_imm, :852-1154. -/
theorem emitOpImm_eff {arg1 arg2 : Arg} (hk : known op.code = true) (hf : op.flagOk) (hset : f.set = hasFlags op) (hd : regMap dst ≠ 31#5) (hd' : regMap dst ≠ 30#5)
    (h1 : ArgOk 10#5 arg1) (h2 : ArgOk 9#5 arg2) (hc : CarryOk op cin s.f) :
    Eff op f.unused s (emitOpImm (.op op.code) f dst arg1 arg2) dst (lo (!f.int) (argV s arg1)) (lo (!f.int) (argV s arg2)) cin := by
  cases arg1 with
  | reg r1 =>
    cases arg2 with
    | reg r2 => exact regOp_eff hk hf hset hd hd' h1.1 h1.2.1 h2.2.1 hc
    | imm v => exact oneImm_eff (first := false) hk hf hset hd hd' (fun _ => h1.2.2) (fun _ => h1.1) (fun h => absurd h (by decide)) h1.2.1 hc
  | imm u =>
    cases arg2 with
    | reg r2 => exact oneImm_eff (first := true) hk hf hset hd hd' (fun _ => h2.2.2) (fun h => absurd h (by decide)) (fun _ => h2.1) h2.2.1 hc
    | imm v =>
      simp only [emitOpImm]
      split
      · next h0 =>
        obtain ⟨rfl, n1, n2⟩ := h0
        have := oneImm_eff (s := s) (f := f) (dst := dst) (reg := TMP_ZERO) (imm := v) (first := false) hk hf hset hd hd' (by rintro (q | q) <;> simp [q] at n1 n2) (fun _ => by decide) (fun h => absurd h (by decide)) (by decide) hc
        exact this
      · obtain ⟨ws, e1, e2⟩ := li_run TMP_REG1 (by decide) u s
        refine Eff.after e1 e2 (.inl rfl) ?_
        have := oneImm_eff (s := s.set (regMap TMP_REG1) u) (f := f) (dst := dst) (reg := TMP_REG1) (imm := v) (first := false) hk hf hset hd hd' (fun _ => by decide) (fun _ => by decide) (fun h => absurd h (by decide)) (by decide) hc
        exact this

end Verif.A64
