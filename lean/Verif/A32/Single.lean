import Verif.A32.Mem

/-! # Effect of emit_single_op of ARM32 (helper lemmas) -/

namespace Verif.A32
open Verif.Imm.A32 (fld expand)
open Verif.Imm.Arm32 (regMap RM RD RN TMP_REG1 TMP_REG2 SRC2_IMM getImm computeImm Item loadImmediate IsImm zero_bits getImm_sound computeImm_sound)
open Verif.Imm.Arm32 (ADC ADD AND BIC EOR MOV MVN ORR RSB RSC SBC SUB MOVW MOVT)
open Verif (RV.OpC RV.Op RV.Flag)

/-- N, Z, C and V of a result. -/
def FlagsAre (t : BitVec 32 × Bool × Bool) (n z c v : Bool) : Prop := n = t.1.getLsbD 31 ∧ z = decide (t.1 = 0#32) ∧ c = t.2.1 ∧ v = t.2.2

/-- The state after an operation with the result x in dr (unless un): other registers except r12 and r14 and the memory are kept; the flags
satisfy F if they are set. -/
structure Done (s s' : St) (dr : BitVec 4) (un set : Bool) (x : BitVec 32) (F : Bool → Bool → Bool → Bool → Prop) : Prop where
  keep : ∀ q, q ≠ dr → q ≠ 12#4 → q ≠ 14#4 → s'.r q = s.r q
  val : un = false → s'.r dr = x
  mem : s'.m = s.m
  flags : set = true → F s'.n s'.z s'.c s'.v

/-- The state after an operation with the result, carry and overflow t. -/
def DoneT (s s' : St) (dr : BitVec 4) (un set : Bool) (t : BitVec 32 × Bool × Bool) : Prop := Done s s' dr un set t.1 (FlagsAre t)

theorem done_dp {opc : BitVec 4} {S : Bool} {d : BitVec 4} {a : BitVec 32} {b : BitVec 32 × Bool} {s : St} {un : Bool} (h : isTest opc = true → un = true) {dr : BitVec 4} (hd : isTest opc = false → d = dr) :
    DoneT s (dpState opc S d a b s) dr un S (dpRes opc a b s) := by
  unfold dpState
  by_cases ht : isTest opc = true
  · simp only [ht, if_true]
    refine ⟨fun q _ _ _ => by split <;> rfl, fun hu => (by rw [h ht] at hu; cases hu), (by split <;> rfl), fun hS => ?_⟩
    rw [hS]; exact ⟨rfl, rfl, rfl, rfl⟩
  · have ht : isTest opc = false := by simpa using ht
    obtain rfl := hd ht
    simp only [ht, Bool.false_eq_true, if_false]
    refine ⟨fun q h1 _ _ => ?_, fun _ => ?_, by split <;> rfl, fun hS => ?_⟩
    · split <;> exact set_ne s h1 _
    · split <;> exact set_r s _ _
    · rw [hS]; exact ⟨rfl, rfl, rfl, rfl⟩

/-- The result, carry and overflow of the data processing operations; cc is the carry of a logical operation. -/
def tri (op : RV.OpC) (swap inv : Bool) (a b : BitVec 32) (cc : Bool) (s : St) : BitVec 32 × Bool × Bool :=
  match op with
  | .add => awc a b false
  | .addc => awc a b s.c
  | .sub => if swap then awc (~~~ a) b true else awc a (~~~ b) true
  | .subc => if swap then awc (~~~ a) b s.c else awc a (~~~ b) s.c
  | .and => (if inv then a &&& ~~~ b else a &&& b, cc, s.v)
  | .or => (a ||| b, cc, s.v)
  | .xor => (if inv then ~~~ a else a ^^^ b, cc, s.v)
  | _ => (0#32, cc, s.v)

/-- Operations with a data processing instruction of their own. -/
def isAlu : RV.OpC → Bool
  | .add | .addc | .sub | .subc | .and | .or | .xor => true
  | _ => false

/-- The code runs from s to a state which satisfies P. -/
def Runs (c : Option (List Item)) (s : St) (P : St → Prop) : Prop := ∃ is s', c = some is ∧ runs is s = some s' ∧ P s'

theorem Runs.mono {c s P Q} (h : Runs c s P) (hq : ∀ s', P s' → Q s') : Runs c s Q := by
  obtain ⟨is, s', h1, h2, h3⟩ := h; exact ⟨is, s', h1, h2, hq s' h3⟩

theorem Runs.cat {a b s P Q} (h : Runs a s P) (hb : ∀ s1, P s1 → Runs b s1 Q) : Runs (cat a b) s Q := by
  obtain ⟨is, s1, h1, h2, h3⟩ := h
  obtain ⟨js, s2, g1, g2, g3⟩ := hb s1 h3
  exact ⟨is ++ js, s2, by rw [A32.cat, h1, g1]; rfl, by rw [runs_append, h2, Option.bind_some, g2], g3⟩

theorem Runs.nil {s : St} {P : St → Prop} (h : P s) : Runs (some []) s P := ⟨[], s, rfl, rfl, h⟩

theorem Runs.of {is : List Item} {s s' : St} {P : St → Prop} (h : runs is s = some s') (hp : P s') : Runs (some is) s P := ⟨is, s', rfl, h, hp⟩

theorem isTest_opcs : isTest (fld ADD 21 4) = false ∧ isTest (fld ADC 21 4) = false ∧ isTest (fld SUB 21 4) = false := by decide

/-- An instruction which writes dr. -/
theorem alu_w {b : BitVec 32} (hb : Base b) (h1 : fld b 23 2 ≠ 2#2) (h3 : fld b 21 4 ≠ 13#4 ∧ fld b 21 4 ≠ 15#4) (h2 : isTest (fld b 21 4) = false)
    {f : Fl} {dr src1 : Nat} {x : S2} (hd : regMap dr ≠ 15#4) (hn : regMap src1 ≠ 15#4) (hx : x.Ok) (s : St) :
    ∃ c, Runs (some [.ins (b ||| f.s ||| RD dr ||| RN src1 ||| x.enc)]) s
      (fun s' => DoneT s s' (regMap dr) f.unused f.set (dpRes (fld b 21 4) (s.r (regMap src1)) (x.val s, c) s)) := by
  obtain ⟨c, e⟩ := step_alu hb (S := f.set) (d := regMap dr) (n := regMap src1) hx s (Or.inl h1) hn hd (fun h => by rcases h with h | h; exacts [absurd h h3.1, absurd h h3.2])
    (fun h => by rw [h2] at h; cases h)
  exact ⟨c, Runs.of ((runs_one _ _).trans e) (done_dp (fun h => by rw [h2] at h; cases h) (fun _ => rfl))⟩

/-- A comparison. -/
theorem alu_t {b : BitVec 32} (hb : Base b) (h2 : isTest (fld b 21 4) = true) (h3 : fld b 21 4 ≠ 13#4 ∧ fld b 21 4 ≠ 15#4)
    {f : Fl} (hu : f.unused = true) {dr src1 : Nat} {x : S2} (hn : regMap src1 ≠ 15#4) (hx : x.Ok) (s : St) :
    ∃ c, Runs (some [.ins (b ||| SET_FLAGS ||| RN src1 ||| x.enc)]) s
      (fun s' => DoneT s s' (regMap dr) f.unused f.set (dpRes (fld b 21 4) (s.r (regMap src1)) (x.val s, c) s)) := by
  obtain ⟨c, e⟩ := step_alu hb (S := true) (d := 0#4) (n := regMap src1) hx s (Or.inr rfl) hn (by decide) (fun h => by rcases h with h | h; exacts [absurd h h3.1, absurd h h3.2])
    (fun _ => rfl)
  refine ⟨c, Runs.of (s' := dpState (fld b 21 4) true 0#4 (s.r (regMap src1)) (x.val s, c) s) ((runs_one _ _).trans ?_) ?_⟩
  · rw [← e]
    congr 1
    simp [sBit, RN]
  · have := done_dp (opc := fld b 21 4) (S := true) (d := 0#4) (a := s.r (regMap src1)) (b := (x.val s, c)) (s := s) (un := f.unused) (fun _ => hu) (dr := regMap dr)
      (fun h => by rw [h2] at h; cases h)
    exact ⟨this.keep, this.val, this.mem, fun _ => this.flags rfl⟩

theorem single_alu {op : RV.OpC} (ho : isAlu op = true) {f : Fl} {k : BitVec 32} {dr src1 : Nat} {x : S2} (hd : regMap dr ≠ 15#4) (hn : regMap src1 ≠ 15#4) (hx : x.Ok) (s : St) :
    ∃ cc, Runs (emitSingle op f k dr src1 x) s
      (fun s' => DoneT s s' (regMap dr) f.unused f.set (tri op f.swap f.inv (s.r (regMap src1)) (x.val s) cc s)) := by
  cases op <;> first | exact absurd ho (by decide) | skip
  case add =>
    unfold emitSingle
    by_cases h : f.unused = true ∧ f.swap = false
    · simp only [if_pos h]; exact alu_t (b := CMN) (by decide) (by decide) (by decide) h.1 hn hx s
    · simp only [if_neg h]; exact alu_w (b := ADD) (by decide) (by decide) (by decide) (by decide) hd hn hx s
  case addc => exact alu_w (b := ADC) (by decide) (by decide) (by decide) (by decide) hd hn hx s
  case sub =>
    unfold emitSingle
    by_cases h : f.unused = true ∧ f.swap = false
    · simp only [h.1, h.2, and_self, tri, Bool.false_eq_true, if_false, if_true]; 
      have e := alu_t (b := CMP) (by decide) (by decide) (by decide) h.1 (dr := dr) hn hx s
      simp only [h.1] at e; exact e
    · simp only [if_neg h, tri]
      cases hs : f.swap
      · simp only [Bool.false_eq_true, if_false]; exact alu_w (b := SUB) (by decide) (by decide) (by decide) (by decide) hd hn hx s
      · simp only [if_true]; exact alu_w (b := RSB) (by decide) (by decide) (by decide) (by decide) hd hn hx s
  case subc =>
    simp only [emitSingle, tri]
    cases hs : f.swap
    · simp only [Bool.false_eq_true, if_false]; exact alu_w (b := SBC) (by decide) (by decide) (by decide) (by decide) hd hn hx s
    · simp only [if_true]; exact alu_w (b := RSC) (by decide) (by decide) (by decide) (by decide) hd hn hx s
  case and =>
    unfold emitSingle
    by_cases h : f.unused = true ∧ f.inv = false
    · simp only [h.1, h.2, and_self, tri, Bool.false_eq_true, if_false, if_true]; 
      have e := alu_t (b := TST) (by decide) (by decide) (by decide) h.1 (dr := dr) hn hx s
      simp only [h.1] at e; exact e
    · simp only [if_neg h, tri]
      cases hs : f.inv
      · simp only [Bool.false_eq_true, if_false]; exact alu_w (b := AND) (by decide) (by decide) (by decide) (by decide) hd hn hx s
      · simp only [if_true]; exact alu_w (b := BIC) (by decide) (by decide) (by decide) (by decide) hd hn hx s
  case or => exact alu_w (b := ORR) (by decide) (by decide) (by decide) (by decide) hd hn hx s
  case xor =>
    simp only [emitSingle, tri]
    cases hs : f.inv
    · simp only [Bool.false_eq_true, if_false]; exact alu_w (b := EOR) (by decide) (by decide) (by decide) (by decide) hd hn hx s
    · simp only [if_true]
      obtain ⟨c, e⟩ := step_alu (b := MVN) (by decide) (S := f.set) (d := regMap dr) (n := 0#4) (x := .reg src1) hn s (Or.inl (by decide)) (by decide) hd (fun _ => rfl)
        (fun h => absurd h (by decide))
      refine ⟨c, Runs.of ((runs_one _ _).trans ?_) (s' := dpState (fld MVN 21 4) f.set (regMap dr) (s.r 0#4) (S2.val s (.reg src1), c) s) ?_⟩
      · rw [← e]
        congr 1
        simp [Fl.s, sBit, RD, S2.enc]
      · exact done_dp (fun h => absurd h (by decide)) (fun _ => rfl)

/-! ## Multiplication -/

theorem dec_mul {b : BitVec 32} (hb : b = MUL ∨ b = MLA ∨ b = SMULL) (d a m n : BitVec 4) (ha : b = MUL → a = 0#4) :
    ∀ w, b ||| d.setWidth 32 <<< 16 ||| a.setWidth 32 <<< 12 ||| n.setWidth 32 <<< 8 ||| m.setWidth 32 = w →
    fld w 28 4 = 14#4 ∧ decode w = some (if b = MUL then .mul d m n else if b = MLA then .mla d a m n else .smull d a m n) := by
  intro w hw
  have key : ∀ b : BitVec 32, (b = MUL ∨ b = MLA ∨ b = SMULL) → b &&& 0x000fff6f#32 = 0#32 ∧ fld b 28 4 = 14#4 ∧ fld b 25 3 = 0#3 ∧ bit b 4 = true ∧ bit b 7 = true := by
    rintro b (rfl | rfl | rfl) <;> decide
  obtain ⟨h1, h2, h3, h4, h7⟩ := key b hb
  have hz := zero_bits h1
  have z : ∀ k, (decide (k < 4) || decide (5 ≤ k ∧ k < 7) || decide (8 ≤ k ∧ k < 20)) = true → b.getLsbD k = false := by
    intro k hk
    simp only [Bool.or_eq_true, decide_eq_true_eq] at hk
    refine hz k ?_
    have : k < 20 := by omega
    interval_cases k <;> first | rfl | (exfalso; omega)
  have f1 : fld w 28 4 = 14#4 := by rw [← h2]; subst hw; bits [fld, z]
  have f2 : fld w 25 3 = 0#3 := by rw [← h3]; subst hw; bits [fld, z]
  have f3 : fld w 20 8 = fld b 20 8 := by subst hw; bits [fld, z]
  have f5 : fld w 5 2 = 0#2 := by subst hw; bits [fld, z]
  have f6 : fld w 16 4 = d := by subst hw; bits [fld, z]
  have f7 : fld w 12 4 = a := by subst hw; bits [fld, z]
  have f8 : fld w 8 4 = n := by subst hw; bits [fld, z]
  have f9 : fld w 0 4 = m := by subst hw; bits [fld, z]
  have g4 : bit w 4 = true := by rw [← h4]; subst hw; simp [-BitVec.getLsbD_eq_getElem, bit]
  have g7 : bit w 7 = true := by rw [← h7]; subst hw; simp [-BitVec.getLsbD_eq_getElem, bit]
  refine ⟨f1, ?_⟩
  unfold decode
  rw [if_pos ⟨f2, g4, g7⟩, if_pos f5, decMul, f3, f6, f7, f8, f9]
  rcases hb with rfl | rfl | rfl
  · rw [ha rfl]; rfl
  · rfl
  · rfl

/-- Signed overflow of a product, as SMULL and the comparison see it. -/
theorem mul_fits (a b : BitVec 32) :
    let p : BitVec 64 := a.signExtend 64 * b.signExtend 64
    p.setWidth 32 = a * b ∧
    (decide ((p >>> 32).setWidth 32 = (p.setWidth 32).sshiftRight 31) = !decide (a.toInt * b.toInt < -2 ^ 31 ∨ 2 ^ 31 ≤ a.toInt * b.toInt)) := by
  intro p
  have ha := BitVec.le_toInt a; have ha' := BitVec.toInt_lt (x := a)
  have hb := BitVec.le_toInt b; have hb' := BitVec.toInt_lt (x := b)
  have hab : -2 ^ 62 ≤ a.toInt * b.toInt ∧ a.toInt * b.toInt ≤ 2 ^ 62 := by
    have h : (a.toInt * b.toInt).natAbs ≤ 2 ^ 31 * 2 ^ 31 := by
      rw [Int.natAbs_mul]; exact Nat.mul_le_mul (by omega) (by omega)
    omega
  have hp : p.toInt = a.toInt * b.toInt := by
    show (a.signExtend 64 * b.signExtend 64).toInt = _
    rw [BitVec.toInt_mul, BitVec.toInt_signExtend_of_le (by omega), BitVec.toInt_signExtend_of_le (by omega), Int.bmod_eq_of_le (by omega) (by omega)]
  have hlo : p.setWidth 32 = a * b := by
    show (a.signExtend 64 * b.signExtend 64).setWidth 32 = _
    rw [BitVec.setWidth_mul _ _ (by omega)]
    congr 1 <;> (apply BitVec.eq_of_getLsbD_eq; intro i hi; simp [-BitVec.getLsbD_eq_getElem, BitVec.getLsbD_signExtend, hi]; omega)
  refine ⟨hlo, ?_⟩
  rw [← hp]
  clear_value p
  clear hp hab hlo
  have e1 : ((p >>> 32).setWidth 32).toNat = p.toNat / 2 ^ 32 := by
    have := p.isLt
    rw [BitVec.toNat_setWidth, BitVec.toNat_ushiftRight, Nat.shiftRight_eq_div_pow]; omega
  have e2 : (p.setWidth 32).toNat = p.toNat % 2 ^ 32 := by rw [BitVec.toNat_setWidth]
  have e3 : ((p.setWidth 32).sshiftRight 31).toInt = if p.toNat % 2 ^ 32 < 2 ^ 31 then 0 else -1 := by
    rw [BitVec.toInt_sshiftRight, BitVec.toInt_eq_toNat_cond, e2, Int.shiftRight_eq_div_pow]
    split <;> split <;> omega
  have e4 : ((p >>> 32).setWidth 32).toInt = if p.toNat / 2 ^ 32 < 2 ^ 31 then (p.toNat / 2 ^ 32 : Int) else p.toNat / 2 ^ 32 - 2 ^ 32 := by
    rw [BitVec.toInt_eq_toNat_cond, e1]
    split <;> split <;> omega
  rw [← decide_not, decide_eq_decide, ← BitVec.toInt_inj, e3, e4, BitVec.toInt_eq_toNat_cond (x := p)]
  have := p.isLt
  split <;> split <;> split <;> omega

theorem single_mul {f : Fl} {k : BitVec 32} {dr src1 src2 : Nat} (hd : regMap dr ≠ 15#4) (hn : regMap src1 ≠ 15#4) (hx : regMap src2 ≠ 15#4)
    (hdt : dr ≠ TMP_REG1 → regMap dr ≠ 12#4) (s : St) :
    Runs (emitSingle .mul f k dr src1 (.reg src2)) s (fun s' => Done s s' (regMap dr) f.unused f.set (s.r (regMap src1) * s.r (regMap src2))
      (fun _ z _ _ => z = !decide ((s.r (regMap src1)).toInt * (s.r (regMap src2)).toInt < -2 ^ 31 ∨ 2 ^ 31 ≤ (s.r (regMap src1)).toInt * (s.r (regMap src2)).toInt))) := by
  unfold emitSingle
  by_cases hs : f.set = false
  · simp only [if_pos hs]
    have e := step_of (dec_mul (b := MUL) (Or.inl rfl) (regMap dr) 0#4 (regMap src1) (regMap src2) (fun _ => rfl) (MUL ||| RN dr ||| RM8 src2 ||| RM src1) (by simp [RN, RM8, RM])) s
    refine Runs.of ((runs_one _ _).trans (e.trans (?_ : exec (.mul _ _ _) s = _))) (s' := s.set (regMap dr) (s.r (regMap src1) * s.r (regMap src2))) ?_
    · rw [exec, if_neg (by rintro (h | h | h); exacts [hd h, hn h, hx h])]
    · exact ⟨fun q h _ _ => set_ne s h _, fun _ => set_r s _ _, rfl, fun h => by rw [hs] at h; cases h⟩
  · simp only [if_neg hs]
    generalize hreg : (if dr = TMP_REG1 then TMP_REG2 else TMP_REG1) = reg
    have hr : (regMap reg = 12#4 ∨ regMap reg = 14#4) ∧ regMap reg ≠ regMap dr := by
      subst hreg
      split
      next h => rw [h]; decide
      next h => exact ⟨Or.inl (by decide), fun e => hdt h (by rw [← e]; decide)⟩
    have hr15 : regMap reg ≠ 15#4 := by rcases hr.1 with h | h <;> rw [h] <;> decide
    obtain ⟨m1, m2⟩ := mul_fits (s.r (regMap src1)) (s.r (regMap src2))
    generalize hp : (s.r (regMap src1)).signExtend 64 * (s.r (regMap src2)).signExtend 64 = p at m1 m2
    have e1 := step_of (dec_mul (b := SMULL) (Or.inr (Or.inr rfl)) (regMap reg) (regMap dr) (regMap src1) (regMap src2) (fun h => absurd h (by decide))
      (SMULL ||| RN reg ||| RD dr ||| RM8 src2 ||| RM src1) rfl) s
    have e1' : step (SMULL ||| RN reg ||| RD dr ||| RM8 src2 ||| RM src1) s = some ((s.set (regMap dr) (p.setWidth 32)).set (regMap reg) ((p >>> 32).setWidth 32)) := by
      refine e1.trans (?_ : exec (.smull _ _ _ _) s = _)
      rw [exec, if_neg (by rintro (h | h | h | h | h); exacts [hr15 h, hd h, hn h, hx h, hr.2 h]), ← hp]
    generalize hs1 : (s.set (regMap dr) (p.setWidth 32)).set (regMap reg) ((p >>> 32).setWidth 32) = s1 at e1'
    have v1 : s1.r (regMap reg) = (p >>> 32).setWidth 32 := by rw [← hs1, set_r]
    have v2 : s1.r (regMap dr) = p.setWidth 32 := by rw [← hs1, set_ne _ (Ne.symm hr.2), set_r]
    have e2 := step_dp (b := CMP) (by decide) true 0#4 (regMap reg) false ((31#5).setWidth 12 <<< 7 ||| (2#2).setWidth 12 <<< 5 ||| (regMap dr).setWidth 12) s1 (Or.inr rfl)
      (Or.inr (Or.inl (by simp [-BitVec.getLsbD_eq_getElem])))
    have hword : CMP ||| sBit true ||| (0#4).setWidth 32 <<< 12 ||| (regMap reg).setWidth 32 <<< 16 |||
        (iBit false ||| ((31#5).setWidth 12 <<< 7 ||| (2#2).setWidth 12 <<< 5 ||| (regMap dr).setWidth 12).setWidth 32) = CMP ||| SET_FLAGS ||| RN reg ||| RM dr ||| 0xfc0#32 := by
      have : ((31#5).setWidth 12 <<< 7 ||| (2#2).setWidth 12 <<< 5 ||| (regMap dr).setWidth 12).setWidth 32 = RM dr ||| 0xfc0#32 := by
        rw [RM]; generalize regMap dr = q; bits []
      rw [this]; simp [sBit, iBit, RN, BitVec.or_assoc]
    rw [hword, exec_dp hr15 (by decide) (fun h => absurd h (by decide)) (fun _ => rfl) (op2_sh hd 2#2 (k := 31#5) (by decide) s1)] at e2
    refine Runs.of (s' := dpState (fld CMP 21 4) true 0#4 (s1.r (regMap reg)) (shiftC 2#2 (s1.r (regMap dr)) (31#5).toNat s1.c) s1) ?_ ?_
    · simp only [runs, e1', Option.bind_some, e2]
    · have hsh : (shiftC 2#2 (s1.r (regMap dr)) (31#5).toNat s1.c).1 = (s1.r (regMap dr)).sshiftRight 31 := rfl
      refine ⟨fun q h h12 h14 => ?_, fun _ => ?_, ?_, fun _ => ?_⟩
      · show s1.r q = _
        rw [← hs1, set_ne _ (by rcases hr.1 with h | h <;> rw [h] <;> assumption), set_ne _ h]
      · show s1.r (regMap dr) = _
        rw [v2, m1]
      · show s1.m = s.m
        rw [← hs1]; rfl
      · show decide ((awc (s1.r (regMap reg)) (~~~ (shiftC 2#2 (s1.r (regMap dr)) (31#5).toNat s1.c).1) true).1 = 0#32) = _
        rw [hsh, v1, v2, ← m2]
        congr 1
        generalize (p >>> 32).setWidth 32 = x
        generalize (p.setWidth 32).sshiftRight 31 = y
        show (BitVec.ofNat 32 (x.toNat + (~~~ y).toNat + 1) = 0#32) = (x = y)
        rw [eq_iff_iff]
        constructor
        · intro h
          have := congrArg BitVec.toNat h
          rw [BitVec.toNat_ofNat, BitVec.toNat_not] at this
          apply BitVec.eq_of_toNat_eq
          have := x.isLt; have := y.isLt
          simp at *; omega
        · rintro rfl
          apply BitVec.eq_of_toNat_eq
          rw [BitVec.toNat_ofNat, BitVec.toNat_not]
          have := x.isLt
          simp; omega

end Verif.A32
