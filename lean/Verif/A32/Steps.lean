import Verif.A32.Ops
import Verif.Imm.Arm32Load

/-! # Steps of the A32 machine for the words which are emitted (helper lemmas) -/

namespace Verif.A32
open Verif.Imm.A32 (fld expand)
open Verif.Imm.Arm32 (regMap RM RD RN TMP_REG1 TMP_REG2 SRC2_IMM getImm computeImm Item loadImmediate IsImm zero_bits)
open Verif.Imm.Arm32 (ADC ADD AND BIC EOR MOV MVN ORR RSB RSC SBC SUB MOVW MOVT)

/-- Execution of what is emitted.  A load from the constant pool yields the constant. -/
def runs : List Item → St → Option St
  | [], s => some s
  | .ins w :: ws, s => (step w s).bind (runs ws)
  | .lit r v :: ws, s => if regMap r = 15#4 then none else runs ws (s.set (regMap r) v)

theorem runs_append (a b : List Item) (s : St) : runs (a ++ b) s = (runs a s).bind (runs b) := by
  induction a generalizing s with
  | nil => rfl
  | cons x xs ih =>
    cases x with
    | ins w => simp only [List.cons_append, runs]; cases step w s <;> simp [ih]
    | lit r v => simp only [List.cons_append, runs]; split <;> simp [ih]

theorem runs_one (w : BitVec 32) (s : St) : runs [.ins w] s = step w s := by
  simp only [runs]; cases step w s <;> rfl

/-- The base words of data processing instructions. -/
def Base (b : BitVec 32) : Prop := b &&& 0x021fffff#32 = 0#32 ∧ fld b 28 4 = 14#4 ∧ fld b 25 3 = 0#3

instance (b) : Decidable (Base b) := inferInstanceAs (Decidable (_ ∧ _))

/-- The S bit. -/
def sBit (S : Bool) : BitVec 32 := if S then SET_FLAGS else 0#32
/-- The I bit. -/
def iBit (i : Bool) : BitVec 32 := if i then SRC2_IMM else 0#32

theorem step_dp {b : BitVec 32} (hb : Base b) (S : Bool) (d n : BitVec 4) (i : Bool) (f : BitVec 12) (s : St)
    (h1 : fld b 23 2 ≠ 2#2 ∨ S = true) (h2 : i = true ∨ f.getLsbD 4 = false ∨ f.getLsbD 7 = false) :
    step (b ||| sBit S ||| d.setWidth 32 <<< 12 ||| n.setWidth 32 <<< 16 ||| (iBit i ||| f.setWidth 32)) s = exec (.dp (fld b 21 4) S n d i f) s := by
  obtain ⟨hb1, hb2, hb3⟩ := hb
  have hz := zero_bits hb1
  generalize hw : b ||| sBit S ||| d.setWidth 32 <<< 12 ||| n.setWidth 32 <<< 16 ||| (iBit i ||| f.setWidth 32) = w
  have z : ∀ k, k < 21 → b.getLsbD k = false := fun k hk => hz k (by interval_cases k <;> rfl)
  have z3 : ∀ k, 25 ≤ k → k < 28 → b.getLsbD k = false := by
    intro k hk hk'
    have := congrArg (fun v => v.getLsbD (k - 25)) hb3
    interval_cases k <;> simpa [-BitVec.getLsbD_eq_getElem, fld] using this
  have eS : ∀ k, (sBit S).getLsbD k = (decide (k = 20) && S) := by
    intro k
    by_cases hk : k < 32
    · cases S <;> interval_cases k <;> rfl
    · rw [BitVec.getLsbD_of_ge _ _ (by omega), decide_eq_false (by omega)]; rfl
  have eI : ∀ k, (iBit i).getLsbD k = (decide (k = 25) && i) := by
    intro k
    by_cases hk : k < 32
    · cases i <;> interval_cases k <;> rfl
    · rw [BitVec.getLsbD_of_ge _ _ (by omega), decide_eq_false (by omega)]; rfl
  have f1 : fld w 28 4 = 14#4 := by rw [← hb2, ← hw]; bits [fld, eS, eI]
  have f3 : fld w 23 2 = fld b 23 2 := by subst hw; bits [fld, eS, eI]
  have f4 : fld w 26 2 = 0#2 := by subst hw; bits [fld, eS, eI, z3]
  have f5 : fld w 21 4 = fld b 21 4 := by subst hw; bits [fld, eS, eI]
  have f6 : fld w 16 4 = n := by subst hw; bits [fld, eS, eI, z]
  have f7 : fld w 12 4 = d := by subst hw; bits [fld, eS, eI, z]
  have f8 : fld w 0 12 = f := by subst hw; bits [fld, eS, eI, z]
  have g4 : bit w 4 = f.getLsbD 4 := by subst hw; simp [-BitVec.getLsbD_eq_getElem, bit, eS, eI, z]
  have g7 : bit w 7 = f.getLsbD 7 := by subst hw; simp [-BitVec.getLsbD_eq_getElem, bit, eS, eI, z]
  have g20 : bit w 20 = S := by subst hw; simp [-BitVec.getLsbD_eq_getElem, bit, eS, eI, z]
  have g25 : bit w 25 = i := by subst hw; simp [-BitVec.getLsbD_eq_getElem, bit, eS, eI, z3]
  have f25 : fld w 25 3 = 0#3 → i = false := by
    intro h
    have := congrArg (fun v => v.getLsbD 0) h
    rw [← g25]
    simpa [-BitVec.getLsbD_eq_getElem, fld, bit] using this
  have hnot : ¬ (fld w 25 3 = 0#3 ∧ bit w 4 = true ∧ bit w 7 = true) := by
    rintro ⟨ha, hb, hc⟩
    rw [g4] at hb; rw [g7] at hc
    rcases h2 with h | h | h
    · rw [f25 ha] at h; cases h
    · rw [hb] at h; cases h
    · rw [hc] at h; cases h
  have hnot2 : ¬ (fld w 23 2 = 2#2 ∧ bit w 20 = false) := by
    rw [f3, g20]; rintro ⟨ha, hb⟩
    rcases h1 with h | h
    · exact h ha
    · rw [h] at hb; cases hb
  have hdec : decode w = some (.dp (fld b 21 4) S n d i f) := by
    unfold decode
    rw [if_neg hnot, if_pos f4, if_neg hnot2, f5, g20, f6, f7, g25, f8]
  simp only [step, f1, hdec, condOk]
  rfl

/-- The state after a data processing instruction. -/
def dpState (opc : BitVec 4) (S : Bool) (d : BitVec 4) (a : BitVec 32) (b : BitVec 32 × Bool) (s : St) : St :=
  let x := dpRes opc a b s
  let s' := if isTest opc then s else s.set d x.1
  if S then s'.flags x else s'

theorem exec_dp {opc : BitVec 4} {S : Bool} {n d : BitVec 4} {i : Bool} {f : BitVec 12} {s : St} {b : BitVec 32 × Bool} (hn : n ≠ 15#4) (hd : d ≠ 15#4)
    (h1 : opc = 13#4 ∨ opc = 15#4 → n = 0#4) (h2 : isTest opc = true → d = 0#4) (hb : op2 i f s = some b) :
    exec (.dp opc S n d i f) s = some (dpState opc S d (s.r n) b s) := by
  rw [exec, if_neg (by rintro (h | h); exacts [hn h, hd h]), if_neg (fun h => h.2 (h1 h.1)), if_neg (fun h => h.2 (h2 h.1)), hb]
  rfl

theorem op2_imm (f : BitVec 12) (s : St) : ∃ c, op2 true f s = some (expand f, c) := ⟨_, rfl⟩

theorem op2_reg {m : BitVec 4} (hm : m ≠ 15#4) (s : St) : op2 false (m.setWidth 12) s = some (s.r m, s.c) := by
  have e1 : (m.setWidth 12).extractLsb' 0 4 = m := by bits []
  have e2 : (m.setWidth 12).getLsbD 4 = false := by simp [-BitVec.getLsbD_eq_getElem]
  have e3 : (m.setWidth 12).extractLsb' 5 2 = 0#2 := by bits []
  have e4 : (m.setWidth 12).extractLsb' 7 5 = 0#5 := by bits []
  simp only [op2, e1, e2, e3, e4, hm, if_false, if_true, immShift, Option.map_some, shiftC, Bool.false_eq_true]

theorem op2_sh {m : BitVec 4} (hm : m ≠ 15#4) (ty : BitVec 2) {k : BitVec 5} (hk : k ≠ 0#5) (s : St) :
    op2 false (k.setWidth 12 <<< 7 ||| ty.setWidth 12 <<< 5 ||| m.setWidth 12) s = some (shiftC ty (s.r m) k.toNat s.c) := by
  generalize hf : k.setWidth 12 <<< 7 ||| ty.setWidth 12 <<< 5 ||| m.setWidth 12 = f
  have e1 : f.extractLsb' 0 4 = m := by subst hf; bits []
  have e2 : f.getLsbD 4 = false := by subst hf; simp [-BitVec.getLsbD_eq_getElem]
  have e3 : f.extractLsb' 5 2 = ty := by subst hf; bits []
  have e4 : f.extractLsb' 7 5 = k := by subst hf; bits []
  simp only [op2, e1, e2, e3, e4, hm, hk, if_false, if_true, immShift, Option.map_some, Bool.false_eq_true]

theorem op2_rsr {m r : BitVec 4} (hm : m ≠ 15#4) (hr : r ≠ 15#4) (ty : BitVec 2) (s : St) :
    op2 false (r.setWidth 12 <<< 8 ||| ty.setWidth 12 <<< 5 ||| 0x10#12 ||| m.setWidth 12) s = some (shiftC ty (s.r m) ((s.r r).setWidth 8).toNat s.c) := by
  generalize hf : r.setWidth 12 <<< 8 ||| ty.setWidth 12 <<< 5 ||| 0x10#12 ||| m.setWidth 12 = f
  have e1 : f.extractLsb' 0 4 = m := by subst hf; bits []
  have e2 : f.getLsbD 4 = true := by subst hf; simp [-BitVec.getLsbD_eq_getElem]
  have e3 : f.extractLsb' 5 2 = ty := by subst hf; bits []
  have e4 : f.extractLsb' 8 4 = r := by subst hf; bits []
  simp only [op2, e1, e2, e3, e4, hm, hr, if_false, Bool.false_eq_true, Bool.true_eq_false]

/-- A last argument of emit_single_op: no program counter, or an immediate field. -/
def S2.Ok : S2 → Prop
  | .reg r => regMap r ≠ 15#4
  | .imm w => IsImm w

/-- Its value. -/
def S2.val (s : St) : S2 → BitVec 32
  | .reg r => s.r (regMap r)
  | .imm w => expand (w.extractLsb' 0 12)

theorem or4 (a b c d e : BitVec 32) : a ||| b ||| c ||| d ||| e = a ||| b ||| c ||| d ||| (0#32 ||| e) := by rw [BitVec.zero_or]

/-- A data processing word with a register or an immediate. -/
theorem step_alu {b : BitVec 32} (hb : Base b) {S : Bool} {d n : BitVec 4} {x : S2} (hx : x.Ok) (s : St) (h1 : fld b 23 2 ≠ 2#2 ∨ S = true)
    (hn : n ≠ 15#4) (hd : d ≠ 15#4) (h3 : fld b 21 4 = 13#4 ∨ fld b 21 4 = 15#4 → n = 0#4) (h2 : isTest (fld b 21 4) = true → d = 0#4) :
    ∃ c, step (b ||| sBit S ||| d.setWidth 32 <<< 12 ||| n.setWidth 32 <<< 16 ||| x.enc) s = some (dpState (fld b 21 4) S d (s.r n) (x.val s, c) s) := by
  cases x with
  | reg r =>
    refine ⟨s.c, ?_⟩
    have e : S2.enc (.reg r) = iBit false ||| ((regMap r).setWidth 12).setWidth 32 := by
      simp only [S2.enc, RM, iBit, Bool.false_eq_true, if_false, BitVec.zero_or]; bits []
    rw [e, step_dp hb S d n false _ s h1 (Or.inr (Or.inl (by simp [-BitVec.getLsbD_eq_getElem]))), exec_dp hn hd h3 h2 (op2_reg hx s)]
    rfl
  | imm w =>
    obtain ⟨c, hc⟩ := op2_imm (w.extractLsb' 0 12) s
    refine ⟨c, ?_⟩
    have e : S2.enc (.imm w) = iBit true ||| (w.extractLsb' 0 12).setWidth 32 := (IsImm.eq hx)
    rw [e, step_dp hb S d n true _ s h1 (Or.inl rfl), exec_dp hn hd h3 h2 hc]
    rfl

/-! ## Loads and stores -/

/-- The loaded value. -/
def ldVal (t : Ty) (m : BitVec 32 → BitVec 8) (a : BitVec 32) : BitVec 32 :=
  match t.size, t.sg with
  | 0, _ => rd m a 4
  | 1, false => rd m a 1
  | 1, true => ((rd m a 1).setWidth 8).signExtend 32
  | _, false => rd m a 2
  | _, true => ((rd m a 2).setWidth 16).signExtend 32

/-- Number of bytes. -/
def bytes (t : Ty) : Nat := match t.size with
  | 0 => 4
  | 1 => 1
  | _ => 2

/-- A transfer between a register and the memory. -/
def xfer (t : Ty) (reg : BitVec 4) (a : BitVec 32) (s : St) : St :=
  if t.load then s.set reg (ldVal t s.m a) else { s with m := wr s.m a (s.r reg) (bytes t) }

/-- The U bit. -/
def uBit (u : Bool) : BitVec 32 := if u then 1#32 <<< 23 else 0#32

theorem uBit_bit (u : Bool) (k : Nat) : (uBit u).getLsbD k = (decide (k = 23) && u) := by
  by_cases hk : k < 32
  · cases u <;> interval_cases k <;> rfl
  · rw [BitVec.getLsbD_of_ge _ _ (by omega), decide_eq_false (by omega)]; rfl

theorem exec_ld {k : Nat} {sg u : Bool} {n t : BitVec 4} {o : BitVec 12 ⊕ BitVec 4 × BitVec 5} {s : St} {d : BitVec 32} {l : Bool} (hn : n ≠ 15#4) (ht : t ≠ 15#4)
    (ho : offs s o = some d) : exec (.ldst k sg l u n t o) s = some (
      let a := if u then s.r n + d else s.r n - d
      if l then s.set t (if sg then if k = 1 then ((rd s.m a k).setWidth 8).signExtend 32 else ((rd s.m a k).setWidth 16).signExtend 32 else rd s.m a k)
      else { s with m := wr s.m a (s.r t) k }) := by
  rw [exec, if_neg (by rintro (h | h); exacts [hn h, ht h]), ho]
  rfl

theorem dec_type1 {w : BitVec 32} (h27 : fld w 26 2 = 1#2) (h24 : bit w 24 = true) (h21 : bit w 21 = false) (h25 : bit w 25 = false) :
    decode w = some (.ldst (if bit w 22 then 1 else 4) false (bit w 20) (bit w 23) (fld w 16 4) (fld w 12 4) (.inl (fld w 0 12))) := by
  have h0 : ¬ (fld w 25 3 = 0#3 ∧ bit w 4 = true ∧ bit w 7 = true) := by
    rintro ⟨h, -⟩
    have a := congrArg (fun v => v.getLsbD 1) h
    have b := congrArg (fun v => v.getLsbD 0) h27
    simp [-BitVec.getLsbD_eq_getElem, fld] at a b
    rw [a] at b; cases b
  unfold decode
  rw [if_neg h0, h27, if_neg (by decide), if_pos rfl, h24, h21, h25]
  rfl

theorem dec_type1r {w : BitVec 32} (h27 : fld w 26 2 = 1#2) (h24 : bit w 24 = true) (h21 : bit w 21 = false) (h25 : bit w 25 = true) (h4 : fld w 4 3 = 0#3) :
    decode w = some (.ldst (if bit w 22 then 1 else 4) false (bit w 20) (bit w 23) (fld w 16 4) (fld w 12 4) (.inr (fld w 0 4, fld w 7 5))) := by
  have h0 : ¬ (fld w 25 3 = 0#3 ∧ bit w 4 = true ∧ bit w 7 = true) := by
    rintro ⟨h, -⟩
    have a := congrArg (fun v => v.getLsbD 1) h
    have b := congrArg (fun v => v.getLsbD 0) h27
    simp [-BitVec.getLsbD_eq_getElem, fld] at a b
    rw [a] at b; cases b
  unfold decode
  rw [if_neg h0, h27, if_neg (by decide), if_pos rfl, h24, h21, h25]
  simp only [h4, Bool.true_eq_false, Bool.false_eq_true, or_self, if_false, if_true]

theorem dec_extra {w : BitVec 32} (h25 : fld w 25 3 = 0#3) (h4 : bit w 4 = true) (h7 : bit w 7 = true) (h5 : fld w 5 2 ≠ 0#2) : decode w = decExtra w := by
  unfold decode
  rw [if_pos ⟨h25, h4, h7⟩, if_neg h5]

/-- The words of type 1 transfers. -/
def T1 (b : BitVec 32) : Prop := b &&& 0x02afffff#32 = 0#32 ∧ fld b 28 4 = 14#4 ∧ fld b 26 2 = 1#2 ∧ bit b 24 = true

instance (b) : Decidable (T1 b) := inferInstanceAs (Decidable (_ ∧ _))

theorem T1.dec {b : BitVec 32} (hb : T1 b) (u : Bool) (d n : BitVec 4) (i : BitVec 12) {w : BitVec 32}
    (hw : b ||| uBit u ||| d.setWidth 32 <<< 12 ||| n.setWidth 32 <<< 16 ||| i.setWidth 32 = w) :
    fld w 28 4 = 14#4 ∧ decode w = some (.ldst (if bit b 22 then 1 else 4) false (bit b 20) u n d (.inl i)) := by
  obtain ⟨h1, h2, h3, h4⟩ := hb
  have hz := zero_bits h1
  have z : ∀ k, k < 20 → b.getLsbD k = false := fun k hk => hz k (by interval_cases k <;> rfl)
  have z21 := hz 21 rfl
  have z23 := hz 23 rfl
  have z25 := hz 25 rfl
  have f6 : fld w 16 4 = n := by subst hw; bits [fld, uBit_bit, z]
  have f7 : fld w 12 4 = d := by subst hw; bits [fld, uBit_bit, z]
  have f8 : fld w 0 12 = i := by subst hw; bits [fld, uBit_bit, z]
  have f1 : fld w 28 4 = 14#4 := by rw [← h2]; subst hw; bits [fld, uBit_bit, z]
  have f2 : fld w 26 2 = 1#2 := by rw [← h3]; subst hw; bits [fld, uBit_bit, z]
  have g24 : bit w 24 = true := by rw [← h4]; subst hw; simp [-BitVec.getLsbD_eq_getElem, bit, uBit_bit]
  have g21 : bit w 21 = false := by subst hw; simp [-BitVec.getLsbD_eq_getElem, bit, uBit_bit, z21]
  have g25 : bit w 25 = false := by subst hw; simp [-BitVec.getLsbD_eq_getElem, bit, uBit_bit, z25]
  have g22 : bit w 22 = bit b 22 := by subst hw; simp [-BitVec.getLsbD_eq_getElem, bit, uBit_bit]
  have g20 : bit w 20 = bit b 20 := by subst hw; simp [-BitVec.getLsbD_eq_getElem, bit, uBit_bit]
  have g23 : bit w 23 = u := by subst hw; simp [-BitVec.getLsbD_eq_getElem, bit, uBit_bit, z23]
  exact ⟨f1, by rw [dec_type1 f2 g24 g21 g25, f6, f7, f8, g22, g20, g23]⟩

theorem T1.decr {b : BitVec 32} (hb : T1 b) (u : Bool) (d n m : BitVec 4) (k : BitVec 5) {w : BitVec 32}
    (hw : b ||| uBit u ||| d.setWidth 32 <<< 12 ||| n.setWidth 32 <<< 16 ||| (m.setWidth 32 ||| 1#32 <<< 25 ||| k.setWidth 32 <<< 7) = w) :
    fld w 28 4 = 14#4 ∧ decode w = some (.ldst (if bit b 22 then 1 else 4) false (bit b 20) u n d (.inr (m, k))) := by
  obtain ⟨h1, h2, h3, h4⟩ := hb
  have hz := zero_bits h1
  have z : ∀ k, k < 20 → b.getLsbD k = false := fun k hk => hz k (by interval_cases k <;> rfl)
  have z21 := hz 21 rfl
  have z23 := hz 23 rfl
  have f6 : fld w 16 4 = n := by subst hw; bits [fld, uBit_bit, z]
  have f7 : fld w 12 4 = d := by subst hw; bits [fld, uBit_bit, z]
  have f8 : fld w 0 4 = m := by subst hw; bits [fld, uBit_bit, z]
  have f9 : fld w 7 5 = k := by subst hw; bits [fld, uBit_bit, z]
  have f10 : fld w 4 3 = 0#3 := by subst hw; bits [fld, uBit_bit, z]
  have f1 : fld w 28 4 = 14#4 := by rw [← h2]; subst hw; bits [fld, uBit_bit, z]
  have f2 : fld w 26 2 = 1#2 := by rw [← h3]; subst hw; bits [fld, uBit_bit, z]
  have g24 : bit w 24 = true := by rw [← h4]; subst hw; simp [-BitVec.getLsbD_eq_getElem, bit, uBit_bit]
  have g21 : bit w 21 = false := by subst hw; simp [-BitVec.getLsbD_eq_getElem, bit, uBit_bit, z21]
  have g25 : bit w 25 = true := by subst hw; simp [-BitVec.getLsbD_eq_getElem, bit, uBit_bit]
  have g22 : bit w 22 = bit b 22 := by subst hw; simp [-BitVec.getLsbD_eq_getElem, bit, uBit_bit]
  have g20 : bit w 20 = bit b 20 := by subst hw; simp [-BitVec.getLsbD_eq_getElem, bit, uBit_bit]
  have g23 : bit w 23 = u := by subst hw; simp [-BitVec.getLsbD_eq_getElem, bit, uBit_bit, z23]
  exact ⟨f1, by rw [dec_type1r f2 g24 g21 g25 f10, f6, f7, f8, f9, g22, g20, g23]⟩

/-- The words of type 2 transfers. -/
def T2 (b : BitVec 32) : Prop := b &&& 0x0eefff0f#32 = 0#32 ∧ fld b 28 4 = 14#4 ∧ bit b 24 = true ∧ bit b 4 = true ∧ bit b 7 = true ∧ fld b 5 2 ≠ 0#2 ∧
  (fld b 5 2 ≠ 1#2 → bit b 20 = true)

instance (b) : Decidable (T2 b) := inferInstanceAs (Decidable (_ ∧ _))

/-- What a type 2 word loads or stores. -/
def t2Inst (b : BitVec 32) (u : Bool) (n d : BitVec 4) (o : BitVec 12 ⊕ BitVec 4 × BitVec 5) : Inst :=
  if fld b 5 2 = 1#2 then .ldst 2 false (bit b 20) u n d o else if fld b 5 2 = 2#2 then .ldst 1 true true u n d o else .ldst 2 true true u n d o

theorem T2.dec {b : BitVec 32} (hb : T2 b) (u : Bool) (d n : BitVec 4) (i : BitVec 8) {w : BitVec 32}
    (hw : b ||| uBit u ||| d.setWidth 32 <<< 12 ||| n.setWidth 32 <<< 16 ||| type2Imm (i.setWidth 32) = w) :
    fld w 28 4 = 14#4 ∧ decode w = some (t2Inst b u n d (.inl (i.setWidth 12))) := by
  obtain ⟨h1, h2, h4, h5, h6, h7, h8⟩ := hb
  have hz := zero_bits h1
  have z : ∀ k, (decide (k < 4) || decide (8 ≤ k ∧ k < 20) || decide (21 ≤ k ∧ k < 24) || decide (25 ≤ k ∧ k < 28)) = true → b.getLsbD k = false := by
    intro k hk
    simp only [Bool.or_eq_true, decide_eq_true_eq] at hk
    refine hz k ?_
    have : k < 28 := by omega
    interval_cases k <;> first | rfl | (exfalso; omega)
  have q5 : b.getLsbD 5 = bit b 5 := rfl
  have f6 : fld w 16 4 = n := by subst hw; bits [fld, uBit_bit, z, type2Imm]
  have f7 : fld w 12 4 = d := by subst hw; bits [fld, uBit_bit, z, type2Imm]
  have f8 : (fld w 8 4).setWidth 12 <<< 4 ||| (fld w 0 4).setWidth 12 = i.setWidth 12 := by subst hw; bits [fld, uBit_bit, z, type2Imm]
  have f9 : fld w 5 2 = fld b 5 2 := by subst hw; bits [fld, uBit_bit, z, type2Imm]
  have f1 : fld w 28 4 = 14#4 := by rw [← h2]; subst hw; bits [fld, uBit_bit, z, type2Imm]
  have f2 : fld w 25 3 = 0#3 := by subst hw; bits [fld, uBit_bit, z, type2Imm]
  have g24 : bit w 24 = true := by rw [← h4]; subst hw; simp [-BitVec.getLsbD_eq_getElem, bit, uBit_bit, type2Imm]
  have g4 : bit w 4 = true := by rw [← h5]; subst hw; simp [-BitVec.getLsbD_eq_getElem, bit, uBit_bit, type2Imm]
  have g7 : bit w 7 = true := by rw [← h6]; subst hw; simp [-BitVec.getLsbD_eq_getElem, bit, uBit_bit, type2Imm]
  have g21 : bit w 21 = false := by subst hw; simp [-BitVec.getLsbD_eq_getElem, bit, uBit_bit, type2Imm, z]
  have g22 : bit w 22 = true := by subst hw; simp [-BitVec.getLsbD_eq_getElem, bit, uBit_bit, type2Imm]
  have g20 : bit w 20 = bit b 20 := by subst hw; simp [-BitVec.getLsbD_eq_getElem, bit, uBit_bit, type2Imm]
  have g23 : bit w 23 = u := by subst hw; simp [-BitVec.getLsbD_eq_getElem, bit, uBit_bit, type2Imm, z]
  refine ⟨f1, ?_⟩
  rw [dec_extra f2 g4 g7 (by rw [f9]; exact h7)]
  simp only [decExtra, g24, g21, g22, g20, g23, f6, f7, f8, f9, Bool.true_eq_false, Bool.false_eq_true, or_self, if_false, if_true, Option.bind_some, t2Inst]
  by_cases hc : fld b 5 2 = 1#2
  · rw [if_pos hc, if_pos hc]
  · rw [if_neg hc, if_neg hc, h8 hc, if_neg (by decide)]; split <;> rfl

theorem T2.decr {b : BitVec 32} (hb : T2 b) (u : Bool) (d n m : BitVec 4) {w : BitVec 32}
    (hw : b ||| uBit u ||| d.setWidth 32 <<< 12 ||| n.setWidth 32 <<< 16 ||| m.setWidth 32 = w) :
    fld w 28 4 = 14#4 ∧ decode w = some (t2Inst b u n d (.inr (m, 0#5))) := by
  obtain ⟨h1, h2, h4, h5, h6, h7, h8⟩ := hb
  have hz := zero_bits h1
  have z : ∀ k, (decide (k < 4) || decide (8 ≤ k ∧ k < 20) || decide (21 ≤ k ∧ k < 24) || decide (25 ≤ k ∧ k < 28)) = true → b.getLsbD k = false := by
    intro k hk
    simp only [Bool.or_eq_true, decide_eq_true_eq] at hk
    refine hz k ?_
    have : k < 28 := by omega
    interval_cases k <;> first | rfl | (exfalso; omega)
  have f6 : fld w 16 4 = n := by subst hw; bits [fld, uBit_bit, z]
  have f7 : fld w 12 4 = d := by subst hw; bits [fld, uBit_bit, z]
  have f8 : fld w 8 4 = 0#4 := by subst hw; bits [fld, uBit_bit, z]
  have f10 : fld w 0 4 = m := by subst hw; bits [fld, uBit_bit, z]
  have f9 : fld w 5 2 = fld b 5 2 := by subst hw; bits [fld, uBit_bit, z]
  have f1 : fld w 28 4 = 14#4 := by rw [← h2]; subst hw; bits [fld, uBit_bit, z]
  have f2 : fld w 25 3 = 0#3 := by subst hw; bits [fld, uBit_bit, z]
  have g24 : bit w 24 = true := by rw [← h4]; subst hw; simp [-BitVec.getLsbD_eq_getElem, bit, uBit_bit]
  have g4 : bit w 4 = true := by rw [← h5]; subst hw; simp [-BitVec.getLsbD_eq_getElem, bit, uBit_bit]
  have g7 : bit w 7 = true := by rw [← h6]; subst hw; simp [-BitVec.getLsbD_eq_getElem, bit, uBit_bit]
  have g21 : bit w 21 = false := by subst hw; simp [-BitVec.getLsbD_eq_getElem, bit, uBit_bit, z]
  have g22 : bit w 22 = false := by subst hw; simp [-BitVec.getLsbD_eq_getElem, bit, uBit_bit, z]
  have g20 : bit w 20 = bit b 20 := by subst hw; simp [-BitVec.getLsbD_eq_getElem, bit, uBit_bit]
  have g23 : bit w 23 = u := by subst hw; simp [-BitVec.getLsbD_eq_getElem, bit, uBit_bit, z]
  refine ⟨f1, ?_⟩
  rw [dec_extra f2 g4 g7 (by rw [f9]; exact h7)]
  simp only [decExtra, g24, g21, g22, g20, g23, f6, f7, f8, f9, f10, Bool.true_eq_false, Bool.false_eq_true, or_self, if_false, if_true, Option.bind_some, t2Inst]
  by_cases hc : fld b 5 2 = 1#2
  · rw [if_pos hc, if_pos hc]
  · rw [if_neg hc, if_neg hc, h8 hc, if_neg (by decide)]; split <;> rfl

theorem ty_T1 {t : Ty} (h : isType1 t = true) : T1 (transferInst t) := by
  obtain ⟨size, sg, load⟩ := t
  rcases load with _ | _ <;> rcases sg with _ | _ <;> rcases size with _ | _ | n <;> first | (simp only [transferInst]; decide) | (exact absurd h (by simp [isType1, transferInst]))

theorem ty_T2 {t : Ty} (h : isType1 t = false) : T2 (transferInst t) := by
  obtain ⟨size, sg, load⟩ := t
  rcases load with _ | _ <;> rcases sg with _ | _ <;> rcases size with _ | _ | n <;> first | (simp only [transferInst]; decide) | (exact absurd h (by simp [isType1, transferInst]))

theorem exec_t1 {t : Ty} (h : isType1 t = true) {u : Bool} {n d : BitVec 4} {o : BitVec 12 ⊕ BitVec 4 × BitVec 5} {s : St} {x : BitVec 32} (hn : n ≠ 15#4) (hd : d ≠ 15#4)
    (ho : offs s o = some x) : exec (.ldst (if bit (transferInst t) 22 then 1 else 4) false (bit (transferInst t) 20) u n d o) s =
      some (xfer t d (if u then s.r n + x else s.r n - x) s) := by
  rw [exec_ld hn hd ho]
  obtain ⟨size, sg, load⟩ := t
  rcases load with _ | _ <;> rcases sg with _ | _ <;> rcases size with _ | _ | n <;> first | rfl | (exact absurd h (by simp [isType1, transferInst]))

theorem exec_t2 {t : Ty} (h : isType1 t = false) {u : Bool} {n d : BitVec 4} {o : BitVec 12 ⊕ BitVec 4 × BitVec 5} {s : St} {x : BitVec 32} (hn : n ≠ 15#4) (hd : d ≠ 15#4)
    (ho : offs s o = some x) : exec (t2Inst (transferInst t) u n d o) s = some (xfer t d (if u then s.r n + x else s.r n - x) s) := by
  obtain ⟨size, sg, load⟩ := t
  rcases load with _ | _ <;> rcases sg with _ | _ <;> rcases size with _ | _ | k <;>
    first | (simp only [t2Inst, transferInst]; exact exec_ld hn hd ho) | (exact absurd h (by simp [isType1, transferInst]))

theorem step_of {w : BitVec 32} {i : Inst} (h : fld w 28 4 = 14#4 ∧ decode w = some i) (s : St) : step w s = exec i s := by
  rw [step, h.1, h.2]; rfl

/-- A transfer with a register offset. -/
theorem step_xr {t : Ty} {reg base m : Nat} (hr : regMap reg ≠ 15#4) (hb : regMap base ≠ 15#4) (hm : regMap m ≠ 15#4) (k : BitVec 5)
    (hk : isType1 t = false → k = 0#5) (s : St) :
    step (dataTransfer t true reg base (RM m ||| (if isType1 t then 1#32 <<< 25 else 0#32) ||| k.setWidth 32 <<< 7)) s =
      some (xfer t (regMap reg) (s.r (regMap base) + s.r (regMap m) <<< k.toNat) s) := by
  have ho : offs s (.inr (regMap m, k)) = some (s.r (regMap m) <<< k.toNat) := by rw [offs, if_neg hm]
  by_cases h : isType1 t = true
  · rw [if_pos h]
    exact (step_of ((ty_T1 h).decr true (regMap reg) (regMap base) (regMap m) k rfl) s).trans (exec_t1 h hb hr ho)
  · have h : isType1 t = false := by simpa using h
    obtain rfl := hk h
    rw [if_neg (by rw [h]; decide), show RM m ||| 0#32 ||| (0#5).setWidth 32 <<< 7 = (regMap m).setWidth 32 by simp [RM]]
    exact (step_of ((ty_T2 h).decr true (regMap reg) (regMap base) (regMap m) rfl) s).trans (exec_t2 h hb hr ho)

/-- A transfer with an immediate offset. -/
theorem step_xi {t : Ty} {reg base : Nat} (hr : regMap reg ≠ 15#4) (hb : regMap base ≠ 15#4) (u : Bool) (i : BitVec 32)
    (hi : i.toNat < if isType1 t then 0x1000 else 0x100) (s : St) :
    step (dataTransfer t u reg base (if isType1 t then i else type2Imm i)) s =
      some (xfer t (regMap reg) (if u then s.r (regMap base) + i else s.r (regMap base) - i) s) := by
  by_cases h : isType1 t = true
  · rw [if_pos h] at hi ⊢
    have e : (i.setWidth 12).setWidth 32 = i := by apply BitVec.eq_of_toNat_eq; simp [BitVec.toNat_setWidth]; omega
    have ho : offs s (.inl (i.setWidth 12)) = some i := by rw [offs, e]
    have hw : transferInst t ||| uBit u ||| (regMap reg).setWidth 32 <<< 12 ||| (regMap base).setWidth 32 <<< 16 ||| (i.setWidth 12).setWidth 32 = dataTransfer t u reg base i := by
      rw [e]; rfl
    exact (step_of ((ty_T1 h).dec u (regMap reg) (regMap base) (i.setWidth 12) hw) s).trans (exec_t1 h hb hr ho)
  · rw [if_neg h] at hi ⊢
    have h : isType1 t = false := by simpa using h
    have e : (i.setWidth 8).setWidth 32 = i := by apply BitVec.eq_of_toNat_eq; simp [BitVec.toNat_setWidth]; omega
    have e' : ((i.setWidth 8).setWidth 12).setWidth 32 = i := by apply BitVec.eq_of_toNat_eq; simp [BitVec.toNat_setWidth]; omega
    have ho : offs s (.inl ((i.setWidth 8).setWidth 12)) = some i := by rw [offs, e']
    have hw : transferInst t ||| uBit u ||| (regMap reg).setWidth 32 <<< 12 ||| (regMap base).setWidth 32 <<< 16 ||| type2Imm ((i.setWidth 8).setWidth 32) = dataTransfer t u reg base (type2Imm i) := by
      rw [e]; rfl
    exact (step_of ((ty_T2 h).dec u (regMap reg) (regMap base) (i.setWidth 8) hw) s).trans (exec_t2 h hb hr ho)

end Verif.A32
