import Verif.Loong.Encode
import Verif.Imm.LoongLemmas
import Verif.RISCV.OpsRules
import Verif.Imm.Bits

/-! # Weakest preconditions of LoongArch code (helper lemmas) -/

set_option linter.all false

namespace Verif.LA
open Verif.RV (ROp WOp ShOp LdOp StOp sx32 lo32 bool64 addw subw Fits12 sext12 sext12_32)
open Verif.Imm (bits_lt)

@[simp] theorem x_zero (c : Core) : c.x 0#5 = 0#64 := c.x0
@[simp] theorem x_wr (c : Core) (r v q) : (c.wr r v).x q = if q = r ∧ r ≠ 0#5 then v else c.x q := by unfold Core.wr; exact rfl
@[simp] theorem mem_wr' (c : Core) (r v) : (c.wr r v).mem = c.mem := by unfold Core.wr; exact rfl
@[simp] theorem f_wr' (c : Core) (r v) : (c.wr r v).f = c.f := by unfold Core.wr; exact rfl
@[simp] theorem x_setMem (c : Core) (m q) : (c.setMem m).x q = c.x q := by unfold Core.setMem; exact rfl
@[simp] theorem f_setMem (c : Core) (m) : (c.setMem m).f = c.f := by unfold Core.setMem; exact rfl
@[simp] theorem mem_setMem (c : Core) (m) : (c.setMem m).mem = m := by unfold Core.setMem; exact rfl

theorem Core.ext' {a b : Core} (h1 : a.x = b.x) (h2 : a.f = b.f) (h3 : a.mem = b.mem) : a = b := by
  cases a; cases b; simp_all

/-- Weakest precondition of emitted straight line code. -/
def wp (e : Emit) (c : Core) (Q : Core → Prop) : Prop := ∃ c', run e c = some c' ∧ Q c'

theorem run_append (a b : Emit) (c : Core) : run (a ++ b) c = (run a c).bind (run b) := by
  induction a generalizing c with
  | nil => rfl
  | cons w a ih =>
    simp only [List.cons_append, run]
    cases decode w with
    | none => rfl
    | some i => simp only [Option.bind_some, ih]

theorem wp_append {a b : Emit} {c : Core} {Q : Core → Prop} (h : wp a c fun c' => wp b c' Q) : wp (a ++ b) c Q := by
  obtain ⟨s1, h1, s2, h3, h4⟩ := h
  exact ⟨s2, by rw [run_append, h1]; exact h3, h4⟩

theorem wp_mono {a : Emit} {c : Core} {Q R : Core → Prop} (h : wp a c Q) (hqr : ∀ c', Q c' → R c') : wp a c R := by
  obtain ⟨s1, h1, h2⟩ := h
  exact ⟨s1, h1, hqr _ h2⟩

@[simp] theorem wp_nil (c : Core) (Q : Core → Prop) : wp [] c Q ↔ Q c := by
  constructor
  · rintro ⟨c', h1, h2⟩
    simp only [run, Option.some.injEq] at h1
    subst h1; exact h2
  · exact fun h => ⟨c, rfl, h⟩

@[simp] theorem wp_ite (p : Prop) [Decidable p] (a b : Emit) (c : Core) (Q : Core → Prop) :
    wp (if p then a else b) c Q ↔ if p then wp a c Q else wp b c Q := by split <;> rfl
@[simp] theorem wp_ite_s (p : Prop) [Decidable p] (a b r : Emit) (c : Core) (Q : Core → Prop) :
    wp ((if p then a else b) ++ r) c Q ↔ if p then wp (a ++ r) c Q else wp (b ++ r) c Q := by split <;> rfl
/-- `List.nil_append` as a definitional step makes the kernel unfold the emitted code; use this rule instead. -/
@[simp] theorem wp_nil_append (r : Emit) (c : Core) (Q : Core → Prop) : wp ([] ++ r) c Q ↔ wp r c Q := by rw [List.nil_append]

theorem wp_ins_s {w : BitVec 32} {i : Inst} (h : decode w = some i) (r : Emit) (c : Core) (Q : Core → Prop) :
    wp (ins w ++ r) c Q ↔ wp r (exec i c) Q := by
  unfold wp ins
  simp only [List.cons_append, List.nil_append, run, h, Option.bind_some]
theorem wp_ins {w : BitVec 32} {i : Inst} (h : decode w = some i) (c : Core) (Q : Core → Prop) :
    wp (ins w) c Q ↔ Q (exec i c) := by
  have := wp_ins_s h [] c Q
  rwa [List.append_nil, wp_nil] at this

/-! ## Decoding -/

macro "fbits" "[" ls:Lean.Parser.Tactic.simpLemma,* "]" : tactic =>
  `(tactic| (apply BitVec.eq_of_getLsbD_eq; intro k hk; interval_cases k <;> simp [-BitVec.getLsbD_eq_getElem, -BitVec.setWidth_eq, fld, Verif.Imm.La.fld, $ls,*]))

/-- No opcode of `Verif.Imm.La` and of `dec10`. -/
def ok10 (o : BitVec 10) : Bool :=
  !([0xb#10, 0xe#10, 0xc#10, 0x8#10, 0x9#10, 0xa#10, 0xd#10, 0xf#10, 0xa0#10, 0xa1#10, 0xa2#10, 0xa3#10, 0xa4#10, 0xa5#10, 0xa6#10, 0xa7#10,
    0xa8#10, 0xa9#10, 0xaa#10, 0x3#10].contains o) && o.extractLsb' 3 7 != 0xa#7 && o.extractLsb' 3 7 != 0xb#7

theorem fld7 (w : BitVec 32) : fld w 25 7 = (fld w 22 10).extractLsb' 3 7 := by fbits []

theorem fld_la (w : BitVec 32) (a b) : Verif.Imm.La.fld w a b = fld w a b := rfl

theorem decode_ok10 {w : BitVec 32} (h : ok10 (fld w 22 10) = true) :
    decode w = match dec17 (fld w 15 17) (fld w 0 5) (fld w 5 5) (fld w 10 5) with
      | some i => some i
      | none =>
        match dec16 (fld w 16 16) (fld w 0 5) (fld w 5 5) (fld w 10 6) with
        | some i => some i
        | none => dec22 (fld w 10 22) (fld w 0 5) (fld w 5 5) := by
  simp only [ok10, Bool.and_eq_true, bne_iff_ne, ne_eq, ← fld7, Bool.not_eq_true', List.contains_eq_mem, List.mem_cons,
    List.not_mem_nil, or_false, decide_eq_false_iff_not, not_or] at h
  obtain ⟨⟨⟨h1, h2, h3, h4, h5, h6, h7, h8, h9, h10, h11, h12, h13, h14, h15, h16, h17, h18, h19, h20⟩, g1⟩, g2⟩ := h
  have e1 : Verif.Imm.La.decode w = none := by
    simp only [Verif.Imm.La.decode, fld_la, h1, h2, h3, g1, g2, if_false]
  have e2 : dec10 (fld w 22 10) (fld w 0 5) (fld w 5 5) (fld w 10 12) = none := by
    unfold dec10
    rw [if_neg h4, if_neg h5, if_neg h6, if_neg h7, if_neg h8, if_neg h9, if_neg h10, if_neg h11, if_neg h12, if_neg h13, if_neg h14,
      if_neg h15, if_neg h16, if_neg h17, if_neg h18, if_neg h19, if_neg h20]
  unfold decode
  rw [e1]
  show (match dec10 (fld w 22 10) (fld w 0 5) (fld w 5 5) (fld w 10 12) with | some i => some i | none => _) = _
  rw [e2]
  rfl

section
variable (o : BitVec 17) (o10 : BitVec 10) (o16 : BitVec 16) (o22 : BitVec 22) (d j k : BitVec 5) (n : BitVec 6) (i : BitVec 12)

/-- The 3R format. -/
def w3 : BitVec 32 := o.setWidth 32 <<< 15 ||| d.setWidth 32 ||| j.setWidth 32 <<< 5 ||| k.setWidth 32 <<< 10
/-- The 2RI12 format. -/
def w12 : BitVec 32 := o10.setWidth 32 <<< 22 ||| d.setWidth 32 ||| j.setWidth 32 <<< 5 ||| i.setWidth 32 <<< 10
/-- Shifts with a 6 bit immediate. -/
def w6 : BitVec 32 := o16.setWidth 32 <<< 16 ||| d.setWidth 32 ||| j.setWidth 32 <<< 5 ||| n.setWidth 32 <<< 10
/-- The 2R format. -/
def w2 : BitVec 32 := o22.setWidth 32 <<< 10 ||| d.setWidth 32 ||| j.setWidth 32 <<< 5

theorem w3_22 : fld (w3 o d j k) 22 10 = o.extractLsb' 7 10 := by fbits [w3]
theorem w3_15 : fld (w3 o d j k) 15 17 = o := by fbits [w3]
theorem w3_0 : fld (w3 o d j k) 0 5 = d := by fbits [w3]
theorem w3_5 : fld (w3 o d j k) 5 5 = j := by fbits [w3]
theorem w3_10 : fld (w3 o d j k) 10 5 = k := by fbits [w3]
theorem w12_22 : fld (w12 o10 d j i) 22 10 = o10 := by fbits [w12]
theorem w12_0 : fld (w12 o10 d j i) 0 5 = d := by fbits [w12]
theorem w12_5 : fld (w12 o10 d j i) 5 5 = j := by fbits [w12]
theorem w12_10 : fld (w12 o10 d j i) 10 12 = i := by fbits [w12]
theorem w6_22 : fld (w6 o16 d j n) 22 10 = o16.extractLsb' 6 10 := by fbits [w6]
theorem w6_16 : fld (w6 o16 d j n) 16 16 = o16 := by fbits [w6]
theorem w6_15 : fld (w6 o16 d j n) 15 17 = o16.setWidth 17 <<< 1 ||| (n.extractLsb' 5 1).setWidth 17 := by fbits [w6]
theorem w6_0 : fld (w6 o16 d j n) 0 5 = d := by fbits [w6]
theorem w6_5 : fld (w6 o16 d j n) 5 5 = j := by fbits [w6]
theorem w6_10 : fld (w6 o16 d j n) 10 6 = n := by fbits [w6]
theorem w2_22 : fld (w2 o22 d j) 22 10 = o22.extractLsb' 12 10 := by fbits [w2]
theorem w2_15 : fld (w2 o22 d j) 15 17 = o22.extractLsb' 5 17 := by fbits [w2]
theorem w2_16 : fld (w2 o22 d j) 16 16 = o22.extractLsb' 6 16 := by fbits [w2]
theorem w2_0 : fld (w2 o22 d j) 0 5 = d := by fbits [w2]
theorem w2_5 : fld (w2 o22 d j) 5 5 = j := by fbits [w2]
theorem w2_10 : fld (w2 o22 d j) 10 22 = o22 := by fbits [w2]

theorem dec3 {x : Inst} (h : ok10 (o.extractLsb' 7 10) = true) (hx : dec17 o d j k = some x) : decode (w3 o d j k) = some x := by
  rw [decode_ok10 (by rw [w3_22]; exact h), w3_15, w3_0, w3_5, w3_10, hx]

theorem dec12 {x : Inst} (h : o10 ≠ 0xb#10 ∧ o10 ≠ 0xe#10 ∧ o10 ≠ 0xc#10 ∧ o10.extractLsb' 3 7 ≠ 0xa#7 ∧ o10.extractLsb' 3 7 ≠ 0xb#7)
    (hx : dec10 o10 d j i = some x) : decode (w12 o10 d j i) = some x := by
  have e1 : Verif.Imm.La.decode (w12 o10 d j i) = none := by
    simp only [Verif.Imm.La.decode, fld_la, fld7, w12_22, if_neg h.1, if_neg h.2.1, if_neg h.2.2.1, if_neg h.2.2.2.1, if_neg h.2.2.2.2]
  unfold decode
  rw [e1]
  show (match dec10 (fld (w12 o10 d j i) 22 10) (fld (w12 o10 d j i) 0 5) (fld (w12 o10 d j i) 5 5) (fld (w12 o10 d j i) 10 12) with | some i => some i | none => _) = _
  rw [w12_22, w12_0, w12_5, w12_10, hx]

theorem decAddi (h : o10 = 0xb#10) : decode (w12 o10 d j i) = some (.la (.addiD d j i)) := by
  have e1 : Verif.Imm.La.decode (w12 o10 d j i) = some (.addiD d j i) := by
    simp only [Verif.Imm.La.decode, fld_la, w12_22, if_pos h, w12_0, w12_5, w12_10]
  unfold decode
  rw [e1]

theorem dec6 {x : Inst} (h : ok10 (o16.extractLsb' 6 10) = true)
    (h0 : dec17 (o16.setWidth 17 <<< 1) d j (fld (w6 o16 d j n) 10 5) = none)
    (h1 : dec17 (o16.setWidth 17 <<< 1 ||| 1#17) d j (fld (w6 o16 d j n) 10 5) = none)
    (hx : dec16 o16 d j n = some x) : decode (w6 o16 d j n) = some x := by
  rw [decode_ok10 (by rw [w6_22]; exact h), w6_15, w6_0, w6_5, w6_16, w6_10]
  have : n.extractLsb' 5 1 = 0#1 ∨ n.extractLsb' 5 1 = 1#1 := by
    generalize n.extractLsb' 5 1 = t
    revert t; decide
  rcases this with e | e
  · rw [e, show ((0#1).setWidth 17 : BitVec 17) = 0#17 from rfl, BitVec.or_zero, h0]
    simp only [hx]
  · rw [e, show ((1#1).setWidth 17 : BitVec 17) = 1#17 from rfl, h1]
    simp only [hx]

theorem dec2 {x : Inst} (h : ok10 (o22.extractLsb' 12 10) = true) (h0 : dec17 (o22.extractLsb' 5 17) d j (fld (w2 o22 d j) 10 5) = none)
    (h1 : dec16 (o22.extractLsb' 6 16) d j (fld (w2 o22 d j) 10 6) = none) (hx : dec22 o22 d j = some x) : decode (w2 o22 d j) = some x := by
  rw [decode_ok10 (by rw [w2_22]; exact h), w2_15, w2_0, w2_5, w2_16, w2_10, h0]
  simp only [h1, hx]

end

theorem imm12 (i : BitVec 64) : IMM_I12 i = (i.setWidth 12).setWidth 32 <<< 10 := by
  fbits [IMM_I12, Verif.Imm.Loong.IMM_I12]
theorem imm5 {i : BitVec 64} (h : i.toNat < 32) : IMM_I12 i = (i.setWidth 5).setWidth 32 <<< 10 := by
  have hb := fun k (hk : 5 ≤ k) => bits_lt (n := 5) h k hk
  fbits [IMM_I12, Verif.Imm.Loong.IMM_I12, hb]
theorem imm6 {i : BitVec 64} (h : i.toNat < 64) : IMM_I12 i = (i.setWidth 6).setWidth 32 <<< 10 := by
  have hb := fun k (hk : 6 ≤ k) => bits_lt (n := 6) h k hk
  fbits [IMM_I12, Verif.Imm.Loong.IMM_I12, hb]

theorem dec_ADD_W (d a b : Nat) : decode (ADD_W ||| RD d ||| RJ a ||| RK b) = some (.rw3 .add (regMap d) (regMap a) (regMap b)) :=
  dec3 0x20#17 _ _ _ (by decide) (by rfl)
theorem dec_ADD_D (d a b : Nat) : decode (ADD_D ||| RD d ||| RJ a ||| RK b) = some (.rd3 .add (regMap d) (regMap a) (regMap b)) :=
  dec3 0x21#17 _ _ _ (by decide) (by rfl)
theorem dec_SUB_W (d a b : Nat) : decode (SUB_W ||| RD d ||| RJ a ||| RK b) = some (.rw3 .sub (regMap d) (regMap a) (regMap b)) :=
  dec3 0x22#17 _ _ _ (by decide) (by rfl)
theorem dec_SUB_D (d a b : Nat) : decode (SUB_D ||| RD d ||| RJ a ||| RK b) = some (.rd3 .sub (regMap d) (regMap a) (regMap b)) :=
  dec3 0x23#17 _ _ _ (by decide) (by rfl)
theorem dec_SLT (d a b : Nat) : decode (SLT ||| RD d ||| RJ a ||| RK b) = some (.rd3 .slt (regMap d) (regMap a) (regMap b)) :=
  dec3 0x24#17 _ _ _ (by decide) (by rfl)
theorem dec_SLTU (d a b : Nat) : decode (SLTU ||| RD d ||| RJ a ||| RK b) = some (.rd3 .sltu (regMap d) (regMap a) (regMap b)) :=
  dec3 0x25#17 _ _ _ (by decide) (by rfl)
theorem dec_AND (d a b : Nat) : decode (AND ||| RD d ||| RJ a ||| RK b) = some (.rd3 .and (regMap d) (regMap a) (regMap b)) :=
  dec3 0x29#17 _ _ _ (by decide) (by rfl)
theorem dec_OR (d a b : Nat) : decode (OR ||| RD d ||| RJ a ||| RK b) = some (.rd3 .or (regMap d) (regMap a) (regMap b)) :=
  dec3 0x2a#17 _ _ _ (by decide) (by rfl)
theorem dec_XOR (d a b : Nat) : decode (XOR ||| RD d ||| RJ a ||| RK b) = some (.rd3 .xor (regMap d) (regMap a) (regMap b)) :=
  dec3 0x2b#17 _ _ _ (by decide) (by rfl)
theorem dec_SLL_W (d a b : Nat) : decode (SLL_W ||| RD d ||| RJ a ||| RK b) = some (.rw3 .sll (regMap d) (regMap a) (regMap b)) :=
  dec3 0x2e#17 _ _ _ (by decide) (by rfl)
theorem dec_SRL_W (d a b : Nat) : decode (SRL_W ||| RD d ||| RJ a ||| RK b) = some (.rw3 .srl (regMap d) (regMap a) (regMap b)) :=
  dec3 0x2f#17 _ _ _ (by decide) (by rfl)
theorem dec_SRA_W (d a b : Nat) : decode (SRA_W ||| RD d ||| RJ a ||| RK b) = some (.rw3 .sra (regMap d) (regMap a) (regMap b)) :=
  dec3 0x30#17 _ _ _ (by decide) (by rfl)
theorem dec_SLL_D (d a b : Nat) : decode (SLL_D ||| RD d ||| RJ a ||| RK b) = some (.rd3 .sll (regMap d) (regMap a) (regMap b)) :=
  dec3 0x31#17 _ _ _ (by decide) (by rfl)
theorem dec_SRL_D (d a b : Nat) : decode (SRL_D ||| RD d ||| RJ a ||| RK b) = some (.rd3 .srl (regMap d) (regMap a) (regMap b)) :=
  dec3 0x32#17 _ _ _ (by decide) (by rfl)
theorem dec_SRA_D (d a b : Nat) : decode (SRA_D ||| RD d ||| RJ a ||| RK b) = some (.rd3 .sra (regMap d) (regMap a) (regMap b)) :=
  dec3 0x33#17 _ _ _ (by decide) (by rfl)
theorem dec_ROTR_W (d a b : Nat) : decode (ROTR_W ||| RD d ||| RJ a ||| RK b) = some (.rw3 .ror (regMap d) (regMap a) (regMap b)) :=
  dec3 0x36#17 _ _ _ (by decide) (by rfl)
theorem dec_ROTR_D (d a b : Nat) : decode (ROTR_D ||| RD d ||| RJ a ||| RK b) = some (.rd3 .ror (regMap d) (regMap a) (regMap b)) :=
  dec3 0x37#17 _ _ _ (by decide) (by rfl)
theorem dec_MUL_W (d a b : Nat) : decode (MUL_W ||| RD d ||| RJ a ||| RK b) = some (.rw3 .mul (regMap d) (regMap a) (regMap b)) :=
  dec3 0x38#17 _ _ _ (by decide) (by rfl)
theorem dec_MUL_D (d a b : Nat) : decode (MUL_D ||| RD d ||| RJ a ||| RK b) = some (.rd3 .mul (regMap d) (regMap a) (regMap b)) :=
  dec3 0x3b#17 _ _ _ (by decide) (by rfl)
theorem dec_MULH_D (d a b : Nat) : decode (MULH_D ||| RD d ||| RJ a ||| RK b) = some (.rd3 .mulh (regMap d) (regMap a) (regMap b)) :=
  dec3 0x3c#17 _ _ _ (by decide) (by rfl)
theorem dec_MULH_DU (d a b : Nat) : decode (MULH_DU ||| RD d ||| RJ a ||| RK b) = some (.rd3 .mulhu (regMap d) (regMap a) (regMap b)) :=
  dec3 0x3d#17 _ _ _ (by decide) (by rfl)
theorem dec_LDX_B (d a b : Nat) : decode (LDX_B ||| RD d ||| RJ a ||| RK b) = some (.loadx .b (regMap d) (regMap a) (regMap b)) :=
  dec3 0x7000#17 _ _ _ (by decide) (by rfl)
theorem dec_LDX_H (d a b : Nat) : decode (LDX_H ||| RD d ||| RJ a ||| RK b) = some (.loadx .h (regMap d) (regMap a) (regMap b)) :=
  dec3 0x7008#17 _ _ _ (by decide) (by rfl)
theorem dec_LDX_W (d a b : Nat) : decode (LDX_W ||| RD d ||| RJ a ||| RK b) = some (.loadx .w (regMap d) (regMap a) (regMap b)) :=
  dec3 0x7010#17 _ _ _ (by decide) (by rfl)
theorem dec_LDX_D (d a b : Nat) : decode (LDX_D ||| RD d ||| RJ a ||| RK b) = some (.loadx .d (regMap d) (regMap a) (regMap b)) :=
  dec3 0x7018#17 _ _ _ (by decide) (by rfl)
theorem dec_STX_B (d a b : Nat) : decode (STX_B ||| RD d ||| RJ a ||| RK b) = some (.storex .b (regMap d) (regMap a) (regMap b)) :=
  dec3 0x7020#17 _ _ _ (by decide) (by rfl)
theorem dec_STX_H (d a b : Nat) : decode (STX_H ||| RD d ||| RJ a ||| RK b) = some (.storex .h (regMap d) (regMap a) (regMap b)) :=
  dec3 0x7028#17 _ _ _ (by decide) (by rfl)
theorem dec_STX_W (d a b : Nat) : decode (STX_W ||| RD d ||| RJ a ||| RK b) = some (.storex .w (regMap d) (regMap a) (regMap b)) :=
  dec3 0x7030#17 _ _ _ (by decide) (by rfl)
theorem dec_STX_D (d a b : Nat) : decode (STX_D ||| RD d ||| RJ a ||| RK b) = some (.storex .d (regMap d) (regMap a) (regMap b)) :=
  dec3 0x7038#17 _ _ _ (by decide) (by rfl)
theorem dec_LDX_BU (d a b : Nat) : decode (LDX_BU ||| RD d ||| RJ a ||| RK b) = some (.loadx .bu (regMap d) (regMap a) (regMap b)) :=
  dec3 0x7040#17 _ _ _ (by decide) (by rfl)
theorem dec_LDX_HU (d a b : Nat) : decode (LDX_HU ||| RD d ||| RJ a ||| RK b) = some (.loadx .hu (regMap d) (regMap a) (regMap b)) :=
  dec3 0x7048#17 _ _ _ (by decide) (by rfl)
theorem dec_LDX_WU (d a b : Nat) : decode (LDX_WU ||| RD d ||| RJ a ||| RK b) = some (.loadx .wu (regMap d) (regMap a) (regMap b)) :=
  dec3 0x7050#17 _ _ _ (by decide) (by rfl)
theorem dec_SLLI_W (d a : Nat) {i : BitVec 64} (h : i.toNat < 32) : decode (SLLI_W ||| RD d ||| RJ a ||| IMM_I12 i) = some (.shw .sll (regMap d) (regMap a) (i.setWidth 5)) := by
  rw [imm5 h]; exact dec3 0x81#17 _ _ _ (by decide) (by rfl)
theorem dec_SRLI_W (d a : Nat) {i : BitVec 64} (h : i.toNat < 32) : decode (SRLI_W ||| RD d ||| RJ a ||| IMM_I12 i) = some (.shw .srl (regMap d) (regMap a) (i.setWidth 5)) := by
  rw [imm5 h]; exact dec3 0x89#17 _ _ _ (by decide) (by rfl)
theorem dec_SRAI_W (d a : Nat) {i : BitVec 64} (h : i.toNat < 32) : decode (SRAI_W ||| RD d ||| RJ a ||| IMM_I12 i) = some (.shw .sra (regMap d) (regMap a) (i.setWidth 5)) := by
  rw [imm5 h]; exact dec3 0x91#17 _ _ _ (by decide) (by rfl)
theorem dec_ROTRI_W (d a : Nat) {i : BitVec 64} (h : i.toNat < 32) : decode (ROTRI_W ||| RD d ||| RJ a ||| IMM_I12 i) = some (.shw .ror (regMap d) (regMap a) (i.setWidth 5)) := by
  rw [imm5 h]; exact dec3 0x99#17 _ _ _ (by decide) (by rfl)
theorem dec_SLLI_D (d a : Nat) {i : BitVec 64} (h : i.toNat < 64) : decode (SLLI_D ||| RD d ||| RJ a ||| IMM_I12 i) = some (.shd .sll (regMap d) (regMap a) (i.setWidth 6)) := by
  rw [imm6 h]; exact dec6 0x41#16 _ _ _ (by decide) (by rfl) (by rfl) (by rfl)
theorem dec_SRLI_D (d a : Nat) {i : BitVec 64} (h : i.toNat < 64) : decode (SRLI_D ||| RD d ||| RJ a ||| IMM_I12 i) = some (.shd .srl (regMap d) (regMap a) (i.setWidth 6)) := by
  rw [imm6 h]; exact dec6 0x45#16 _ _ _ (by decide) (by rfl) (by rfl) (by rfl)
theorem dec_SRAI_D (d a : Nat) {i : BitVec 64} (h : i.toNat < 64) : decode (SRAI_D ||| RD d ||| RJ a ||| IMM_I12 i) = some (.shd .sra (regMap d) (regMap a) (i.setWidth 6)) := by
  rw [imm6 h]; exact dec6 0x49#16 _ _ _ (by decide) (by rfl) (by rfl) (by rfl)
theorem dec_ROTRI_D (d a : Nat) {i : BitVec 64} (h : i.toNat < 64) : decode (ROTRI_D ||| RD d ||| RJ a ||| IMM_I12 i) = some (.shd .ror (regMap d) (regMap a) (i.setWidth 6)) := by
  rw [imm6 h]; exact dec6 0x4d#16 _ _ _ (by decide) (by rfl) (by rfl) (by rfl)
theorem dec_ADDI_W (d a : Nat) (i : BitVec 64) : decode (ADDI_W ||| RD d ||| RJ a ||| IMM_I12 i) = some (.imm .addiw (regMap d) (regMap a) (i.setWidth 12)) := by
  rw [imm12]; exact dec12 0xa#10 _ _ _ (by decide) (by rfl)
theorem dec_ANDI (d a : Nat) (i : BitVec 64) : decode (ANDI ||| RD d ||| RJ a ||| IMM_I12 i) = some (.imm .andi (regMap d) (regMap a) (i.setWidth 12)) := by
  rw [imm12]; exact dec12 0xd#10 _ _ _ (by decide) (by rfl)
theorem dec_SLTI (d a : Nat) (i : BitVec 64) : decode (SLTI ||| RD d ||| RJ a ||| IMM_I12 i) = some (.imm .slti (regMap d) (regMap a) (i.setWidth 12)) := by
  rw [imm12]; exact dec12 0x8#10 _ _ _ (by decide) (by rfl)
theorem dec_SLTUI (d a : Nat) (i : BitVec 64) : decode (SLTUI ||| RD d ||| RJ a ||| IMM_I12 i) = some (.imm .sltui (regMap d) (regMap a) (i.setWidth 12)) := by
  rw [imm12]; exact dec12 0x9#10 _ _ _ (by decide) (by rfl)
theorem dec_LD_B (d a : Nat) (i : BitVec 64) : decode (LD_B ||| RD d ||| RJ a ||| IMM_I12 i) = some (.load .b (regMap d) (regMap a) (i.setWidth 12)) := by
  rw [imm12]; exact dec12 0xa0#10 _ _ _ (by decide) (by rfl)
theorem dec_LD_H (d a : Nat) (i : BitVec 64) : decode (LD_H ||| RD d ||| RJ a ||| IMM_I12 i) = some (.load .h (regMap d) (regMap a) (i.setWidth 12)) := by
  rw [imm12]; exact dec12 0xa1#10 _ _ _ (by decide) (by rfl)
theorem dec_LD_W (d a : Nat) (i : BitVec 64) : decode (LD_W ||| RD d ||| RJ a ||| IMM_I12 i) = some (.load .w (regMap d) (regMap a) (i.setWidth 12)) := by
  rw [imm12]; exact dec12 0xa2#10 _ _ _ (by decide) (by rfl)
theorem dec_LD_D (d a : Nat) (i : BitVec 64) : decode (LD_D ||| RD d ||| RJ a ||| IMM_I12 i) = some (.load .d (regMap d) (regMap a) (i.setWidth 12)) := by
  rw [imm12]; exact dec12 0xa3#10 _ _ _ (by decide) (by rfl)
theorem dec_ST_B (d a : Nat) (i : BitVec 64) : decode (ST_B ||| RD d ||| RJ a ||| IMM_I12 i) = some (.store .b (regMap d) (regMap a) (i.setWidth 12)) := by
  rw [imm12]; exact dec12 0xa4#10 _ _ _ (by decide) (by rfl)
theorem dec_ST_H (d a : Nat) (i : BitVec 64) : decode (ST_H ||| RD d ||| RJ a ||| IMM_I12 i) = some (.store .h (regMap d) (regMap a) (i.setWidth 12)) := by
  rw [imm12]; exact dec12 0xa5#10 _ _ _ (by decide) (by rfl)
theorem dec_ST_W (d a : Nat) (i : BitVec 64) : decode (ST_W ||| RD d ||| RJ a ||| IMM_I12 i) = some (.store .w (regMap d) (regMap a) (i.setWidth 12)) := by
  rw [imm12]; exact dec12 0xa6#10 _ _ _ (by decide) (by rfl)
theorem dec_ST_D (d a : Nat) (i : BitVec 64) : decode (ST_D ||| RD d ||| RJ a ||| IMM_I12 i) = some (.store .d (regMap d) (regMap a) (i.setWidth 12)) := by
  rw [imm12]; exact dec12 0xa7#10 _ _ _ (by decide) (by rfl)
theorem dec_LD_BU (d a : Nat) (i : BitVec 64) : decode (LD_BU ||| RD d ||| RJ a ||| IMM_I12 i) = some (.load .bu (regMap d) (regMap a) (i.setWidth 12)) := by
  rw [imm12]; exact dec12 0xa8#10 _ _ _ (by decide) (by rfl)
theorem dec_LD_HU (d a : Nat) (i : BitVec 64) : decode (LD_HU ||| RD d ||| RJ a ||| IMM_I12 i) = some (.load .hu (regMap d) (regMap a) (i.setWidth 12)) := by
  rw [imm12]; exact dec12 0xa9#10 _ _ _ (by decide) (by rfl)
theorem dec_LD_WU (d a : Nat) (i : BitVec 64) : decode (LD_WU ||| RD d ||| RJ a ||| IMM_I12 i) = some (.load .wu (regMap d) (regMap a) (i.setWidth 12)) := by
  rw [imm12]; exact dec12 0xaa#10 _ _ _ (by decide) (by rfl)
theorem dec_ADDI_D (d a : Nat) (i : BitVec 64) : decode (ADDI_D ||| RD d ||| RJ a ||| IMM_I12 i) = some (.la (.addiD (regMap d) (regMap a) (i.setWidth 12))) := by
  rw [imm12]; exact decAddi 0xb#10 _ _ _ rfl
theorem dec_CLZ_W (d a : Nat) : decode (CLZ_W ||| RD d ||| RJ a) = some (.un .clzw (regMap d) (regMap a)) :=
  dec2 0x5#22 _ _ (by decide) (by rfl) (by rfl) (by rfl)
theorem dec_CTZ_W (d a : Nat) : decode (CTZ_W ||| RD d ||| RJ a) = some (.un .ctzw (regMap d) (regMap a)) :=
  dec2 0x7#22 _ _ (by decide) (by rfl) (by rfl) (by rfl)
theorem dec_CLZ_D (d a : Nat) : decode (CLZ_D ||| RD d ||| RJ a) = some (.un .clzd (regMap d) (regMap a)) :=
  dec2 0x9#22 _ _ (by decide) (by rfl) (by rfl) (by rfl)
theorem dec_CTZ_D (d a : Nat) : decode (CTZ_D ||| RD d ||| RJ a) = some (.un .ctzd (regMap d) (regMap a)) :=
  dec2 0xb#22 _ _ (by decide) (by rfl) (by rfl) (by rfl)
theorem dec_REVB_2H (d a : Nat) : decode (REVB_2H ||| RD d ||| RJ a) = some (.un .revb2h (regMap d) (regMap a)) :=
  dec2 0xc#22 _ _ (by decide) (by rfl) (by rfl) (by rfl)
theorem dec_REVB_2W (d a : Nat) : decode (REVB_2W ||| RD d ||| RJ a) = some (.un .revb2w (regMap d) (regMap a)) :=
  dec2 0xe#22 _ _ (by decide) (by rfl) (by rfl) (by rfl)
theorem dec_REVB_D (d a : Nat) : decode (REVB_D ||| RD d ||| RJ a) = some (.un .revbd (regMap d) (regMap a)) :=
  dec2 0xf#22 _ _ (by decide) (by rfl) (by rfl) (by rfl)
theorem dec_EXT_W_H (d a : Nat) : decode (EXT_W_H ||| RD d ||| RJ a) = some (.un .extwh (regMap d) (regMap a)) :=
  dec2 0x16#22 _ _ (by decide) (by rfl) (by rfl) (by rfl)
theorem dec_EXT_W_B (d a : Nat) : decode (EXT_W_B ||| RD d ||| RJ a) = some (.un .extwb (regMap d) (regMap a)) :=
  dec2 0x17#22 _ _ (by decide) (by rfl) (by rfl) (by rfl)
theorem dec_BSTRPICK_D15 (d a : Nat) : decode (BSTRPICK_D ||| RD d ||| RJ a ||| 15#32 <<< 16) = some (.pickd (regMap d) (regMap a) 15#6 0#6) :=
  dec12 0x3#10 _ _ 0x3c0#12 (by decide) (by rfl)
theorem dec_BSTRPICK_D31 (d a : Nat) : decode (BSTRPICK_D ||| RD d ||| RJ a ||| 31#32 <<< 16) = some (.pickd (regMap d) (regMap a) 31#6 0#6) :=
  dec12 0x3#10 _ _ 0x7c0#12 (by decide) (by rfl)
theorem dec_BSTRPICK_W (d a : Nat) : decode (BSTRPICK_W ||| RD d ||| RJ a ||| 15#32 <<< 16) = some (.pickw (regMap d) (regMap a) 15#5 0#5) := by
  have e : BSTRPICK_W ||| RD d ||| RJ a ||| 15#32 <<< 16 = w2 0x1be0#22 (regMap d) (regMap a) := by
    have : (0x1be0#22).setWidth 32 <<< 10 = BSTRPICK_W ||| 15#32 <<< 16 := by decide
    show _ = (0x1be0#22).setWidth 32 <<< 10 ||| RD d ||| RJ a
    rw [this]
    generalize RD d = x
    generalize RJ a = y
    generalize BSTRPICK_W = z
    generalize 15#32 <<< 16 = t
    ac_rfl
  rw [e]
  exact dec2 (0x1be0#22) (regMap d) (regMap a) (by decide) (by rfl) (by rfl) (by rfl)

/-! ## Rules -/

@[simp] theorem wp_ADD_W_s (d a b : Nat) (r : Emit) (c : Core) (Q : Core → Prop) : wp (ins (ADD_W ||| RD d ||| RJ a ||| RK b) ++ r) c Q ↔ wp r (c.wr (regMap d) (sx32 (WOp.eval32 .add (lo32 (c.x (regMap a))) (lo32 (c.x (regMap b)))))) Q := wp_ins_s (dec_ADD_W d a b) r c Q
@[simp] theorem wp_ADD_W (d a b : Nat) (c : Core) (Q : Core → Prop) : wp (ins (ADD_W ||| RD d ||| RJ a ||| RK b)) c Q ↔ Q (c.wr (regMap d) (sx32 (WOp.eval32 .add (lo32 (c.x (regMap a))) (lo32 (c.x (regMap b)))))) := wp_ins (dec_ADD_W d a b) c Q
@[simp] theorem wp_ADD_D_s (d a b : Nat) (r : Emit) (c : Core) (Q : Core → Prop) : wp (ins (ADD_D ||| RD d ||| RJ a ||| RK b) ++ r) c Q ↔ wp r (c.wr (regMap d) (ROp.eval .add (c.x (regMap a)) (c.x (regMap b)))) Q := wp_ins_s (dec_ADD_D d a b) r c Q
@[simp] theorem wp_ADD_D (d a b : Nat) (c : Core) (Q : Core → Prop) : wp (ins (ADD_D ||| RD d ||| RJ a ||| RK b)) c Q ↔ Q (c.wr (regMap d) (ROp.eval .add (c.x (regMap a)) (c.x (regMap b)))) := wp_ins (dec_ADD_D d a b) c Q
@[simp] theorem wp_SUB_W_s (d a b : Nat) (r : Emit) (c : Core) (Q : Core → Prop) : wp (ins (SUB_W ||| RD d ||| RJ a ||| RK b) ++ r) c Q ↔ wp r (c.wr (regMap d) (sx32 (WOp.eval32 .sub (lo32 (c.x (regMap a))) (lo32 (c.x (regMap b)))))) Q := wp_ins_s (dec_SUB_W d a b) r c Q
@[simp] theorem wp_SUB_W (d a b : Nat) (c : Core) (Q : Core → Prop) : wp (ins (SUB_W ||| RD d ||| RJ a ||| RK b)) c Q ↔ Q (c.wr (regMap d) (sx32 (WOp.eval32 .sub (lo32 (c.x (regMap a))) (lo32 (c.x (regMap b)))))) := wp_ins (dec_SUB_W d a b) c Q
@[simp] theorem wp_SUB_D_s (d a b : Nat) (r : Emit) (c : Core) (Q : Core → Prop) : wp (ins (SUB_D ||| RD d ||| RJ a ||| RK b) ++ r) c Q ↔ wp r (c.wr (regMap d) (ROp.eval .sub (c.x (regMap a)) (c.x (regMap b)))) Q := wp_ins_s (dec_SUB_D d a b) r c Q
@[simp] theorem wp_SUB_D (d a b : Nat) (c : Core) (Q : Core → Prop) : wp (ins (SUB_D ||| RD d ||| RJ a ||| RK b)) c Q ↔ Q (c.wr (regMap d) (ROp.eval .sub (c.x (regMap a)) (c.x (regMap b)))) := wp_ins (dec_SUB_D d a b) c Q
@[simp] theorem wp_SLT_s (d a b : Nat) (r : Emit) (c : Core) (Q : Core → Prop) : wp (ins (SLT ||| RD d ||| RJ a ||| RK b) ++ r) c Q ↔ wp r (c.wr (regMap d) (ROp.eval .slt (c.x (regMap a)) (c.x (regMap b)))) Q := wp_ins_s (dec_SLT d a b) r c Q
@[simp] theorem wp_SLT (d a b : Nat) (c : Core) (Q : Core → Prop) : wp (ins (SLT ||| RD d ||| RJ a ||| RK b)) c Q ↔ Q (c.wr (regMap d) (ROp.eval .slt (c.x (regMap a)) (c.x (regMap b)))) := wp_ins (dec_SLT d a b) c Q
@[simp] theorem wp_SLTU_s (d a b : Nat) (r : Emit) (c : Core) (Q : Core → Prop) : wp (ins (SLTU ||| RD d ||| RJ a ||| RK b) ++ r) c Q ↔ wp r (c.wr (regMap d) (ROp.eval .sltu (c.x (regMap a)) (c.x (regMap b)))) Q := wp_ins_s (dec_SLTU d a b) r c Q
@[simp] theorem wp_SLTU (d a b : Nat) (c : Core) (Q : Core → Prop) : wp (ins (SLTU ||| RD d ||| RJ a ||| RK b)) c Q ↔ Q (c.wr (regMap d) (ROp.eval .sltu (c.x (regMap a)) (c.x (regMap b)))) := wp_ins (dec_SLTU d a b) c Q
@[simp] theorem wp_AND_s (d a b : Nat) (r : Emit) (c : Core) (Q : Core → Prop) : wp (ins (AND ||| RD d ||| RJ a ||| RK b) ++ r) c Q ↔ wp r (c.wr (regMap d) (ROp.eval .and (c.x (regMap a)) (c.x (regMap b)))) Q := wp_ins_s (dec_AND d a b) r c Q
@[simp] theorem wp_AND (d a b : Nat) (c : Core) (Q : Core → Prop) : wp (ins (AND ||| RD d ||| RJ a ||| RK b)) c Q ↔ Q (c.wr (regMap d) (ROp.eval .and (c.x (regMap a)) (c.x (regMap b)))) := wp_ins (dec_AND d a b) c Q
@[simp] theorem wp_OR_s (d a b : Nat) (r : Emit) (c : Core) (Q : Core → Prop) : wp (ins (OR ||| RD d ||| RJ a ||| RK b) ++ r) c Q ↔ wp r (c.wr (regMap d) (ROp.eval .or (c.x (regMap a)) (c.x (regMap b)))) Q := wp_ins_s (dec_OR d a b) r c Q
@[simp] theorem wp_OR (d a b : Nat) (c : Core) (Q : Core → Prop) : wp (ins (OR ||| RD d ||| RJ a ||| RK b)) c Q ↔ Q (c.wr (regMap d) (ROp.eval .or (c.x (regMap a)) (c.x (regMap b)))) := wp_ins (dec_OR d a b) c Q
@[simp] theorem wp_XOR_s (d a b : Nat) (r : Emit) (c : Core) (Q : Core → Prop) : wp (ins (XOR ||| RD d ||| RJ a ||| RK b) ++ r) c Q ↔ wp r (c.wr (regMap d) (ROp.eval .xor (c.x (regMap a)) (c.x (regMap b)))) Q := wp_ins_s (dec_XOR d a b) r c Q
@[simp] theorem wp_XOR (d a b : Nat) (c : Core) (Q : Core → Prop) : wp (ins (XOR ||| RD d ||| RJ a ||| RK b)) c Q ↔ Q (c.wr (regMap d) (ROp.eval .xor (c.x (regMap a)) (c.x (regMap b)))) := wp_ins (dec_XOR d a b) c Q
@[simp] theorem wp_SLL_W_s (d a b : Nat) (r : Emit) (c : Core) (Q : Core → Prop) : wp (ins (SLL_W ||| RD d ||| RJ a ||| RK b) ++ r) c Q ↔ wp r (c.wr (regMap d) (sx32 (WOp.eval32 .sll (lo32 (c.x (regMap a))) (lo32 (c.x (regMap b)))))) Q := wp_ins_s (dec_SLL_W d a b) r c Q
@[simp] theorem wp_SLL_W (d a b : Nat) (c : Core) (Q : Core → Prop) : wp (ins (SLL_W ||| RD d ||| RJ a ||| RK b)) c Q ↔ Q (c.wr (regMap d) (sx32 (WOp.eval32 .sll (lo32 (c.x (regMap a))) (lo32 (c.x (regMap b)))))) := wp_ins (dec_SLL_W d a b) c Q
@[simp] theorem wp_SRL_W_s (d a b : Nat) (r : Emit) (c : Core) (Q : Core → Prop) : wp (ins (SRL_W ||| RD d ||| RJ a ||| RK b) ++ r) c Q ↔ wp r (c.wr (regMap d) (sx32 (WOp.eval32 .srl (lo32 (c.x (regMap a))) (lo32 (c.x (regMap b)))))) Q := wp_ins_s (dec_SRL_W d a b) r c Q
@[simp] theorem wp_SRL_W (d a b : Nat) (c : Core) (Q : Core → Prop) : wp (ins (SRL_W ||| RD d ||| RJ a ||| RK b)) c Q ↔ Q (c.wr (regMap d) (sx32 (WOp.eval32 .srl (lo32 (c.x (regMap a))) (lo32 (c.x (regMap b)))))) := wp_ins (dec_SRL_W d a b) c Q
@[simp] theorem wp_SRA_W_s (d a b : Nat) (r : Emit) (c : Core) (Q : Core → Prop) : wp (ins (SRA_W ||| RD d ||| RJ a ||| RK b) ++ r) c Q ↔ wp r (c.wr (regMap d) (sx32 (WOp.eval32 .sra (lo32 (c.x (regMap a))) (lo32 (c.x (regMap b)))))) Q := wp_ins_s (dec_SRA_W d a b) r c Q
@[simp] theorem wp_SRA_W (d a b : Nat) (c : Core) (Q : Core → Prop) : wp (ins (SRA_W ||| RD d ||| RJ a ||| RK b)) c Q ↔ Q (c.wr (regMap d) (sx32 (WOp.eval32 .sra (lo32 (c.x (regMap a))) (lo32 (c.x (regMap b)))))) := wp_ins (dec_SRA_W d a b) c Q
@[simp] theorem wp_SLL_D_s (d a b : Nat) (r : Emit) (c : Core) (Q : Core → Prop) : wp (ins (SLL_D ||| RD d ||| RJ a ||| RK b) ++ r) c Q ↔ wp r (c.wr (regMap d) (ROp.eval .sll (c.x (regMap a)) (c.x (regMap b)))) Q := wp_ins_s (dec_SLL_D d a b) r c Q
@[simp] theorem wp_SLL_D (d a b : Nat) (c : Core) (Q : Core → Prop) : wp (ins (SLL_D ||| RD d ||| RJ a ||| RK b)) c Q ↔ Q (c.wr (regMap d) (ROp.eval .sll (c.x (regMap a)) (c.x (regMap b)))) := wp_ins (dec_SLL_D d a b) c Q
@[simp] theorem wp_SRL_D_s (d a b : Nat) (r : Emit) (c : Core) (Q : Core → Prop) : wp (ins (SRL_D ||| RD d ||| RJ a ||| RK b) ++ r) c Q ↔ wp r (c.wr (regMap d) (ROp.eval .srl (c.x (regMap a)) (c.x (regMap b)))) Q := wp_ins_s (dec_SRL_D d a b) r c Q
@[simp] theorem wp_SRL_D (d a b : Nat) (c : Core) (Q : Core → Prop) : wp (ins (SRL_D ||| RD d ||| RJ a ||| RK b)) c Q ↔ Q (c.wr (regMap d) (ROp.eval .srl (c.x (regMap a)) (c.x (regMap b)))) := wp_ins (dec_SRL_D d a b) c Q
@[simp] theorem wp_SRA_D_s (d a b : Nat) (r : Emit) (c : Core) (Q : Core → Prop) : wp (ins (SRA_D ||| RD d ||| RJ a ||| RK b) ++ r) c Q ↔ wp r (c.wr (regMap d) (ROp.eval .sra (c.x (regMap a)) (c.x (regMap b)))) Q := wp_ins_s (dec_SRA_D d a b) r c Q
@[simp] theorem wp_SRA_D (d a b : Nat) (c : Core) (Q : Core → Prop) : wp (ins (SRA_D ||| RD d ||| RJ a ||| RK b)) c Q ↔ Q (c.wr (regMap d) (ROp.eval .sra (c.x (regMap a)) (c.x (regMap b)))) := wp_ins (dec_SRA_D d a b) c Q
@[simp] theorem wp_ROTR_W_s (d a b : Nat) (r : Emit) (c : Core) (Q : Core → Prop) : wp (ins (ROTR_W ||| RD d ||| RJ a ||| RK b) ++ r) c Q ↔ wp r (c.wr (regMap d) (sx32 (WOp.eval32 .ror (lo32 (c.x (regMap a))) (lo32 (c.x (regMap b)))))) Q := wp_ins_s (dec_ROTR_W d a b) r c Q
@[simp] theorem wp_ROTR_W (d a b : Nat) (c : Core) (Q : Core → Prop) : wp (ins (ROTR_W ||| RD d ||| RJ a ||| RK b)) c Q ↔ Q (c.wr (regMap d) (sx32 (WOp.eval32 .ror (lo32 (c.x (regMap a))) (lo32 (c.x (regMap b)))))) := wp_ins (dec_ROTR_W d a b) c Q
@[simp] theorem wp_ROTR_D_s (d a b : Nat) (r : Emit) (c : Core) (Q : Core → Prop) : wp (ins (ROTR_D ||| RD d ||| RJ a ||| RK b) ++ r) c Q ↔ wp r (c.wr (regMap d) (ROp.eval .ror (c.x (regMap a)) (c.x (regMap b)))) Q := wp_ins_s (dec_ROTR_D d a b) r c Q
@[simp] theorem wp_ROTR_D (d a b : Nat) (c : Core) (Q : Core → Prop) : wp (ins (ROTR_D ||| RD d ||| RJ a ||| RK b)) c Q ↔ Q (c.wr (regMap d) (ROp.eval .ror (c.x (regMap a)) (c.x (regMap b)))) := wp_ins (dec_ROTR_D d a b) c Q
@[simp] theorem wp_MUL_W_s (d a b : Nat) (r : Emit) (c : Core) (Q : Core → Prop) : wp (ins (MUL_W ||| RD d ||| RJ a ||| RK b) ++ r) c Q ↔ wp r (c.wr (regMap d) (sx32 (WOp.eval32 .mul (lo32 (c.x (regMap a))) (lo32 (c.x (regMap b)))))) Q := wp_ins_s (dec_MUL_W d a b) r c Q
@[simp] theorem wp_MUL_W (d a b : Nat) (c : Core) (Q : Core → Prop) : wp (ins (MUL_W ||| RD d ||| RJ a ||| RK b)) c Q ↔ Q (c.wr (regMap d) (sx32 (WOp.eval32 .mul (lo32 (c.x (regMap a))) (lo32 (c.x (regMap b)))))) := wp_ins (dec_MUL_W d a b) c Q
@[simp] theorem wp_MUL_D_s (d a b : Nat) (r : Emit) (c : Core) (Q : Core → Prop) : wp (ins (MUL_D ||| RD d ||| RJ a ||| RK b) ++ r) c Q ↔ wp r (c.wr (regMap d) (ROp.eval .mul (c.x (regMap a)) (c.x (regMap b)))) Q := wp_ins_s (dec_MUL_D d a b) r c Q
@[simp] theorem wp_MUL_D (d a b : Nat) (c : Core) (Q : Core → Prop) : wp (ins (MUL_D ||| RD d ||| RJ a ||| RK b)) c Q ↔ Q (c.wr (regMap d) (ROp.eval .mul (c.x (regMap a)) (c.x (regMap b)))) := wp_ins (dec_MUL_D d a b) c Q
@[simp] theorem wp_MULH_D_s (d a b : Nat) (r : Emit) (c : Core) (Q : Core → Prop) : wp (ins (MULH_D ||| RD d ||| RJ a ||| RK b) ++ r) c Q ↔ wp r (c.wr (regMap d) (ROp.eval .mulh (c.x (regMap a)) (c.x (regMap b)))) Q := wp_ins_s (dec_MULH_D d a b) r c Q
@[simp] theorem wp_MULH_D (d a b : Nat) (c : Core) (Q : Core → Prop) : wp (ins (MULH_D ||| RD d ||| RJ a ||| RK b)) c Q ↔ Q (c.wr (regMap d) (ROp.eval .mulh (c.x (regMap a)) (c.x (regMap b)))) := wp_ins (dec_MULH_D d a b) c Q
@[simp] theorem wp_MULH_DU_s (d a b : Nat) (r : Emit) (c : Core) (Q : Core → Prop) : wp (ins (MULH_DU ||| RD d ||| RJ a ||| RK b) ++ r) c Q ↔ wp r (c.wr (regMap d) (ROp.eval .mulhu (c.x (regMap a)) (c.x (regMap b)))) Q := wp_ins_s (dec_MULH_DU d a b) r c Q
@[simp] theorem wp_MULH_DU (d a b : Nat) (c : Core) (Q : Core → Prop) : wp (ins (MULH_DU ||| RD d ||| RJ a ||| RK b)) c Q ↔ Q (c.wr (regMap d) (ROp.eval .mulhu (c.x (regMap a)) (c.x (regMap b)))) := wp_ins (dec_MULH_DU d a b) c Q
@[simp] theorem wp_LDX_B_s (d a b : Nat) (r : Emit) (c : Core) (Q : Core → Prop) : wp (ins (LDX_B ||| RD d ||| RJ a ||| RK b) ++ r) c Q ↔ wp r (c.wr (regMap d) (LdOp.eval .b c.mem (c.x (regMap a) + c.x (regMap b)))) Q := wp_ins_s (dec_LDX_B d a b) r c Q
@[simp] theorem wp_LDX_B (d a b : Nat) (c : Core) (Q : Core → Prop) : wp (ins (LDX_B ||| RD d ||| RJ a ||| RK b)) c Q ↔ Q (c.wr (regMap d) (LdOp.eval .b c.mem (c.x (regMap a) + c.x (regMap b)))) := wp_ins (dec_LDX_B d a b) c Q
@[simp] theorem wp_LDX_H_s (d a b : Nat) (r : Emit) (c : Core) (Q : Core → Prop) : wp (ins (LDX_H ||| RD d ||| RJ a ||| RK b) ++ r) c Q ↔ wp r (c.wr (regMap d) (LdOp.eval .h c.mem (c.x (regMap a) + c.x (regMap b)))) Q := wp_ins_s (dec_LDX_H d a b) r c Q
@[simp] theorem wp_LDX_H (d a b : Nat) (c : Core) (Q : Core → Prop) : wp (ins (LDX_H ||| RD d ||| RJ a ||| RK b)) c Q ↔ Q (c.wr (regMap d) (LdOp.eval .h c.mem (c.x (regMap a) + c.x (regMap b)))) := wp_ins (dec_LDX_H d a b) c Q
@[simp] theorem wp_LDX_W_s (d a b : Nat) (r : Emit) (c : Core) (Q : Core → Prop) : wp (ins (LDX_W ||| RD d ||| RJ a ||| RK b) ++ r) c Q ↔ wp r (c.wr (regMap d) (LdOp.eval .w c.mem (c.x (regMap a) + c.x (regMap b)))) Q := wp_ins_s (dec_LDX_W d a b) r c Q
@[simp] theorem wp_LDX_W (d a b : Nat) (c : Core) (Q : Core → Prop) : wp (ins (LDX_W ||| RD d ||| RJ a ||| RK b)) c Q ↔ Q (c.wr (regMap d) (LdOp.eval .w c.mem (c.x (regMap a) + c.x (regMap b)))) := wp_ins (dec_LDX_W d a b) c Q
@[simp] theorem wp_LDX_D_s (d a b : Nat) (r : Emit) (c : Core) (Q : Core → Prop) : wp (ins (LDX_D ||| RD d ||| RJ a ||| RK b) ++ r) c Q ↔ wp r (c.wr (regMap d) (LdOp.eval .d c.mem (c.x (regMap a) + c.x (regMap b)))) Q := wp_ins_s (dec_LDX_D d a b) r c Q
@[simp] theorem wp_LDX_D (d a b : Nat) (c : Core) (Q : Core → Prop) : wp (ins (LDX_D ||| RD d ||| RJ a ||| RK b)) c Q ↔ Q (c.wr (regMap d) (LdOp.eval .d c.mem (c.x (regMap a) + c.x (regMap b)))) := wp_ins (dec_LDX_D d a b) c Q
@[simp] theorem wp_STX_B_s (d a b : Nat) (r : Emit) (c : Core) (Q : Core → Prop) : wp (ins (STX_B ||| RD d ||| RJ a ||| RK b) ++ r) c Q ↔ wp r (c.setMem (StOp.eval .b c.mem (c.x (regMap a) + c.x (regMap b)) (c.x (regMap d)))) Q := wp_ins_s (dec_STX_B d a b) r c Q
@[simp] theorem wp_STX_B (d a b : Nat) (c : Core) (Q : Core → Prop) : wp (ins (STX_B ||| RD d ||| RJ a ||| RK b)) c Q ↔ Q (c.setMem (StOp.eval .b c.mem (c.x (regMap a) + c.x (regMap b)) (c.x (regMap d)))) := wp_ins (dec_STX_B d a b) c Q
@[simp] theorem wp_STX_H_s (d a b : Nat) (r : Emit) (c : Core) (Q : Core → Prop) : wp (ins (STX_H ||| RD d ||| RJ a ||| RK b) ++ r) c Q ↔ wp r (c.setMem (StOp.eval .h c.mem (c.x (regMap a) + c.x (regMap b)) (c.x (regMap d)))) Q := wp_ins_s (dec_STX_H d a b) r c Q
@[simp] theorem wp_STX_H (d a b : Nat) (c : Core) (Q : Core → Prop) : wp (ins (STX_H ||| RD d ||| RJ a ||| RK b)) c Q ↔ Q (c.setMem (StOp.eval .h c.mem (c.x (regMap a) + c.x (regMap b)) (c.x (regMap d)))) := wp_ins (dec_STX_H d a b) c Q
@[simp] theorem wp_STX_W_s (d a b : Nat) (r : Emit) (c : Core) (Q : Core → Prop) : wp (ins (STX_W ||| RD d ||| RJ a ||| RK b) ++ r) c Q ↔ wp r (c.setMem (StOp.eval .w c.mem (c.x (regMap a) + c.x (regMap b)) (c.x (regMap d)))) Q := wp_ins_s (dec_STX_W d a b) r c Q
@[simp] theorem wp_STX_W (d a b : Nat) (c : Core) (Q : Core → Prop) : wp (ins (STX_W ||| RD d ||| RJ a ||| RK b)) c Q ↔ Q (c.setMem (StOp.eval .w c.mem (c.x (regMap a) + c.x (regMap b)) (c.x (regMap d)))) := wp_ins (dec_STX_W d a b) c Q
@[simp] theorem wp_STX_D_s (d a b : Nat) (r : Emit) (c : Core) (Q : Core → Prop) : wp (ins (STX_D ||| RD d ||| RJ a ||| RK b) ++ r) c Q ↔ wp r (c.setMem (StOp.eval .d c.mem (c.x (regMap a) + c.x (regMap b)) (c.x (regMap d)))) Q := wp_ins_s (dec_STX_D d a b) r c Q
@[simp] theorem wp_STX_D (d a b : Nat) (c : Core) (Q : Core → Prop) : wp (ins (STX_D ||| RD d ||| RJ a ||| RK b)) c Q ↔ Q (c.setMem (StOp.eval .d c.mem (c.x (regMap a) + c.x (regMap b)) (c.x (regMap d)))) := wp_ins (dec_STX_D d a b) c Q
@[simp] theorem wp_LDX_BU_s (d a b : Nat) (r : Emit) (c : Core) (Q : Core → Prop) : wp (ins (LDX_BU ||| RD d ||| RJ a ||| RK b) ++ r) c Q ↔ wp r (c.wr (regMap d) (LdOp.eval .bu c.mem (c.x (regMap a) + c.x (regMap b)))) Q := wp_ins_s (dec_LDX_BU d a b) r c Q
@[simp] theorem wp_LDX_BU (d a b : Nat) (c : Core) (Q : Core → Prop) : wp (ins (LDX_BU ||| RD d ||| RJ a ||| RK b)) c Q ↔ Q (c.wr (regMap d) (LdOp.eval .bu c.mem (c.x (regMap a) + c.x (regMap b)))) := wp_ins (dec_LDX_BU d a b) c Q
@[simp] theorem wp_LDX_HU_s (d a b : Nat) (r : Emit) (c : Core) (Q : Core → Prop) : wp (ins (LDX_HU ||| RD d ||| RJ a ||| RK b) ++ r) c Q ↔ wp r (c.wr (regMap d) (LdOp.eval .hu c.mem (c.x (regMap a) + c.x (regMap b)))) Q := wp_ins_s (dec_LDX_HU d a b) r c Q
@[simp] theorem wp_LDX_HU (d a b : Nat) (c : Core) (Q : Core → Prop) : wp (ins (LDX_HU ||| RD d ||| RJ a ||| RK b)) c Q ↔ Q (c.wr (regMap d) (LdOp.eval .hu c.mem (c.x (regMap a) + c.x (regMap b)))) := wp_ins (dec_LDX_HU d a b) c Q
@[simp] theorem wp_LDX_WU_s (d a b : Nat) (r : Emit) (c : Core) (Q : Core → Prop) : wp (ins (LDX_WU ||| RD d ||| RJ a ||| RK b) ++ r) c Q ↔ wp r (c.wr (regMap d) (LdOp.eval .wu c.mem (c.x (regMap a) + c.x (regMap b)))) Q := wp_ins_s (dec_LDX_WU d a b) r c Q
@[simp] theorem wp_LDX_WU (d a b : Nat) (c : Core) (Q : Core → Prop) : wp (ins (LDX_WU ||| RD d ||| RJ a ||| RK b)) c Q ↔ Q (c.wr (regMap d) (LdOp.eval .wu c.mem (c.x (regMap a) + c.x (regMap b)))) := wp_ins (dec_LDX_WU d a b) c Q
@[simp] theorem wp_SLLI_W_s (d a : Nat) {i : BitVec 64} (h : i.toNat < 32) (r : Emit) (c : Core) (Q : Core → Prop) : wp (ins (SLLI_W ||| RD d ||| RJ a ||| IMM_I12 i) ++ r) c Q ↔ wp r (c.wr (regMap d) (sx32 (ShOp.eval32 .sll (lo32 (c.x (regMap a))) i.toNat))) Q := by
  rw [wp_ins_s (dec_SLLI_W d a h), exec, BitVec.toNat_setWidth, Nat.mod_eq_of_lt (show i.toNat < 2 ^ 5 from h)]
@[simp] theorem wp_SLLI_W (d a : Nat) {i : BitVec 64} (h : i.toNat < 32) (c : Core) (Q : Core → Prop) : wp (ins (SLLI_W ||| RD d ||| RJ a ||| IMM_I12 i)) c Q ↔ Q (c.wr (regMap d) (sx32 (ShOp.eval32 .sll (lo32 (c.x (regMap a))) i.toNat))) := by
  rw [wp_ins (dec_SLLI_W d a h), exec, BitVec.toNat_setWidth, Nat.mod_eq_of_lt (show i.toNat < 2 ^ 5 from h)]
@[simp] theorem wp_SRLI_W_s (d a : Nat) {i : BitVec 64} (h : i.toNat < 32) (r : Emit) (c : Core) (Q : Core → Prop) : wp (ins (SRLI_W ||| RD d ||| RJ a ||| IMM_I12 i) ++ r) c Q ↔ wp r (c.wr (regMap d) (sx32 (ShOp.eval32 .srl (lo32 (c.x (regMap a))) i.toNat))) Q := by
  rw [wp_ins_s (dec_SRLI_W d a h), exec, BitVec.toNat_setWidth, Nat.mod_eq_of_lt (show i.toNat < 2 ^ 5 from h)]
@[simp] theorem wp_SRLI_W (d a : Nat) {i : BitVec 64} (h : i.toNat < 32) (c : Core) (Q : Core → Prop) : wp (ins (SRLI_W ||| RD d ||| RJ a ||| IMM_I12 i)) c Q ↔ Q (c.wr (regMap d) (sx32 (ShOp.eval32 .srl (lo32 (c.x (regMap a))) i.toNat))) := by
  rw [wp_ins (dec_SRLI_W d a h), exec, BitVec.toNat_setWidth, Nat.mod_eq_of_lt (show i.toNat < 2 ^ 5 from h)]
@[simp] theorem wp_SRAI_W_s (d a : Nat) {i : BitVec 64} (h : i.toNat < 32) (r : Emit) (c : Core) (Q : Core → Prop) : wp (ins (SRAI_W ||| RD d ||| RJ a ||| IMM_I12 i) ++ r) c Q ↔ wp r (c.wr (regMap d) (sx32 (ShOp.eval32 .sra (lo32 (c.x (regMap a))) i.toNat))) Q := by
  rw [wp_ins_s (dec_SRAI_W d a h), exec, BitVec.toNat_setWidth, Nat.mod_eq_of_lt (show i.toNat < 2 ^ 5 from h)]
@[simp] theorem wp_SRAI_W (d a : Nat) {i : BitVec 64} (h : i.toNat < 32) (c : Core) (Q : Core → Prop) : wp (ins (SRAI_W ||| RD d ||| RJ a ||| IMM_I12 i)) c Q ↔ Q (c.wr (regMap d) (sx32 (ShOp.eval32 .sra (lo32 (c.x (regMap a))) i.toNat))) := by
  rw [wp_ins (dec_SRAI_W d a h), exec, BitVec.toNat_setWidth, Nat.mod_eq_of_lt (show i.toNat < 2 ^ 5 from h)]
@[simp] theorem wp_ROTRI_W_s (d a : Nat) {i : BitVec 64} (h : i.toNat < 32) (r : Emit) (c : Core) (Q : Core → Prop) : wp (ins (ROTRI_W ||| RD d ||| RJ a ||| IMM_I12 i) ++ r) c Q ↔ wp r (c.wr (regMap d) (sx32 (ShOp.eval32 .ror (lo32 (c.x (regMap a))) i.toNat))) Q := by
  rw [wp_ins_s (dec_ROTRI_W d a h), exec, BitVec.toNat_setWidth, Nat.mod_eq_of_lt (show i.toNat < 2 ^ 5 from h)]
@[simp] theorem wp_ROTRI_W (d a : Nat) {i : BitVec 64} (h : i.toNat < 32) (c : Core) (Q : Core → Prop) : wp (ins (ROTRI_W ||| RD d ||| RJ a ||| IMM_I12 i)) c Q ↔ Q (c.wr (regMap d) (sx32 (ShOp.eval32 .ror (lo32 (c.x (regMap a))) i.toNat))) := by
  rw [wp_ins (dec_ROTRI_W d a h), exec, BitVec.toNat_setWidth, Nat.mod_eq_of_lt (show i.toNat < 2 ^ 5 from h)]
@[simp] theorem wp_SLLI_D_s (d a : Nat) {i : BitVec 64} (h : i.toNat < 64) (r : Emit) (c : Core) (Q : Core → Prop) : wp (ins (SLLI_D ||| RD d ||| RJ a ||| IMM_I12 i) ++ r) c Q ↔ wp r (c.wr (regMap d) (ShOp.eval .sll (c.x (regMap a)) i.toNat)) Q := by
  rw [wp_ins_s (dec_SLLI_D d a h), exec, BitVec.toNat_setWidth, Nat.mod_eq_of_lt (show i.toNat < 2 ^ 6 from h)]
@[simp] theorem wp_SLLI_D (d a : Nat) {i : BitVec 64} (h : i.toNat < 64) (c : Core) (Q : Core → Prop) : wp (ins (SLLI_D ||| RD d ||| RJ a ||| IMM_I12 i)) c Q ↔ Q (c.wr (regMap d) (ShOp.eval .sll (c.x (regMap a)) i.toNat)) := by
  rw [wp_ins (dec_SLLI_D d a h), exec, BitVec.toNat_setWidth, Nat.mod_eq_of_lt (show i.toNat < 2 ^ 6 from h)]
@[simp] theorem wp_SRLI_D_s (d a : Nat) {i : BitVec 64} (h : i.toNat < 64) (r : Emit) (c : Core) (Q : Core → Prop) : wp (ins (SRLI_D ||| RD d ||| RJ a ||| IMM_I12 i) ++ r) c Q ↔ wp r (c.wr (regMap d) (ShOp.eval .srl (c.x (regMap a)) i.toNat)) Q := by
  rw [wp_ins_s (dec_SRLI_D d a h), exec, BitVec.toNat_setWidth, Nat.mod_eq_of_lt (show i.toNat < 2 ^ 6 from h)]
@[simp] theorem wp_SRLI_D (d a : Nat) {i : BitVec 64} (h : i.toNat < 64) (c : Core) (Q : Core → Prop) : wp (ins (SRLI_D ||| RD d ||| RJ a ||| IMM_I12 i)) c Q ↔ Q (c.wr (regMap d) (ShOp.eval .srl (c.x (regMap a)) i.toNat)) := by
  rw [wp_ins (dec_SRLI_D d a h), exec, BitVec.toNat_setWidth, Nat.mod_eq_of_lt (show i.toNat < 2 ^ 6 from h)]
@[simp] theorem wp_SRAI_D_s (d a : Nat) {i : BitVec 64} (h : i.toNat < 64) (r : Emit) (c : Core) (Q : Core → Prop) : wp (ins (SRAI_D ||| RD d ||| RJ a ||| IMM_I12 i) ++ r) c Q ↔ wp r (c.wr (regMap d) (ShOp.eval .sra (c.x (regMap a)) i.toNat)) Q := by
  rw [wp_ins_s (dec_SRAI_D d a h), exec, BitVec.toNat_setWidth, Nat.mod_eq_of_lt (show i.toNat < 2 ^ 6 from h)]
@[simp] theorem wp_SRAI_D (d a : Nat) {i : BitVec 64} (h : i.toNat < 64) (c : Core) (Q : Core → Prop) : wp (ins (SRAI_D ||| RD d ||| RJ a ||| IMM_I12 i)) c Q ↔ Q (c.wr (regMap d) (ShOp.eval .sra (c.x (regMap a)) i.toNat)) := by
  rw [wp_ins (dec_SRAI_D d a h), exec, BitVec.toNat_setWidth, Nat.mod_eq_of_lt (show i.toNat < 2 ^ 6 from h)]
@[simp] theorem wp_ROTRI_D_s (d a : Nat) {i : BitVec 64} (h : i.toNat < 64) (r : Emit) (c : Core) (Q : Core → Prop) : wp (ins (ROTRI_D ||| RD d ||| RJ a ||| IMM_I12 i) ++ r) c Q ↔ wp r (c.wr (regMap d) (ShOp.eval .ror (c.x (regMap a)) i.toNat)) Q := by
  rw [wp_ins_s (dec_ROTRI_D d a h), exec, BitVec.toNat_setWidth, Nat.mod_eq_of_lt (show i.toNat < 2 ^ 6 from h)]
@[simp] theorem wp_ROTRI_D (d a : Nat) {i : BitVec 64} (h : i.toNat < 64) (c : Core) (Q : Core → Prop) : wp (ins (ROTRI_D ||| RD d ||| RJ a ||| IMM_I12 i)) c Q ↔ Q (c.wr (regMap d) (ShOp.eval .ror (c.x (regMap a)) i.toNat)) := by
  rw [wp_ins (dec_ROTRI_D d a h), exec, BitVec.toNat_setWidth, Nat.mod_eq_of_lt (show i.toNat < 2 ^ 6 from h)]
@[simp] theorem wp_ADDI_W_s (d a : Nat) (i : BitVec 64) (r : Emit) (c : Core) (Q : Core → Prop) : wp (ins (ADDI_W ||| RD d ||| RJ a ||| IMM_I12 i) ++ r) c Q ↔ wp r (c.wr (regMap d) (IOp.eval .addiw (c.x (regMap a)) (i.setWidth 12))) Q := wp_ins_s (dec_ADDI_W d a i) r c Q
@[simp] theorem wp_ADDI_W (d a : Nat) (i : BitVec 64) (c : Core) (Q : Core → Prop) : wp (ins (ADDI_W ||| RD d ||| RJ a ||| IMM_I12 i)) c Q ↔ Q (c.wr (regMap d) (IOp.eval .addiw (c.x (regMap a)) (i.setWidth 12))) := wp_ins (dec_ADDI_W d a i) c Q
@[simp] theorem wp_ANDI_s (d a : Nat) (i : BitVec 64) (r : Emit) (c : Core) (Q : Core → Prop) : wp (ins (ANDI ||| RD d ||| RJ a ||| IMM_I12 i) ++ r) c Q ↔ wp r (c.wr (regMap d) (IOp.eval .andi (c.x (regMap a)) (i.setWidth 12))) Q := wp_ins_s (dec_ANDI d a i) r c Q
@[simp] theorem wp_ANDI (d a : Nat) (i : BitVec 64) (c : Core) (Q : Core → Prop) : wp (ins (ANDI ||| RD d ||| RJ a ||| IMM_I12 i)) c Q ↔ Q (c.wr (regMap d) (IOp.eval .andi (c.x (regMap a)) (i.setWidth 12))) := wp_ins (dec_ANDI d a i) c Q
@[simp] theorem wp_SLTI_s (d a : Nat) (i : BitVec 64) (r : Emit) (c : Core) (Q : Core → Prop) : wp (ins (SLTI ||| RD d ||| RJ a ||| IMM_I12 i) ++ r) c Q ↔ wp r (c.wr (regMap d) (IOp.eval .slti (c.x (regMap a)) (i.setWidth 12))) Q := wp_ins_s (dec_SLTI d a i) r c Q
@[simp] theorem wp_SLTI (d a : Nat) (i : BitVec 64) (c : Core) (Q : Core → Prop) : wp (ins (SLTI ||| RD d ||| RJ a ||| IMM_I12 i)) c Q ↔ Q (c.wr (regMap d) (IOp.eval .slti (c.x (regMap a)) (i.setWidth 12))) := wp_ins (dec_SLTI d a i) c Q
@[simp] theorem wp_SLTUI_s (d a : Nat) (i : BitVec 64) (r : Emit) (c : Core) (Q : Core → Prop) : wp (ins (SLTUI ||| RD d ||| RJ a ||| IMM_I12 i) ++ r) c Q ↔ wp r (c.wr (regMap d) (IOp.eval .sltui (c.x (regMap a)) (i.setWidth 12))) Q := wp_ins_s (dec_SLTUI d a i) r c Q
@[simp] theorem wp_SLTUI (d a : Nat) (i : BitVec 64) (c : Core) (Q : Core → Prop) : wp (ins (SLTUI ||| RD d ||| RJ a ||| IMM_I12 i)) c Q ↔ Q (c.wr (regMap d) (IOp.eval .sltui (c.x (regMap a)) (i.setWidth 12))) := wp_ins (dec_SLTUI d a i) c Q
@[simp] theorem wp_LD_B_s (d a : Nat) (i : BitVec 64) (r : Emit) (c : Core) (Q : Core → Prop) : wp (ins (LD_B ||| RD d ||| RJ a ||| IMM_I12 i) ++ r) c Q ↔ wp r (c.wr (regMap d) (LdOp.eval .b c.mem (c.x (regMap a) + (i.setWidth 12).signExtend 64))) Q := wp_ins_s (dec_LD_B d a i) r c Q
@[simp] theorem wp_LD_B (d a : Nat) (i : BitVec 64) (c : Core) (Q : Core → Prop) : wp (ins (LD_B ||| RD d ||| RJ a ||| IMM_I12 i)) c Q ↔ Q (c.wr (regMap d) (LdOp.eval .b c.mem (c.x (regMap a) + (i.setWidth 12).signExtend 64))) := wp_ins (dec_LD_B d a i) c Q
@[simp] theorem wp_LD_H_s (d a : Nat) (i : BitVec 64) (r : Emit) (c : Core) (Q : Core → Prop) : wp (ins (LD_H ||| RD d ||| RJ a ||| IMM_I12 i) ++ r) c Q ↔ wp r (c.wr (regMap d) (LdOp.eval .h c.mem (c.x (regMap a) + (i.setWidth 12).signExtend 64))) Q := wp_ins_s (dec_LD_H d a i) r c Q
@[simp] theorem wp_LD_H (d a : Nat) (i : BitVec 64) (c : Core) (Q : Core → Prop) : wp (ins (LD_H ||| RD d ||| RJ a ||| IMM_I12 i)) c Q ↔ Q (c.wr (regMap d) (LdOp.eval .h c.mem (c.x (regMap a) + (i.setWidth 12).signExtend 64))) := wp_ins (dec_LD_H d a i) c Q
@[simp] theorem wp_LD_W_s (d a : Nat) (i : BitVec 64) (r : Emit) (c : Core) (Q : Core → Prop) : wp (ins (LD_W ||| RD d ||| RJ a ||| IMM_I12 i) ++ r) c Q ↔ wp r (c.wr (regMap d) (LdOp.eval .w c.mem (c.x (regMap a) + (i.setWidth 12).signExtend 64))) Q := wp_ins_s (dec_LD_W d a i) r c Q
@[simp] theorem wp_LD_W (d a : Nat) (i : BitVec 64) (c : Core) (Q : Core → Prop) : wp (ins (LD_W ||| RD d ||| RJ a ||| IMM_I12 i)) c Q ↔ Q (c.wr (regMap d) (LdOp.eval .w c.mem (c.x (regMap a) + (i.setWidth 12).signExtend 64))) := wp_ins (dec_LD_W d a i) c Q
@[simp] theorem wp_LD_D_s (d a : Nat) (i : BitVec 64) (r : Emit) (c : Core) (Q : Core → Prop) : wp (ins (LD_D ||| RD d ||| RJ a ||| IMM_I12 i) ++ r) c Q ↔ wp r (c.wr (regMap d) (LdOp.eval .d c.mem (c.x (regMap a) + (i.setWidth 12).signExtend 64))) Q := wp_ins_s (dec_LD_D d a i) r c Q
@[simp] theorem wp_LD_D (d a : Nat) (i : BitVec 64) (c : Core) (Q : Core → Prop) : wp (ins (LD_D ||| RD d ||| RJ a ||| IMM_I12 i)) c Q ↔ Q (c.wr (regMap d) (LdOp.eval .d c.mem (c.x (regMap a) + (i.setWidth 12).signExtend 64))) := wp_ins (dec_LD_D d a i) c Q
@[simp] theorem wp_ST_B_s (d a : Nat) (i : BitVec 64) (r : Emit) (c : Core) (Q : Core → Prop) : wp (ins (ST_B ||| RD d ||| RJ a ||| IMM_I12 i) ++ r) c Q ↔ wp r (c.setMem (StOp.eval .b c.mem (c.x (regMap a) + (i.setWidth 12).signExtend 64) (c.x (regMap d)))) Q := wp_ins_s (dec_ST_B d a i) r c Q
@[simp] theorem wp_ST_B (d a : Nat) (i : BitVec 64) (c : Core) (Q : Core → Prop) : wp (ins (ST_B ||| RD d ||| RJ a ||| IMM_I12 i)) c Q ↔ Q (c.setMem (StOp.eval .b c.mem (c.x (regMap a) + (i.setWidth 12).signExtend 64) (c.x (regMap d)))) := wp_ins (dec_ST_B d a i) c Q
@[simp] theorem wp_ST_H_s (d a : Nat) (i : BitVec 64) (r : Emit) (c : Core) (Q : Core → Prop) : wp (ins (ST_H ||| RD d ||| RJ a ||| IMM_I12 i) ++ r) c Q ↔ wp r (c.setMem (StOp.eval .h c.mem (c.x (regMap a) + (i.setWidth 12).signExtend 64) (c.x (regMap d)))) Q := wp_ins_s (dec_ST_H d a i) r c Q
@[simp] theorem wp_ST_H (d a : Nat) (i : BitVec 64) (c : Core) (Q : Core → Prop) : wp (ins (ST_H ||| RD d ||| RJ a ||| IMM_I12 i)) c Q ↔ Q (c.setMem (StOp.eval .h c.mem (c.x (regMap a) + (i.setWidth 12).signExtend 64) (c.x (regMap d)))) := wp_ins (dec_ST_H d a i) c Q
@[simp] theorem wp_ST_W_s (d a : Nat) (i : BitVec 64) (r : Emit) (c : Core) (Q : Core → Prop) : wp (ins (ST_W ||| RD d ||| RJ a ||| IMM_I12 i) ++ r) c Q ↔ wp r (c.setMem (StOp.eval .w c.mem (c.x (regMap a) + (i.setWidth 12).signExtend 64) (c.x (regMap d)))) Q := wp_ins_s (dec_ST_W d a i) r c Q
@[simp] theorem wp_ST_W (d a : Nat) (i : BitVec 64) (c : Core) (Q : Core → Prop) : wp (ins (ST_W ||| RD d ||| RJ a ||| IMM_I12 i)) c Q ↔ Q (c.setMem (StOp.eval .w c.mem (c.x (regMap a) + (i.setWidth 12).signExtend 64) (c.x (regMap d)))) := wp_ins (dec_ST_W d a i) c Q
@[simp] theorem wp_ST_D_s (d a : Nat) (i : BitVec 64) (r : Emit) (c : Core) (Q : Core → Prop) : wp (ins (ST_D ||| RD d ||| RJ a ||| IMM_I12 i) ++ r) c Q ↔ wp r (c.setMem (StOp.eval .d c.mem (c.x (regMap a) + (i.setWidth 12).signExtend 64) (c.x (regMap d)))) Q := wp_ins_s (dec_ST_D d a i) r c Q
@[simp] theorem wp_ST_D (d a : Nat) (i : BitVec 64) (c : Core) (Q : Core → Prop) : wp (ins (ST_D ||| RD d ||| RJ a ||| IMM_I12 i)) c Q ↔ Q (c.setMem (StOp.eval .d c.mem (c.x (regMap a) + (i.setWidth 12).signExtend 64) (c.x (regMap d)))) := wp_ins (dec_ST_D d a i) c Q
@[simp] theorem wp_LD_BU_s (d a : Nat) (i : BitVec 64) (r : Emit) (c : Core) (Q : Core → Prop) : wp (ins (LD_BU ||| RD d ||| RJ a ||| IMM_I12 i) ++ r) c Q ↔ wp r (c.wr (regMap d) (LdOp.eval .bu c.mem (c.x (regMap a) + (i.setWidth 12).signExtend 64))) Q := wp_ins_s (dec_LD_BU d a i) r c Q
@[simp] theorem wp_LD_BU (d a : Nat) (i : BitVec 64) (c : Core) (Q : Core → Prop) : wp (ins (LD_BU ||| RD d ||| RJ a ||| IMM_I12 i)) c Q ↔ Q (c.wr (regMap d) (LdOp.eval .bu c.mem (c.x (regMap a) + (i.setWidth 12).signExtend 64))) := wp_ins (dec_LD_BU d a i) c Q
@[simp] theorem wp_LD_HU_s (d a : Nat) (i : BitVec 64) (r : Emit) (c : Core) (Q : Core → Prop) : wp (ins (LD_HU ||| RD d ||| RJ a ||| IMM_I12 i) ++ r) c Q ↔ wp r (c.wr (regMap d) (LdOp.eval .hu c.mem (c.x (regMap a) + (i.setWidth 12).signExtend 64))) Q := wp_ins_s (dec_LD_HU d a i) r c Q
@[simp] theorem wp_LD_HU (d a : Nat) (i : BitVec 64) (c : Core) (Q : Core → Prop) : wp (ins (LD_HU ||| RD d ||| RJ a ||| IMM_I12 i)) c Q ↔ Q (c.wr (regMap d) (LdOp.eval .hu c.mem (c.x (regMap a) + (i.setWidth 12).signExtend 64))) := wp_ins (dec_LD_HU d a i) c Q
@[simp] theorem wp_LD_WU_s (d a : Nat) (i : BitVec 64) (r : Emit) (c : Core) (Q : Core → Prop) : wp (ins (LD_WU ||| RD d ||| RJ a ||| IMM_I12 i) ++ r) c Q ↔ wp r (c.wr (regMap d) (LdOp.eval .wu c.mem (c.x (regMap a) + (i.setWidth 12).signExtend 64))) Q := wp_ins_s (dec_LD_WU d a i) r c Q
@[simp] theorem wp_LD_WU (d a : Nat) (i : BitVec 64) (c : Core) (Q : Core → Prop) : wp (ins (LD_WU ||| RD d ||| RJ a ||| IMM_I12 i)) c Q ↔ Q (c.wr (regMap d) (LdOp.eval .wu c.mem (c.x (regMap a) + (i.setWidth 12).signExtend 64))) := wp_ins (dec_LD_WU d a i) c Q
@[simp] theorem wp_CLZ_W_s (d a : Nat) (r : Emit) (c : Core) (Q : Core → Prop) : wp (ins (CLZ_W ||| RD d ||| RJ a) ++ r) c Q ↔ wp r (c.wr (regMap d) (UOp.eval .clzw (c.x (regMap a)))) Q := wp_ins_s (dec_CLZ_W d a) r c Q
@[simp] theorem wp_CLZ_W (d a : Nat) (c : Core) (Q : Core → Prop) : wp (ins (CLZ_W ||| RD d ||| RJ a)) c Q ↔ Q (c.wr (regMap d) (UOp.eval .clzw (c.x (regMap a)))) := wp_ins (dec_CLZ_W d a) c Q
@[simp] theorem wp_CTZ_W_s (d a : Nat) (r : Emit) (c : Core) (Q : Core → Prop) : wp (ins (CTZ_W ||| RD d ||| RJ a) ++ r) c Q ↔ wp r (c.wr (regMap d) (UOp.eval .ctzw (c.x (regMap a)))) Q := wp_ins_s (dec_CTZ_W d a) r c Q
@[simp] theorem wp_CTZ_W (d a : Nat) (c : Core) (Q : Core → Prop) : wp (ins (CTZ_W ||| RD d ||| RJ a)) c Q ↔ Q (c.wr (regMap d) (UOp.eval .ctzw (c.x (regMap a)))) := wp_ins (dec_CTZ_W d a) c Q
@[simp] theorem wp_CLZ_D_s (d a : Nat) (r : Emit) (c : Core) (Q : Core → Prop) : wp (ins (CLZ_D ||| RD d ||| RJ a) ++ r) c Q ↔ wp r (c.wr (regMap d) (UOp.eval .clzd (c.x (regMap a)))) Q := wp_ins_s (dec_CLZ_D d a) r c Q
@[simp] theorem wp_CLZ_D (d a : Nat) (c : Core) (Q : Core → Prop) : wp (ins (CLZ_D ||| RD d ||| RJ a)) c Q ↔ Q (c.wr (regMap d) (UOp.eval .clzd (c.x (regMap a)))) := wp_ins (dec_CLZ_D d a) c Q
@[simp] theorem wp_CTZ_D_s (d a : Nat) (r : Emit) (c : Core) (Q : Core → Prop) : wp (ins (CTZ_D ||| RD d ||| RJ a) ++ r) c Q ↔ wp r (c.wr (regMap d) (UOp.eval .ctzd (c.x (regMap a)))) Q := wp_ins_s (dec_CTZ_D d a) r c Q
@[simp] theorem wp_CTZ_D (d a : Nat) (c : Core) (Q : Core → Prop) : wp (ins (CTZ_D ||| RD d ||| RJ a)) c Q ↔ Q (c.wr (regMap d) (UOp.eval .ctzd (c.x (regMap a)))) := wp_ins (dec_CTZ_D d a) c Q
@[simp] theorem wp_REVB_2H_s (d a : Nat) (r : Emit) (c : Core) (Q : Core → Prop) : wp (ins (REVB_2H ||| RD d ||| RJ a) ++ r) c Q ↔ wp r (c.wr (regMap d) (UOp.eval .revb2h (c.x (regMap a)))) Q := wp_ins_s (dec_REVB_2H d a) r c Q
@[simp] theorem wp_REVB_2H (d a : Nat) (c : Core) (Q : Core → Prop) : wp (ins (REVB_2H ||| RD d ||| RJ a)) c Q ↔ Q (c.wr (regMap d) (UOp.eval .revb2h (c.x (regMap a)))) := wp_ins (dec_REVB_2H d a) c Q
@[simp] theorem wp_REVB_2W_s (d a : Nat) (r : Emit) (c : Core) (Q : Core → Prop) : wp (ins (REVB_2W ||| RD d ||| RJ a) ++ r) c Q ↔ wp r (c.wr (regMap d) (UOp.eval .revb2w (c.x (regMap a)))) Q := wp_ins_s (dec_REVB_2W d a) r c Q
@[simp] theorem wp_REVB_2W (d a : Nat) (c : Core) (Q : Core → Prop) : wp (ins (REVB_2W ||| RD d ||| RJ a)) c Q ↔ Q (c.wr (regMap d) (UOp.eval .revb2w (c.x (regMap a)))) := wp_ins (dec_REVB_2W d a) c Q
@[simp] theorem wp_REVB_D_s (d a : Nat) (r : Emit) (c : Core) (Q : Core → Prop) : wp (ins (REVB_D ||| RD d ||| RJ a) ++ r) c Q ↔ wp r (c.wr (regMap d) (UOp.eval .revbd (c.x (regMap a)))) Q := wp_ins_s (dec_REVB_D d a) r c Q
@[simp] theorem wp_REVB_D (d a : Nat) (c : Core) (Q : Core → Prop) : wp (ins (REVB_D ||| RD d ||| RJ a)) c Q ↔ Q (c.wr (regMap d) (UOp.eval .revbd (c.x (regMap a)))) := wp_ins (dec_REVB_D d a) c Q
@[simp] theorem wp_EXT_W_H_s (d a : Nat) (r : Emit) (c : Core) (Q : Core → Prop) : wp (ins (EXT_W_H ||| RD d ||| RJ a) ++ r) c Q ↔ wp r (c.wr (regMap d) (UOp.eval .extwh (c.x (regMap a)))) Q := wp_ins_s (dec_EXT_W_H d a) r c Q
@[simp] theorem wp_EXT_W_H (d a : Nat) (c : Core) (Q : Core → Prop) : wp (ins (EXT_W_H ||| RD d ||| RJ a)) c Q ↔ Q (c.wr (regMap d) (UOp.eval .extwh (c.x (regMap a)))) := wp_ins (dec_EXT_W_H d a) c Q
@[simp] theorem wp_EXT_W_B_s (d a : Nat) (r : Emit) (c : Core) (Q : Core → Prop) : wp (ins (EXT_W_B ||| RD d ||| RJ a) ++ r) c Q ↔ wp r (c.wr (regMap d) (UOp.eval .extwb (c.x (regMap a)))) Q := wp_ins_s (dec_EXT_W_B d a) r c Q
@[simp] theorem wp_EXT_W_B (d a : Nat) (c : Core) (Q : Core → Prop) : wp (ins (EXT_W_B ||| RD d ||| RJ a)) c Q ↔ Q (c.wr (regMap d) (UOp.eval .extwb (c.x (regMap a)))) := wp_ins (dec_EXT_W_B d a) c Q

theorem get_x (c : Core) (q) : Verif.Imm.La.get c.x q = c.x q := by
  unfold Verif.Imm.La.get
  split
  · next h => rw [h, x_zero]
  · rfl

theorem exec_addiD (c : Core) (d a : Reg) (i : BitVec 12) : exec (.la (.addiD d a i)) c = c.wr d (c.x a + i.signExtend 64) := by
  apply Core.ext'
  · funext q
    simp only [exec, x_wr, Verif.Imm.La.exec]
    rw [Verif.Imm.La.get, Verif.Imm.La.put, get_x]
    by_cases h : q = 0#5
    · subst h
      rw [if_pos rfl, x_zero, if_neg (by rintro ⟨rfl, h⟩; exact h rfl)]
    · rw [if_neg h]
      by_cases g : q = d
      · rw [if_pos g, if_pos ⟨g, g ▸ h⟩]
      · rw [if_neg g, if_neg (fun e => g e.1)]
  · rfl
  · rfl

@[simp] theorem wp_ADDI_D_s (d a : Nat) {i : BitVec 64} (h : Fits12 i) (r : Emit) (c : Core) (Q : Core → Prop) : wp (ins (ADDI_D ||| RD d ||| RJ a ||| IMM_I12 i) ++ r) c Q ↔ wp r (c.wr (regMap d) (c.x (regMap a) + i)) Q := by
  rw [wp_ins_s (dec_ADDI_D d a i), exec_addiD, sext12 h]
@[simp] theorem wp_ADDI_D (d a : Nat) {i : BitVec 64} (h : Fits12 i) (c : Core) (Q : Core → Prop) : wp (ins (ADDI_D ||| RD d ||| RJ a ||| IMM_I12 i)) c Q ↔ Q (c.wr (regMap d) (c.x (regMap a) + i)) := by
  rw [wp_ins (dec_ADDI_D d a i), exec_addiD, sext12 h]

end Verif.LA
