import Verif.RISCV.CmpProof
import Verif.Props.RvSpec
import Verif.Props.C18

/-!
# C28: sljit_emit_cmp (RV64)
-/

namespace Verif.Props.C28
open Verif.RV Verif.Props.Rv

/-- The relations of sljitLir.h:1720-1742, in the order of the condition types. -/
def rel {w : Nat} (type : Nat) (a b : BitVec w) : Prop :=
  match type with
  | 0 => a = b
  | 1 => a ≠ b
  | 2 => a.toNat < b.toNat
  | 3 => a.toNat ≥ b.toNat
  | 4 => a.toNat > b.toNat
  | 5 => a.toNat ≤ b.toNat
  | 6 => a.toInt < b.toInt
  | 7 => a.toInt ≥ b.toInt
  | 8 => a.toInt > b.toInt
  | _ => a.toInt ≤ b.toInt

/-- The operand of a 64 bit comparison. -/
def value64 (s : St) : Opd → BitVec 64
  | .reg r => s.rd (regMap r)
  | .imm v => v
  | .mem b i w => ld64 s.mem (addr s b i w)

/-- The operand of a 32 bit comparison: the lower half of a register or constant, or a 32 bit memory cell. -/
def value32 (s : St) : Opd → BitVec 32
  | .reg r => (s.rd (regMap r)).setWidth 32
  | .imm v => v.setWidth 32
  | .mem b i w => ld32 s.mem (addr s b i w)

/-- The comparison holds. -/
def holds (is32 : Bool) (type : Nat) (s : St) (o1 o2 : Opd) : Prop :=
  if is32 then rel type (value32 s o1) (value32 s o2) else rel type (value64 s o1) (value64 s o2)

/-- Everything but the temporary registers x1, x6 and x7 is the same; this includes the flags. -/
def Same (s s' : St) : Prop :=
  (∀ q, q ≠ 1#5 → q ≠ 6#5 → q ≠ 7#5 → s'.rd q = s.rd q) ∧ s'.mem = s.mem ∧ s'.f = s.f

/-- The 32 bit operand is presented to the branch as a sign extended value.  A memory cell is not, when its upper bit is set. -/
def Signed (s : St) : Opd → Prop
  | .reg r => s.rd (regMap r) = ((s.rd (regMap r)).setWidth 32).signExtend 64
  | .imm v => v = (v.setWidth 32).signExtend 64
  | .mem b i w => (ld32 s.mem (addr s b i w)).msb = false

/-- The 32 bit operand is presented to the branch as a zero extended value. -/
def Unsigned (s : St) : Opd → Prop
  | .reg r => (s.rd (regMap r)).toNat < 2 ^ 32
  | .imm v => v.toNat < 2 ^ 32
  | .mem _ _ _ => True

/-! ## From 64 to 32 bits -/

theorem cmpRel_rel {type : Nat} (a b : BitVec 64) : cmpRel type a b = true ↔ rel type a b := by
  unfold cmpRel rel
  split <;> simp [BitVec.ult, BitVec.slt] <;> omega

theorem rel_sx {type : Nat} (a b : BitVec 32) : rel type (a.signExtend 64) (b.signExtend 64) ↔ rel type a b := by
  have hi : ∀ x : BitVec 32, (x.signExtend 64).toInt = x.toInt := fun x => BitVec.toInt_signExtend_of_le (by decide)
  have e : a.signExtend 64 = b.signExtend 64 ↔ a = b :=
    ⟨fun h => BitVec.eq_of_toInt_eq (by rw [← hi a, ← hi b, h]), fun h => by rw [h]⟩
  have hn : ∀ x : BitVec 32, (x.signExtend 64).toNat = if x.toNat < 2 ^ 31 then x.toNat else x.toNat + (2 ^ 64 - 2 ^ 32) := by
    intro x
    have h1 := BitVec.toInt_eq_toNat_cond (x.signExtend 64)
    have h2 := BitVec.toInt_eq_toNat_cond x
    rw [hi] at h1
    have := x.isLt
    have := (x.signExtend 64).isLt
    split at h1 <;> split at h2 <;> split <;> omega
  have := a.isLt
  have := b.isLt
  have na := hn a
  have nb := hn b
  unfold rel
  split <;> simp only [hi, e, ne_eq, na, nb] <;> split <;> split <;> omega

theorem rel_zx {type : Nat} (a b : BitVec 32) (ht : type < 6) : rel type (a.setWidth 64) (b.setWidth 64) ↔ rel type a b := by
  have hn : ∀ x : BitVec 32, (x.setWidth 64).toNat = x.toNat := fun x => by
    rw [BitVec.toNat_setWidth]; exact Nat.mod_eq_of_lt (by have := x.isLt; omega)
  have e : a.setWidth 64 = b.setWidth 64 ↔ a = b :=
    ⟨fun h => BitVec.eq_of_toNat_eq (by rw [← hn a, ← hn b, h]), fun h => by rw [h]⟩
  interval_cases type <;> simp only [rel, hn, e, ne_eq]

/-- What the branch sees. -/
theorem seen32 (s : St) (o : Opd) :
    (Signed s o → opdVal .int false s.core o = (value32 s o).signExtend 64) ∧
    (Unsigned s o → opdVal .int false s.core o = (value32 s o).setWidth 64) := by
  have z : ∀ v : BitVec 64, v.toNat < 2 ^ 32 → v = (v.setWidth 32).setWidth 64 := by
    intro v h; apply BitVec.eq_of_toNat_eq; simp; omega
  cases o with
  | reg r => exact ⟨fun h => h, fun h => z _ h⟩
  | imm v => exact ⟨fun h => h, fun h => z _ h⟩
  | mem b i w =>
    have : opdVal .int false s.core (.mem b i w) = (ld32 s.mem (addr s b i w)).setWidth 64 := by
      simp only [opdVal, addr_eq]; rfl
    rw [this]
    refine ⟨fun h => ?_, fun _ => rfl⟩
    exact (BitVec.signExtend_eq_setWidth_of_msb_false h).symm

/-- The operand forms for which a 32 bit comparison is right. -/
def Ok32 (type : Nat) (s : St) (o1 o2 : Opd) : Prop :=
  (Signed s o1 ∧ Signed s o2) ∨ (type < 6 ∧ Unsigned s o1 ∧ Unsigned s o2)

/-- **C28** without 32 bit comparisons of an operand in memory against a register or constant (see `c28_false`): the
instructions in front of the jump run, change only temporary registers, and then the branch lets the jump be taken if and
only if the relation holds between the operands as they were before. -/
theorem c28_partial (cfg : Cfg) (type : Nat) (is32 : Bool) (o1 o2 : Opd) (s : St) (h1 : Src o1) (h2 : Src o2)
    (h32 : is32 = true → Ok32 type s o1 o2) :
    ∃ s', run (emitCmp cfg type is32 o1 o2).1 s = some s' ∧ Same s s' ∧
      ((emitCmp cfg type is32 o1 o2).2.skips s' = false ↔ holds is32 type s o1 o2) := by
  obtain ⟨s', e1, e2, e3, e4⟩ := cmpFetch_ok (cfg := cfg) (is32 := is32) (c := s.core) h1.ok h2.ok s rfl
  refine ⟨s', e1, ⟨fun q q1 q6 q7 => e4.1 q (by simp [q1, q6, q7]), e4.2.1, e4.2.2⟩, ?_⟩
  rw [show (emitCmp cfg type is32 o1 o2).2 = cmpBr cfg type (cmpFetch cfg is32 o1 o2).2.1 (cmpFetch cfg is32 o1 o2).2.2 from rfl,
    cmpBr_ok, show s'.rd (regMap (cmpFetch cfg is32 o1 o2).2.1) = _ from e2,
    show s'.rd (regMap (cmpFetch cfg is32 o1 o2).2.2) = _ from e3]
  simp only [Bool.not_eq_false', cmpRel_rel, holds]
  cases is32
  · have : ∀ o, opdVal .word false s.core o = value64 s o := by
      intro o
      cases o with
      | mem b i w => simp only [opdVal, addr_eq]; rfl
      | _ => rfl
    simp [this]
  · simp only [if_true]
    rcases h32 rfl with ⟨q1, q2⟩ | ⟨ht, q1, q2⟩
    · rw [(seen32 s o1).1 q1, (seen32 s o2).1 q2, rel_sx]
    · rw [(seen32 s o1).2 q1, (seen32 s o2).2 q2, rel_zx _ _ ht]

/-- 64 bit comparisons: no condition. -/
theorem c28_word (cfg : Cfg) (type : Nat) (o1 o2 : Opd) (s : St) (h1 : Src o1) (h2 : Src o2) :
    ∃ s', run (emitCmp cfg type false o1 o2).1 s = some s' ∧ Same s s' ∧
      ((emitCmp cfg type false o1 o2).2.skips s' = false ↔ rel type (value64 s o1) (value64 s o2)) :=
  c28_partial cfg type false o1 o2 s h1 h2 (by simp)

/-! ## In a generated program -/

/-- The items of a compare and branch. -/
def items (cfg : Cfg) (type : Nat) (is32 : Bool) (o1 o2 : Opd) (rew : Bool) (t : Tgt) : List Item :=
  (if (emitCmp cfg type is32 o1 o2).1 = [] then [] else [.code (emitCmp cfg type is32 o1 o2).1]) ++
    [.jump ⟨(emitCmp cfg type is32 o1 o2).2, rew, false, t⟩]

/-- **C28** in a program which sljit_generate_code has placed in memory (C18 gives `Placed`): from the first instruction of
the comparison execution arrives at the target when the relation holds, and otherwise at the code emitted next. -/
theorem c28_placed (cfg : Cfg) (type : Nat) (is32 : Bool) (o1 o2 : Opd) (rew : Bool) (t : Tgt) (post : List Item)
    (code : Code) (off : BitVec 64) (laddr : List (BitVec 64)) (a : BitVec 64) (li : Nat) (ca : List (BitVec 64)) (fin : BitVec 64)
    (h1 : Src o1) (h2 : Src o2)
    (hp : Placed code off laddr (items cfg type is32 o1 o2 rew t ++ post) a li ca fin) :
    ∃ next, Placed code off laddr post next li ca fin ∧
      ∀ s : St, s.pc = a → (is32 = true → Ok32 type s o1 o2) →
        ∃ s', Steps code s s' ∧ Same s s' ∧
          (holds is32 type s o1 o2 → s'.pc = tgtOf laddr t) ∧ (¬ holds is32 type s o1 o2 → s'.pc = next) := by
  have key : ∀ b : BitVec 64, Placed code off laddr (.jump ⟨(emitCmp cfg type is32 o1 o2).2, rew, false, t⟩ :: post) b li ca fin →
      CodeAt code a (emitCmp cfg type is32 o1 o2).1 → b = a + BitVec.ofNat 64 (2 * (emitCmp cfg type is32 o1 o2).1.length) →
      ∃ next, Placed code off laddr post next li ca fin ∧
      ∀ s : St, s.pc = a → (is32 = true → Ok32 type s o1 o2) →
        ∃ s', Steps code s s' ∧ Same s s' ∧
          (holds is32 type s o1 o2 → s'.pc = tgtOf laddr t) ∧ (¬ holds is32 type s o1 o2 → s'.pc = next) := by
    rintro b ⟨n, hj, -, hpost⟩ hc hb
    refine ⟨_, hpost, fun s hs h32 => ?_⟩
    obtain ⟨s1, e1, e2, e3⟩ := c28_partial cfg type is32 o1 o2 s h1 h2 h32
    have hpc : s1.pc = b := by rw [run_pc e1, hs, hb]
    obtain ⟨s2, f1, f2, -, f3, f4, f5⟩ := hj s1 hpc
    refine ⟨s2, (steps_of_run (hs ▸ hc) e1).trans f1, ⟨fun q q1 q6 q7 => ?_, f4.trans e2.2.1, f5.trans e2.2.2⟩, fun h => ?_, fun h => ?_⟩
    · rw [f3 q q6 q7 (by simp), e2.1 q q1 q6 q7]
    · rw [f2]; simp only [e3.mpr h, Bool.false_eq_true, if_false]
    · have : (emitCmp cfg type is32 o1 o2).2.skips s1 = true := by
        rw [← Bool.not_eq_false, e3]; exact h
      rw [f2]; simp only [this, if_true, hpc]
  unfold items at hp
  by_cases he : (emitCmp cfg type is32 o1 o2).1 = []
  · rw [if_pos he] at hp
    refine key a hp (by rw [he]; trivial) (by rw [he]; simp)
  · rw [if_neg he] at hp
    exact key _ hp.2 hp.1 rfl

/-- **C28** for a whole program: sljit_generate_code puts the comparison where execution passes from `pre` to `post`. -/
theorem c28_generated (cfg : Cfg) (type : Nat) (is32 : Bool) (o1 o2 : Opd) (rew : Bool) (t : Tgt) (pre post : List Item)
    (base off : BitVec 64) (m0 : HMem) (h1 : Src o1) (h2 : Src o2)
    (hp : Prog.Ok cfg (Prog.labels (pre ++ (items cfg type is32 o1 o2 rew t ++ post))) (pre ++ (items cfg type is32 o1 o2 rew t ++ post)))
    (ht : Prog.Tail (pre ++ (items cfg type is32 o1 o2 rew t ++ post)))
    (hr : Room cfg (pre ++ (items cfg type is32 o1 o2 rew t ++ post)) base off)
    (hend : off = 0#64 ∨ ¬ Prog.endsInLabel (pre ++ (items cfg type is32 o1 o2 rew t ++ post))) :
    ∃ r, generate cfg (pre ++ (items cfg type is32 o1 o2 rew t ++ post)) base off m0 = some r ∧ ∀ code, Loaded code base off r.m r.len →
      ∃ start next ca, Placed code off r.laddr post next (Prog.labels pre) ca (base + off + BitVec.ofNat 64 (2 * r.len)) ∧
        ∀ s : St, s.pc = start → (is32 = true → Ok32 type s o1 o2) →
          ∃ s', Steps code s s' ∧ Same s s' ∧
            (holds is32 type s o1 o2 → s'.pc = tgtOf r.laddr t) ∧ (¬ holds is32 type s o1 o2 → s'.pc = next) := by
  obtain ⟨r, g1, -, -, g4⟩ := generate_spec cfg _ base off m0 hp ht hr hend
  refine ⟨r, g1, fun code hc => ?_⟩
  obtain ⟨a, ca, hpl⟩ := placed_suffix pre (g4 code hc)
  rw [Nat.zero_add] at hpl
  obtain ⟨next, k1, k2⟩ := c28_placed cfg type is32 o1 o2 rew t post code off r.laddr a _ ca _ h1 h2 hpl
  exact ⟨a, next, ca, k1, k2⟩

/-- A loop which compares a memory cell with a large constant meets the hypotheses. -/
example : let is := [.label, .code (w32 NOP)] ++ (items ⟨true, false, false⟩ 2 true (.mem 1 0 8#64) (.imm 0x123456#64) false (.label 0) ++ [.code (w32 NOP)])
    Prog.Ok ⟨true, false, false⟩ (Prog.labels is) is ∧ Prog.Tail is ∧ ¬ Prog.endsInLabel is := by
  have hi : items ⟨true, false, false⟩ 2 true (.mem 1 0 8#64) (.imm 0x123456#64) false (.label 0) =
      [.code (emitCmp ⟨true, false, false⟩ 2 true (.mem 1 0 8#64) (.imm 0x123456#64)).1, .jump ⟨.b32 7#3 TMP_REG1 TMP_REG2, false, false, .label 0⟩] := by
    unfold items
    rw [if_neg (by decide +kernel)]
    rfl
  rw [hi]
  refine ⟨⟨rfl, ⟨by decide +kernel, by decide⟩, ⟨by decide +kernel, by decide⟩, ⟨rfl, by decide, ?_, fun _ => Or.inr ⟨0, rfl⟩⟩, ⟨by decide +kernel, by decide⟩, trivial⟩, ?_, ?_⟩
  · simp [Tgt.Ok, Prog.labels]
  · exact ⟨fun _ => ⟨.code (w32 NOP), by simp, by simp⟩, trivial⟩
  · rintro ⟨i, hi, h⟩
    simp at hi
    subst hi
    rcases h with h | ⟨_, h⟩ <;> cases h

/-! ## Where the claim fails -/

/-- R0 (x10) holds -1 as a 32 bit value; memory at 0x1000 holds the same 32 bit value. -/
def demo : St := ⟨fun r => if r = 10#5 then 0xffffffffffffffff#64 else 0#64, fun _ => 0#64,
  fun a => if a.toNat / 4 = 0x400 then 0xff#8 else 0#8, 0#64⟩

/-- A 32 bit comparison of a register with an equal memory cell does not branch: the cell is loaded with LWU, zero extended,
while the register is sign extended (sljitNativeRISCV_common.c:3467-3470). -/
theorem c28_false : ¬ ∀ (cfg : Cfg) (type : Nat) (o1 o2 : Opd) (s : St), Src o1 → Src o2 → Src32 s o1 → Src32 s o2 →
    ∃ s', run (emitCmp cfg type true o1 o2).1 s = some s' ∧
      ((emitCmp cfg type true o1 o2).2.skips s' = false ↔ holds true type s o1 o2) := by
  intro h
  obtain ⟨s', e1, e2⟩ := h ⟨false, false, false⟩ 0 (.reg 1) (.mem 0 0 0x1000#64) demo (show UserReg 1 by decide)
    (by simp [Src]) (by unfold Src32; decide +kernel) trivial
  have : ((run (emitCmp ⟨false, false, false⟩ 0 true (.reg 1) (.mem 0 0 0x1000#64)).1 demo).map
      fun s => (emitCmp ⟨false, false, false⟩ 0 true (.reg 1) (.mem 0 0 0x1000#64)).2.skips s) = some true := by decide +kernel
  rw [e1, Option.map_some] at this
  rw [Option.some.inj this] at e2
  have hh : holds true 0 demo (.reg 1) (.mem 0 0 0x1000#64) := by
    simp only [holds, rel, if_true]; decide +kernel
  exact absurd (e2.mpr hh) (by decide)

/-- Two memory cells of which one has its upper bit set: the signed 32 bit order is wrong as well (-1 < 0 is not seen). -/
theorem c28_signed_false : ∃ (cfg : Cfg) (o1 o2 : Opd) (s : St), Src o1 ∧ Src o2 ∧ holds true 6 s o1 o2 ∧
    ((run (emitCmp cfg 6 true o1 o2).1 s).map fun s' => (emitCmp cfg 6 true o1 o2).2.skips s') = some true :=
  ⟨⟨false, false, false⟩, .mem 0 0 0x1000#64, .mem 0 0 0x1010#64, demo, by simp [Src], by simp [Src],
    by simp only [holds, rel, if_true]; decide +kernel, by decide +kernel⟩

/-- The hypotheses are met by a comparison of a memory cell with a negative constant. -/
example : ∃ s', run (emitCmp ⟨true, false, false⟩ 8 false (.mem 1 0 0x1008#64) (.imm (-5#64))).1 demo = some s' ∧
    (emitCmp ⟨true, false, false⟩ 8 false (.mem 1 0 0x1008#64) (.imm (-5#64))).2.skips s' = false := by
  obtain ⟨s', h1, -, h2⟩ := c28_word ⟨true, false, false⟩ 8 (.mem 1 0 0x1008#64) (.imm (-5#64)) demo (by simp [Src]) trivial
  refine ⟨s', h1, h2.mpr ?_⟩
  simp only [rel]; decide +kernel

/-- And by 32 bit comparisons, with registers and constants of both signs. -/
example : Ok32 6 demo (.reg 1) (.imm 5#64) ∧ Ok32 9 demo (.imm (-1#64)) (.mem 2 0 8#64) ∧
    Ok32 2 demo (.mem 0 0 0x1000#64) (.mem 0 0 0x1000#64) := by
  refine ⟨Or.inl ⟨?_, ?_⟩, Or.inl ⟨?_, ?_⟩, Or.inr ⟨by decide, trivial, trivial⟩⟩ <;> unfold Signed <;> decide +kernel

end Verif.Props.C28
