import Verif.Loong.Branch
import Verif.RISCV.Api2
import Verif.Loong.EmitOpProof

/-!
# Division on LoongArch64, and sljit_emit_op0

The division instructions (LoongArch Reference Manual, volume 1, 2.2.1.11) have cases whose result is not defined: a divisor of zero, the
overflow of a signed division, and for the 32 bit forms an operand that is not a sign extended 32 bit value.  They do not trap.
Execution is therefore a relation here: an undefined result is any value.
-/

set_option linter.all false

namespace Verif.LA
open Verif.RV (Op0 R0 R1 sx32 lo32 Sx)
open Verif.Imm.Loong (regMap)

/-- div, mod, div.u, mod.u. -/
inductive DOp
  | div | mod | divu | modu
  deriving DecidableEq, Repr

/-- The result where it is defined. -/
def DOp.eval {n : Nat} : DOp → BitVec n → BitVec n → BitVec n
  | .div, a, b => a.sdiv b
  | .mod, a, b => a.srem b
  | .divu, a, b => a / b
  | .modu, a, b => a % b

/-- The result is defined, for operands of `n` bits. -/
def DOp.defd {n : Nat} (o : DOp) (a b : BitVec n) : Prop :=
  b ≠ 0#n ∧ (o = .div ∨ o = .mod → ¬ (a = BitVec.intMin n ∧ b = -1#n))

/-- `v` is a possible result. -/
def DivRes (o : DOp) (w : Bool) (a b v : BitVec 64) : Prop :=
  if w then Sx a → Sx b → o.defd (lo32 a) (lo32 b) → v = sx32 (o.eval (lo32 a) (lo32 b))
  else o.defd a b → v = o.eval a b

/-- Opcodes of the divisions (bits 31..15): operation and 32 bit form. -/
def decDiv (o : BitVec 17) : Option (DOp × Bool) :=
  if o = 0x40#17 then some (.div, true)
  else if o = 0x41#17 then some (.mod, true)
  else if o = 0x42#17 then some (.divu, true)
  else if o = 0x43#17 then some (.modu, true)
  else if o = 0x44#17 then some (.div, false)
  else if o = 0x45#17 then some (.mod, false)
  else if o = 0x46#17 then some (.divu, false)
  else if o = 0x47#17 then some (.modu, false)
  else none

/-- Execution of straight line code with divisions and the barrier dbar 0, which changes nothing a single thread can see. -/
inductive Exec : Emit → Core → Core → Prop
  | nil (c : Core) : Exec [] c c
  | ins {w i ws c c'} : decode w = some i → Exec ws (exec i c) c' → Exec (w :: ws) c c'
  | div {w o b v ws c c'} : decode w = none → decDiv (fld w 15 17) = some (o, b) →
      DivRes o b (c.x (fld w 5 5)) (c.x (fld w 10 5)) v → Exec ws (c.wr (fld w 0 5) v) c' → Exec (w :: ws) c c'
  | dbar {w ws c c'} : w = 0x70e4#32 <<< 15 → Exec ws c c' → Exec (w :: ws) c c'

/-! ## The code -/

/-- Instruction words (sljitNativeLOONGARCH_64.c:144-151, 254, 259). -/
def DIV_W : BitVec 32 := 0x40#32 <<< 15
@[inherit_doc DIV_W] def MOD_W : BitVec 32 := 0x41#32 <<< 15
@[inherit_doc DIV_W] def DIV_WU : BitVec 32 := 0x42#32 <<< 15
@[inherit_doc DIV_W] def MOD_WU : BitVec 32 := 0x43#32 <<< 15
@[inherit_doc DIV_W] def DIV_D : BitVec 32 := 0x44#32 <<< 15
@[inherit_doc DIV_W] def MOD_D : BitVec 32 := 0x45#32 <<< 15
@[inherit_doc DIV_W] def DIV_DU : BitVec 32 := 0x46#32 <<< 15
@[inherit_doc DIV_W] def MOD_DU : BitVec 32 := 0x47#32 <<< 15
@[inherit_doc DIV_W] def DBAR : BitVec 32 := 0x70e4#32 <<< 15
@[inherit_doc DIV_W] def NOP : BitVec 32 := ANDI

/-- sljit_emit_op0 (sljitNativeLOONGARCH_64.c:1910-1951) without SLJIT_BREAKPOINT. -/
def emitOp0 (o : Op0) (is32 : Bool) : Emit :=
  match o with
  | .nop => ins NOP
  | .lmulUw =>
    ins (ADDI_D ||| RD TMP_REG1 ||| RJ R1 ||| IMM_I12 0#64) ++
    (ins (MULH_DU ||| RD R1 ||| RJ R0 ||| RK R1) ++ ins (MUL_D ||| RD R0 ||| RJ R0 ||| RK TMP_REG1))
  | .lmulSw =>
    ins (ADDI_D ||| RD TMP_REG1 ||| RJ R1 ||| IMM_I12 0#64) ++
    (ins (MULH_D ||| RD R1 ||| RJ R0 ||| RK R1) ++ ins (MUL_D ||| RD R0 ||| RJ R0 ||| RK TMP_REG1))
  | .divmodUw =>
    ins (INST ADDI_W ADDI_D is32 ||| RD TMP_REG1 ||| RJ R0 ||| IMM_I12 0#64) ++
    (ins (INST DIV_WU DIV_DU is32 ||| RD R0 ||| RJ R0 ||| RK R1) ++ ins (INST MOD_WU MOD_DU is32 ||| RD R1 ||| RJ TMP_REG1 ||| RK R1))
  | .divmodSw =>
    ins (INST ADDI_W ADDI_D is32 ||| RD TMP_REG1 ||| RJ R0 ||| IMM_I12 0#64) ++
    (ins (INST DIV_W DIV_D is32 ||| RD R0 ||| RJ R0 ||| RK R1) ++ ins (INST MOD_W MOD_D is32 ||| RD R1 ||| RJ TMP_REG1 ||| RK R1))
  | .divUw => ins (INST DIV_WU DIV_DU is32 ||| RD R0 ||| RJ R0 ||| RK R1)
  | .divSw => ins (INST DIV_W DIV_D is32 ||| RD R0 ||| RJ R0 ||| RK R1)
  | .memoryBarrier => ins DBAR
  | .endbr | .skipFrames => []

/-! ## Rules -/

/-- Every possible execution ends in a state satisfying `Q`, and there is one. -/
def wpD (e : Emit) (c : Core) (Q : Core → Prop) : Prop := (∃ c', Exec e c c') ∧ ∀ c', Exec e c c' → Q c'

theorem wpD_nil {c : Core} {Q : Core → Prop} (h : Q c) : wpD [] c Q :=
  ⟨⟨c, .nil c⟩, fun c' h' => by cases h'; exact h⟩

theorem dbar_none : decode DBAR = none := by decide +kernel

theorem wpD_ins {w : BitVec 32} {i : Inst} {r : Emit} {c : Core} {Q : Core → Prop} (hd : decode w = some i) (h : wpD r (exec i c) Q) :
    wpD (ins w ++ r) c Q := by
  obtain ⟨⟨c', h1⟩, h2⟩ := h
  refine ⟨⟨c', .ins hd h1⟩, fun c' h' => ?_⟩
  cases h' with
  | ins hd' h' => rw [hd] at hd'; cases hd'; exact h2 _ h'
  | div hn _ _ _ => rw [hd] at hn; cases hn
  | dbar hw _ => rw [hw] at hd; rw [show decode (0x70e4#32 <<< 15) = none from dbar_none] at hd; cases hd

theorem wpD_div {w : BitVec 32} {o : DOp} {b : Bool} {d j k : Reg} {r : Emit} {c : Core} {Q : Core → Prop} (hn : decode w = none)
    (hd : decDiv (fld w 15 17) = some (o, b)) (h0 : fld w 0 5 = d) (h5 : fld w 5 5 = j) (h10 : fld w 10 5 = k)
    (h : ∀ v, DivRes o b (c.x j) (c.x k) v → wpD r (c.wr d v) Q) : wpD (ins w ++ r) c Q := by
  subst h0 h5 h10
  have hex : ∃ v, DivRes o b (c.x (fld w 5 5)) (c.x (fld w 10 5)) v := by
    unfold DivRes
    split
    · exact ⟨_, fun _ _ _ => rfl⟩
    · exact ⟨_, fun _ => rfl⟩
  obtain ⟨v, hv⟩ := hex
  obtain ⟨⟨c', h1⟩, -⟩ := h v hv
  refine ⟨⟨c', .div hn hd hv h1⟩, fun c' h' => ?_⟩
  cases h' with
  | ins hd' h' => rw [hn] at hd'; cases hd'
  | div _ hd' hv' h' =>
    rw [hd] at hd'
    cases hd'
    exact (h _ hv').2 _ h'
  | dbar hw _ =>
    rw [hw] at hd
    rw [show decDiv (fld (0x70e4#32 <<< 15) 15 17) = none by decide] at hd
    cases hd

/-- A division is no other instruction. -/
theorem dec_div_none {o : BitVec 17} {x : DOp × Bool} (h : decDiv o = some x) (d j k : BitVec 5) : decode (w3 o d j k) = none := by
  have h17 : 0x40 ≤ o.toNat ∧ o.toNat ≤ 0x47 := by
    revert h
    unfold decDiv
    repeat' split
    all_goals first | (next e => intro _; subst e; decide) | (intro h; cases h)
  have h10 : ok10 ((o.extractLsb' 7 10 : BitVec 10)) = true := by
    have : (o.extractLsb' 7 10 : BitVec 10) = 0#10 := by
      apply BitVec.eq_of_toNat_eq
      simp only [BitVec.extractLsb'_toNat, Nat.shiftRight_eq_div_pow, BitVec.toNat_ofNat]
      omega
    rw [this]; decide
  have hw : (w3 o d j k).toNat / 2 ^ 15 = o.toNat := by
    have := congrArg BitVec.toNat (w3_15 o d j k)
    simp only [fld, BitVec.extractLsb'_toNat, Nat.shiftRight_eq_div_pow] at this
    have hlt := (w3 o d j k).isLt
    omega
  rw [decode_ok10 (by rw [w3_22]; exact h10), w3_15]
  have e1 : dec17 o (fld (w3 o d j k) 0 5) (fld (w3 o d j k) 5 5) (fld (w3 o d j k) 10 5) = none := by
    unfold dec17
    repeat (rw [if_neg (by rintro rfl; revert h17; decide)])
  have e2 : dec16 (fld (w3 o d j k) 16 16) (fld (w3 o d j k) 0 5) (fld (w3 o d j k) 5 5) (fld (w3 o d j k) 10 6) = none := by
    have hb : (fld (w3 o d j k) 16 16).toNat < 0x24 := by
      simp only [fld, BitVec.extractLsb'_toNat, Nat.shiftRight_eq_div_pow]
      omega
    generalize fld (w3 o d j k) 16 16 = y at hb
    unfold dec16
    repeat (rw [if_neg (by rintro rfl; revert hb; decide)])
  have e3 : dec22 (fld (w3 o d j k) 10 22) (fld (w3 o d j k) 0 5) (fld (w3 o d j k) 5 5) = none := by
    have hb : 0x800 ≤ (fld (w3 o d j k) 10 22).toNat ∧ (fld (w3 o d j k) 10 22).toNat < 0x1000 := by
      simp only [fld, BitVec.extractLsb'_toNat, Nat.shiftRight_eq_div_pow]
      omega
    generalize fld (w3 o d j k) 10 22 = y at hb
    unfold dec22
    repeat (rw [if_neg (by rintro rfl; revert hb; decide)])
    rw [if_neg]
    rintro ⟨h1, -⟩
    have h2 := congrArg BitVec.toNat h1
    simp only [BitVec.extractLsb'_toNat, Nat.shiftRight_eq_div_pow, BitVec.toNat_ofNat] at h2
    omega
  rw [e1, e2, e3]

/-- A division of the backend. -/
theorem wpD_dv (o : BitVec 17) (op : BitVec 32) (ho : op = o.setWidth 32 <<< 15) {x : DOp × Bool} (hd : decDiv o = some x) (d j k : Nat) {r : Emit}
    {c : Core} {Q : Core → Prop} (h : ∀ v, DivRes x.1 x.2 (c.x (regMap j)) (c.x (regMap k)) v → wpD r (c.wr (regMap d) v) Q) :
    wpD (ins (op ||| RD d ||| RJ j ||| RK k) ++ r) c Q := by
  have hw : op ||| RD d ||| RJ j ||| RK k = w3 o (regMap d) (regMap j) (regMap k) := by rw [ho]; rfl
  rw [hw]
  obtain ⟨x1, x2⟩ := x
  exact wpD_div (dec_div_none hd _ _ _) (by rw [w3_15]; exact hd) (w3_0 ..) (w3_5 ..) (w3_10 ..) h

/-- The division of an operation with its two widths. -/
theorem wpD_dvI {is32 : Bool} (s : DOp) {opw opd : BitVec 32} (ow od : BitVec 17) (hw : opw = ow.setWidth 32 <<< 15) (hd : opd = od.setWidth 32 <<< 15)
    (hw' : decDiv ow = some (s, true)) (hd' : decDiv od = some (s, false)) (d j k : Nat) {r : Emit}
    {c : Core} {Q : Core → Prop} (h : ∀ v, DivRes s is32 (c.x (regMap j)) (c.x (regMap k)) v → wpD r (c.wr (regMap d) v) Q) :
    wpD (ins (INST opw opd is32 ||| RD d ||| RJ j ||| RK k) ++ r) c Q := by
  cases is32
  · exact wpD_dv od opd hd hd' d j k h
  · exact wpD_dv ow opw hw hw' d j k h

/-- Straight line code without divisions. -/
theorem wp.D {e : Emit} {c : Core} {Q : Core → Prop} (h : wp e c Q) : wpD e c Q := by
  obtain ⟨c', h1, h2⟩ := h
  induction e generalizing c with
  | nil => cases h1; exact wpD_nil h2
  | cons w e ih =>
    simp only [run] at h1
    cases hd : decode w with
    | none => rw [hd] at h1; cases h1
    | some i =>
      rw [hd] at h1
      exact wpD_ins hd (ih h1)

theorem wpD_append {a b : Emit} {c c1 : Core} {Q : Core → Prop} (h : run a c = some c1) (h2 : wpD b c1 Q) : wpD (a ++ b) c Q := by
  induction a generalizing c with
  | nil => cases h; exact h2
  | cons w a ih =>
    simp only [run] at h
    cases hd : decode w with
    | none => rw [hd] at h; cases h
    | some i =>
      rw [hd] at h
      exact wpD_ins hd (ih h)

end Verif.LA
