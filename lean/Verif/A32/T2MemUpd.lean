import Mathlib.Tactic.IntervalCases
import Verif.A32.Arch
import Verif.RISCV.Api

/-! # sljit_emit_mem_update on Thumb-2 -/

namespace Verif.A32.T2
open Verif.Imm.A32 (fld)

/-! ## The instructions -/

/-- Loads and stores with write-back (ARM A8.8, encodings T3 and T4 of LDR, STR, LDRB, STRB, LDRH, STRH, LDRSB, LDRSH, immediate): the first halfword is 1111100 S 0 size L
Rn, the second one is Rt 1 P U 1 imm8.  P = 1 is pre-indexed, P = 0 is post-indexed.  PC, a stack pointer as the transferred register and a base which is transferred are
refused. -/
def step (hi lo : BitVec 16) (s : St) : Option St :=
  let w : BitVec 32 := hi ++ lo
  let n := fld w 16 4
  let t := fld w 12 4
  let sz := fld w 21 2
  if fld w 25 7 = 0x7c#7 ∧ w.getLsbD 23 = false ∧ w.getLsbD 11 = true ∧ w.getLsbD 8 = true ∧ sz ≠ 3#2 ∧ (w.getLsbD 24 = true → w.getLsbD 20 = true ∧ sz ≠ 2#2) ∧
      n ≠ 15#4 ∧ t ≠ 15#4 ∧ t ≠ 13#4 ∧ n ≠ t then
    let d := (fld w 0 8).setWidth 32
    let e := if w.getLsbD 9 then s.r n + d else s.r n - d
    let a := if w.getLsbD 10 then e else s.r n
    let k := 2 ^ sz.toNat
    let v := if w.getLsbD 24 then ((rd s.m a k).setWidth (8 * k)).signExtend 32 else rd s.m a k
    some ((if w.getLsbD 20 then s.set t v else { s with m := wr s.m a (s.r t) k }).set n e)
  else none

/-! ## The model -/

/-- reg_map, sljitNativeARM_T2_32.c:48-50. -/
def regMap (r : Nat) : BitVec 4 := [0#4, 0#4, 1#4, 2#4, 3#4, 11#4, 10#4, 9#4, 8#4, 7#4, 6#4, 5#4, 4#4, 13#4, 12#4, 14#4, 15#4].getD r 0#4

/-- sljit_mem32, sljitNativeARM_T2_32.c:1284-1301 (without the preload). -/
def mem32 (flags : Nat) : BitVec 32 :=
  [0xf8500000#32, 0xf8400000#32, 0xf8500000#32, 0xf8400000#32, 0xf8100000#32, 0xf8000000#32, 0xf9100000#32, 0xf8000000#32, 0xf8300000#32, 0xf8200000#32, 0xf9300000#32,
    0xf8200000#32].getD flags 0#32

/-- The flags without STORE (sljitNativeARM_T2_32.c:1222-1227, 3530-3554; the default branch is unreachable). -/
def flagsOf : RV.Op1C → Nat
  | .movU8 => 4
  | .movS8 => 4 + 2
  | .movU16 => 8
  | .movS16 => 8 + 2
  | _ => 0

/-- push_inst32 (sljitNativeARM_T2_32.c:305-313): two halfwords. -/
def pushInst32 (inst : BitVec 32) : List (BitVec 16) := [(inst >>> 16).setWidth 16, inst.setWidth 16]

/-- sljit_emit_mem_update (sljitNativeARM_T2_32.c:3514-3570); `none` is SLJIT_ERR_UNSUPPORTED, `store`, `post` and `supp` are SLJIT_MEM_STORE, SLJIT_MEM_POST and
SLJIT_MEM_SUPP. -/
def emitMemUpdate (o : RV.Op1C) (store post supp : Bool) (r base offs : Nat) (w : BitVec 32) : Option (List (BitVec 16)) :=
  if offs ≠ 0 ∨ 255 < w.toInt ∨ w.toInt < -255 then none
  else if supp then some []
  else
    let flags := if store then flagsOf o + 1 else flagsOf o
    let inst := mem32 flags ||| 0x900#32
    let inst := if post then inst else inst ||| 0x400#32
    let inst := if 0 ≤ w.toInt then inst ||| 0x200#32 else inst
    let a := if 0 ≤ w.toInt then w else -w
    some (pushInst32 (inst ||| ((regMap r).setWidth 32 <<< 12) ||| ((regMap base).setWidth 32 <<< 16) ||| a))

/-! ## The word -/

/-- S and the size of a type. -/
def opS (o : RV.Op1C) (store : Bool) : Bool := !store && (o matches .movS8 | .movS16)
@[inherit_doc opS] def opSz : RV.Op1C → BitVec 2
  | .movU8 | .movS8 => 0#2
  | .movU16 | .movS16 => 1#2
  | _ => 2#2

theorem mem32_eq (o : RV.Op1C) (store : Bool) : mem32 (if store then flagsOf o + 1 else flagsOf o) =
    0xf8000000#32 ||| (BitVec.ofBool (opS o store)).setWidth 32 <<< 24 ||| (opSz o).setWidth 32 <<< 21 ||| (BitVec.ofBool (!store)).setWidth 32 <<< 20 := by
  cases store <;> cases o <;> decide

theorem half_eq (w : BitVec 32) : (((w >>> 16).setWidth 16 ++ w.setWidth 16 : BitVec (16 + 16))) = w := by
  apply BitVec.eq_of_getLsbD_eq
  intro n hn
  rw [BitVec.getLsbD_append]
  interval_cases n <;> simp [-BitVec.getLsbD_eq_getElem]

theorem word_bit (S : Bool) (sz : BitVec 2) (L post u : Bool) (x y : BitVec 4) (b : BitVec 8) {w : BitVec 32}
    (hw : w = (if u then (if post then (0xf8000000#32 ||| (BitVec.ofBool S).setWidth 32 <<< 24 ||| sz.setWidth 32 <<< 21 ||| (BitVec.ofBool L).setWidth 32 <<< 20) ||| 0x900#32
        else (0xf8000000#32 ||| (BitVec.ofBool S).setWidth 32 <<< 24 ||| sz.setWidth 32 <<< 21 ||| (BitVec.ofBool L).setWidth 32 <<< 20) ||| 0x900#32 ||| 0x400#32) ||| 0x200#32
      else (if post then (0xf8000000#32 ||| (BitVec.ofBool S).setWidth 32 <<< 24 ||| sz.setWidth 32 <<< 21 ||| (BitVec.ofBool L).setWidth 32 <<< 20) ||| 0x900#32
        else (0xf8000000#32 ||| (BitVec.ofBool S).setWidth 32 <<< 24 ||| sz.setWidth 32 <<< 21 ||| (BitVec.ofBool L).setWidth 32 <<< 20) ||| 0x900#32 ||| 0x400#32)) |||
      (x.setWidth 32 <<< 12) ||| (y.setWidth 32 <<< 16) ||| b.setWidth 32) (n : Nat) (hn : n < 32) :
    w.getLsbD n = if n < 8 then b.getLsbD n else if n < 9 then true else if n < 10 then u else if n < 11 then !post else if n < 12 then true else if n < 16 then x.getLsbD (n - 12)
      else if n < 20 then y.getLsbD (n - 16) else if n < 21 then L else if n < 23 then sz.getLsbD (n - 21) else if n < 24 then false else if n < 25 then S else decide (27 ≤ n) := by
  subst hw
  cases u <;> cases post <;> interval_cases n <;> simp [-BitVec.getLsbD_eq_getElem]

theorem fld_of {w : BitVec 32} {lo n : Nat} {v : BitVec n} (h : ∀ k, k < n → w.getLsbD (lo + k) = v.getLsbD k) : fld w lo n = v := by
  apply BitVec.eq_of_getLsbD_eq
  intro k hk
  rw [← h k hk]
  simp [-BitVec.getLsbD_eq_getElem, fld, hk]

theorem run {o : RV.Op1C} {store post : Bool} {r base offs : Nat} {w : BitVec 32} (hb : regMap base ≠ 15#4) (hr : regMap r ≠ 15#4) (hr' : regMap r ≠ 13#4)
    (hne : regMap base ≠ regMap r) {ws : List (BitVec 16)} (h : emitMemUpdate o store post false r base offs w = some ws) :
    ∃ hi lo, ws = [hi, lo] ∧ ∀ s, step hi lo s = some (
      let a := if post then s.r (regMap base) else s.r (regMap base) + w
      let k := 2 ^ (opSz o).toNat
      let v := if opS o store then ((rd s.m a k).setWidth (8 * k)).signExtend 32 else rd s.m a k
      (if store then { s with m := wr s.m a (s.r (regMap r)) k } else s.set (regMap r) v).set (regMap base) (s.r (regMap base) + w)) := by
  unfold emitMemUpdate at h
  split at h
  · cases h
  rename_i hx
  rw [if_neg (by decide)] at h
  simp only [Option.some.injEq, mem32_eq] at h
  have hn : w.toInt = if 2 * w.toNat < 2 ^ 32 then (w.toNat : Int) else w.toNat - 2 ^ 32 := BitVec.toInt_eq_toNat_cond w
  have hlt := w.isLt
  have ha : (if 0 ≤ w.toInt then w else -w).toNat < 256 := by
    split
    · split at hn <;> omega
    · rw [BitVec.toNat_neg]
      split at hn <;> omega
  have ev : ∀ s : St, (if decide (0 ≤ w.toInt) = true then s.r (regMap base) + (if 0 ≤ w.toInt then w else -w) else s.r (regMap base) - (if 0 ≤ w.toInt then w else -w)) =
      s.r (regMap base) + w := by
    intro s
    by_cases h0 : 0 ≤ w.toInt
    · simp only [h0, decide_true, if_true]
    · simp only [h0, decide_false, Bool.false_eq_true, if_false]
      rw [BitVec.sub_eq_add_neg, BitVec.neg_neg]
  generalize (if 0 ≤ w.toInt then w else -w) = d at *
  have hd : d = (d.setWidth 8).setWidth 32 := by apply BitVec.eq_of_toNat_eq; simp [BitVec.toNat_setWidth]; omega
  refine ⟨_, _, h.symm, fun s => ?_⟩
  have bb := word_bit (opS o store) (opSz o) (!store) post (decide (0 ≤ w.toInt)) (regMap r) (regMap base) (d.setWidth 8) rfl
  rw [← hd] at bb
  simp only [decide_eq_true_eq] at bb
  generalize ((if 0 ≤ w.toInt then _ else _) ||| _ ||| _ ||| d) = i at bb ⊢
  have e1 : fld i 25 7 = 0x7c#7 := fld_of fun j hj => by rw [bb _ (by omega)]; interval_cases j <;> simp
  have e2 : i.getLsbD 23 = false := by rw [bb _ (by omega)]; simp
  have e3 : i.getLsbD 11 = true := by rw [bb _ (by omega)]; simp
  have e4 : i.getLsbD 8 = true := by rw [bb _ (by omega)]; simp
  have e5 : i.getLsbD 9 = decide (0 ≤ w.toInt) := by rw [bb _ (by omega)]; simp
  have e6 : i.getLsbD 10 = !post := by rw [bb _ (by omega)]; simp
  have e7 : i.getLsbD 20 = !store := by rw [bb _ (by omega)]; simp
  have e8 : i.getLsbD 24 = opS o store := by rw [bb _ (by omega)]; simp
  have e9 : fld i 0 8 = d.setWidth 8 := fld_of fun j hj => by rw [bb _ (by omega)]; interval_cases j <;> simp [-BitVec.getLsbD_eq_getElem]
  have e10 : fld i 12 4 = regMap r := fld_of fun j hj => by rw [bb _ (by omega)]; interval_cases j <;> simp [-BitVec.getLsbD_eq_getElem]
  have e11 : fld i 16 4 = regMap base := fld_of fun j hj => by rw [bb _ (by omega)]; interval_cases j <;> simp [-BitVec.getLsbD_eq_getElem]
  have e12 : fld i 21 2 = opSz o := fld_of fun j hj => by rw [bb _ (by omega)]; interval_cases j <;> simp [-BitVec.getLsbD_eq_getElem]
  have q1 : opSz o ≠ 3#2 := by cases o <;> decide
  have q2 : opS o store = true → (!store) = true ∧ opSz o ≠ 2#2 := by cases store <;> cases o <;> decide
  rw [step, half_eq]
  dsimp only
  rw [e12]
  simp only [e5, e6, e7, e8, e9, e10, e11, e12, ← hd, ev s]
  rw [if_pos ⟨e1, e2, e3, e4, q1, q2, hb, hr, hr', hne⟩]
  cases store <;> cases post <;> rfl

end Verif.A32.T2
