import Verif.A32.Mem
import Verif.RISCV.Api

/-! # sljit_emit_mem_update on ARM32 -/

namespace Verif.A32
open Verif.Imm.A32 (fld)
open Verif.Imm.Arm32 (regMap RM RD RN)

/-! ## The instructions -/

/-- The same word as a load or store without write-back: P is set, W is clear. -/
def updNorm (w : BitVec 32) : BitVec 32 := (w ||| (1#32 <<< 24)) &&& ~~~ (1#32 <<< 21)

/-- The effect of a load or store with write-back: pre-indexed (`pre`) or post-indexed.  The base must be another register than the transferred one and PC. -/
def updExec (pre : Bool) (i : Inst) (s : St) : Option St :=
  match i with
  | .ldst k sg l u n t o =>
    if n = 15#4 ∨ n = t then none
    else (offs s o).bind fun d => (exec (.ldst k sg l u n t (if pre then o else .inl 0#12)) s).map fun s' => s'.set n (if u then s.r n + d else s.r n - d)
  | _ => none

/-- Loads and stores with write-back (A8.8: LDR, STR, LDRB, STRB, LDRH, STRH, LDRSB, LDRSH): P = W = 1 is pre-indexed, P = W = 0 is post-indexed; the other fields are as
without write-back.  Only unconditional words are accepted. -/
def updStep (w : BitVec 32) (s : St) : Option St :=
  if fld w 28 4 = 14#4 ∧ bit w 24 = bit w 21 then (decode (updNorm w)).bind fun i => updExec (bit w 24) i s else none

/-! ## The model -/

/-- The type of the transfer (sljitNativeARM_32.c:3883-3914). -/
def updTy (o : RV.Op1C) (store : Bool) : Ty :=
  match o with
  | .movU8 => ⟨1, false, !store⟩
  | .movS8 => ⟨1, true, !store⟩
  | .movU16 => ⟨2, false, !store⟩
  | .movS16 => ⟨2, true, !store⟩
  | _ => ⟨0, false, !store⟩

/-- `is_type1_transfer` (sljitNativeARM_32.c:3881-3910). -/
def updT1 (o : RV.Op1C) (store : Bool) : Bool :=
  match o with
  | .movS8 => store
  | .movU16 | .movS16 => false
  | _ => true

/-- The index bits: P is cleared for the post-indexed form, W is set for the pre-indexed form (sljitNativeARM_32.c:3940-3943, 3950-3953). -/
def updIdx (post : Bool) (inst : BitVec 32) : BitVec 32 := if post then inst ^^^ (1#32 <<< 24) else inst ||| (1#32 <<< 21)

/-- sljit_emit_mem_update (sljitNativeARM_32.c:3871-3970); `none` is SLJIT_ERR_UNSUPPORTED, `store`, `post` and `supp` are SLJIT_MEM_STORE, SLJIT_MEM_POST and
SLJIT_MEM_SUPP. -/
def emitMemUpdate (o : RV.Op1C) (store post supp : Bool) (r base offs : Nat) (w : BitVec 32) : Option (List (BitVec 32)) :=
  let t := updTy o store
  let t1 := updT1 o store
  if (if offs ≠ 0 then t1 = false ∧ w ≠ 0#32 else if t1 then 4095 < w.toInt ∨ w.toInt < -4095 else 255 < w.toInt ∨ w.toInt < -255) then none
  else if supp then some []
  else if offs ≠ 0 then
    let inst := dataTransfer t true r base (RM offs ||| ((w &&& 3#32) <<< 7))
    let inst := if t1 then inst ||| (1#32 <<< 25) else inst
    some [updIdx post inst]
  else
    let inst := updIdx post (dataTransfer t false r base 0#32)
    let inst := if 0 ≤ w.toInt then inst ||| (1#32 <<< 23) else inst
    let a := if 0 ≤ w.toInt then w else -w
    some [inst ||| (if t1 then a else type2Imm a)]

/-! ## Decoding -/

theorem updT1_eq (o : RV.Op1C) (store : Bool) : updT1 o store = isType1 (updTy o store) := by
  cases store <;> cases o <;> decide

theorem tr_bits (t : Ty) : (transferInst t).getLsbD 24 = true ∧ (transferInst t).getLsbD 21 = false := by
  obtain ⟨size, sg, load⟩ := t
  rcases load with _ | _ <;> rcases sg with _ | _ <;> rcases size with _ | _ | n <;> simp only [transferInst] <;> decide

theorem norm_imm (b a : BitVec 32) (x y : BitVec 4) (u post : Bool) (h1 : b.getLsbD 24 = true) (h2 : b.getLsbD 21 = false) (h3 : a.getLsbD 24 = false) (h4 : a.getLsbD 21 = false) :
    ∀ w, w = (if u then updIdx post (b ||| 0#32 ||| x.setWidth 32 <<< 12 ||| y.setWidth 32 <<< 16 ||| 0#32) ||| (1#32 <<< 23)
      else updIdx post (b ||| 0#32 ||| x.setWidth 32 <<< 12 ||| y.setWidth 32 <<< 16 ||| 0#32)) ||| a →
      updNorm w = b ||| (if u then 1#32 <<< 23 else 0#32) ||| x.setWidth 32 <<< 12 ||| y.setWidth 32 <<< 16 ||| a ∧ bit w 24 = !post ∧ bit w 21 = !post := by
  intro w hw
  subst hw
  refine ⟨?_, ?_, ?_⟩
  · apply BitVec.eq_of_getLsbD_eq
    intro n hn
    unfold updNorm updIdx
    cases u <;> cases post <;> interval_cases n <;> simp [-BitVec.getLsbD_eq_getElem, h1, h2, h3, h4]
  · unfold bit updIdx
    cases u <;> cases post <;> simp [-BitVec.getLsbD_eq_getElem, h1, h2, h3, h4]
  · unfold bit updIdx
    cases u <;> cases post <;> simp [-BitVec.getLsbD_eq_getElem, h1, h2, h3, h4]

theorem norm_reg (b c : BitVec 32) (post : Bool) (h1 : b.getLsbD 24 = true) (h2 : b.getLsbD 21 = false) (hc : c = b) :
    updNorm (updIdx post c) = b ∧ bit (updIdx post c) 24 = !post ∧ bit (updIdx post c) 21 = !post := by
  subst hc
  refine ⟨?_, ?_, ?_⟩
  · apply BitVec.eq_of_getLsbD_eq
    intro n hn
    unfold updNorm updIdx
    cases post <;> interval_cases n <;> simp [-BitVec.getLsbD_eq_getElem, h1, h2]
  · unfold bit updIdx
    cases post <;> simp [-BitVec.getLsbD_eq_getElem, h1]
  · unfold bit updIdx
    cases post <;> simp [-BitVec.getLsbD_eq_getElem, h2]

theorem norm_cond (w : BitVec 32) : fld (updNorm w) 28 4 = fld w 28 4 := by
  apply BitVec.eq_of_getLsbD_eq
  intro n hn
  unfold updNorm fld
  interval_cases n <;> simp [-BitVec.getLsbD_eq_getElem]

theorem ld_shape {t : Ty} {d n : BitVec 4} {u : Bool} (hn : n ≠ 15#4) (hd : d ≠ 15#4) : ∃ k sg l,
    (∀ o, (if isType1 t then Inst.ldst (if bit (transferInst t) 22 then 1 else 4) false (bit (transferInst t) 20) u n d o else t2Inst (transferInst t) u n d o) = .ldst k sg l u n d o) ∧
    ∀ o s x, offs s o = some x → exec (.ldst k sg l u n d o) s = some (xfer t d (if u then s.r n + x else s.r n - x) s) := by
  by_cases h : isType1 t = true
  · exact ⟨_, _, _, fun o => by rw [if_pos h], fun o s x ho => exec_t1 h hn hd ho⟩
  · have h : isType1 t = false := by simpa using h
    have e : ∃ k sg l, ∀ o, t2Inst (transferInst t) u n d o = .ldst k sg l u n d o := by
      unfold t2Inst
      split
      · exact ⟨_, _, _, fun o => rfl⟩
      · split
        · exact ⟨_, _, _, fun o => rfl⟩
        · exact ⟨_, _, _, fun o => rfl⟩
    obtain ⟨k, sg, l, e⟩ := e
    refine ⟨k, sg, l, fun o => by rw [if_neg (by simp [h])]; exact e o, fun o s x ho => ?_⟩
    rw [← e]
    exact exec_t2 h hn hd ho

theorem upd_exec {w wd : BitVec 32} {t : Ty} {d n : BitVec 4} {u post : Bool} {o : BitVec 12 ⊕ BitVec 4 × BitVec 5} (hn : n ≠ 15#4) (hd : d ≠ 15#4) (hne : n ≠ d)
    (hw : updNorm w = wd ∧ bit w 24 = (!post) ∧ bit w 21 = !post)
    (hc : fld wd 28 4 = 14#4 ∧ decode wd = some (if isType1 t then Inst.ldst (if bit (transferInst t) 22 then 1 else 4) false (bit (transferInst t) 20) u n d o else t2Inst (transferInst t) u n d o))
    {s : St} {x : BitVec 32} (ho : offs s o = some x) :
    updStep w s = some ((xfer t d (if post then s.r n else if u then s.r n + x else s.r n - x) s).set n (if u then s.r n + x else s.r n - x)) := by
  obtain ⟨k, sg, l, e1, e2⟩ := ld_shape (t := t) (u := u) hn hd
  have hf : fld w 28 4 = 14#4 := by rw [← norm_cond, hw.1]; exact hc.1
  rw [updStep, if_pos ⟨hf, by rw [hw.2.1, hw.2.2]⟩, hw.1, hc.2, e1 o, Option.bind_some, updExec, if_neg (by simp [hn, hne]), ho, Option.bind_some, hw.2.1]
  cases post
  · rw [show (if (!false) = true then o else Sum.inl 0#12) = o from rfl, e2 o s x ho]; rfl
  · rw [show (if (!true) = true then o else Sum.inl 0#12) = Sum.inl 0#12 from rfl, e2 _ s 0#32 rfl]
    simp

/-- The word of a transfer with an immediate offset. -/
theorem dec_imm (t : Ty) (u : Bool) (r base : Nat) {i : BitVec 32} (hi : i.toNat < if isType1 t then 0x1000 else 0x100) :
    ∃ o, (∀ s, offs s o = some i) ∧ fld (dataTransfer t u r base (if isType1 t then i else type2Imm i)) 28 4 = 14#4 ∧ decode (dataTransfer t u r base (if isType1 t then i else type2Imm i)) =
      some (if isType1 t then Inst.ldst (if bit (transferInst t) 22 then 1 else 4) false (bit (transferInst t) 20) u (regMap base) (regMap r) o
        else t2Inst (transferInst t) u (regMap base) (regMap r) o) := by
  by_cases h : isType1 t = true
  · simp only [h, if_true] at hi ⊢
    have e : (i.setWidth 12).setWidth 32 = i := by apply BitVec.eq_of_toNat_eq; simp [BitVec.toNat_setWidth]; omega
    have hw : transferInst t ||| uBit u ||| (regMap r).setWidth 32 <<< 12 ||| (regMap base).setWidth 32 <<< 16 ||| (i.setWidth 12).setWidth 32 = dataTransfer t u r base i := by
      rw [e]; rfl
    exact ⟨.inl (i.setWidth 12), fun s => by rw [offs, e], (ty_T1 h).dec u (regMap r) (regMap base) (i.setWidth 12) hw⟩
  · have h : isType1 t = false := by simpa using h
    simp only [h, Bool.false_eq_true, if_false] at hi ⊢
    have e : (i.setWidth 8).setWidth 32 = i := by apply BitVec.eq_of_toNat_eq; simp [BitVec.toNat_setWidth]; omega
    have e' : ((i.setWidth 8).setWidth 12).setWidth 32 = i := by apply BitVec.eq_of_toNat_eq; simp [BitVec.toNat_setWidth]; omega
    have hw : transferInst t ||| uBit u ||| (regMap r).setWidth 32 <<< 12 ||| (regMap base).setWidth 32 <<< 16 ||| type2Imm ((i.setWidth 8).setWidth 32) = dataTransfer t u r base (type2Imm i) := by
      rw [e]; rfl
    exact ⟨.inl ((i.setWidth 8).setWidth 12), fun s => by rw [offs, e'], (ty_T2 h).dec u (regMap r) (regMap base) (i.setWidth 8) hw⟩

theorem small_bits {a : BitVec 32} (h : a.toNat < 0x1000) : a.getLsbD 24 = false ∧ a.getLsbD 21 = false := by
  constructor <;> (rw [BitVec.getLsbD, Nat.testBit_lt_two_pow]; omega)

theorem t2_bits (a : BitVec 32) : (type2Imm a).getLsbD 24 = false ∧ (type2Imm a).getLsbD 21 = false := by
  constructor <;> simp [-BitVec.getLsbD_eq_getElem, type2Imm]

/-- The change of the base. -/
def updOff (offs : Nat) (w : BitVec 32) (s : St) : BitVec 32 := if offs = 0 then w else s.r (regMap offs) <<< w.toNat

theorem upd_run {o : RV.Op1C} {store post : Bool} {r base offs : Nat} {w : BitVec 32} (hr : regMap r ≠ 15#4) (hb : regMap base ≠ 15#4) (hm : regMap offs ≠ 15#4) (hne : regMap base ≠ regMap r)
    (hs : offs ≠ 0 → w.toNat < 4) {ws : List (BitVec 32)} (h : emitMemUpdate o store post false r base offs w = some ws) :
    ∃ i, ws = [i] ∧ ∀ s, updStep i s = some ((xfer (updTy o store) (regMap r) (if post then s.r (regMap base) else s.r (regMap base) + updOff offs w s) s).set (regMap base)
      (s.r (regMap base) + updOff offs w s)) := by
  unfold emitMemUpdate at h
  simp only [updT1_eq] at h
  generalize ht : updTy o store = t at *
  by_cases ho : offs ≠ 0
  · simp only [if_pos ho] at h
    by_cases hx : isType1 t = false ∧ w ≠ 0#32
    · rw [if_pos hx] at h; cases h
    rw [if_neg hx, if_neg Bool.false_ne_true] at h
    simp only [Option.some.injEq] at h
    refine ⟨_, h.symm, fun s => ?_⟩
    have hw4 := hs ho
    have hk : (w &&& 3#32) = (w.setWidth 5).setWidth 32 := by
      apply BitVec.eq_of_toNat_eq
      rw [BitVec.toNat_and, show (3#32 : BitVec 32).toNat = 2 ^ 2 - 1 from rfl, Nat.and_two_pow_sub_one_eq_mod]
      simp [BitVec.toNat_setWidth]; omega
    have hkn : (w.setWidth 5).toNat = w.toNat := by rw [BitVec.toNat_setWidth]; omega
    have hoff : A32.offs s (.inr (regMap offs, w.setWidth 5)) = some (updOff offs w s) := by
      rw [A32.offs, if_neg hm, hkn, updOff, if_neg ho]
    by_cases h1 : isType1 t = true
    · have hd := (ty_T1 h1).decr true (regMap r) (regMap base) (regMap offs) (w.setWidth 5) rfl
      have key := upd_exec (t := t) (u := true) (post := post) (o := .inr (regMap offs, w.setWidth 5)) hb hr hne (norm_reg _ (if isType1 t = true then dataTransfer t true r base (RM offs ||| (w &&& 3#32) <<< 7) ||| 1#32 <<< 25
        else dataTransfer t true r base (RM offs ||| (w &&& 3#32) <<< 7)) post ?_ ?_ ?_) (by rw [if_pos h1]; exact hd) hoff
      · simp only [if_true] at key
        exact key
      · simp [-BitVec.getLsbD_eq_getElem, (tr_bits t).1]
      · simp [-BitVec.getLsbD_eq_getElem, (tr_bits t).2, uBit_bit]
      · rw [if_pos h1, dataTransfer, RM, RD, RN, hk]
        simp only [uBit, if_true]
        simp only [BitVec.or_assoc]
        congr 5
        rw [BitVec.or_comm]
    · have h1 : isType1 t = false := by simpa using h1
      have hw0 : w = 0#32 := by by_contra hc; exact hx ⟨h1, hc⟩
      subst hw0
      have hd := (ty_T2 h1).decr true (regMap r) (regMap base) (regMap offs) rfl
      have key := upd_exec (t := t) (u := true) (post := post) (o := .inr (regMap offs, 0#5)) hb hr hne (norm_reg _ (if isType1 t = true then dataTransfer t true r base (RM offs ||| (0#32 &&& 3#32) <<< 7) ||| 1#32 <<< 25
        else dataTransfer t true r base (RM offs ||| (0#32 &&& 3#32) <<< 7)) post ?_ ?_ ?_) (by rw [if_neg (by simp [h1])]; exact hd) hoff
      · simp only [if_true] at key
        exact key
      · simp [-BitVec.getLsbD_eq_getElem, (tr_bits t).1]
      · simp [-BitVec.getLsbD_eq_getElem, (tr_bits t).2, uBit_bit]
      · rw [if_neg (by simp [h1]), dataTransfer, RM, RD, RN]
        simp [uBit]
  · simp only [if_neg ho] at h
    by_cases hx : if isType1 t = true then 4095 < w.toInt ∨ w.toInt < -4095 else 255 < w.toInt ∨ w.toInt < -255
    · rw [if_pos hx] at h; cases h
    rw [if_neg hx, if_neg Bool.false_ne_true] at h
    have ho : offs = 0 := by simpa using ho
    simp only [Option.some.injEq] at h
    have hn : w.toInt = if 2 * w.toNat < 2 ^ 32 then (w.toNat : Int) else w.toNat - 2 ^ 32 := BitVec.toInt_eq_toNat_cond w
    have hlt := w.isLt
    have ha : (if 0 ≤ w.toInt then w else -w).toNat < if isType1 t then 0x1000 else 0x100 := by
      split
      · split at hx <;> split at hn <;> simp_all <;> omega
      · rw [BitVec.toNat_neg]
        split at hx <;> split at hn <;> simp_all <;> omega
    refine ⟨_, h.symm, fun s => ?_⟩
    obtain ⟨oo, k1, k2⟩ := dec_imm t (decide (0 ≤ w.toInt)) r base ha
    have hbits : (if isType1 t = true then (if 0 ≤ w.toInt then w else -w) else type2Imm (if 0 ≤ w.toInt then w else -w)).getLsbD 24 = false ∧
        (if isType1 t = true then (if 0 ≤ w.toInt then w else -w) else type2Imm (if 0 ≤ w.toInt then w else -w)).getLsbD 21 = false := by
      split
      · rename_i h1
        rw [if_pos h1] at ha
        exact small_bits ha
      · exact t2_bits _
    have key := upd_exec (t := t) (u := decide (0 ≤ w.toInt)) (post := post) hb hr hne
      (norm_imm (transferInst t) _ (regMap r) (regMap base) (decide (0 ≤ w.toInt)) post (tr_bits t).1 (tr_bits t).2 hbits.1 hbits.2 _ rfl) k2 (k1 s)
    have ev : (if decide (0 ≤ w.toInt) = true then s.r (regMap base) + (if 0 ≤ w.toInt then w else -w) else s.r (regMap base) - (if 0 ≤ w.toInt then w else -w)) =
        s.r (regMap base) + updOff offs w s := by
      rw [updOff, if_pos ho]
      by_cases h0 : 0 ≤ w.toInt
      · simp only [h0, decide_true, if_true]
      · simp only [h0, decide_false, Bool.false_eq_true, if_false]
        rw [BitVec.sub_eq_add_neg, BitVec.neg_neg]
    rw [ev] at key
    simp only [decide_eq_true_eq] at key
    exact key

end Verif.A32
