import Verif.X86.OpEff

/-! # Shifting bits of another register in (helper lemmas) -/

namespace Verif.X86

variable {win m32 : Bool} {s : St}

/-- The value of SHLD and SHRD. -/
def dblV (m32 left : Bool) (a b : BitVec 64) (n : Nat) : BitVec 64 := up m32 (dblF left (lo m32 a) (lo m32 b) n ⟨none, none, none, none⟩).1

theorem dblV_trunc (m32 left : Bool) (a b : BitVec 64) (n : Nat) :
    dblV m32 left (trunc m32 a) b n = dblV m32 left a b n ∧ dblV m32 left a (trunc m32 b) n = dblV m32 left a b n := by
  unfold dblV
  rw [lo_trunc, lo_trunc]
  exact ⟨rfl, rfl⟩

theorem dblF_flag {w : Nat} (left : Bool) (a b : BitVec w) (n : Nat) (f g : Flags) : (dblF left a b n f).1 = (dblF left a b n g).1 := by
  unfold dblF
  split <;> rfl

theorem bin_dbl (left : Bool) (a b : BitVec 64) (n : Nat) (f : Flags) :
    bin (NB m32) (fun _ x y => some (dblF left x y n f)) a b = some (dblV m32 left a b n, (dblF left (lo m32 a) (lo m32 b) n f).2) := by
  rw [dblV, dblF_flag left _ _ n _ f]
  rfl

theorem cnt_lt (m32 : Bool) (c : BitVec 64) : cnt m32 c < W m32 := Nat.mod_lt _ (by cases m32 <;> decide)

theorem nbW (m32 : Bool) : 8 * NB m32 = W m32 := by cases m32 <;> rfl

theorem get_regt (m32 : Bool) (t : Nat) : get s (NB m32) (target win s (.reg t)) = trunc m32 (s.r (num win t)) := get_reg m32 s _

/-- The instruction. -/
theorem e_dbl {left : Bool} {r t : Nat} (ht : Good (.reg t)) {src3 : Opd} (h3 : ∀ u, src3 = .imm u → u.toNat < W m32)
    {n : Nat} (hn : n = match src3 with | .imm u => u.toNat | _ => cnt m32 (s.r 1#4)) :
    ∃ f, Eff win m32 (emitDbl win m32 left r t src3) s (some (.reg t)) (dblV m32 left (s.r (num win t)) (s.r (num win r)) n) false false f := by
  have hlt := cnt_lt m32 (s.r 1#4)
  have key : ∀ op : Byte, (op = 0xa5#8 ∧ left = true ∨ op = 0xad#8 ∧ left = false) → n = cnt m32 (s.r 1#4) →
      ∃ f, Eff win m32 (groupf win m32 op r (.reg t)) s (some (.reg t)) (dblV m32 left (s.r (num win t)) (s.r (num win r)) n) false false f := by
    intro op hop hn
    obtain ⟨bs, h⟩ := ins_some (win := win) (m32 := m32) (fl := { size := 2 }) rfl r (b := .reg t) rfl [0x0f#8, op]
    have ho : (op ≠ 0xb6#8 ∧ op ≠ 0xbe#8 ∧ op ≠ 0xa4#8 ∧ op ≠ 0xac#8 ∧ fld op 4 4 ≠ 9#4) ∧ hasRM 1 op = true ∧ op ≠ 0xaf#8 ∧ op ≠ 0xb7#8 ∧ op ≠ 0xbf#8 := by
      rcases hop with ⟨rfl, -⟩ | ⟨rfl, -⟩ <;> decide
    obtain ⟨ho, hrm, o1, o2, o3⟩ := ho
    have ho' := ho
    obtain ⟨o4, o5, o6, o7, -⟩ := ho'
    have o8 : op = 0xa5#8 ∨ op = 0xad#8 := by rcases hop with ⟨rfl, -⟩ | ⟨rfl, -⟩ <;> decide
    have o9 : decide (op = 0xa5#8) = left := by rcases hop with ⟨rfl, rfl⟩ | ⟨rfl, rfl⟩ <;> decide
    refine ⟨_, _, ⟨bs, h, groupf_step h (good_ok ht rfl) ho hrm ?_⟩, put_target win m32 s (.reg t) rfl _ (dblF left (lo m32 (s.r (num win t))) (lo m32 (s.r (num win r))) n s.f).2, rfl⟩
    simp only [execRM, rexOf_size, Nat.one_ne_zero, false_and, if_false, Option.bind_some, if_true, get_target win m32 s (.reg t) rfl, o1, o2, o3, o4, o5, o6, o7, false_or, or_false, o8, o9,
      nb8, nbW, show (clob win s (.reg t)) = s from rfl]
    rw [show (s.r 1#4).toNat % W m32 = n by rw [hn]; rfl, if_neg (by omega), bin_dbl, get_regt, (dblV_trunc m32 left _ _ n).1, lo_trunc]
    rfl
  cases src3 with
  | imm u =>
    have hu := h3 u rfl
    have hu64 : u.toNat < 64 := by unfold W at hu; split at hu <;> omega
    simp only at hn
    unfold emitDbl
    generalize hop : (if left = true then 0xa4#8 else 0xac#8 : Byte) = op
    obtain ⟨bs, h⟩ := ins_some (win := win) (m32 := m32) (fl := { size := 2 }) rfl r (b := .reg t) rfl [0x0f#8, op]
    have ho : op ≠ 0xb6#8 ∧ op ≠ 0xbe#8 ∧ (op = 0xa4#8 ∨ op = 0xac#8) ∧ op ≠ 0xaf#8 ∧ op ≠ 0xb7#8 ∧ op ≠ 0xbf#8 ∧ decide (op = 0xa4#8 ∨ op = 0xa5#8) = left ∧
        (op = 0xa4#8 ∨ op = 0xa5#8 ∨ op = 0xac#8 ∨ op = 0xad#8) := by
      subst hop; cases left <;> decide
    obtain ⟨o4, o5, o6, o1, o2, o3, o9, o8⟩ := ho
    refine ⟨_, _, ⟨bs ++ toLe 1 u, by rw [groupf, h]; rfl, dblImm_step o6 h (good_ok ht rfl) ?_⟩,
      put_target win m32 s (.reg t) rfl _ (dblF left (lo m32 (s.r (num win t))) (lo m32 (s.r (num win r))) n s.f).2, rfl⟩
    simp only [execRM, rexOf_size, Nat.one_ne_zero, false_and, if_false, Option.bind_some, if_true, get_target win m32 s (.reg t) rfl, o1, o2, o3, o4, o5, o8, o6, o9,
      nb8, nbW, show (clob win s (.reg t)) = s from rfl, byte_small hu64]
    rw [Nat.mod_eq_of_lt hu, ← hn, if_neg (by omega), bin_dbl, get_regt, (dblV_trunc m32 left _ _ n).1, lo_trunc]
    rfl
  | reg q => exact key _ (by cases left <;> simp) hn
  | mem _ _ _ => exact key _ (by cases left <;> simp) hn

/-- From loading the count: `a` is the state before, TMP_REG1 keeps SLJIT_PREF_SHIFT_REG.  `mv`: src1 is moved after the count. -/
theorem into_tail {left mv : Bool} {dst src1 src2 r : Nat} {src3 : Opd} {a : St} (hd : 1 ≤ dst ∧ dst ≤ 13) (hdp : dst ≠ PREF_SHIFT_REG) (h1 : 1 ≤ src1 ∧ src1 ≤ 13)
    (hr : r = TMP_REG1 ∧ src2 = PREF_SHIFT_REG ∨ r = src2 ∧ 1 ≤ src2 ∧ src2 ≤ 13 ∧ src2 ≠ PREF_SHIFT_REG) (hds : dst ≠ src2)
    (h3 : User src3) (hi : src3.isImm = false) (hm : mv = true → src1 ≠ PREF_SHIFT_REG)
    (ar : ∀ q, q ≠ num win dst → q ≠ T1 win → a.r q = s.r q) (at1 : a.r (T1 win) = s.r 1#4) (am : a.m = s.m) (ao : opv win m32 a src3 = opv win m32 s src3)
    (av : if mv then a.r (num win src1) = s.r (num win src1) else trunc m32 (a.r (num win dst)) = trunc m32 (s.r (num win src1))) :
    ∃ s', Emits (emitMov win m32 PREF src3 +> ((if mv then emitMov win m32 (.reg dst) (.reg src1) else some []) +>
        (emitDbl win m32 left r dst src3 +> emitMov win false PREF (.reg TMP_REG1)))) a s' ∧
      Res win m32 s s' (some (.reg dst)) (dblV m32 left (s.r (num win src1)) (s.r (num win src2)) (cnt m32 (opv win m32 s src3))) true true := by
  have hdg : Good (.reg dst) := ⟨by omega, by omega, by omega⟩
  have h1g : Good (.reg src1) := ⟨by omega, by omega, by omega⟩
  have t1g : Good (.reg TMP_REG1) := by simp [Good, TMP_REG1]
  have dT1 : num win dst ≠ T1 win := num_ne hd.1 (by omega) (by decide) (by decide) (by unfold TMP_REG1; omega)
  have dT2 : num win dst ≠ T2 win := num_ne hd.1 (by omega) (by decide) (by decide) (by unfold TMP_REG2; omega)
  have d1 : num win dst ≠ 1#4 := by rw [← num_pref win]; exact num_ne hd.1 (by omega) (by decide) (by decide) hdp
  have T12 : T1 win ≠ T2 win := num_ne (by decide) (by decide) (by decide) (by decide) (by decide)
  have T11 : T1 win ≠ 1#4 := by cases win <;> decide
  -- the count
  obtain ⟨b, mb, rb, -⟩ := e_mov (win := win) (m32 := m32) (s := a) (dst := PREF) (src := src3) good_pref rfl h3.good (fun h => by cases h)
  have kb : ∀ q, q ≠ 1#4 → q ≠ T2 win → b.r q = a.r q := fun q e1 e2 =>
    rb.regs q (fun d e => by cases e; rw [num_pref]; exact e1) (fun _ => by simp [PREF, Opd.isMem]) (fun e => absurd e e2)
  have vb : b.r 1#4 = trunc m32 (opv win m32 s src3) := by rw [← num_pref win, rb.val _ rfl, ao]
  have bm : b.m = s.m := by rw [rb.mem, ← am]; rfl
  -- src1
  have mid : ∃ c, Emits (if mv then emitMov win m32 (.reg dst) (.reg src1) else some []) b c ∧ (∀ q, q ≠ num win dst → c.r q = b.r q) ∧ c.m = s.m ∧
      trunc m32 (c.r (num win dst)) = trunc m32 (s.r (num win src1)) := by
    cases mv with
    | false => exact ⟨b, Emits.nil b, fun _ _ => rfl, bm, by rw [kb _ d1 dT2]; exact av⟩
    | true =>
      obtain ⟨c, mc, rc, -⟩ := e_mov (win := win) (m32 := m32) (s := b) (dst := .reg dst) (src := .reg src1) hdg rfl h1g (fun h => by cases h)
      refine ⟨c, mc, fun q e => rc.regs q (fun d e' => by cases e'; exact e) (fun _ => rfl) (fun _ => rfl), by rw [rc.mem, ← bm]; rfl, ?_⟩
      rw [rc.val _ rfl, opv.eq_1, trunc_trunc, trunc_trunc, kb]
      · rw [show a.r (num win src1) = s.r (num win src1) from av]
      · rw [← num_pref win]; exact num_ne h1.1 (by omega) (by decide) (by decide) (hm rfl)
      · exact num_ne_t2 h1.1 (by omega)
  obtain ⟨c, mc, kc, cm, vc⟩ := mid
  -- the instruction
  have vr : c.r (num win r) = s.r (num win src2) := by
    rcases hr with ⟨rfl, rfl⟩ | ⟨rfl, e1, e2, e3⟩
    · rw [show num win TMP_REG1 = T1 win from rfl, kc _ (Ne.symm dT1), kb _ T11 T12, num_pref]; exact at1
    · have n1 : num win r ≠ num win dst := num_ne e1 (by omega) hd.1 (by omega) (Ne.symm hds)
      rw [kc _ n1, kb, ar _ n1]
      · exact num_ne e1 (by omega) (by decide) (by decide) (by unfold TMP_REG1; omega)
      · rw [← num_pref win]; exact num_ne e1 (by omega) (by decide) (by decide) e3
      · exact num_ne_t2 e1 (by omega)
  obtain ⟨f, d, md, rd, -⟩ := e_dbl (win := win) (m32 := m32) (s := c) (left := left) (r := r) (t := dst) hdg (src3 := src3) (fun u e => by rw [e] at hi; cases hi)
    (n := cnt m32 (opv win m32 s src3)) (by
      cases src3 with
      | imm _ => cases hi
      | reg _ => rw [kc _ (Ne.symm d1), vb, cnt_trunc]
      | mem _ _ _ => rw [kc _ (Ne.symm d1), vb, cnt_trunc])
  have kd : ∀ q, q ≠ num win dst → d.r q = c.r q := fun q e => rd.regs q (fun d e' => by cases e'; exact e) (fun _ => rfl) (fun _ => rfl)
  -- restore
  obtain ⟨e, me, re, -⟩ := e_mov (win := win) (m32 := false) (s := d) (dst := PREF) (src := .reg TMP_REG1) good_pref rfl t1g (fun h => by cases h)
  have ke : ∀ q, q ≠ 1#4 → e.r q = d.r q := fun q e1 => re.regs q (fun d e => by cases e; rw [num_pref]; exact e1) (fun _ => rfl) (fun _ => rfl)
  refine ⟨e, mb.cat (mc.cat (md.cat me)), fun q q1 q2 q3 => ?_, fun x hx => ?_, ?_⟩
  · have n1 := q1 dst rfl
    have n2 : q ≠ T1 win := fun e => absurd (q2 e) (by decide)
    have n3 : q ≠ T2 win := fun e => absurd (q3 e) (by decide)
    by_cases q0 : q = 1#4
    · rw [q0, ← num_pref win, re.val _ rfl, opv.eq_1, show num win TMP_REG1 = T1 win from rfl, kd _ (Ne.symm dT1), kc _ (Ne.symm dT1), kb _ T11 T12, num_pref]; exact at1
    · rw [ke q q0, kd q n1, kc q n1, kb q q0 n3, ar q n1 n2]
  · cases hx
    rw [ke _ d1, rd.val _ rfl, vr, ← (dblV_trunc m32 left (c.r _) _ _).1, vc, (dblV_trunc m32 left _ _ _).1]
  · rw [re.mem, show wrMem win false d (some PREF) _ = d.m from rfl, rd.mem, show wrMem win m32 c (some (.reg dst)) _ = c.m from rfl, cm]
    rfl

/-- Both orders of saving SLJIT_PREF_SHIFT_REG and moving src1. -/
theorem into_load {left : Bool} {dst src1 src2 : Nat} {src3 : Opd} (hd : 1 ≤ dst ∧ dst ≤ 13) (hdp : dst ≠ PREF_SHIFT_REG) (h1 : 1 ≤ src1 ∧ src1 ≤ 13) (h2 : 1 ≤ src2 ∧ src2 ≤ 13)
    (hds : dst ≠ src2) (h12 : src1 ≠ src2) (h3 : User src3) (hi : src3.isImm = false)
    (hb1 : dst ≠ src1 → dependsOn src3 dst = false) (hb2 : src1 = PREF_SHIFT_REG → src3 ≠ .reg dst) :
    ∃ s', Emits ((if src2 = PREF_SHIFT_REG then emitMov win false (.reg TMP_REG1) PREF else some []) +>
        ((if dst ≠ src1 ∧ .reg dst ≠ src3 then emitMov win m32 (.reg dst) (.reg src1) else some []) +>
        ((if src2 = PREF_SHIFT_REG then some [] else emitMov win false (.reg TMP_REG1) PREF) +>
        (emitMov win m32 PREF src3 +>
        ((if dst ≠ src1 ∧ .reg dst = src3 then emitMov win m32 (.reg dst) (.reg src1) else some []) +>
        (emitDbl win m32 left (if src2 = PREF_SHIFT_REG then TMP_REG1 else src2) dst src3 +> emitMov win false PREF (.reg TMP_REG1))))))) s s' ∧
      Res win m32 s s' (some (.reg dst)) (dblV m32 left (s.r (num win src1)) (s.r (num win src2)) (cnt m32 (opv win m32 s src3))) true true := by
  have hdg : Good (.reg dst) := ⟨by omega, by omega, by omega⟩
  have h1g : Good (.reg src1) := ⟨by omega, by omega, by omega⟩
  have t1g : Good (.reg TMP_REG1) := by simp [Good, TMP_REG1]
  have dT1 : num win dst ≠ T1 win := num_ne hd.1 (by omega) (by decide) (by decide) (by unfold TMP_REG1; omega)
  have d1 : num win dst ≠ 1#4 := by rw [← num_pref win]; exact num_ne hd.1 (by omega) (by decide) (by decide) hdp
  have s1T1 : num win src1 ≠ T1 win := num_ne h1.1 (by omega) (by decide) (by decide) (by unfold TMP_REG1; omega)
  have T11 : T1 win ≠ 1#4 := by cases win <;> decide
  have hu1 : uses src3 TMP_REG1 = false := h3.uses (by decide)
  -- saving
  have save : ∀ x : St, ∃ y, Emits (emitMov win false (.reg TMP_REG1) PREF) x y ∧ (∀ q, q ≠ T1 win → y.r q = x.r q) ∧ y.r (T1 win) = x.r 1#4 ∧ y.m = x.m ∧ opv win m32 y src3 = opv win m32 x src3 := by
    intro x
    obtain ⟨y, my, ry, -⟩ := e_mov (win := win) (m32 := false) (s := x) (dst := .reg TMP_REG1) (src := PREF) t1g rfl good_pref (fun h => by cases h)
    refine ⟨y, my, fun q e => ry.regs q (fun d e' => by cases e'; exact e) (fun _ => rfl) (fun _ => rfl), ?_, by rw [ry.mem]; rfl, ?_⟩
    · rw [show T1 win = num win TMP_REG1 from rfl, ry.val _ rfl, PREF, opv.eq_1, num_pref]; rfl
    · exact ry.opv h3.good (fun d e => by cases e; exact ⟨_, rfl, by decide, by decide, hu1⟩) (fun h => by cases h) (fun h => by cases h) m32
  -- moving
  have move : ∀ x : St, ∃ y, Emits (if dst ≠ src1 ∧ .reg dst ≠ src3 then emitMov win m32 (.reg dst) (.reg src1) else some []) x y ∧ (∀ q, q ≠ num win dst → y.r q = x.r q) ∧ y.m = x.m ∧
      opv win m32 y src3 = opv win m32 x src3 ∧
      (if dst ≠ src1 ∧ .reg dst = src3 then y = x else trunc m32 (y.r (num win dst)) = trunc m32 (x.r (num win src1))) := by
    intro x
    by_cases hc : dst ≠ src1 ∧ .reg dst ≠ src3
    · rw [if_pos hc]
      obtain ⟨y, my, ry, -⟩ := e_mov (win := win) (m32 := m32) (s := x) (dst := .reg dst) (src := .reg src1) hdg rfl h1g (fun h => by cases h)
      refine ⟨y, my, fun q e => ry.regs q (fun d e' => by cases e'; exact e) (fun _ => rfl) (fun _ => rfl), by rw [ry.mem]; rfl, ?_, ?_⟩
      · refine ry.opv h3.good (fun d e => by
          cases e
          refine ⟨dst, rfl, hd.1, by omega, ?_⟩
          cases src3 with
          | imm _ => rfl
          | reg q => simp only [uses, beq_eq_false_iff_ne]; exact fun e => hc.2 (by rw [e])
          | mem base offs w => exact hb1 hc.1) (fun h => by cases h) (fun h => by cases h) m32
      · rw [if_neg (fun h : dst ≠ src1 ∧ .reg dst = src3 => hc.2 h.2), ry.val _ rfl, opv.eq_1, trunc_trunc, trunc_trunc]
    · rw [if_neg hc]
      refine ⟨x, Emits.nil x, fun _ _ => rfl, rfl, rfl, ?_⟩
      split
      next => rfl
      next hn => rw [show dst = src1 by by_contra h; exact hn ⟨h, by by_contra h'; exact hc ⟨h, h'⟩⟩]
  have hmv : ∀ c : Code, (if dst ≠ src1 ∧ .reg dst = src3 then c else some []) = if decide (dst ≠ src1 ∧ .reg dst = src3) then c else some [] := by
    intro c; by_cases h : dst ≠ src1 ∧ .reg dst = src3
    · rw [if_pos h, if_pos (decide_eq_true h)]
    · rw [if_neg h, if_neg (by simpa using h)]
  have hmp : decide (dst ≠ src1 ∧ .reg dst = src3) = true → src1 ≠ PREF_SHIFT_REG := fun h e => hb2 e (of_decide_eq_true h).2.symm
  rw [hmv]
  by_cases hp : src2 = PREF_SHIFT_REG
  · simp only [hp, if_true]
    obtain ⟨x, mx, kx, tx, xm, ox⟩ := save s
    obtain ⟨y, my, ky, ym, oy, vy⟩ := move x
    obtain ⟨z, mz, rz⟩ := into_tail (s := s) (a := y) (win := win) (m32 := m32) (left := left) (src2 := src2) (r := TMP_REG1) hd hdp h1 (Or.inl ⟨rfl, hp⟩) hds h3 hi hmp
      (fun q e1 e2 => by rw [ky q e1, kx q e2]) (by rw [ky _ (Ne.symm dT1), tx]) (by rw [ym, xm]) (by rw [oy, ox]) (by
        by_cases h : dst ≠ src1 ∧ .reg dst = src3
        · rw [if_pos h] at vy
          rw [if_pos (decide_eq_true h), vy, kx _ s1T1]
        · rw [if_neg h] at vy
          rw [if_neg (by simpa using h), vy, kx _ s1T1])
    rw [hp] at rz
    exact ⟨z, mx.cat (my.cat ((Emits.nil y).cat mz)), rz⟩
  · simp only [hp, if_false]
    obtain ⟨x, mx, kx, xm, ox, vx⟩ := move s
    obtain ⟨y, my, ky, ty, ym, oy⟩ := save x
    obtain ⟨z, mz, rz⟩ := into_tail (s := s) (a := y) (win := win) (m32 := m32) (left := left) (src2 := src2) (r := src2) hd hdp h1 (Or.inr ⟨rfl, h2.1, h2.2, hp⟩) hds h3 hi hmp
      (fun q e1 e2 => by rw [ky q e2, kx q e1]) (by rw [ty, kx _ (Ne.symm d1)]) (by rw [ym, xm]) (by rw [oy, ox]) (by
        by_cases h : dst ≠ src1 ∧ .reg dst = src3
        · rw [if_pos h] at vx
          rw [if_pos (decide_eq_true h), ky _ s1T1, vx]
        · rw [if_neg h] at vx
          rw [if_neg (by simpa using h), ky _ dT1, vx])
    exact ⟨z, (Emits.nil s).cat (mx.cat (my.cat mz)), rz⟩

/-- sljit_emit_shift_into if src1 and src2 are different registers and the count is not a constant zero. -/
theorem e_into {left : Bool} {dst src1 src2 : Nat} {src3 : Opd} (hd : 1 ≤ dst ∧ dst ≤ 13) (h1 : 1 ≤ src1 ∧ src1 ≤ 13) (h2 : 1 ≤ src2 ∧ src2 ≤ 13)
    (hds : dst ≠ src2) (h12 : src1 ≠ src2) (h3 : User src3) (h0 : ∀ u, src3 = .imm u → cnt m32 u ≠ 0)
    (hb1 : dst ≠ src1 → dst ≠ PREF_SHIFT_REG → dependsOn src3 dst = false) (hb2 : src1 = PREF_SHIFT_REG → dst ≠ src1 → src3 ≠ .reg dst) :
    ∃ s', Emits (emitShiftInto win m32 left dst src1 src2 src3) s s' ∧
      Res win m32 s s' (some (.reg dst)) (dblV m32 left (s.r (num win src1)) (s.r (num win src2)) (cnt m32 (opv win m32 s src3))) true true := by
  have hdg : Good (.reg dst) := ⟨by omega, by omega, by omega⟩
  have h1g : Good (.reg src1) := ⟨by omega, by omega, by omega⟩
  have t1g : Good (.reg TMP_REG1) := by simp [Good, TMP_REG1]
  have dT1 : num win dst ≠ T1 win := num_ne hd.1 (by omega) (by decide) (by decide) (by unfold TMP_REG1; omega)
  have s2T1 : num win src2 ≠ T1 win := num_ne h2.1 (by omega) (by decide) (by decide) (by unfold TMP_REG1; omega)
  have s2d : num win src2 ≠ num win dst := num_ne h2.1 (by omega) hd.1 (by omega) (Ne.symm hds)
  have T11 : T1 win ≠ 1#4 := by cases win <;> decide
  have T12 : T1 win ≠ T2 win := num_ne (by decide) (by decide) (by decide) (by decide) (by decide)
  -- the count stays where it is
  have stay : ∀ src3' : Opd, (src3' = PREF ∨ ∃ u : BitVec 64, src3' = .imm u ∧ u.toNat < W m32) → (src3' = PREF → dst = PREF_SHIFT_REG → dst = src1) →
      ∃ s', Emits ((if dst ≠ src1 then emitMov win m32 (.reg dst) (.reg src1) else some []) +> emitDbl win m32 left src2 dst src3') s s' ∧
      Res win m32 s s' (some (.reg dst)) (dblV m32 left (s.r (num win src1)) (s.r (num win src2)) (cnt m32 (opv win m32 s src3'))) true true := by
    intro src3' hs hp
    have mid : ∃ c, Emits (if dst ≠ src1 then emitMov win m32 (.reg dst) (.reg src1) else some []) s c ∧ (∀ q, q ≠ num win dst → c.r q = s.r q) ∧ c.m = s.m ∧
        trunc m32 (c.r (num win dst)) = trunc m32 (s.r (num win src1)) ∧ (dst = src1 → c = s) := by
      by_cases hc : dst ≠ src1
      · rw [if_pos hc]
        obtain ⟨y, my, ry, -⟩ := e_mov (win := win) (m32 := m32) (s := s) (dst := .reg dst) (src := .reg src1) hdg rfl h1g (fun h => by cases h)
        refine ⟨y, my, fun q e => ry.regs q (fun d e' => by cases e'; exact e) (fun _ => rfl) (fun _ => rfl), by rw [ry.mem]; rfl, ?_, fun h => absurd h hc⟩
        rw [ry.val _ rfl, opv.eq_1, trunc_trunc, trunc_trunc]
      · rw [if_neg hc, not_not.1 hc]
        exact ⟨s, Emits.nil s, fun _ _ => rfl, rfl, rfl, fun _ => rfl⟩
    obtain ⟨c, mc, kc, cm, vc, sc⟩ := mid
    obtain ⟨f, d, md, rd, -⟩ := e_dbl (win := win) (m32 := m32) (s := c) (left := left) (r := src2) (t := dst) hdg (src3 := src3')
      (fun u e => by
        rcases hs with rfl | ⟨u', rfl, hu⟩
        · cases e
        · cases e; exact hu)
      (n := cnt m32 (opv win m32 s src3')) (by
        rcases hs with rfl | ⟨u', rfl, hu⟩
        · simp only [PREF]
          rw [opv.eq_1, cnt_trunc, num_pref]
          by_cases e : dst = PREF_SHIFT_REG
          · rw [sc (hp rfl e)]
          · rw [kc]; rw [← num_pref win]; exact Ne.symm (num_ne hd.1 (by omega) (by decide) (by decide) e)
        · simp only
          rw [opv.eq_2, cnt_trunc, cnt, Nat.mod_eq_of_lt hu])
    refine ⟨d, mc.cat md, fun q q1 q2 q3 => ?_, fun x hx => ?_, ?_⟩
    · have n1 := q1 dst rfl
      rw [rd.regs q (fun d e' => by cases e'; exact n1) (fun _ => rfl) (fun _ => rfl), kc q n1]
    · cases hx
      rw [rd.val _ rfl, kc _ s2d, ← (dblV_trunc m32 left (c.r _) _ _).1, vc, (dblV_trunc m32 left _ _ _).1]
    · rw [rd.mem, show wrMem win m32 c (some (.reg dst)) _ = c.m from rfl, cm]
      rfl
  have rest : ∀ src3 : Opd, User src3 → src3.isImm = false → (dst ≠ src1 → dst ≠ PREF_SHIFT_REG → dependsOn src3 dst = false) → (src1 = PREF_SHIFT_REG → dst ≠ src1 → src3 ≠ .reg dst) →
      maskCount m32 src3 = src3 →
      ∃ s', Emits (emitShiftInto win m32 left dst src1 src2 src3) s s' ∧
        Res win m32 s s' (some (.reg dst)) (dblV m32 left (s.r (num win src1)) (s.r (num win src2)) (cnt m32 (opv win m32 s src3))) true true := by
    intro src3 h3 hi hb1 hb2 hs
    unfold emitShiftInto
    simp only [hs]
    have hne : ¬ (src3 = .imm 0#64) := fun e => by rw [e] at hi; cases hi
    simp only [hne, h12, if_false, hi, Bool.false_eq_true, not_false_eq_true, true_and]
    by_cases hA : dst = PREF_SHIFT_REG ∧ (src3 ≠ PREF ∨ src1 ≠ PREF_SHIFT_REG)
    · rw [if_pos hA]
      obtain ⟨rfl, hA⟩ := hA
      obtain ⟨a, ma, ra, -⟩ := e_mov (win := win) (m32 := m32) (s := s) (dst := .reg TMP_REG1) (src := .reg src1) t1g rfl h1g (fun h => by cases h)
      have ka : ∀ q, q ≠ T1 win → a.r q = s.r q := fun q e => ra.regs q (fun d e' => by cases e'; exact e) (fun _ => rfl) (fun _ => rfl)
      have va : a.r (T1 win) = trunc m32 (s.r (num win src1)) := by rw [show T1 win = num win TMP_REG1 from rfl, ra.val _ rfl, opv.eq_1, trunc_trunc]
      have am : a.m = s.m := by rw [ra.mem]; rfl
      have oa : opv win m32 a src3 = opv win m32 s src3 := ra.opv h3.good (fun d e => by cases e; exact ⟨_, rfl, by decide, by decide, h3.uses (by decide)⟩) (fun h => by cases h) (fun h => by cases h) m32
      have mid : ∃ b, Emits (if src3 ≠ PREF then emitMov win m32 PREF src3 else some []) a b ∧ (∀ q, q ≠ 1#4 → q ≠ T2 win → b.r q = a.r q) ∧ b.m = s.m ∧
          cnt m32 (b.r 1#4) = cnt m32 (opv win m32 s src3) := by
        by_cases hc : src3 ≠ PREF
        · rw [if_pos hc]
          obtain ⟨b, mb, rb, -⟩ := e_mov (win := win) (m32 := m32) (s := a) (dst := PREF) (src := src3) good_pref rfl h3.good (fun h => by cases h)
          refine ⟨b, mb, fun q e1 e2 => rb.regs q (fun d e => by cases e; rw [num_pref]; exact e1) (fun _ => by simp [PREF, Opd.isMem]) (fun e => absurd e e2), by rw [rb.mem, ← am]; rfl, ?_⟩
          rw [← num_pref win, rb.val _ rfl, cnt_trunc, oa]
        · rw [if_neg hc]
          refine ⟨a, Emits.nil a, fun _ _ _ => rfl, am, ?_⟩
          rw [not_not.1 hc, PREF, opv.eq_1, cnt_trunc, num_pref, ka _ (Ne.symm T11)]
      obtain ⟨b, mb, kb, bm, vb⟩ := mid
      obtain ⟨f, c, mc, rc, -⟩ := e_dbl (win := win) (m32 := m32) (s := b) (left := left) (r := src2) (t := TMP_REG1) t1g (src3 := src3) (fun u e => by rw [e] at hi; cases hi)
        (n := cnt m32 (opv win m32 s src3)) (by
          cases src3 with
          | imm _ => cases hi
          | reg _ => exact vb.symm
          | mem _ _ _ => exact vb.symm)
      obtain ⟨d, md, rd, -⟩ := e_mov (win := win) (m32 := m32) (s := c) (dst := .reg PREF_SHIFT_REG) (src := .reg TMP_REG1) good_pref rfl t1g (fun h => by cases h)
      refine ⟨d, ((ma.cat mb).cat mc).cat md, fun q q1 q2 q3 => ?_, fun x hx => ?_, ?_⟩
      · have n1 := q1 _ rfl
        rw [num_pref] at n1
        have n2 : q ≠ T1 win := fun e => absurd (q2 e) (by decide)
        have n3 : q ≠ T2 win := fun e => absurd (q3 e) (by decide)
        rw [rd.regs q (fun d e' => by cases e'; rw [num_pref]; exact n1) (fun _ => rfl) (fun _ => rfl), rc.regs q (fun d e' => by cases e'; exact n2) (fun _ => rfl) (fun _ => rfl), kb q n1 n3, ka q n2]
      · cases hx
        rw [rd.val _ rfl, opv.eq_1, rc.val _ rfl, trunc_trunc, trunc_trunc, show num win TMP_REG1 = T1 win from rfl, kb _ T11 T12, va, (dblV_trunc m32 left _ _ _).1, kb, ka _ s2T1]
        · rw [← num_pref win]; exact s2d
        · exact num_ne_t2 h2.1 (by omega)
      · rw [rd.mem, show wrMem win m32 c (some (.reg PREF_SHIFT_REG)) _ = c.m from rfl, rc.mem, show wrMem win m32 b (some (.reg TMP_REG1)) _ = b.m from rfl, bm]
        rfl
    · rw [if_neg hA]
      by_cases hl : src3 = PREF
      · subst hl
        have hp : dst = PREF_SHIFT_REG → dst = src1 := fun e => by
          by_contra h
          exact hA ⟨e, Or.inr (fun e' => h (by rw [e, e']))⟩
        have hne : dst ≠ src1 → (Opd.reg dst : Opd) ≠ PREF := fun h e => h (hp (by unfold PREF at e; exact Opd.reg.inj e))
        obtain ⟨s', m', r'⟩ := stay PREF (Or.inl rfl) (fun _ => hp)
        refine ⟨s', ?_, r'⟩
        have e1 : (dst ≠ src1 ∧ (Opd.reg dst : Opd) ≠ PREF) = (dst ≠ src1) := propext ⟨fun h => h.1, fun h => ⟨h, hne h⟩⟩
        have e2 : ¬ (dst ≠ src1 ∧ (Opd.reg dst : Opd) = PREF) := fun h => hne h.1 h.2
        simp only [e1, e2, not_true, ne_eq, and_false, if_false]
        rw [cat_nil, cat_nil, cat_nil]
        rw [cat_assoc]; exact (Emits.nil s).cat m'
      · have hdp : dst ≠ PREF_SHIFT_REG := fun e => hA ⟨e, Or.inl hl⟩
        obtain ⟨s', m', r'⟩ := into_load (win := win) (m32 := m32) (s := s) (left := left) hd hdp h1 h2 hds h12 h3 hi (fun h => hb1 h hdp) (fun e => by
          by_cases h : dst = src1
          · exact absurd (h.trans e) hdp
          · exact hb2 e h)
        refine ⟨s', ?_, r'⟩
        simp only [ne_eq, hl, not_false_eq_true, and_true, if_true]
        simp only [cat_assoc]
        exact m'
  cases src3 with
  | imm u =>
    have hm := mask_cnt m32 u
    have hne : ¬ ((.imm (u &&& if m32 then 0x1f#64 else 0x3f#64) : Opd) = .imm 0#64) := fun e => h0 u rfl (by
      rw [← hm, Opd.imm.inj e]; rfl)
    unfold emitShiftInto
    simp only [maskCount, hne, h12, if_false, Opd.isImm, not_true, false_and, and_false, ne_eq, reduceCtorEq, not_false_eq_true, and_true]
    rw [cat_nil, cat_nil, cat_nil]
    obtain ⟨s', m', r'⟩ := stay (.imm (u &&& if m32 then 0x1f#64 else 0x3f#64)) (Or.inr ⟨_, rfl, by rw [hm]; exact cnt_lt m32 u⟩) (fun e => by cases e)
    refine ⟨s', by rw [cat_assoc]; exact (Emits.nil s).cat m', ?_⟩
    rw [opv.eq_2, cnt_trunc, cnt, hm, Nat.mod_eq_of_lt (cnt_lt m32 u)] at r'
    rw [opv.eq_2, cnt_trunc]
    exact r'
  | reg q => exact rest _ h3 rfl hb1 hb2 rfl
  | mem base offs w => exact rest _ h3 rfl hb1 hb2 rfl

/-- A register shifted into itself. -/
theorem dbl_self {w : Nat} (left : Bool) (a : BitVec w) {n : Nat} (hn : n < w) (f : Flags) :
    ∃ g, shiftF (if left then 0#3 else 1#3) a n f = some ((dblF left a a n ⟨none, none, none, none⟩).1, g) := by
  by_cases h0 : n = 0
  · subst h0
    refine ⟨f, ?_⟩
    cases left <;> simp [shiftF, dblF]
  · cases left
    · refine ⟨_, by
        rw [shiftF, if_neg h0]
        simp only [Bool.false_eq_true, if_false, dblF, h0]
        rw [show (1#3 : BitVec 3).toNat = 1 from rfl]
        simp only [BitVec.rotateRight_def, Nat.mod_eq_of_lt hn]
        rfl⟩
    · refine ⟨_, by
        rw [shiftF, if_neg h0]
        simp only [if_true, if_false, dblF, h0]
        rw [show (0#3 : BitVec 3).toNat = 0 from rfl]
        simp only [BitVec.rotateLeft_def, Nat.mod_eq_of_lt hn]
        rfl⟩

/-- sljit_emit_shift_into if src1 and src2 are the same and the count is not a constant zero. -/
theorem e_intoRot {left : Bool} {dst src1 : Nat} {src3 : Opd} (hd : 1 ≤ dst ∧ dst ≤ 13) (h1 : 1 ≤ src1 ∧ src1 ≤ 13) (h3 : User src3) (h0 : ∀ u, src3 = .imm u → cnt m32 u ≠ 0)
    (hal : long src3 = true → dst = PREF_SHIFT_REG ∨ dependsOn src3 dst = false) :
    ∃ s', Emits (emitShiftInto win m32 left dst src1 src1 src3) s s' ∧
      Res win m32 s s' (some (.reg dst)) (dblV m32 left (s.r (num win src1)) (s.r (num win src1)) (cnt m32 (opv win m32 s src3))) true true := by
  have hm : cnt m32 (opv win m32 s (maskCount m32 src3)) = cnt m32 (opv win m32 s src3) := by
    cases src3 with
    | imm u => rw [maskCount, opv.eq_2, opv.eq_2, cnt_trunc, cnt_trunc, cnt, mask_cnt, Nat.mod_eq_of_lt (cnt_lt m32 u)]
    | reg _ => rfl
    | mem _ _ _ => rfl
  have hne : maskCount m32 src3 ≠ .imm 0#64 := by
    cases src3 with
    | imm u => exact fun e => h0 u rfl (by rw [← mask_cnt, Opd.imm.inj e]; rfl)
    | reg _ => exact fun e => by cases e
    | mem _ _ _ => exact fun e => by cases e
  have hl : long (maskCount m32 src3) = long src3 ∧ (long src3 = true → maskCount m32 src3 = src3) := by
    cases src3 with
    | imm u => exact ⟨rfl, fun h => by cases h⟩
    | reg _ => exact ⟨rfl, fun _ => rfl⟩
    | mem _ _ _ => exact ⟨rfl, fun _ => rfl⟩
  have hu : User (maskCount m32 src3) := by
    cases src3 with
    | imm u => trivial
    | reg _ => exact h3
    | mem _ _ _ => exact h3
  unfold emitShiftInto
  simp only [hne, if_false, if_true]
  obtain ⟨g, hg⟩ := dbl_self left (lo m32 (s.r (num win src1))) (n := cnt m32 (opv win m32 s src3)) (by rw [B_W]; exact cnt_lt m32 _) s.f
  have := e_shift (win := win) (m32 := m32) (s := s) (k := if left then 0#3 else 1#3) (dst := .reg dst) (src1 := .reg src1) (src2 := maskCount m32 src3) ⟨hd.1, by omega, by omega⟩ h1 hu
    (fun u e => by
      cases src3 with
      | imm u' => cases e; rw [mask_cnt]; exact cnt_lt m32 u'
      | reg _ => cases e
      | mem _ _ _ => cases e)
    (fun h => ⟨dst, rfl, by unfold TMP_REG1; omega, by rw [hl.2 (hl.1 ▸ h)]; exact hal (hl.1 ▸ h)⟩)
    (v := dblV m32 left (s.r (num win src1)) (s.r (num win src1)) (cnt m32 (opv win m32 s src3))) (f := g) (by
      rw [opv.eq_1, shN_trunc, hm]; exact shN_of hg)
  obtain ⟨s', m', r', -⟩ := this
  refine ⟨s', ?_, r'⟩
  cases left <;> exact m'

end Verif.X86
