import Verif.X86.FlagEff

/-! # Long multiplications and divisions (helper lemmas) -/

namespace Verif.X86

variable {win m32 : Bool} {s : St}

/-- An instruction of group 3 without immediate. -/
theorem one_step {k : BitVec 3} (hk : k ≠ 0#3 ∧ k ≠ 1#3) {b : Opd} (hb : Good b) (hi : b.isImm = false) {s' : St}
    (he : execRM 0#8 (rexOf m32) 0 0xf7#8 (k.setWidth 4) (some (target win s b)) (addrOf (target win s b)) 0#64 (clob win s b) = some s') :
    Emits (one win m32 (k.setWidth 8 <<< 3) b) s s' := by
  obtain ⟨o, h⟩ := emit_reg_some (win := win) (m32 := m32) (fl := {}) rfl 0 hi
  obtain ⟨n, b', rexB, hs, g1, g2, g3, g4, g5, -⟩ := reg_inv h
  rw [(reg0 win).1] at g3
  rw [(reg0 win).2] at g4
  have hbt : btarget win {} s b = target win s b := by cases b <;> simp [btarget, target]
  refine ⟨_, by rw [one, h]; rfl, ?_⟩
  have hx : ext false k = k.setWidth 4 := (by decide : ∀ k : BitVec 3, ext false k = k.setWidth 4) k
  refine core_step (m32 := m32) (rex := o.rex) (ib := []) (imm := 0#64) (good_ok hb hi) hs (by decide) (map := 0) (op := 0xf7#8) (Or.inl rfl) (fun _ => by decide) (by decide) false k
    (fun rest => ?_) (fun rex hr _ => ?_) g3 ?_
  · have : immSize 0#8 0 0xf7#8 ((ext false k).setWidth 3) = 0 :=
      (by decide : ∀ k : BitVec 3, k ≠ 0#3 ∧ k ≠ 1#3 → immSize 0#8 0 0xf7#8 ((ext false k).setWidth 3) = 0) k hk
    rw [show ({} : Ins).pref = 0#8 from rfl, this, List.nil_append, sle_zero]
  · rw [hbt, show ({} : Ins).pref = 0#8 from rfl, execRM_nb hr (fun _ => by decide) (fun h => by cases h), hx]
    exact he
  · simp only [Out.bytes, Out.body, Out.op, Out.or, g1, g2, g4, g5, if_false, Bool.false_eq_true, opBytes, Nat.zero_ne_one, List.append_assoc, List.cons_append, List.nil_append, List.append_nil]
    rw [BitVec.or_comm, show (0#3 : BitVec 3).setWidth 8 <<< 3 = 0#8 by decide, BitVec.zero_or]

/-- The register which is mapped to rdx. -/
def RD (win : Bool) : Nat := if win then R1 else TMP_REG1
/-- The divisor. -/
def DV (win : Bool) : Nat := if win then TMP_REG1 else R1

theorem rd_num (win : Bool) : num win (RD win) = 2#4 ∧ num win R0 = 0#4 ∧ num win (DV win) ≠ 0#4 ∧ num win (DV win) ≠ 2#4 ∧ Good (.reg (RD win)) ∧ Good (.reg (DV win)) ∧ Good (.reg R1) ∧
    num win R1 ≠ 0#4 ∧ (win = false → num win R1 ≠ 2#4) := by
  cases win <;> (refine ⟨by decide, by decide, by decide, by decide, ?_, ?_, ?_, by decide, by decide⟩ <;> simp [Good, RD, DV, TMP_REG1, R1])

/-- The upper half of the dividend: zero or the sign. -/
def hiCode (win m32 signed : Bool) : Code :=
  if signed then some (if ¬ m32 then [REX_W, 0x99#8] else [0x99#8]) else ins win m32 {} (.reg (RD win)) (.reg (RD win)) [XOR.rm]

/-- The upper half of a dividend. -/
def hiOf {w : Nat} (signed : Bool) (a : BitVec w) : BitVec w := if signed ∧ a.msb then BitVec.allOnes w else 0#w

theorem e_hi {signed : Bool} : ∃ s', Emits (hiCode win m32 signed) s s' ∧ lo m32 (s'.r 2#4) = hiOf signed (lo m32 (s.r 0#4)) ∧ (∀ q, q ≠ 2#4 → s'.r q = s.r q) ∧ s'.m = s.m := by
  obtain ⟨n1, n2, n3, n4, n5, n6, -⟩ := rd_num win
  unfold hiCode
  cases signed
  · obtain ⟨t0, t1, t2, t3, t4, t5, t6, t7⟩ := binOf_table
    rw [if_neg (by decide), t6]
    have ha : aluN m32 6#3 (s.r (num win (RD win))) (opv win m32 s (.reg (RD win))) s.f = some (up m32 (lo m32 (s.r 2#4) ^^^ lo m32 (s.r 2#4)), (logF (lo m32 (s.r 2#4) ^^^ lo m32 (s.r 2#4))).2) := by
      rw [opv, (aluN_trunc m32 _ _ _ _).2, n1]
      exact aluN_of rfl
    obtain ⟨s', e, r, -⟩ := e_rm (win := win) (m32 := m32) (s := s) (i := 6#3) n5 rfl (fun h => by cases h) ha
    refine ⟨s', e, ?_, fun q hq => ?_, r.mem⟩
    · rw [← n1, r.val _ rfl, lo_trunc, lo_up, BitVec.xor_self]
      simp [hiOf]
    · refine r.regs q (fun d e => ?_) (fun _ => rfl) (fun _ => rfl)
      cases e
      rw [n1]; exact hq
  · rw [if_pos rfl]
    have hp : ∀ rest, parse ((if ¬ m32 then [REX_W, 0x99#8] else [0x99#8]) ++ rest) = some (.short 0#8 (if m32 then 0#8 else 0x48#8) 0 0x99#8 0#64, rest) := by
      intro rest
      cases m32 <;> rfl
    refine ⟨_, ⟨_, rfl, Steps.one _ hp (s' := put s (NB m32) (if (lo m32 (s.r 0#4)).msb then BitVec.allOnes 64 else 0#64) (.reg 2#4)) ?_⟩, ?_, fun q hq => ?_, rfl⟩
    · cases m32 <;> rfl
    · rw [put_reg]
      simp only [St.set, if_true, hiOf, true_and]
      rw [lo_trunc]
      cases hm : (lo m32 (s.r 0#4)).msb <;> cases m32 <;> decide
    · rw [put_reg]; simp only [St.set, hq, if_false]

/-- DIV and IDIV. -/
theorem e_div {signed : Bool} {q r : BitVec (B m32)} {hi a b : BitVec (B m32)} (h1 : lo m32 (s.r 2#4) = hi) (h2 : lo m32 (s.r 0#4) = a) (h3 : lo m32 (s.r (num win (DV win))) = b)
    (hq : divWide signed hi a b = some (q, r)) :
    Emits (one win m32 ((if signed then 7#3 else 6#3 : BitVec 3).setWidth 8 <<< 3) (.reg (DV win))) s
      { (s.set 0#4 (up m32 q)).set 2#4 (up m32 r) with f := ⟨none, none, none, none⟩ } := by
  obtain ⟨n1, n2, n3, n4, n5, n6, -⟩ := rd_num win
  refine one_step (by cases signed <;> decide) n6 rfl ?_
  subst h1 h2 h3
  have hn : opSize 0#8 (rexOf m32) = NB m32 := opSize_rex (by cases m32 <;> decide)
  have hd : ((get s (NB m32) (.reg (num win (DV win)))).setWidth (8 * NB m32)) = lo m32 (s.r (num win (DV win))) := by rw [get_reg]; exact lo_trunc _ _
  have e : execRM 0#8 (rexOf m32) 0 0xf7#8 ((if signed then 7#3 else 6#3 : BitVec 3).setWidth 4) (some (.reg (num win (DV win)))) none 0#64 s =
      (divWide signed (lo m32 (s.r 2#4)) (lo m32 (s.r 0#4)) ((get s (NB m32) (.reg (num win (DV win)))).setWidth (8 * NB m32))).map fun (q, r) =>
        { put (put s (NB m32) (q.setWidth 64) (.reg 0#4)) (NB m32) (r.setWidth 64) (.reg 2#4) with f := ⟨none, none, none, none⟩ } := by
    cases m32 <;> cases signed <;> rfl
  have e' : execRM 0#8 (rexOf m32) 0 0xf7#8 ((if signed then 7#3 else 6#3 : BitVec 3).setWidth 4) (some (target win s (.reg (DV win)))) (addrOf (target win s (.reg (DV win)))) 0#64 (clob win s (.reg (DV win))) =
      execRM 0#8 (rexOf m32) 0 0xf7#8 ((if signed then 7#3 else 6#3 : BitVec 3).setWidth 4) (some (.reg (num win (DV win)))) none 0#64 s := rfl
  rw [e', e, hd, hq]
  simp only [Option.map_some]
  rw [put_reg, put_reg]
  have hu : ∀ x : BitVec (B m32), trunc m32 (x.setWidth 64) = up m32 x := fun x => trunc_upv m32 x
  rw [hu, hu]

/-- MUL and IMUL. -/
theorem e_mulWide {signed : Bool} : ∃ f, Emits (one win false ((if signed then 5#3 else 4#3 : BitVec 3).setWidth 8 <<< 3) (.reg R1)) s
    { (s.set 0#4 (mulWide signed (s.r 0#4) (s.r (num win R1))).1).set 2#4 (mulWide signed (s.r 0#4) (s.r (num win R1))).2.1 with f := f } := by
  obtain ⟨n1, n2, n3, n4, n5, n6, n7, -⟩ := rd_num win
  refine ⟨⟨some (mulWide signed (s.r 0#4) (s.r (num win R1))).2.2, none, none, some (mulWide signed (s.r 0#4) (s.r (num win R1))).2.2⟩, one_step (by cases signed <;> decide) n7 rfl ?_⟩
  have e : execRM 0#8 (rexOf false) 0 0xf7#8 ((if signed then 5#3 else 4#3 : BitVec 3).setWidth 4) (some (target win s (.reg R1))) (addrOf (target win s (.reg R1))) 0#64 (clob win s (.reg R1)) =
      some { put (put s 8 ((mulWide signed ((s.r 0#4).setWidth 64) ((get s 8 (.reg (num win R1))).setWidth 64)).1.setWidth 64) (.reg 0#4)) 8
        ((mulWide signed ((s.r 0#4).setWidth 64) ((get s 8 (.reg (num win R1))).setWidth 64)).2.1.setWidth 64) (.reg 2#4) with
        f := ⟨some (mulWide signed ((s.r 0#4).setWidth 64) ((get s 8 (.reg (num win R1))).setWidth 64)).2.2, none, none,
          some (mulWide signed ((s.r 0#4).setWidth 64) ((get s 8 (.reg (num win R1))).setWidth 64)).2.2⟩ } := by
    cases signed <;> rfl
  rw [e]
  have hg : get s 8 (.reg (num win R1)) = s.r (num win R1) := get_reg false s _
  have hp : ∀ (t : St) r v, put t 8 v (.reg r) = t.set r v := fun t r v => put_reg false t r v
  rw [hp, hp, hg]
  simp only [BitVec.setWidth_eq]

/-! ## The sequences -/

/-- What the operations change. -/
structure Out0 (win : Bool) (s s' : St) : Prop where
  regs : ∀ q, q ≠ num win R0 → q ≠ num win R1 → q ≠ T1 win → s'.r q = s.r q
  mem : s'.m = s.m

theorem code_mul : ∀ win signed : Bool, emitOp0 win (if signed then .lmulSw else .lmulUw) false =
    (one win false ((if signed then 5#3 else 4#3 : BitVec 3).setWidth 8 <<< 3) (.reg R1) +> if win then some [] else emitMov win false (.reg R1) (.reg TMP_REG1)) := by decide +kernel

/-- The operations with a division. -/
def divOp (signed mod : Bool) : RV.Op0 := if mod then (if signed then .divmodSw else .divmodUw) else if signed then .divSw else .divUw

theorem code_div : ∀ win is32 signed mod : Bool, emitOp0 win (divOp signed mod) is32 =
    ((if win then emitMov win is32 (.reg TMP_REG1) (.reg R1) else some []) +> (hiCode win is32 signed +> (one win is32 ((if signed then 7#3 else 6#3 : BitVec 3).setWidth 8 <<< 3) (.reg (DV win)) +>
      if win = mod then some [] else emitMov win is32 (.reg R1) (.reg TMP_REG1)))) := by decide +kernel

theorem e_lmul {signed : Bool} : ∃ s', Emits (emitOp0 win (if signed then .lmulSw else .lmulUw) false) s s' ∧ Out0 win s s' ∧
    s'.r (num win R0) = (mulWide signed (s.r (num win R0)) (s.r (num win R1))).1 ∧ s'.r (num win R1) = (mulWide signed (s.r (num win R0)) (s.r (num win R1))).2.1 := by
  obtain ⟨n1, n2, n3, n4, n5, n6, n7, n8, n9⟩ := rd_num win
  rw [code_mul]
  obtain ⟨f, e⟩ := e_mulWide (win := win) (s := s) (signed := signed)
  rw [n2]
  cases win
  · simp only [Bool.false_eq_true, if_false]
    obtain ⟨s2, e2, r2, -⟩ := e_mov (win := false) (m32 := false)
      (s := { (s.set 0#4 (mulWide signed (s.r 0#4) (s.r (num false R1))).1).set 2#4 (mulWide signed (s.r 0#4) (s.r (num false R1))).2.1 with f := f })
      (dst := .reg R1) (src := .reg TMP_REG1) n7 rfl good_t1 (fun h => by cases h)
    have hT : num false TMP_REG1 = 2#4 := n1
    refine ⟨s2, e.cat e2, ⟨fun q h0 h1 h2 => ?_, r2.mem⟩, ?_, ?_⟩
    · rw [r2.regs q (fun d e => by cases e; exact h1) (fun _ => rfl) (fun _ => rfl)]
      rw [n2] at h0
      have h2 : q ≠ 2#4 := by rw [← hT]; exact h2
      simp only [St.set, h0, h2, if_false]
    · rw [r2.regs _ (fun d e => by cases e; exact fun h => n8 h.symm) (fun _ => rfl) (fun _ => rfl)]
      simp [St.set]
    · rw [r2.val _ rfl, opv, hT]
      simp only [St.set, if_true]
      rfl
  · simp only [if_true, cat_nil]
    have hT : num true R1 = 2#4 := n1
    refine ⟨_, e, ⟨fun q h0 h1 _ => ?_, rfl⟩, ?_, ?_⟩
    · rw [n2] at h0
      rw [hT] at h1
      simp only [St.set, h0, h1, if_false]
    · simp [St.set]
    · rw [hT]; simp [St.set]

set_option maxHeartbeats 800000 in
theorem e_divide {signed mod : Bool} {q r : BitVec (B m32)} (hq : divWide signed (hiOf signed (lo m32 (s.r (num win R0)))) (lo m32 (s.r (num win R0))) (lo m32 (s.r (num win R1))) = some (q, r)) :
    ∃ s', Emits (emitOp0 win (divOp signed mod) m32) s s' ∧ Out0 win s s' ∧ lo m32 (s'.r (num win R0)) = q ∧
      if mod then lo m32 (s'.r (num win R1)) = r else (lo m32 (s'.r (num win R1)) = lo m32 (s.r (num win R1)) ∧ (win = false ∨ m32 = false → s'.r (num win R1) = s.r (num win R1))) := by
  obtain ⟨n1, n2, n3, n4, n5, n6, n7, n8, n9⟩ := rd_num win
  rw [code_div]
  rw [n2] at hq ⊢
  cases win
  · -- System V: rdx is TMP_REG1
    have hT : num false TMP_REG1 = 2#4 := n1
    have hD : num false (DV false) = num false R1 := rfl
    simp only [Bool.false_eq_true, if_false, cat_none]
    obtain ⟨s1, e1, v1, k1, m1⟩ := e_hi (win := false) (m32 := m32) (s := s) (signed := signed)
    have hb : lo m32 (s1.r (num false (DV false))) = lo m32 (s.r (num false R1)) := by rw [k1 _ n4, hD]
    have ha : lo m32 (s1.r 0#4) = lo m32 (s.r 0#4) := by rw [k1 _ (by decide)]
    have e2 := e_div (win := false) (m32 := m32) (s := s1) (signed := signed) v1 ha hb hq
    cases mod
    · simp only [if_true, cat_nil, Bool.false_eq_true, if_false]
      refine ⟨_, e1.cat e2, ⟨fun x h0 h1 h2 => ?_, m1⟩, ?_, ?_⟩
      · rw [n2] at h0
        have h2 : x ≠ 2#4 := by rw [← hT]; exact h2
        simp only [St.set, h0, h2, if_false]; exact k1 x h2
      · simp [St.set, lo_up]
      · have : (({ (s1.set 0#4 (up m32 q)).set 2#4 (up m32 r) with f := (⟨none, none, none, none⟩ : Flags) } : St)).r (num false R1) = s.r (num false R1) := by
          simp only [St.set, n8, n9 rfl, if_false]; exact k1 _ (n9 rfl)
        exact ⟨by rw [this], fun _ => this⟩
    · simp only [Bool.false_eq_true, if_false, if_true]
      obtain ⟨s3, e3, r3, -⟩ := e_mov (win := false) (m32 := m32) (s := { (s1.set 0#4 (up m32 q)).set 2#4 (up m32 r) with f := ⟨none, none, none, none⟩ })
        (dst := .reg R1) (src := .reg TMP_REG1) n7 rfl good_t1 (fun h => by cases h)
      refine ⟨s3, e1.cat (e2.cat e3), ⟨fun x h0 h1 h2 => ?_, r3.mem.trans m1⟩, ?_, ?_⟩
      · rw [r3.regs x (fun d e => by cases e; exact h1) (fun _ => rfl) (fun _ => rfl)]
        rw [n2] at h0
        have h2 : x ≠ 2#4 := by rw [← hT]; exact h2
        simp only [St.set, h0, h2, if_false]; exact k1 x h2
      · rw [r3.regs _ (fun d e => by cases e; exact fun h => n8 h.symm) (fun _ => rfl) (fun _ => rfl)]
        simp [St.set, lo_up]
      · rw [r3.val _ rfl, opv, hT, lo_trunc, lo_trunc]
        simp only [St.set, if_true, lo_up]
  · -- Windows: rdx is SLJIT_R1
    have hT : num true R1 = 2#4 := n1
    simp only [if_true]
    obtain ⟨s0, e0, r0, -⟩ := e_mov (win := true) (m32 := m32) (s := s) (dst := .reg TMP_REG1) (src := .reg R1) good_t1 rfl n7 (fun h => by cases h)
    obtain ⟨s1, e1, v1, k1, m1⟩ := e_hi (win := true) (m32 := m32) (s := s0) (signed := signed)
    have k0 : ∀ x, x ≠ T1 true → s0.r x = s.r x := fun x hx => r0.regs x (fun d e => by cases e; exact hx) (fun _ => rfl) (fun _ => rfl)
    have a0 : s0.r 0#4 = s.r 0#4 := k0 _ (by decide)
    have d0 : s0.r (num true TMP_REG1) = trunc m32 (s.r (num true R1)) := by rw [r0.val _ rfl, opv, trunc_trunc]
    have d1 : s1.r (num true TMP_REG1) = trunc m32 (s.r (num true R1)) := by rw [k1 _ (by decide), d0]
    have hb : lo m32 (s1.r (num true (DV true))) = lo m32 (s.r (num true R1)) := by
      show lo m32 (s1.r (num true TMP_REG1)) = _
      rw [d1, lo_trunc]
    have ha : lo m32 (s1.r 0#4) = lo m32 (s.r 0#4) := by rw [k1 _ (by decide), a0]
    rw [a0] at v1
    have e2 := e_div (win := true) (m32 := m32) (s := s1) (signed := signed) v1 ha hb hq
    cases mod
    · simp only [Bool.true_eq_false, if_false, Bool.false_eq_true]
      obtain ⟨s3, e3, r3, -⟩ := e_mov (win := true) (m32 := m32) (s := { (s1.set 0#4 (up m32 q)).set 2#4 (up m32 r) with f := ⟨none, none, none, none⟩ })
        (dst := .reg R1) (src := .reg TMP_REG1) n7 rfl good_t1 (fun h => by cases h)
      have hv : s3.r (num true R1) = trunc m32 (s.r (num true R1)) := by
        rw [r3.val _ rfl, opv, trunc_trunc]
        simp only [St.set, show num true TMP_REG1 ≠ 2#4 by decide, show num true TMP_REG1 ≠ 0#4 by decide, if_false, d1, trunc_trunc]
      refine ⟨s3, e0.cat (e1.cat (e2.cat e3)), ⟨fun x h0 h1 h2 => ?_, r3.mem.trans (m1.trans r0.mem)⟩, ?_, ?_, ?_⟩
      · rw [r3.regs x (fun d e => by cases e; exact h1) (fun _ => rfl) (fun _ => rfl)]
        rw [n2] at h0
        rw [hT] at h1
        simp only [St.set, h0, h1, if_false]; rw [k1 x h1]; exact k0 x h2
      · rw [r3.regs _ (fun d e => by cases e; exact fun h => n8 h.symm) (fun _ => rfl) (fun _ => rfl)]
        simp [St.set, lo_up]
      · rw [hv, lo_trunc]
      · intro h
        rcases h with h | h
        · cases h
        · subst h; exact hv
    · simp only [if_true, cat_nil]
      refine ⟨_, e0.cat (e1.cat e2), ⟨fun x h0 h1 h2 => ?_, m1.trans r0.mem⟩, ?_, ?_⟩
      · rw [n2] at h0
        rw [hT] at h1
        simp only [St.set, h0, h1, if_false]; rw [k1 x h1]; exact k0 x h2
      · simp [St.set, lo_up]
      · rw [hT]; simp [St.set, lo_up]

/-! ## Numbers -/

theorem mul_u (a b : BitVec 64) : (mulWide false a b).2.1.toNat * 2 ^ 64 + (mulWide false a b).1.toNat = a.toNat * b.toNat := by
  have h3 : a.toNat * b.toNat < 2 ^ 128 := Nat.lt_of_lt_of_le (Nat.mul_lt_mul'' a.isLt b.isLt) (by decide)
  simp only [mulWide, Bool.false_eq_true, if_false, BitVec.extractLsb'_toNat, BitVec.toNat_ofNat, Nat.shiftRight_zero, Nat.shiftRight_eq_div_pow]
  generalize a.toNat * b.toNat = p at *
  omega

theorem halves (p : BitVec 128) : (p.extractLsb' 64 64).toInt * 2 ^ 64 + (p.extractLsb' 0 64).toNat = p.toInt := by
  have h := p.isLt
  rw [BitVec.toInt_eq_toNat_cond, BitVec.toInt_eq_toNat_cond (x := p), BitVec.extractLsb'_toNat, BitVec.extractLsb'_toNat, Nat.shiftRight_zero, Nat.shiftRight_eq_div_pow]
  generalize p.toNat = n at h ⊢
  split <;> split <;> omega

theorem mul_s (a b : BitVec 64) : (mulWide true a b).2.1.toInt * 2 ^ 64 + (mulWide true a b).1.toNat = a.toInt * b.toInt := by
  have h1 := BitVec.toInt_mul_toInt_le (x := a) (y := b)
  have h2 := BitVec.le_toInt_mul_toInt (x := a) (y := b)
  have h := halves (BitVec.ofInt 128 (a.toInt * b.toInt))
  have e : (BitVec.ofInt 128 (a.toInt * b.toInt)).toInt = a.toInt * b.toInt := by
    rw [BitVec.toInt_ofInt]
    refine Int.bmod_eq_of_le ?_ ?_ <;> (simp at h1 h2 ⊢; omega)
  rw [e] at h
  exact h

theorem div_u {w : Nat} (a b : BitVec w) (hb : b ≠ 0#w) : ∃ q r, divWide false (hiOf false a) a b = some (q, r) ∧ q.toNat = a.toNat / b.toNat ∧ r.toNat = a.toNat % b.toNat := by
  have h : a.toNat / b.toNat < 2 ^ w := Nat.lt_of_le_of_lt (Nat.div_le_self _ _) a.isLt
  have h' : a.toNat % b.toNat < 2 ^ w := Nat.lt_of_le_of_lt (Nat.mod_le _ _) a.isLt
  refine ⟨BitVec.ofNat w (a.toNat / b.toNat), BitVec.ofNat w (a.toNat % b.toNat), ?_, ?_, ?_⟩
  · simp only [divWide, hb, if_false, Bool.false_eq_true, hiOf, false_and, BitVec.toNat_ofNat, Nat.zero_mod, Nat.zero_mul, Nat.zero_add]
    rw [if_neg (by omega)]
  · rw [BitVec.toNat_ofNat, Nat.mod_eq_of_lt h]
  · rw [BitVec.toNat_ofNat, Nat.mod_eq_of_lt h']

theorem hi_s {w : Nat} (hw : 0 < w) (a : BitVec w) : (hiOf true a).toInt * 2 ^ w + a.toNat = a.toInt := by
  rw [hiOf, BitVec.toInt_eq_msb_cond (x := a)]
  cases hm : a.msb
  · simp
  · simp only [and_self, if_true, BitVec.toInt_allOnes, hw, Nat.cast_pow, Nat.cast_ofNat]; omega

theorem div_s {w : Nat} (hn : 0 < w) (a b : BitVec w) (hb : b ≠ 0#w) (h : ¬ (a = BitVec.intMin w ∧ b.toInt = -1)) :
    ∃ q r, divWide true (hiOf true a) a b = some (q, r) ∧ q.toInt = a.toInt.tdiv b.toInt ∧ r.toInt = a.toInt.tmod b.toInt := by
  have hb0 : b.toInt ≠ 0 := fun e => hb (BitVec.eq_of_toInt_eq (by rw [e]; simp))
  have h1 := BitVec.toInt_lt (x := a)
  have h2 := BitVec.le_toInt (x := a)
  have h3 := BitVec.toInt_lt (x := b)
  have h4 := BitVec.le_toInt (x := b)
  have e2 : (2 : Int) ^ w = 2 * 2 ^ (w - 1) := by
    rw [show w = (w - 1) + 1 by omega, Int.pow_succ]; simp [Int.mul_comm]
  have hp : (0 : Int) < 2 ^ (w - 1) := Int.pow_pos (by decide)
  have hq : -2 ^ (w - 1) ≤ a.toInt.tdiv b.toInt ∧ a.toInt.tdiv b.toInt < 2 ^ (w - 1) := by
    have hle := Int.natAbs_tdiv_le_natAbs a.toInt b.toInt
    by_cases hm : b.toInt = -1
    · rw [hm, Int.tdiv_neg, Int.tdiv_one]
      have : a.toInt ≠ -2 ^ (w - 1) := fun e => h ⟨by
        apply BitVec.eq_of_toInt_eq
        rw [e, BitVec.toInt_intMin_of_pos hn], hm⟩
      omega
    · by_cases hone : b.toInt = 1
      · rw [hone, Int.tdiv_one]; exact ⟨h2, h1⟩
      · have : (a.toInt.tdiv b.toInt).natAbs ≤ a.toInt.natAbs / 2 := by
          rw [Int.natAbs_tdiv]
          exact Nat.div_le_div_left (by omega) (by decide)
        omega
  have hr : (a.toInt.tmod b.toInt).natAbs < b.toInt.natAbs := by
    rw [Int.natAbs_tmod]; exact Nat.mod_lt _ (by omega)
  refine ⟨BitVec.ofInt w (a.toInt.tdiv b.toInt), BitVec.ofInt w (a.toInt.tmod b.toInt), ?_, ?_, ?_⟩
  · simp only [divWide, hb, if_false, if_true, hi_s hn]
    rw [if_neg (by omega)]
  · rw [BitVec.toInt_ofInt]
    refine Int.bmod_eq_of_le ?_ ?_ <;> (push_cast; omega)
  · rw [BitVec.toInt_ofInt]
    refine Int.bmod_eq_of_le ?_ ?_ <;> (push_cast; omega)

end Verif.X86
