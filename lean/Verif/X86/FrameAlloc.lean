import Verif.X86.FrameEff

/-! # Allocating the locals and releasing the frame (helper lemmas) -/

namespace Verif.X86

variable {win : Bool} {s : St}

/-- The stack pointer is changed; on Windows the temporaries too. -/
structure Alloc (win : Bool) (s s' : St) (v : BitVec 64) : Prop where
  sp : s'.r 4#4 = v
  regs : ∀ q, q ≠ 4#4 → (win = true → q ≠ T1 win ∧ q ≠ T2 win) → s'.r q = s.r q
  mem : s'.m = s.m

theorem SpTo.alloc {s' : St} {v : BitVec 64} (h : SpTo s s' v) : Alloc win s s' v := ⟨h.sp, fun q hq _ => h.regs q hq, h.mem⟩

theorem Alloc.trans {s t u : St} {v w : BitVec 64} (h1 : Alloc win s t v) (h2 : Alloc win t u w) : Alloc win s u w :=
  ⟨h2.sp, fun q h h' => (h2.regs q h h').trans (h1.regs q h h'), h2.mem.trans h1.mem⟩

theorem e_touch {reg v : Nat} (hr : reg = TMP_REG1 ∨ reg = TMP_REG2) (hv : v < 2 ^ 31) : ∃ s', Emits (touch true reg v) s s' ∧ (∀ q, q ≠ num true reg → s'.r q = s.r q) ∧ s'.m = s.m := by
  obtain ⟨s', h1, h2, -⟩ := e_mov (win := true) (m32 := false) (s := s) (dst := .reg reg) (src := .mem SP 0 (- BitVec.ofNat 64 v)) (by rcases hr with rfl | rfl <;> exact ⟨by decide, by decide, by decide⟩) rfl
    ⟨by decide, by decide, fun h => absurd rfl h⟩ (fun h => by cases h)
  refine ⟨s', h1, fun q hq => h2.regs q (fun x e => by cases e; exact hq) (fun _ => rfl) (fun _ => ?_), h2.mem⟩
  simp [long, half_neg hv]

theorem touch_alloc {reg v : Nat} (hr : reg = TMP_REG1 ∨ reg = TMP_REG2) (hv : v < 2 ^ 31) : ∃ s', Emits (touch true reg v) s s' ∧ Alloc true s s' (s.r 4#4) := by
  obtain ⟨s', h1, h2, h3⟩ := e_touch (s := s) hr hv
  refine ⟨s', h1, h2 _ (by rcases hr with rfl | rfl <;> decide), fun q _ hq => h2 q ?_, h3⟩
  rcases hr with rfl | rfl
  · exact (hq rfl).1
  · exact (hq rfl).2

/-- The bytes of the loop. -/
def loopBytes : List Byte :=
  [0x4c#8, 0x8b#8, 0x94#8, 0x24#8, 0x00#8, 0xf0#8, 0xff#8, 0xff#8] ++ ([0x48#8, 0x81#8, 0xec#8, 0x00#8, 0x10#8, 0x00#8, 0x00#8] ++ ([0x49#8, 0x83#8, 0xe9#8, 0x01#8] ++ [0x75#8, -21#8]))

theorem code1 : touch true TMP_REG2 4096 = some [0x4c#8, 0x8b#8, 0x94#8, 0x24#8, 0x00#8, 0xf0#8, 0xff#8, 0xff#8] := by decide +kernel
theorem code2 : spImm true SUB 4096 = some [0x48#8, 0x81#8, 0xec#8, 0x00#8, 0x10#8, 0x00#8, 0x00#8] := by decide +kernel
theorem code3 : insOr true false { binIns := true } (.imm 1#64) (.reg TMP_REG1) SUB.imm = some [0x49#8, 0x83#8, 0xe9#8, 0x01#8] := by decide +kernel

theorem Emits.steps {bs : List Byte} {s s' : St} (h : Emits (some bs) s s') : Steps bs s s' := by
  obtain ⟨x, e, h⟩ := h
  rwa [← Option.some.inj e] at h

/-- One round. -/
theorem loop_round {j : BitVec 64} (hj : s.r (T1 true) = j) :
    ∃ s', (∀ c a, BytesAt c a loopBytes → PSteps c ⟨s, a⟩ ⟨s', if j = 1#64 then a + 21#64 else a⟩) ∧ Alloc true s s' (s.r 4#4 - 4096#64) ∧ s'.r (T1 true) = j - 1#64 := by
  obtain ⟨s1, e1, r1, m1⟩ := e_touch (s := s) (reg := TMP_REG2) (v := 4096) (Or.inr rfl) (by decide)
  obtain ⟨s2, e2, g2⟩ := e_spSub (win := true) (s := s1) (n := 4096) (by decide)
  obtain ⟨s3, e3, v3, r3, m3, f3⟩ := e_imm (win := true) (s := s2) (r := TMP_REG1) (i := 5#3) (u := 1#64) (by decide) (by decide) (alu_sub _ _ _)
  rw [code1] at e1
  rw [code2] at e2
  rw [show (binOf 5#3).imm = SUB.imm from rfl, code3] at e3
  have ht : s2.r (num true TMP_REG1) = j := by rw [g2.regs _ (by decide), r1 _ (by decide)]; exact hj
  rw [ht] at v3 f3
  have hz : ccF (fld 0x85#8 0 4) s3.f = some (!decide (j = 1#64)) := by
    rw [f3]
    have e : (j - 1#64 == 0#64) = decide (j = 1#64) := by
      rw [Bool.eq_iff_iff, beq_iff_eq, decide_eq_true_iff, BitVec.sub_eq_iff_eq_add]; simp
    simp only [ccF, subF, zs]
    simp [e, fld]
  have e' : s1.r 4#4 = s.r 4#4 := r1 _ (by decide)
  refine ⟨s3, fun c a hb => ?_, ⟨?_, fun q h1 h2 => ?_, ?_⟩, v3⟩
  · unfold loopBytes at hb
    rw [BytesAt.append, BytesAt.append, BytesAt.append] at hb
    obtain ⟨b1, b2, b3, b4⟩ := hb
    have p3 := ((e1.steps.psteps b1).trans (e2.steps.psteps b2)).trans (e3.steps.psteps b3)
    refine p3.trans (PSteps.one (?_ : step c _ = some _))
    have hs := jcc8_step (p := ⟨s3, a + BitVec.ofNat 64 8 + BitVec.ofNat 64 7 + BitVec.ofNat 64 4⟩) (op := 0x85#8) (d := -21#64) (by decide) (c := c) ?_ (by decide) hz
    · rw [show (a + BitVec.ofNat 64 8 + BitVec.ofNat 64 7 + BitVec.ofNat 64 4 : BitVec 64) = a + 19#64 by simp only [BitVec.add_assoc]; rfl] at hs
      refine Eq.trans ?_ (hs.trans ?_)
      · congr 2; simp only [BitVec.add_assoc]; rfl
      · congr 2
        by_cases hj : j = 1#64
        · simp only [hj, decide_true, Bool.not_true, Bool.false_eq_true, if_false, if_true, BitVec.add_assoc]; rfl
        · simp only [hj, decide_false, Bool.not_false, if_true, if_false, BitVec.add_assoc]
          show a + 0#64 = a
          simp
    · exact b4
  · rw [r3 _ (by decide), g2.sp, e']
  · rw [r3 _ (h2 rfl).1, g2.regs _ h1, r1 _ (h2 rfl).2]
  · rw [m3, g2.mem, m1]

theorem loop_ok : ∀ (j : Nat) (s : St), j + 1 < 2 ^ 32 → s.r (T1 true) = BitVec.ofNat 64 (j + 1) →
    ∃ s', (∀ c a, BytesAt c a loopBytes → PSteps c ⟨s, a⟩ ⟨s', a + 21#64⟩) ∧ Alloc true s s' (s.r 4#4 - BitVec.ofNat 64 (4096 * (j + 1)))
  | 0, s, _, h => by
    obtain ⟨s', h1, h2, -⟩ := loop_round h
    exact ⟨s', h1, h2⟩
  | j + 1, s, hj, h => by
    obtain ⟨s', h1, h2, h3⟩ := loop_round h
    have hne : BitVec.ofNat 64 (j + 1 + 1) ≠ 1#64 := fun e => by
      have := congrArg BitVec.toNat e
      rw [BitVec.toNat_ofNat, Nat.mod_eq_of_lt (by omega)] at this
      simp at this
    rw [show BitVec.ofNat 64 (j + 1 + 1) - 1#64 = BitVec.ofNat 64 (j + 1) by rw [BitVec.ofNat_add, BitVec.add_sub_cancel]] at h3
    obtain ⟨s'', g1, g2⟩ := loop_ok j s' (by omega) h3
    refine ⟨s'', fun c a hb => ?_, ?_⟩
    · have := h1 c a hb
      rw [if_neg hne] at this
      exact this.trans (g1 c a hb)
    have := h2.trans g2
    rw [h2.sp] at this
    have e : s.r 4#4 - 4096#64 - BitVec.ofNat 64 (4096 * (j + 1)) = s.r 4#4 - BitVec.ofNat 64 (4096 * (j + 1 + 1)) := by
      rw [show 4096 * (j + 1 + 1) = 4096 + 4096 * (j + 1) by omega, BitVec.ofNat_add 4096]
      generalize BitVec.ofNat 64 (4096 * (j + 1)) = x
      simp only [BitVec.sub_eq_add_neg, BitVec.neg_add, BitVec.add_assoc]
    rwa [e] at this

theorem touchLoop_ok {n : Nat} (h0 : 4096 ≤ n) (hn : n < 2 ^ 31) : ∃ s', Runs (touchLoop true n) s s' ∧ Alloc true s s' (s.r 4#4 - BitVec.ofNat 64 (4096 * (n / 4096))) := by
  obtain ⟨s1, e1, h2, -⟩ := e_mov (win := true) (m32 := false) (s := s) (dst := .reg TMP_REG1) (src := .imm (BitVec.ofNat 64 (n / 4096))) ⟨by decide, by decide, by decide⟩ rfl trivial (fun h => by cases h)
  have hv : s1.r (T1 true) = BitVec.ofNat 64 (n / 4096 - 1 + 1) := by
    rw [show n / 4096 - 1 + 1 = n / 4096 by omega]
    exact h2.val TMP_REG1 rfl
  have h4 : s1.r 4#4 = s.r 4#4 := h2.regs _ (fun d e => by cases e; decide) (fun _ => rfl) (fun _ => rfl)
  obtain ⟨s', g1, g2⟩ := loop_ok (n / 4096 - 1) s1 (by omega) hv
  rw [h4, show n / 4096 - 1 + 1 = n / 4096 by omega] at g2
  refine ⟨s', Runs.cat e1.runs ⟨loopBytes, ?_, g1⟩, ⟨g2.sp, fun q a b => ?_, g2.mem.trans h2.mem⟩⟩
  · rw [code1, code2, code3]; rfl
  · rw [g2.regs q a b]
    exact h2.regs q (fun d e => by cases e; exact (b rfl).1) (fun _ => rfl) (fun _ => rfl)

theorem touch_if {reg v : Nat} {b : Prop} [Decidable b] (hr : reg = TMP_REG1 ∨ reg = TMP_REG2) (hv : v < 2 ^ 31) :
    ∃ s', Emits (if b then touch true reg v else some []) s s' ∧ Alloc true s s' (s.r 4#4) := by
  by_cases h : b
  · rw [if_pos h]; exact touch_alloc hr hv
  · rw [if_neg h]; exact ⟨s, Emits.nil s, rfl, fun _ _ _ => rfl, rfl⟩

theorem alloc_ok {n : Nat} (hn : n < 2 ^ 31) : ∃ s', Runs (allocLocals win n) s s' ∧ Alloc win s s' (s.r 4#4 - BitVec.ofNat 64 n) := by
  cases win with
  | false =>
    simp only [allocLocals, Bool.false_eq_true, not_false_eq_true, if_true]
    by_cases h : n > 0
    · rw [if_pos h]
      obtain ⟨s', h1, h2⟩ := e_spSub (win := false) (s := s) hn
      exact ⟨s', h1.runs, h2.alloc⟩
    · rw [if_neg h, show n = 0 by omega]
      exact ⟨s, Runs.nil s, by simp, fun _ _ _ => rfl, rfl⟩
  | true =>
    simp only [allocLocals, not_true_eq_false, if_false]
    by_cases h0 : n = 0
    · rw [if_pos h0, h0]
      exact ⟨s, Runs.nil s, by simp, fun _ _ _ => rfl, rfl⟩
    rw [if_neg h0]
    by_cases h4 : n ≤ 4 * 4096
    · rw [if_pos h4]
      obtain ⟨s1, e1, a1⟩ := touch_if (s := s) (reg := TMP_REG1) (v := 4096) (b := n > 4096) (Or.inl rfl) (by decide)
      obtain ⟨s2, e2, a2⟩ := touch_if (s := s1) (reg := TMP_REG1) (v := 4096 * 2) (b := n > 2 * 4096) (Or.inl rfl) (by decide)
      obtain ⟨s3, e3, a3⟩ := touch_if (s := s2) (reg := TMP_REG1) (v := 4096 * 3) (b := n > 3 * 4096) (Or.inl rfl) (by decide)
      obtain ⟨s4, e4, a4⟩ := touch_alloc (s := s3) (reg := TMP_REG1) (v := n) (Or.inl rfl) hn
      obtain ⟨s5, e5, a5⟩ := e_spSub (win := true) (s := s4) hn
      refine ⟨s5, (e1.cat (e2.cat (e3.cat (e4.cat e5)))).runs, ?_⟩
      have := a1.trans (a2.trans (a3.trans (a4.trans a5.alloc)))
      rwa [a4.sp, a3.sp, a2.sp, a1.sp] at this
    · rw [if_neg h4]
      obtain ⟨s1, e1, a1⟩ := touchLoop_ok (s := s) (n := n) (by omega) hn
      have e : s.r 4#4 - BitVec.ofNat 64 n = s.r 4#4 - BitVec.ofNat 64 (4096 * (n / 4096)) - BitVec.ofNat 64 (n % 4096) := by
        conv => lhs; rw [← Nat.div_add_mod n 4096, BitVec.ofNat_add]
        generalize BitVec.ofNat 64 (4096 * (n / 4096)) = x
        simp only [BitVec.sub_eq_add_neg, BitVec.neg_add, BitVec.add_assoc]
      by_cases h : n % 4096 > 0
      · rw [if_pos h]
        obtain ⟨s4, e4, a4⟩ := touch_alloc (s := s1) (reg := TMP_REG1) (v := n % 4096) (Or.inl rfl) (by omega)
        obtain ⟨s5, e5, a5⟩ := e_spSub (win := true) (s := s4) (n := n % 4096) (by omega)
        refine ⟨s5, e1.cat (e4.cat e5).runs, ?_⟩
        have := a1.trans (a4.trans a5.alloc)
        rwa [a4.sp, a1.sp, ← e] at this
      · rw [if_neg h]
        refine ⟨s1, e1.cat (Runs.nil _), ?_⟩
        rw [e, show n % 4096 = 0 by omega]
        simpa using a1

end Verif.X86
