import Verif.RISCV.GenSpec
import Verif.RISCV.FlagsOp

/-! # sljit_emit_op_addr on RV64 -/

set_option linter.all false

namespace Verif.RV

/-- Instructions as a piece of a program (nothing is pushed for the empty list). -/
def codeItem (e : Emit) : List Item := if e = [] then [] else [.code e]

/-- sljit_emit_op_addr (sljitNativeRISCV_common.c:4540-4580): the pieces of the program.  `add` is SLJIT_ADD_ABS_ADDR, otherwise the operation is SLJIT_MOV_ADDR or
SLJIT_MOV_ABS_ADDR; `t` is what sljit_set_label or sljit_set_target sets. -/
def emitOpAddr (cfg : Cfg) (add : Bool) (dst : Opd) (t : Tgt) : List Item :=
  let dstR := match dst with | .reg r => r | _ => TMP_REG2
  let targetR := if add then TMP_REG1 else dstR
  let pre : Emit := match dst with | .mem b i w => if add then emitOpMem cfg (.g .word false) true TMP_REG2 b i w else [] | _ => []
  let post : Emit := (if add then (if cfg.c then w16 (C_ADD ||| C_RD dstR ||| C_RS2 TMP_REG1) else w32 (ADD ||| RD dstR ||| RS1 dstR ||| RS2 TMP_REG1)) else []) ++
    (match dst with | .mem b i w => emitOpMem cfg (.g .word false) false TMP_REG2 b i w | _ => [])
  codeItem pre ++ .mov targetR t :: codeItem post

theorem placed_code {code : Code} {off : BitVec 64} {laddr ca : List (BitVec 64)} {e : Emit} {is : List Item} {a fin : BitVec 64} {li : Nat}
    (h : Placed code off laddr (codeItem e ++ is) a li ca fin) : CodeAt code a e ∧ Placed code off laddr is (a + BitVec.ofNat 64 (2 * e.length)) li ca fin := by
  unfold codeItem at h
  split at h
  · next he => subst he; exact ⟨trivial, by simpa using h⟩
  · exact h

/-- Three pieces: straight line code, an address, straight line code. -/
theorem placed_three {code : Code} {off : BitVec 64} {laddr ca : List (BitVec 64)} {pre post : Emit} {r : Nat} {t : Tgt} {is : List Item} {a fin : BitVec 64} {li : Nat}
    (h : Placed code off laddr (codeItem pre ++ .mov r t :: codeItem post ++ is) a li ca fin) :
    ∃ a', Placed code off laddr is a' li ca fin ∧ ∀ (s : St) (P Q : Core → Prop), s.pc = a → wp pre s.core P →
      (∀ c c', P c → Only [regMap r, 7#5] c c' → c'.x (regMap r) = tgtOf laddr t → wp post c' Q) → ∃ s', Steps code s s' ∧ s'.pc = a' ∧ Q s'.core := by
  rw [List.append_assoc] at h
  obtain ⟨h1, n, h2, h3⟩ := placed_code h
  obtain ⟨h4, h5⟩ := placed_code h3
  refine ⟨_, h5, fun s P Q hs hp hq => ?_⟩
  obtain ⟨s1, r1, p1⟩ := hp s rfl
  have e1 := run_pc r1
  rw [hs] at e1
  obtain ⟨s2, g1, g2, g3, g4⟩ := h2 s1 e1
  obtain ⟨s3, r3, q3⟩ := hq s1.core s2.core p1 ⟨g3.reg, g3.mem, g3.f⟩ g4 s2 rfl
  refine ⟨s3, (steps_of_run (by rw [hs]; exact h1) r1).trans (g1.trans (steps_of_run (by rw [g2]; exact h4) r3)), ?_, q3⟩
  rw [run_pc r3, g2]

theorem wp_addAddr {cfg : Cfg} {d : Nat} {c : Core} {Q : Core → Prop} (e : Emit) :
    wp ((if cfg.c then w16 (C_ADD ||| C_RD d ||| C_RS2 TMP_REG1) else w32 (ADD ||| RD d ||| RS1 d ||| RS2 TMP_REG1)) ++ e) c Q ↔
      wp e (c.wr (regMap d) (c.x (regMap d) + c.x 6#5)) Q := by
  have t1 : regMap TMP_REG1 = 6#5 := by decide
  cases cfg.c
  · rw [if_neg (by decide), wp_ADD_s, t1]; rfl
  · rw [if_pos rfl, wp_C_ADD_s _ _ (by decide), t1]

/-- SLJIT_MOV_ADDR, SLJIT_MOV_ABS_ADDR and SLJIT_ADD_ABS_ADDR. -/
theorem emitOpAddr_ok {code : Code} {off : BitVec 64} {laddr ca : List (BitVec 64)} {cfg : Cfg} {add : Bool} {dst : Opd} {t : Tgt} {is : List Item} {a fin : BitVec 64} {li : Nat}
    (hd : DOk dst) (h0 : dst ≠ .reg 0) (h : Placed code off laddr (emitOpAddr cfg add dst t ++ is) a li ca fin) :
    ∃ a', Placed code off laddr is a' li ca fin ∧ ∀ s : St, s.pc = a → ∃ s', Steps code s s' ∧ s'.pc = a' ∧
      Done .word dst (if add then opdVal .word false s.core dst + tgtOf laddr t else tgtOf laddr t) s.core s'.core ∧
      s'.core.x 5#5 = s.core.x 5#5 ∧ s'.core.x 28#5 = s.core.x 28#5 := by
  have t1 : regMap TMP_REG1 = 6#5 := by decide
  have t2 : regMap TMP_REG2 = 1#5 := by decide
  obtain ⟨a', k1, k2⟩ := placed_three h
  refine ⟨a', k1, fun s hs => ?_⟩
  clear k1 h
  cases dst with
  | imm v => exact absurd hd (by simp [DOk])
  | reg r =>
    have hr0 : r ≠ 0 := by rintro rfl; exact h0 rfl
    have hdd := dstR0_ok hd
    simp only [dstR0, if_neg hr0] at hdd
    have n7 : regMap r ≠ 7#5 := by
      rcases hd with h | h
      · exact (user_ne h).2.2.2.1
      · rw [h]; decide
    have fin : ∀ (v : BitVec 64) c', c'.x (regMap r) = v → Only [6#5, 7#5, regMap r] s.core c' →
        Done .word (.reg r) v s.core c' ∧ c'.x 5#5 = s.core.x 5#5 ∧ c'.x 28#5 = s.core.x 28#5 := by
      intro v c' k1 k2
      refine ⟨⟨?_, k2.2.1, ?_, k2.2.2⟩, ?_, ?_⟩
      · rintro r' ⟨⟩ -; exact k1
      · intro q hq h
        refine k2.1 q ?_
        simp only [List.mem_cons, List.not_mem_nil, or_false, not_or] at hq ⊢
        exact ⟨hq.2.2.1, hq.2.2.2.1, (h r rfl).resolve_right hr0⟩
      · exact k2.1 _ (by simp [hdd.n5.symm])
      · exact k2.1 _ (by simp [hdd.n28.symm])
    refine k2 s (fun c => c = s.core) (fun c'' => Done .word (.reg r) (if add then opdVal .word false s.core (.reg r) + tgtOf laddr t else tgtOf laddr t) s.core c'' ∧ c''.x 5#5 = s.core.x 5#5 ∧ c''.x 28#5 = s.core.x 28#5) hs ((wp_nil _ _).mpr rfl) ?_
    rintro c c' rfl g1 g2
    cases add with
    | false =>
      refine (wp_nil _ _).mpr (fin _ _ g2 ⟨fun q hq => g1.1 q ?_, g1.2⟩)
      simp only [List.mem_cons, List.not_mem_nil, or_false, not_or] at hq ⊢
      exact ⟨hq.2.2, hq.2.1⟩
    | true =>
      refine (wp_addAddr []).mpr ((wp_nil _ _).mpr (fin _ _ ?_ ?_))
      · simp only [if_true, t1] at g1 g2
        simp [hdd.n0, g2, opdVal, g1.1 (regMap r) (by simp [hdd.n6, n7])]
      · simp only [if_true, t1] at g1
        exact Only.wr ⟨fun q hq => g1.1 q (by simp at hq ⊢; exact ⟨hq.1, hq.2.1⟩), g1.2⟩ (by simp) _
  | mem b i w =>
    obtain ⟨u1, u5, u6, u7, u28⟩ := user_ne hd.1
    obtain ⟨v1, v5, v6, v7, v28⟩ := user_ne hd.2
    have fin : ∀ (v : BitVec 64) (c : Core), c.x 1#5 = v → Only [1#5, 6#5, 7#5] s.core c → wp (emitOpMem cfg (.g .word false) false TMP_REG2 b i w) c fun s' =>
        Done .word (.mem b i w) v s.core s' ∧ s'.x 5#5 = s.core.x 5#5 ∧ s'.x 28#5 = s.core.x 28#5 := by
      intro v c k1 k2
      refine wp_mono (opMem_store (by decide) (by decide) u6 u7) ?_
      rintro c' ⟨c2, k, rfl⟩
      have hea : ea c b i w = ea s.core b i w := by
        simp only [ea, k2.1 _ (show regMap b ∉ [1#5, 6#5, 7#5] by simp [u1, u6, u7]), k2.1 _ (show regMap i ∉ [1#5, 6#5, 7#5] by simp [v1, v6, v7])]
      rw [hea, t2, k1, k2.2.1]
      have kk : ∀ q, q ≠ 1#5 → q ≠ 6#5 → q ≠ 7#5 → c2.x q = s.core.x q := by
        intro q q1 q6 q7
        rw [k.1 q (by simp [q6, q7]), k2.1 q (by simp [q1, q6, q7])]
      refine ⟨⟨fun _ h => by (cases h), rfl, fun q h1 _ => ?_, k.2.2.trans k2.2.2⟩, ?_, ?_⟩
      · simp only [List.mem_cons, List.not_mem_nil, or_false, not_or] at h1
        exact kk q h1.1 h1.2.2.1 h1.2.2.2.1
      · exact kk _ (by decide) (by decide) (by decide)
      · exact kk _ (by decide) (by decide) (by decide)
    cases add with
    | false =>
      refine k2 s (fun c => c = s.core) (fun c'' => Done .word (.mem b i w) (if false then opdVal .word false s.core (.mem b i w) + tgtOf laddr t else tgtOf laddr t) s.core c'' ∧ c''.x 5#5 = s.core.x 5#5 ∧ c''.x 28#5 = s.core.x 28#5) hs ((wp_nil _ _).mpr rfl) ?_
      rintro c c' rfl g1 g2
      refine fin _ _ g2 ⟨fun q hq => g1.1 q ?_, g1.2⟩
      simp only [List.mem_cons, List.not_mem_nil, or_false, not_or] at hq
      simp only [Bool.false_eq_true, if_false, t2, List.mem_cons, List.not_mem_nil, or_false, not_or]
      exact ⟨hq.1, hq.2.2⟩
    | true =>
      refine k2 s _ (fun c'' => Done .word (.mem b i w) (if true then opdVal .word false s.core (.mem b i w) + tgtOf laddr t else tgtOf laddr t) s.core c'' ∧ c''.x 5#5 = s.core.x 5#5 ∧ c''.x 28#5 = s.core.x 28#5) hs (opMem_load (by decide) (by decide) (by decide) u7 (Or.inr (Or.inl (by rw [t2]; exact u1)))) ?_
      rintro c c' ⟨p1, p2⟩ g1 g2
      simp only [if_true, t1] at g1 g2
      rw [t2] at p1 p2
      refine (wp_addAddr _).mpr (fin _ _ ?_ ?_)
      · simp [t2, g2, g1.1 1#5 (by decide), p1, opdVal]
      · refine Only.wr ⟨fun q hq => ?_, g1.2.1.trans p2.2.1, g1.2.2.trans p2.2.2⟩ (by simp [t2]) _
        simp at hq
        rw [g1.1 q (by simp [hq]), p2.1 q (by simp [hq])]

end Verif.RV
