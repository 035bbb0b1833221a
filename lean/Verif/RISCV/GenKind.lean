import Verif.RISCV.GenReduce
import Verif.RISCV.LoadAddrProof

/-! # The kinds of jumps chosen by detect_jump_type: helper lemmas -/

namespace Verif.RV

/-- Number of half words from the placeholder to the end of the jump. -/
def ksz (j : JInfo) : Kind → Nat
  | .b16 => 0
  | .b32 => if j.br.cond16 then 1 else 0
  | .j16 => 1
  | .j32 => 2
  | .seq p => p.len

/-- Number of half words the patched instruction starts before the placeholder. -/
def kback (j : JInfo) : Kind → Nat
  | .b16 => 1
  | .b32 => if j.br.cond16 then 1 else 2
  | _ => 0

/-- The chosen kind can reach the target from `pc`, the address of the patched instruction. -/
def KindOk (k : Kind) (target pc : BitVec 64) : Prop :=
  match k with
  | .b16 => -0x100 ≤ (target - pc).toInt ∧ (target - pc).toInt ≤ 0xff
  | .b32 => -0x1000 ≤ (target - pc).toInt ∧ (target - pc).toInt ≤ 0xfff
  | .j16 => -0x800 ≤ (target - pc).toInt ∧ (target - pc).toInt ≤ 0x7ff
  | .j32 => -0x100000 ≤ (target - pc).toInt ∧ (target - pc).toInt ≤ 0xfffff
  | .seq p => p.fits target pc

/-- The kind fits the form of the jump. -/
def KindFor (cfg : Cfg) (j : JInfo) (k : Kind) : Prop :=
  match k with
  | .b16 => cfg.c = true ∧ j.br.cond16 = true
  | .b32 => j.br.cond = true
  | .j16 => cfg.c = true ∧ j.call = false ∧ j.br = .none
  | _ => True

theorem cond_none {b : Br} (h : b.cond = false) : b = .none := by cases b <;> simp_all [Br.cond]
theorem cond_of_16 {b : Br} (h : b.cond16 = true) : b.cond = true := by cases b <;> simp_all [Br.cond, Br.cond16]

theorem jumpKind_for (cfg : Cfg) (j : JInfo) (d : Int) (t : BitVec 64) : KindFor cfg j (jumpKind cfg j d t) := by
  simp only [jumpKind]
  obtain ⟨c, hcd, hc⟩ : ∃ c : Int, (if (cfg.c && j.br.cond16) = true then (2 : Int) else 4) = c ∧ 0 ≤ c ∧ c ≤ 4 :=
    ⟨_, rfl, by split <;> omega⟩
  simp only [hcd]
  split
  · trivial
  · split
    · next h => simp only [Bool.and_eq_true] at h; exact h.1.1
    · split
      · next h => simp only [Bool.and_eq_true] at h; exact h.1.1
      · next h32 =>
        split
        · next h =>
          simp only [compressedJump, Bool.and_eq_true, decide_eq_true_eq, Bool.not_eq_true'] at h
          refine ⟨h.1, h.2.1.1, cond_none ?_⟩
          rcases hb : j.br.cond with _ | _
          · rfl
          · exfalso; apply h32
            simp only [hb, Bool.true_and, Bool.and_eq_true, decide_eq_true_eq]
            omega
        · split_ifs <;> trivial

set_option maxHeartbeats 1000000 in
/-- The chosen kind is not longer than the estimate. -/
theorem ksz_label (cfg : Cfg) (j : JInfo) (D x : Int) (t : BitVec 64) (hr : j.rew = false) (h16 : j.br.cond16 = true → cfg.c = true)
    (hx : (0 ≤ x ∧ x ≤ D) ∨ (D ≤ x ∧ x ≤ 0)) : ksz j (jumpKind cfg j (2 * x) t) ≤ labelEst cfg j D := by
  simp only [jumpKind, hr, Bool.false_eq_true, if_false, labelEst, compressedJump]
  cases hc : j.br.cond16
  · cases hb : j.br.cond <;> cases hcc : cfg.c <;> cases hca : j.call <;>
      simp only [Bool.false_eq_true, Bool.false_and, Bool.and_false, Bool.and_true, Bool.true_and, Bool.not_true, Bool.not_false,
        if_false, Bool.and_eq_true, decide_eq_true_eq] <;>
      split_ifs <;> simp only [ksz, hc, Patch.len, Bool.false_eq_true, if_false] <;> omega
  · have hb := cond_of_16 hc
    have hcc := h16 hc
    cases hca : j.call <;>
      simp only [hb, hcc, Bool.false_eq_true, Bool.false_and, Bool.and_false, Bool.and_true, Bool.true_and, Bool.not_true, Bool.not_false,
        if_false, if_true, Bool.and_eq_true, decide_eq_true_eq] <;>
      split_ifs <;> simp only [ksz, hc, Patch.len, if_true] <;> omega

theorem ksz_addr (cfg : Cfg) (j : JInfo) (d : Int) (t : BitVec 64) (hr : j.rew = false) :
    ksz j (jumpKind cfg j d t) ≤ addrEst t := by
  simp only [jumpKind, hr, Bool.false_eq_true, if_false, addrEst]
  split_ifs <;> simp only [ksz, Patch.len] <;> (try split_ifs) <;> omega

theorem movKind_label (D x : Int) (t : BitVec 64) (hx : (0 ≤ x ∧ x ≤ D) ∨ (D ≤ x ∧ x ≤ 0)) :
    (movKind (2 * x) t).len ≤ (if -0x40000000 ≤ D ∧ D ≤ 0x3ffffbff then 3 else 11) + 1 := by
  have hp : ∀ p : Patch, p.len ≤ 12 := fun p => by cases p <;> simp [Patch.len]
  split
  · rw [movKind, if_pos (by omega)]; simp [Patch.len]
  · exact hp _

theorem movKind_addr (d : Int) (t : BitVec 64) : (movKind d t).len ≤ movEst (.addr t) 0 0 0 + 1 := by
  simp only [movKind, movEst]
  split_ifs <;> simp only [Patch.len] <;> omega

end Verif.RV
