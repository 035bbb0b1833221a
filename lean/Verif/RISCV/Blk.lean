import Verif.RISCV.OpsRules

/-!
# Execution of emitted code that contains branches inside itself (helper lemmas)

`wpB e c Q`: wherever the code `e` is placed in memory, execution that enters at its first instruction with contents `c`
reaches its end with contents satisfying `Q`.
-/

namespace Verif.RV

/-- The code runs from its first byte to its end, leaving contents that satisfy `Q`. -/
def wpB (e : Emit) (c : Core) (Q : Core → Prop) : Prop :=
  ∀ (code : Code) (s : St), CodeAt code s.pc e → s.core = c →
    ∃ s', Steps code s s' ∧ s'.pc = s.pc + BitVec.ofNat 64 (2 * e.length) ∧ Q s'.core

theorem wp.B {e : Emit} {c : Core} {Q : Core → Prop} (h : wp e c Q) : wpB e c Q := by
  intro code s hc hs
  obtain ⟨s', h1, h2⟩ := h s hs
  exact ⟨s', steps_of_run hc h1, run_pc h1, h2⟩

theorem wpB_mono {e : Emit} {c : Core} {Q R : Core → Prop} (h : wpB e c Q) (hqr : ∀ c', Q c' → R c') : wpB e c R := by
  intro code s hc hs
  obtain ⟨s', h1, h2, h3⟩ := h code s hc hs
  exact ⟨s', h1, h2, hqr _ h3⟩

theorem wpB_append {a b : Emit} {c : Core} {Q : Core → Prop} (h : wpB a c fun c' => wpB b c' Q) : wpB (a ++ b) c Q := by
  intro code s hc hs
  rw [CodeAt_append] at hc
  obtain ⟨s1, h1, h2, h3⟩ := h code s hc.1 hs
  obtain ⟨s2, h4, h5, h6⟩ := h3 code s1 (by rw [h2]; exact hc.2) rfl
  refine ⟨s2, h1.trans h4, ?_, h6⟩
  rw [h5, h2, List.length_append]
  apply BitVec.eq_of_toNat_eq
  simp; omega

/-- From offset `n` of the code at `p` with contents `c`, execution reaches offset `m` with contents satisfying `Q`. -/
def Reach (code : Code) (p : BitVec 64) (n : Nat) (c : Core) (m : Nat) (Q : Core → Prop) : Prop :=
  ∀ s : St, s.pc = p + BitVec.ofNat 64 n → s.core = c →
    ∃ s', Steps code s s' ∧ s'.pc = p + BitVec.ofNat 64 m ∧ Q s'.core

section
variable {code : Code} {p : BitVec 64} {n m k : Nat} {c : Core} {Q R : Core → Prop}

theorem Reach.refl (h : Q c) : Reach code p n c n Q := fun s h1 h2 => ⟨s, .refl s, h1, by rw [h2]; exact h⟩

theorem Reach.trans (h : Reach code p n c m Q) (g : ∀ c', Q c' → Reach code p m c' k R) : Reach code p n c k R := by
  intro s h1 h2
  obtain ⟨s1, a1, a2, a3⟩ := h s h1 h2
  obtain ⟨s2, b1, b2, b3⟩ := g _ a3 s1 a2 rfl
  exact ⟨s2, a1.trans b1, b2, b3⟩

theorem Reach.mono (h : Reach code p n c m Q) (g : ∀ c', Q c' → R c') : Reach code p n c m R :=
  h.trans fun _ hc => .refl (g _ hc)

/-- Straight line code stored at offset `n`. -/
theorem Reach.wp {e : Emit} (hc : CodeAt code (p + BitVec.ofNat 64 n) e) (h : wp e c Q) (hm : m = n + 2 * e.length) :
    Reach code p n c m Q := by
  intro s h1 h2
  obtain ⟨s', g1, g2⟩ := h s h2
  refine ⟨s', steps_of_run (by rw [h1]; exact hc) g1, ?_, g2⟩
  rw [run_pc g1, h1, hm]
  apply BitVec.eq_of_toNat_eq
  simp; omega

/-- A conditional branch stored at offset `n`. -/
theorem Reach.br {w : BitVec 32} {o : BrOp} {a b : Reg} {i : BitVec 13} (hc : CodeAt code (p + BitVec.ofNat 64 n) (w32 w))
    (hd : decode32 w = some (.branch o a b i)) {t : Bool} (ht : o.eval (c.x a) (c.x b) = t)
    (hm : BitVec.ofNat 64 m = BitVec.ofNat 64 n + (if t then i.signExtend 64 else 4#64)) (hq : Q c) : Reach code p n c m Q := by
  intro s h1 h2
  refine ⟨{ s with pc := p + BitVec.ofNat 64 m }, .step ?_ (.refl _), rfl, by rw [← h2] at hq; exact hq⟩
  obtain ⟨c1, c2, -⟩ := hc
  have hw : (code (s.pc + 2#64)).setWidth 32 <<< 16 ||| (code s.pc).setWidth 32 = w := by
    rw [h1, c1, c2]; exact join32 w
  have hi : isC (code s.pc) = false := by
    rw [h1, c1]; exact not_isC_of_decode32 (by rw [hd]; rfl)
  simp only [step, hi, Bool.false_eq_true, if_false, hw, hd, Option.bind_some, exec, execS, execJ]
  have e1 : s.rd a = c.x a := by rw [← h2]; rfl
  have e2 : s.rd b = c.x b := by rw [← h2]; rfl
  rw [e1, e2, ht, h1]
  congr 2
  rw [hm]
  cases t <;> simp [BitVec.add_assoc]

theorem CodeAt.off (hc : CodeAt code (p + BitVec.ofNat 64 n) (a ++ b)) :
    CodeAt code (p + BitVec.ofNat 64 n) a ∧ CodeAt code (p + BitVec.ofNat 64 (n + 2 * a.length)) b := by
  rw [CodeAt_append] at hc
  refine ⟨hc.1, ?_⟩
  have := hc.2
  have e : p + BitVec.ofNat 64 n + BitVec.ofNat 64 (2 * a.length) = p + BitVec.ofNat 64 (n + 2 * a.length) := by
    apply BitVec.eq_of_toNat_eq
    simp; omega
  rwa [e] at this

theorem wpB_of_reach {e : Emit} (h : ∀ code p, CodeAt code p e → Reach code p 0 c (2 * e.length) Q) : wpB e c Q := by
  intro code s hc hs
  exact h code s.pc hc s (by simp) hs
end

end Verif.RV
