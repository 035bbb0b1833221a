import Verif.Prog.Calls

/-!
# A recursive function

`f(n) = n == 0 ? 0 : f(n - 1) + n`, used as an example for the theorems about calls.
-/

namespace Verif.Lir.Demo
open Verif.RV

/-- The calls of its body; `n` is in SLJIT_S0. -/
def body : List Ins :=
  [.cmp 0 false (.reg 23) (.imm 0#64) false 0, .op2 ⟨.sub, false, false, .none⟩ (.reg 1) (.reg 23) (.imm 1#64),
   .call [false] (some false) false (.fn 0), .op2 ⟨.add, false, false, .none⟩ (.reg 1) (.reg 1) (.reg 23), .ret .mov false (.reg 1),
   .label, .ret .mov false (.imm 0#64)]

/-- The function, with any stack frame. -/
def fn (size lo : Nat) : Fn := ⟨body, 1, [false], size, lo, 0⟩

/-- It returns the sum of the numbers up to `n`, when there is stack for `n + 1` frames. -/
theorem sum {size lo slot : Nat} {env : Nat → BitVec 64} {ext : BitVec 64 → Contract} : ∀ (n : Nat), n < 2 ^ 64 →
    ∀ (pr : BitVec 64 → Bool) (sp : BitVec 64) (D : Nat) (m : Mem), (n + 1) * (size + slot) ≤ D →
    does [fn size lo] env slot ext (n + 1) (env 0) pr sp D [.w (BitVec.ofNat 64 n)] m (some (.w (BitVec.ofNat 64 (n * (n + 1) / 2)))) m := by
  intro n
  induction n with
  | zero =>
    intro _ pr sp D m hD
    refine Or.inr ⟨0, fn size lo, rfl, rfl, ?_, fun g hg => ⟨g, ?_, fun q _ => hg q rfl⟩⟩
    · show size ≤ D; omega
    · refine .step (.plain (k' := .run [.ret .mov false (.imm 0#64)] ((fn size lo).start [.w 0#64] (sp - BitVec.ofNat 64 size) g).noFlags) rfl)
        (.step (.plain rfl) (.refl _))
  | succ n ih =>
    intro hn pr sp D m hD
    have hD' : (n + 1) * (size + slot) + (size + slot) ≤ D := by rw [Nat.succ_mul] at hD; exact hD
    refine Or.inr ⟨0, fn size lo, rfl, rfl, ?_, fun g hg => ⟨g, ?_, fun q _ => hg q rfl⟩⟩
    · show size ≤ D; omega
    show CSteps _ _ _ (fn size lo) ((fn size lo).hidden pr (sp - BitVec.ofNat 64 size)) (sp - BitVec.ofNat 64 size) (D - size)
      (.run body ((fn size lo).start [.w (BitVec.ofNat 64 (n + 1))] (sp - BitVec.ofNat 64 size) g)) _
    generalize (fn size lo).hidden pr (sp - BitVec.ofNat 64 size) = pr'
    generalize hl : (fn size lo).start [.w (BitVec.ofNat 64 (n + 1))] (sp - BitVec.ofNat 64 size) g = l0
    have r0 : l0.reg 23 = some (.w (BitVec.ofNat 64 (n + 1))) := by rw [← hl]; rfl
    have m0 : l0.mem = g := by rw [← hl]; rfl
    have ne : ¬ BitVec.ofNat 64 (n + 1) = 0#64 := by
      intro e
      have := congrArg BitVec.toNat e
      simp only [BitVec.toNat_ofNat] at this
      omega
    have e1 : step pr' body (.run body l0) = some (.run (body.drop 1) l0.noFlags) := by
      simp only [body, List.drop, step, read, r0, Option.bind_some, Val.get, holds]
      show (if decide (BitVec.ofNat 64 (n + 1) = 0#64) = true then _ else _) = _
      rw [if_neg (by simpa using ne)]
    refine .step (.plain e1) ?_
    have ev : val .sub (BitVec.ofNat 64 (n + 1)) 1#64 false = BitVec.ofNat 64 n := by
      show BitVec.ofInt 64 (((BitVec.ofNat 64 (n + 1)).toNat : Int) - ((1#64).toNat : Int)) = BitVec.ofNat 64 n
      rw [BitVec.toNat_ofNat, Nat.mod_eq_of_lt hn, show ((n + 1 : Nat) : Int) - ((1#64).toNat : Int) = ((n : Nat) : Int) by simp]
      exact BitVec.ofInt_natCast 64 n
    have e2 : ∃ l1, step pr' body (.run (body.drop 1) l0.noFlags) = some (.run (body.drop 2) l1) ∧ l1.reg 1 = some (.w (BitVec.ofNat 64 n)) ∧
        l1.reg 23 = some (.w (BitVec.ofNat 64 (n + 1))) ∧ l1.mem = g := by
      refine ⟨(l0.noFlags.setFlags ⟨.sub, false, false, .none⟩ (val .sub (BitVec.ofNat 64 (n + 1)) 1#64 false)
        (flagVal .sub .none (BitVec.ofNat 64 (n + 1)) 1#64 false)).set 1 (.w (val .sub (BitVec.ofNat 64 (n + 1)) 1#64 false)), ?_, ?_, r0, m0⟩
      · have r0' : l0.noFlags.reg 23 = some (.w (BitVec.ofNat 64 (n + 1))) := r0
        simp only [body, List.drop, step, exec, read, r0', Option.bind_some, Val.get]; rfl
      · rw [← ev]; rfl
    obtain ⟨l1, e2, r1, r23, m1⟩ := e2
    refine .step (.plain e2) ?_
    refine .step (.call (a := env 0) (vals := [.w (BitVec.ofNat 64 n)]) rfl ?_ (by omega)
      (ih (by omega) pr' _ _ _ (by omega)) (o := some (.w (BitVec.ofNat 64 (n * (n + 1) / 2)))) rfl) ?_
    · simp only [argVals, r1, Option.bind_some, Val.get, Option.map_some]; rfl
    generalize hb : l1.back (fn size lo).sav (some (.w (BitVec.ofNat 64 (n * (n + 1) / 2)))) l1.mem = l2
    have q1 : l2.reg 1 = some (.w (BitVec.ofNat 64 (n * (n + 1) / 2))) := by rw [← hb]; rfl
    have q2 : l2.reg 23 = some (.w (BitVec.ofNat 64 (n + 1))) := by rw [← hb]; exact r23
    have q3 : l2.mem = g := by rw [← hb]; exact m1
    have ea : BitVec.ofNat 64 (n * (n + 1) / 2) + BitVec.ofNat 64 (n + 1) = BitVec.ofNat 64 ((n + 1) * (n + 1 + 1) / 2) := by
      rw [← BitVec.ofNat_add]
      congr 1
      rw [show (n + 1) * (n + 1 + 1) = n * (n + 1) + (n + 1) * 2 by rw [Nat.mul_add (n + 1) (n + 1) 1, Nat.add_mul n 1 (n + 1)]; omega]
      rw [Nat.add_mul_div_right _ _ (by omega)]
    have e3 : ∃ l3, step pr' body (.run (body.drop 3) l2) = some (.run (body.drop 4) l3) ∧ l3.reg 1 = some (.w (BitVec.ofNat 64 ((n + 1) * (n + 1 + 1) / 2))) ∧ l3.mem = g := by
      refine ⟨(l2.setFlags ⟨.add, false, false, .none⟩ (val .add (BitVec.ofNat 64 (n * (n + 1) / 2)) (BitVec.ofNat 64 (n + 1)) false)
        (flagVal .add .none (BitVec.ofNat 64 (n * (n + 1) / 2)) (BitVec.ofNat 64 (n + 1)) false)).set 1
          (.w (val .add (BitVec.ofNat 64 (n * (n + 1) / 2)) (BitVec.ofNat 64 (n + 1)) false)), ?_, ?_, q3⟩
      · simp only [body, List.drop, step, exec, read, q1, q2, Option.bind_some, Val.get]; rfl
      · rw [← ea]; rfl
    obtain ⟨l3, e3, s1, s2⟩ := e3
    refine .step (.plain e3) (.step (.plain (k' := .done (some (.w (BitVec.ofNat 64 ((n + 1) * (n + 1 + 1) / 2)))) g) ?_) (.refl _))
    show step pr' body (.run (body.drop 4) l3) = _
    simp only [body, List.drop, step, returned, unary, read, s1, Option.bind_some, Val.get, write, writeN, LSt.set, s2, Val.of]
    rfl

end Verif.Lir.Demo
