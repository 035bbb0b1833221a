import Verif.Prog.Patch

/-!
# A function whose jumps are changed

Used as an example for the theorems about sljit_set_jump_addr.
-/

namespace Verif.Lir.PatchDemo
open Verif.RV

/-- A rewritable jump to the label behind it, a rewritable call of the next function, and another label. -/
def body : List Ins :=
  [.jump none true 0, .label, .call [] (some false) true (.fn 1), .ret .mov false (.reg 1), .label, .ret .mov false (.imm 7#64)]

/-- Functions that return a constant. -/
def const (v : BitVec 64) : List Ins := [.ret .mov false (.imm v)]

def bodies : List (List Ins) := [body, const 1#64, const 2#64]

/-- The functions, with stack frames. -/
def fn (size lo : Nat) (b : List Ins) : Fn := ⟨b, 1, [], size, lo, 0⟩

/-- Let the call go to the last function. -/
def p1 : Patch := ⟨0, 2, .fn 2⟩
/-- Let the jump go to the last label. -/
def p2 : Patch := ⟨0, 0, .label 1⟩

def body1 : List Ins := [.jump none true 0, .label, .call [] (some false) true (.fn 2), .ret .mov false (.reg 1), .label, .ret .mov false (.imm 7#64)]
def body2 : List Ins := [.jump none true 1, .label, .call [] (some false) true (.fn 2), .ret .mov false (.reg 1), .label, .ret .mov false (.imm 7#64)]

theorem patched1 : repatchAll bodies [p1] = some [body1, const 1#64, const 2#64] := by decide
theorem patched2 : repatchAll bodies [p1, p2] = some [body2, const 1#64, const 2#64] := by decide

variable {size lo slot : Nat} {env : Nat → BitVec 64} {ext : BitVec 64 → Contract}

/-- A constant is returned. -/
theorem const_does {fs : List Fn} {i : Nat} {v : BitVec 64} (h : fs[i]? = some (fn size lo (const v))) (n : Nat) (pr : BitVec 64 → Bool) (sp : BitVec 64) (D : Nat) (m : Mem) (hD : size ≤ D) :
    does fs env slot ext (n + 1) (env i) pr sp D [] m (some (.w v)) m :=
  Or.inr ⟨i, _, h, rfl, hD, fun g hg => ⟨g, .step (.plain rfl) (.refl _), fun q _ => hg q rfl⟩⟩

/-- After the first change, the function returns 2. -/
theorem does1 (pr : BitVec 64 → Bool) (sp : BitVec 64) (D : Nat) (m : Mem) (hD : 2 * (size + slot) ≤ D) :
    does ([body1, const 1#64, const 2#64].map (fn size lo)) env slot ext 2 (env 0) pr sp D [] m (some (.w 2#64)) m := by
  refine Or.inr ⟨0, fn size lo body1, rfl, rfl, ?_, fun g hg => ⟨g, ?_, fun q _ => hg q rfl⟩⟩
  · show size ≤ D; omega
  show CSteps _ _ _ (fn size lo body1) ((fn size lo body1).hidden pr (sp - BitVec.ofNat 64 size)) (sp - BitVec.ofNat 64 size) (D - size)
    (.run body1 ((fn size lo body1).start [] (sp - BitVec.ofNat 64 size) g)) _
  refine .step (.plain (k' := .run (body1.drop 2) ((fn size lo body1).start [] (sp - BitVec.ofNat 64 size) g).noFlags) rfl) ?_
  refine .step (.call (a := env 2) (vals := []) rfl rfl (by omega)
    (const_does (fs := [body1, const 1#64, const 2#64].map (fn size lo)) (i := 2) rfl 0 _ _ _ _ (by omega)) (o := some (.w 2#64)) rfl) ?_
  exact .step (.plain rfl) (.refl _)

/-- After both, it returns 7. -/
theorem does2 (pr : BitVec 64 → Bool) (sp : BitVec 64) (D : Nat) (m : Mem) (hD : size ≤ D) :
    does ([body2, const 1#64, const 2#64].map (fn size lo)) env slot ext 1 (env 0) pr sp D [] m (some (.w 7#64)) m := by
  refine Or.inr ⟨0, fn size lo body2, rfl, rfl, hD, fun g hg => ⟨g, ?_, fun q _ => hg q rfl⟩⟩
  refine .step (.plain (k' := .run [.ret .mov false (.imm 7#64)] ((fn size lo body2).start [] (sp - BitVec.ofNat 64 size) g).noFlags) rfl) ?_
  exact .step (.plain rfl) (.refl _)

end Verif.Lir.PatchDemo
