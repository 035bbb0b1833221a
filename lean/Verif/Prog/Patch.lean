import Verif.Prog.Calls

/-!
# Changing the target of jumps after the code has been generated

What sljit_get_jump_addr and sljit_set_jump_addr (sljitLir.h:2397-2442) mean for a program: the jump or call has another target from now on.
-/

namespace Verif.Lir

/-- The new target: a label of the same function, or a function of the same compiler. -/
inductive Goal
  | label (k : Nat)
  | fn (f : Nat)
  deriving DecidableEq, Repr

/-- The call with another target.  Only jumps with SLJIT_REWRITABLE_JUMP can be changed. -/
def Ins.retarget : Goal → Ins → Option Ins
  | .label k, .jump type true _ => some (.jump type true k)
  | .label k, .cmp type is32 s1 s2 true _ => some (.cmp type is32 s1 s2 true k)
  | .fn f, .call as rt true (.fn _) => some (.call as rt true (.fn f))
  | _, _ => none

/-- The calls which return a `struct sljit_jump*`, or make one internally (sljit_emit_icall with an immediate). -/
def Ins.record : Ins → Bool
  | .jump _ _ _ | .cmp _ _ _ _ _ _ | .call _ _ _ (.fn _) | .call _ _ _ (.opd (.imm _)) => true
  | _ => false

/-- A change: the function, the position of the call in its body, the new target. -/
structure Patch where
  fn : Nat
  pos : Nat
  goal : Goal
  deriving DecidableEq, Repr

/-- The number of records that exist when the call is made, where `bodies` are the bodies of the functions. -/
def recordOf (bodies : List (List Ins)) (q : Patch) : Nat :=
  ((bodies.map (·.map Ins.record)).take q.fn).flatten.count true + (((bodies.map (·.map Ins.record)).getD q.fn []).take q.pos).count true

/-- The target exists: one of `labels` labels, or of `fns` functions. -/
def Goal.ok (labels fns : Nat) : Goal → Bool
  | .label k => decide (k < labels)
  | .fn f => decide (f < fns)

/-- The program after the change, if it is allowed: the target has to exist. -/
def repatch (bodies : List (List Ins)) (q : Patch) : Option (List (List Ins)) :=
  (bodies[q.fn]?).bind fun body => (body[q.pos]?).bind fun i => (i.retarget q.goal).bind fun i' =>
    if q.goal.ok (nlab body) bodies.length then some (bodies.set q.fn (body.set q.pos i')) else none

/-- The program after several changes. -/
def repatchAll (bodies : List (List Ins)) : List Patch → Option (List (List Ins))
  | [] => some bodies
  | q :: qs => (repatch bodies q).bind fun b => repatchAll b qs

end Verif.Lir
