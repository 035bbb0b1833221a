import Verif.Generic.Serialize

/-!
# Evolution of the compiler fields before code generation
-/

namespace Verif.Generic

/-- The fields after sljit_create_compiler (sljitLir.c:489, :534-570). -/
def Recs.init : Recs := ⟨[], [], [], 0, -1, -1, -1, -1, -1, 0, 0, -1, 0⟩

def Lab.size : Lab → BitVec 64
  | .plain s => s
  | .ext _ s _ => s

/-- sljit_emit_label (sljitNativeRISCV_common.c:3261-3275) with set_label (sljitLir.c:859-871). -/
def Recs.emitLabel (r : Recs) : Recs :=
  match r.labels.getLast? with
  | some l => if l.size = r.size then r else { r with labels := r.labels ++ [.plain r.size] }
  | none => { r with labels := r.labels ++ [.plain r.size] }

/-- set_extended_label (sljitLir.c:873-879). -/
def Recs.extLabel (r : Recs) (type data : BitVec 64) : Recs := { r with labels := r.labels ++ [.ext type r.size data] }

/-- set_jump and set_mov_addr (sljitLir.c:881-906): a new jump without target. -/
def Recs.newJump (r : Recs) (addr flags : BitVec 64) : Recs := { r with jumps := r.jumps ++ [⟨addr, flags, .null⟩] }

/-- sljit_set_label (sljitLir.c:631-637). -/
def Jmp.setLabel (k : Nat) (j : Jmp) : Jmp := { j with flags := j.flags &&& ~~~JUMP_ADDR, tgt := .label k }

/-- sljit_set_target (sljitLir.c:639-645). -/
def Jmp.setTarget (a : BitVec 64) (j : Jmp) : Jmp := { j with flags := j.flags ||| JUMP_ADDR, tgt := .addr a }

/-- set_const (sljitLir.c:908-917). -/
def Recs.newConst (r : Recs) : Recs := { r with consts := r.consts ++ [r.size] }

/-- The states which API calls before code generation can reach.  `scalars`: emit functions change the other fields (e.g.
set_emit_enter, sljitLir.c:825-857) in some way. `ins`: they emit code; the code is smaller than 2^63. -/
inductive Reach : Recs → Prop
  | init : Reach .init
  | ins {r} (n : Nat) : Reach r → r.size.toNat + n < 2 ^ 63 → Reach { r with size := r.size + BitVec.ofNat 64 n }
  | label {r} : Reach r → Reach r.emitLabel
  | ext {r} (type data : BitVec 64) : Reach r → LABEL_ALIGNED ≤ type → Reach (r.extLabel type data)
  | jump {r} (addr flags : BitVec 64) : Reach r → flags &&& JUMP_ADDR = 0 → Reach (r.newJump addr flags)
  | setLabel {r} (j k : Nat) : Reach r → k < r.labels.length → Reach { r with jumps := r.jumps.modify j (Jmp.setLabel k) }
  | setTarget {r} (j : Nat) (a : BitVec 64) : Reach r → Reach { r with jumps := r.jumps.modify j (Jmp.setTarget a) }
  | const {r} : Reach r → Reach r.newConst
  | scalars {r} (o sc sv fs fv ls lf lr lls : BitVec 32) : Reach r → Reach ⟨r.labels, r.jumps, r.consts, o, sc, sv, fs, fv, ls, r.size, lf, lr, lls⟩

end Verif.Generic
