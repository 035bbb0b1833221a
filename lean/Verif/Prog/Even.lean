import Verif.RISCV.Frame

/-!
# Without the C extension every instruction has 32 bits

For the half word lists of the RV64 emission functions: their length is even when `cfg.c` is off.
-/

namespace Verif.RV

/-- A whole number of 32 bit instructions. -/
def Ev (e : Emit) : Prop := e.length % 2 = 0

theorem Ev.nil : Ev [] := rfl
theorem Ev.w32 (w : BitVec 32) : Ev (RV.w32 w) := by simp [Ev, RV.w32]
theorem Ev.app {a b : Emit} (ha : Ev a) (hb : Ev b) : Ev (a ++ b) := by
  unfold Ev at *; rw [List.length_append]; omega

/-- Remove the compressed forms. -/
macro "noc" h:ident : tactic => `(tactic| try simp only [$h:ident, Bool.false_and, Bool.false_eq_true, false_and, and_false, false_or, or_false, if_false, ↓reduceIte])

/-- Decompose an emission function. -/
macro "ev" "[" ls:term,* "]" : tactic =>
  `(tactic| repeat' first
    | with_reducible exact Ev.nil | with_reducible exact Ev.w32 _ | with_reducible assumption
    | (first $[| with_reducible exact $ls]* | fail)
    | with_reducible refine Ev.app ?_ ?_ | split | dsimp only)

variable {cfg : Cfg} (hc : cfg.c = false)
include hc

theorem ev_loadImmLow (d : Nat) (i : BitVec 64) : Ev (loadImmLow cfg d i) := by
  unfold loadImmLow; noc hc; ev []
theorem ev_loadImm32 (d : Nat) (i : BitVec 64) : Ev (loadImm32 cfg d i) := by
  unfold loadImm32; noc hc; ev [ev_loadImmLow hc _ _]
theorem ev_loadImmS32 (d : Nat) (i : BitVec 64) : Ev (loadImmS32 cfg d i) := by
  unfold loadImmS32; noc hc; ev [ev_loadImm32 hc _ _]
theorem ev_emitSlli (d : Nat) (i : BitVec 64) : Ev (emitSlli cfg d i) := by
  unfold emitSlli; noc hc; ev []
theorem ev_loadImm64 (d : Nat) (i : BitVec 64) (t : Nat) : Ev (loadImm64 cfg d i t) := by
  unfold loadImm64; noc hc
  have h1 (c : Prop) [Decidable c] (x y : BitVec 64 × Emit) (hx : Ev x.2) (hy : Ev y.2) : Ev (if c then x else y).2 := by
    split <;> assumption
  refine Ev.app (Ev.app (Ev.app (Ev.app (Ev.app ?_ ?_) ?_) ?_) ?_) ?_
  · exact h1 _ _ _ (Ev.w32 _) (Ev.w32 _)
  · refine h1 _ _ _ (Ev.w32 _) (h1 _ _ _ (Ev.w32 _) ?_); exact Ev.w32 _
  all_goals ev [ev_emitSlli hc _ _]
theorem ev_loadImm (d : Nat) (i : BitVec 64) (t : Nat) : Ev (loadImm cfg d i t) := by
  unfold loadImm; noc hc; ev [ev_emitSlli hc _ _, ev_loadImmS32 hc _ _, ev_loadImm32 hc _ _, ev_loadImm64 hc _ _ _]

theorem ev_emitCopy (a b : Nat) : Ev (emitCopy cfg a b) := by unfold emitCopy; noc hc; ev []
theorem ev_emitAdd (w : Bool) (a b c : Nat) : Ev (emitAdd cfg w a b c) := by unfold emitAdd; noc hc; ev []
theorem ev_emitAddImm (w : Bool) (a b : Nat) (i : BitVec 64) : Ev (emitAddImm cfg w a b i) := by unfold emitAddImm; noc hc; ev []
theorem ev_emitSubReg (w : Bool) (a b c : Nat) : Ev (emitSubReg cfg w a b c) := by unfold emitSubReg; noc hc; ev []
theorem ev_emitOvImm (a : Nat) (i : BitVec 64) : Ev (emitOvImm cfg a i) := by unfold emitOvImm; ev [ev_emitCopy hc _ _]
theorem ev_emitOvTail (op : Op) (d : Nat) : Ev (emitOvTail cfg op d) := by unfold emitOvTail; ev [ev_emitCopy hc _ _]
theorem ev_emitAddOp (op : Op) (fl : SF) (d a : Nat) (b : S2) : Ev (emitAddOp cfg op fl d a b) := by
  unfold emitAddOp; ev [ev_emitOvImm hc _ _, ev_emitOvTail hc _ _, ev_emitAddImm hc _ _ _ _, ev_emitAdd hc _ _ _ _]
theorem ev_emitAddcTail (w cy : Bool) (d : Nat) : Ev (emitAddcTail cfg w cy d) := by unfold emitAddcTail; noc hc; ev []
theorem ev_emitAddcOp (op : Op) (d a : Nat) (b : S2) : Ev (emitAddcOp cfg op d a b) := by
  unfold emitAddcOp; ev [ev_emitAddcTail hc _ _ _, ev_emitAddImm hc _ _ _ _, ev_emitAdd hc _ _ _ _, ev_emitCopy hc _ _]
omit hc in
theorem ev_subMin (b : S2) : Ev (subMin b).1 := by unfold subMin; ev []
theorem ev_subCmpLoad (op : Op) (a : Nat) (b : S2) : Ev (subCmpLoad cfg op a b).1 := by unfold subCmpLoad; noc hc; ev []
omit hc in
theorem ev_subCmp (op : Op) (a : Nat) (b : S2) : Ev (subCmp op a b) := by unfold subCmp; ev []
theorem ev_subHandled (op : Op) (fl : SF) (d a : Nat) (b : S2) : Ev (subHandled cfg op fl d a b) := by
  unfold subHandled; ev [ev_emitAddImm hc _ _ _ _, ev_emitSubReg hc _ _ _ _]
theorem ev_subRest (op : Op) (fl : SF) (d a : Nat) (b : S2) : Ev (subRest cfg op fl d a b) := by
  unfold subRest; ev [ev_emitAddImm hc _ _ _ _, ev_emitSubReg hc _ _ _ _, ev_emitOvImm hc _ _, ev_emitOvTail hc _ _]
theorem ev_emitSubOp (op : Op) (fl : SF) (d a : Nat) (b : S2) : Ev (emitSubOp cfg op fl d a b) := by
  unfold emitSubOp; ev [ev_subMin _, ev_subCmpLoad hc _ _ _, ev_subCmp _ _ _, ev_subHandled hc _ _ _ _ _, ev_subRest hc _ _ _ _ _]
theorem ev_subcRest (op : Op) (d a : Nat) (b : S2) : Ev (subcRest cfg op d a b) := by
  unfold subcRest; ev [ev_emitAddImm hc _ _ _ _, ev_emitSubReg hc _ _ _ _]
theorem ev_emitSubcOp (op : Op) (d a : Nat) (b : S2) : Ev (emitSubcOp cfg op d a b) := by
  unfold emitSubcOp; ev [ev_subMin _, ev_subcRest hc _ _ _ _]
omit hc in
theorem ev_emitMulOp (op : Op) (d a b : Nat) : Ev (emitMulOp op d a b) := by unfold emitMulOp; ev []
theorem ev_emitLogical (op : Op) (fl : SF) (o1 o2 : BitVec 32) (c1 c2 : BitVec 16) (d a : Nat) (b : S2) :
    Ev (emitLogical cfg op fl o1 o2 c1 c2 d a b) := by unfold emitLogical; noc hc; ev []
theorem ev_emitShImm (w : Bool) (o : BitVec 32) (d a : Nat) (i : BitVec 64) : Ev (emitShImm cfg w o d a i) := by
  unfold emitShImm; noc hc; ev []
theorem ev_emitShift (op : Op) (fl : SF) (o1 o2 : BitVec 32) (d a : Nat) (b : S2) : Ev (emitShift cfg op fl o1 o2 d a b) := by
  unfold emitShift; ev [ev_emitShImm hc _ _ _ _ _]
omit hc in
theorem ev_emitRot (op : Op) (d a : Nat) (b : S2) : Ev (emitRot cfg op d a b) := by unfold emitRot; ev []
theorem ev_emitSingle2 (op : Op) (fl : SF) (d a : Nat) (b : S2) : Ev (emitSingle2 cfg op fl d a b) := by
  unfold emitSingle2
  ev [ev_emitAddOp hc _ _ _ _ _, ev_emitAddcOp hc _ _ _ _, ev_emitSubOp hc _ _ _ _ _, ev_emitSubcOp hc _ _ _ _,
    ev_emitMulOp _ _ _ _, ev_emitLogical hc _ _ _ _ _ _ _ _ _, ev_emitShift hc _ _ _ _ _ _ _, ev_emitRot _ _ _ _]
omit hc in
theorem ev_emitClzCtz (op : Op) (d a : Nat) : Ev (emitClzCtz op d a) := by unfold emitClzCtz; ev []
omit hc in
theorem ev_emitRev (op : Op) (d a : Nat) : Ev (emitRev op d a) := by unfold emitRev; ev []
omit hc in
theorem ev_emitRev16 (op : Op) (d a : Nat) : Ev (emitRev16 op d a) := by unfold emitRev16; ev []
omit hc in
theorem ev_emitExt (op : Op) (o : BitVec 32) (d a : Nat) (n : BitVec 64) : Ev (emitExt op o d a n) := by unfold emitExt; ev []
theorem ev_emitSingle1 (op : Op) (fl : SF) (d a : Nat) : Ev (emitSingle1 cfg op fl d a) := by
  unfold emitSingle1; noc hc
  ev [ev_emitClzCtz _ _ _, ev_emitRev _ _ _, ev_emitRev16 _ _ _, ev_emitExt _ _ _ _ _]
theorem ev_emitSingle (op : Op) (fl : SF) (d a : Nat) (b : S2) : Ev (emitSingle cfg op fl d a b) := by
  unfold emitSingle; ev [ev_emitSingle1 hc _ _ _ _, ev_emitSingle2 hc _ _ _ _ _]

theorem ev_pushMem (t : MT) (ld : Bool) (r b : Nat) (o : BitVec 64) : Ev (pushMem cfg t ld r b o) := by
  unfold pushMem; noc hc; ev []
theorem ev_getputAddr (t2 : Bool) (k : Cache) (b i : Nat) (w : BitVec 64) (n : Option (Nat × Nat × BitVec 64)) :
    Ev (getputAddr cfg t2 k b i w n).1 := by
  unfold getputAddr
  have h1 (c : Prop) [Decidable c] (x y : Emit × BitVec 64 × BitVec 64 × BitVec 64) (hx : Ev x.1) (hy : Ev y.1) :
      Ev (if c then x else y).1 := by split <;> assumption
  dsimp only
  split
  · ev []
  · split
    · exact Ev.nil
    · have h2 := h1 (k.arg = some (0, 0) ∧ fits12 (w - k.argw) = true) ([], k.argw, w - k.argw, w) _ Ev.nil
        (h1 (n.isSome = true ∧ fits12 (nextW n - w) = true ∧ toArgwHi w ≠ toArgwHi (nextW n))
          (loadImm cfg TMP_REG3 w (if t2 then TMP_REG2 else TMP_REG1), w, 0#64, w)
          (loadImm cfg TMP_REG3 (toArgwHi w) (if t2 then TMP_REG2 else TMP_REG1), toArgwHi w, w &&& 0xfff#64, toArgwHi w)
          (ev_loadImm hc _ _ _) (ev_loadImm hc _ _ _))
      generalize (if k.arg = some (0, 0) ∧ fits12 (w - k.argw) = true then _ else _ : Emit × BitVec 64 × BitVec 64 × BitVec 64) = x at *
      obtain ⟨e, kw, o, w'⟩ := x
      dsimp only at h2 ⊢
      ev []
theorem ev_getputArg (t : MT) (ld t2 : Bool) (k : Cache) (r b i : Nat) (w : BitVec 64) (n : Option (Nat × Nat × BitVec 64)) :
    Ev (getputArg cfg t ld t2 k r b i w n).1 := Ev.app (ev_getputAddr hc _ _ _ _ _ _) (ev_pushMem hc _ _ _ _ _)
theorem ev_emitOpMem (t : MT) (ld : Bool) (r b i : Nat) (w : BitVec 64) : Ev (emitOpMem cfg t ld r b i w) := by
  unfold emitOpMem; ev [ev_pushMem hc _ _ _ _ _, ev_loadImm hc _ _ _]
theorem ev_emitOpMem2 (t : MT) (ld t2 : Bool) (k : Cache) (r b i : Nat) (w : BitVec 64) (n : Option (Nat × Nat × BitVec 64)) :
    Ev (emitOpMem2 cfg t ld t2 k r b i w n).1 := by
  unfold emitOpMem2; ev [ev_pushMem hc _ _ _ _ _, ev_getputArg hc _ _ _ _ _ _ _ _ _]
theorem ev_emitSrc1 (t : MT) (o : Opd) : Ev (emitSrc1 cfg t o).1 := by
  unfold emitSrc1; ev [ev_pushMem hc _ _ _ _ _, ev_loadImm hc _ _ _]
theorem ev_emitSrc2 (t : MT) (r : Nat) (o : Opd) : Ev (emitSrc2 cfg t r o).1 := by
  unfold emitSrc2; ev [ev_pushMem hc _ _ _ _ _, ev_loadImm hc _ _ _]
theorem ev_loadSlow (t : MT) (t2 : Bool) (k : Cache) (r : Nat) (a b : Opd) : Ev (loadSlow cfg t t2 k r a b).1 := by
  unfold loadSlow; ev [ev_getputArg hc _ _ _ _ _ _ _ _ _]
theorem ev_emitSlow (t : MT) (k : Cache) (d a b : Opd) (r1 r2 : Nat) : Ev (emitSlow cfg t k d a b r1 r2).1 := by
  unfold emitSlow
  have h (t2 : Bool) (k : Cache) (r : Nat) (a b : Opd) := ev_loadSlow hc t t2 k r a b
  have h2 (x : Emit × Cache) (f : Cache → Emit × Cache) (hx : Ev x.1) (hf : ∀ k, Ev (f k).1) :
      Ev (match x with | (e1, k1) => match f k1 with | (e2, k2) => ((e1 ++ e2, k2) : Emit × Cache)).1 := Ev.app hx (hf _)
  have h1 (c : Prop) [Decidable c] (x y : Emit × Cache) (hx : Ev x.1) (hy : Ev y.1) : Ev (if c then x else y).1 := by
    split <;> assumption
  split
  · refine h1 _ _ _ ?_ ?_
    · exact h2 _ (fun k => loadSlow cfg t true k TMP_REG2 b d) (h _ _ _ _ _) (fun k => h _ _ _ _ _)
    · exact h2 _ (fun k => loadSlow cfg t false k TMP_REG1 a d) (h _ _ _ _ _) (fun k => h _ _ _ _ _)
  all_goals first | exact h _ _ _ _ _ | exact Ev.nil
theorem ev_emitStore (t : MT) (k : Cache) (r : Nat) (d : Opd) : Ev (emitStore cfg t k r d) := by
  unfold emitStore; ev [ev_pushMem hc _ _ _ _ _, ev_getputArg hc _ _ _ _ _ _ _ _ _]
theorem ev_emitOp (op : Op) (t : MT) (fl : OF) (k : Cache) (d a b : Opd) : Ev (emitOp cfg op t fl k d a b) := by
  unfold emitOp
  dsimp only
  generalize immSwap fl a b = x
  obtain ⟨si, a, b⟩ := x
  dsimp only
  cases si <;> dsimp only
  all_goals ev [ev_emitSrc1 hc _ _, ev_emitSrc2 hc _ _ _, ev_emitSlow hc _ _ _ _ _ _ _, ev_emitSingle hc _ _ _ _ _, ev_emitStore hc _ _ _ _]
theorem ev_emitOp2 (op : Op) (d a b : Opd) : Ev (emitOp2 cfg op d a b) := ev_emitOp hc _ _ _ _ _ _ _
theorem ev_emitOp1 (o : Op1C) (w : Bool) (d a : Opd) : Ev (emitOp1 cfg o w d a) := by
  unfold emitOp1; ev [ev_emitOp hc _ _ _ _ _ _ _]
theorem ev_emitOp0 (o : Op0) (w : Bool) : Ev (emitOp0 cfg o w) := by unfold emitOp0; noc hc; ev []
omit hc in
theorem ev_shiftIntoTail (l w n : Bool) (d a b c : Nat) : Ev (shiftIntoTail l w n d a b c) := by unfold shiftIntoTail; ev []
theorem ev_emitShiftInto (l w n : Bool) (d a b : Nat) (c : Opd) : Ev (emitShiftInto cfg l w n d a b c) := by
  unfold emitShiftInto; ev [ev_emitOp2 hc _ _ _ _, ev_shiftIntoTail _ _ _ _ _ _ _, ev_emitOpMem hc _ _ _ _ _ _]
theorem ev_cmpFetch (w : Bool) (a b : Opd) : Ev (cmpFetch cfg w a b).1 := by
  unfold cmpFetch
  cases a <;> cases b <;> ev [ev_emitOpMem2 hc _ _ _ _ _ _ _ _ _, ev_loadImm hc _ _ _]
theorem ev_emitCmp (t : Nat) (w : Bool) (a b : Opd) : Ev (emitCmp cfg t w a b).1 := ev_cmpFetch hc _ _ _
omit hc in
theorem ev_flagSrc (as : Bool) (d t : Nat) : Ev (flagSrc as d t).1 := by unfold flagSrc; ev []
theorem ev_emitOpFlags (c : OpC) (w z as : Bool) (d : Opd) (t : Nat) : Ev (emitOpFlags cfg c w z as d t) := by
  unfold emitOpFlags
  cases d <;> ev [ev_emitOpMem2 hc _ _ _ _ _ _ _ _ _, ev_flagSrc _ _ _, ev_emitOpMem hc _ _ _ _ _ _, ev_emitOp hc _ _ _ _ _ _ _]
theorem ev_selectBody (w : Bool) (d : Nat) (a : Opd) : Ev (selectBody cfg w d a) := by
  unfold selectBody; ev [ev_emitOpMem hc _ _ _ _ _ _, ev_loadImm hc _ _ _]
theorem ev_emitSelect (t : Nat) (w : Bool) (d : Nat) (a : Opd) (b : Nat) : Ev (emitSelect cfg t w d a b) := by
  unfold emitSelect; ev [ev_selectBody hc _ _ _]

theorem ev_stackStore (r o : Nat) : Ev (stackStore cfg r o) := by unfold stackStore; noc hc; ev []
theorem ev_stackFStore (r o : Nat) : Ev (stackFStore cfg r o) := by unfold stackFStore; noc hc; ev []
theorem ev_stackLoad (r o : Nat) : Ev (stackLoad cfg r o) := by unfold stackLoad; noc hc; ev []
theorem ev_stackFLoad (r o : Nat) : Ev (stackFLoad cfg r o) := by unfold stackFLoad; noc hc; ev []
omit hc in
theorem ev_slots {f : Nat → Nat → Emit} (hf : ∀ r o, Ev (f r o)) (l : List Nat) (o : Nat) : Ev (slots f l o) := by
  induction l generalizing o with
  | nil => exact Ev.nil
  | cons r rs ih => exact Ev.app (hf _ _) (ih _)
theorem ev_enterSp (n : Nat) : Ev (enterSp cfg n) := by unfold enterSp; noc hc; ev [ev_loadImm hc _ _ _]
omit hc in
theorem ev_enterSp2 (n : Nat) : Ev (enterSp2 n) := by unfold enterSp2; ev []
theorem ev_argMoves (t a b : Nat) : Ev (argMoves cfg t a b) := by
  induction t using Nat.strongRecOn generalizing a b with
  | _ t ih =>
    unfold argMoves; noc hc
    by_cases h : t = 0
    · rw [dif_pos h]; exact Ev.nil
    · rw [dif_neg h]
      have hi := ih (t / 16) (by omega)
      ev [hi _ _]
theorem ev_emitEnter (p : Frame) (ra : Bool) (at' : Nat) : Ev (emitEnter cfg p ra at') := by
  unfold emitEnter
  ev [ev_enterSp hc _, ev_enterSp2 _, ev_argMoves hc _ _ _, ev_slots (fun _ _ => ev_stackStore hc _ _) _ _,
    ev_slots (fun _ _ => ev_stackFStore hc _ _) _ _]
theorem ev_releaseSp (n : Nat) : Ev (releaseSp cfg n) := by unfold releaseSp; ev [ev_loadImm hc _ _ _]
theorem ev_releaseSp2 (n : Nat) : Ev (releaseSp2 cfg n) := by unfold releaseSp2; noc hc; ev []
theorem ev_emitRelease (p : Frame) (r : Bool) : Ev (emitRelease cfg p r) := by
  unfold emitRelease
  ev [ev_releaseSp hc _, ev_releaseSp2 hc _, ev_stackLoad hc _ _, ev_slots (fun _ _ => ev_stackLoad hc _ _) _ _,
    ev_slots (fun _ _ => ev_stackFLoad hc _ _) _ _]
theorem ev_emitReturnVoid (p : Frame) : Ev (emitReturnVoid cfg p) := Ev.app (ev_emitRelease hc _ _) (Ev.w32 _)
theorem ev_emitReturn (p : Frame) (o : Op1C) (w : Bool) (a : Opd) : Ev (emitReturn cfg p o w a) := by
  unfold emitReturn; ev [ev_emitReturnVoid hc _, ev_emitOp1 hc _ _ _ _]

end Verif.RV
