import Verif.A64.GenLay
import Verif.A64.Op1

/-! # sljit_emit_op_addr on ARM64 -/

namespace Verif.A64
open Verif.Imm.Arm64 (regMap RD RN)

/-- Instructions as a piece of a program (nothing is pushed for the empty list). -/
def codeItem (e : List (BitVec 32)) : List Item := if e = [] then [] else [.code e]

/-- sljit_emit_op_addr (sljitNativeARM_64.c:3627-3665): the pieces of the program; `none` is a failed assertion.  `add` is SLJIT_ADD_ABS_ADDR, otherwise the operation
is SLJIT_MOV_ADDR or SLJIT_MOV_ABS_ADDR; `t` is what sljit_set_label or sljit_set_target sets.  The displacements of SLJIT_SP are adjusted before (ADJUST_LOCAL_OFFSET adds
SLJIT_LOCALS_OFFSET, sljitLir.c:341-343). -/
def emitOpAddr (add : Bool) (dst : Opd) (t : Tgt) : Option (List Item) :=
  let dstR := match dst with | .reg r => r | _ => TMP_REG1
  let targetR := if add then TMP_REG2 else dstR
  let pre : Code := match dst with | .mem b o w => if add then emitOpMem ⟨3, false, false⟩ TMP_REG1 b o w TMP_REG2 else some [] | _ => some []
  let sum : List (BitVec 32) := if add then [ADD ||| RD dstR ||| RN dstR ||| RM TMP_REG2] else []
  let st : Code := match dst with | .mem b o w => emitOpMem ⟨3, false, true⟩ dstR b o w TMP_REG2 | _ => some []
  pre.bind fun p => st.map fun q => codeItem p ++ .mov targetR t :: codeItem (sum ++ q)

variable {c : IMem} {off a0 : BitVec 64} {laddr : List (BitVec 64)} {fin : BitVec 64}

theorem placed_code {e : List (BitVec 32)} {is : List Item} {a : BitVec 64} {li : Nat} {ca : List (BitVec 64)} {ja : List Nat}
    (h : Placed c off a0 laddr (codeItem e ++ is) a li ca ja fin) : WordsAt c a e ∧ Placed c off a0 laddr is (a + BitVec.ofNat 64 (4 * e.length)) li ca ja fin := by
  unfold codeItem at h
  split at h
  · next he => subst he; exact ⟨trivial, by simpa using h⟩
  · exact h

/-- Three pieces: straight line code, an address, straight line code. -/
theorem placed_three {pre post : List (BitVec 32)} {r : Nat} {t : Tgt} {is : List Item} {a : BitVec 64} {li : Nat} {ca : List (BitVec 64)} {ja : List Nat}
    (h : Placed c off a0 laddr (codeItem pre ++ .mov r t :: codeItem post ++ is) a li ca ja fin) :
    ∃ a' ja', Placed c off a0 laddr is a' li ca ja' fin ∧ ∀ (p : PSt) (s1 : St) (Q : St → Prop), p.pc = a → runs pre p.s = some s1 →
      (∀ s2, (∀ q, q ≠ regMap r → s2.r q = s1.r q) → s2.m = s1.m → s2.f = s1.f → s2.r (regMap r) = tgtOf laddr t → ∃ s3, runs post s2 = some s3 ∧ Q s3) →
      ∃ p', PSteps c p p' ∧ p'.pc = a' ∧ p'.v = p.v ∧ Q p'.s := by
  rw [List.append_assoc] at h
  obtain ⟨h1, n, x, ja', rfl, h2, h3⟩ := placed_code h
  obtain ⟨h4, h5⟩ := placed_code h3
  refine ⟨_, ja', h5, fun p s1 Q hs hp hq => ?_⟩
  have r1 := psteps_runs pre (p := p) (by rw [hs]; exact h1) hp
  rw [hs] at r1
  obtain ⟨p2, g1, g2, g3, g4, g5, g6, g7⟩ := h2 { p with s := s1, pc := a + BitVec.ofNat 64 (4 * pre.length) } rfl
  obtain ⟨s3, q1, q2⟩ := hq p2.s (fun q hq => g3 q (by simpa using hq)) g4 g5 g7
  have r3 := psteps_runs post (p := p2) (by rw [g2]; exact h4) q1
  exact ⟨_, r1.trans (g1.trans r3), by rw [g2], g6, q2⟩

theorem s_addR {d m : Nat} (hd : regMap d ≠ 31#5) (hm : regMap m ≠ 31#5) (s : St) :
    step (ADD ||| RD d ||| RN d ||| RM m) s = some (s.set (regMap d) (s.r (regMap d) + s.r (regMap m))) := by
  have h := s_add (s := s) (d := d) (n := d) (m := m) ⟨false, false, false⟩
  rw [show ADD ^^^ Fl.chk ⟨false, false, false⟩ (1#32 <<< 29) = ADD by decide] at h
  rw [h]
  simp only [exec, sh0, Bool.false_eq_true, if_false]
  rw [show up (awc (lo (!false) (s.x (regMap d))) (lo (!false) (s.x (regMap m))) false).1 = s.x (regMap d) + s.x (regMap m) from awc_add _ _, x_ne hd, x_ne hm, setX_ne _ _ hd]

/-- SLJIT_MOV_ADDR, SLJIT_MOV_ABS_ADDR and SLJIT_ADD_ABS_ADDR. -/
theorem emitOpAddr_ok {add : Bool} {dst : Opd} {t : Tgt} (hd : Dst1 dst) :
    ∃ its, emitOpAddr add dst t = some its ∧ ∀ {is : List Item} {a : BitVec 64} {li : Nat} {ca : List (BitVec 64)} {ja : List Nat}, Placed c off a0 laddr (its ++ is) a li ca ja fin →
      ∃ a' ja', Placed c off a0 laddr is a' li ca ja' fin ∧ ∀ p : PSt, p.pc = a → ∃ p', PSteps c p p' ∧ p'.pc = a' ∧ p'.v = p.v ∧
        Fin1 p.s p'.s dst true 8 (if add then val1 8 p.s dst + tgtOf laddr t else tgtOf laddr t) := by
  have t1 : regMap TMP_REG1 = 9#5 := by decide
  have t2 : regMap TMP_REG2 = 10#5 := by decide
  cases dst with
  | imm v => exact absurd hd id
  | reg r =>
    obtain ⟨n9, n10, n30, n31⟩ := ur_map hd
    refine ⟨_, rfl, fun h => ?_⟩
    obtain ⟨a', ja', k1, k2⟩ := placed_three h
    refine ⟨a', ja', k1, fun p hp => k2 p p.s (fun s3 => Fin1 p.s s3 (.reg r) true 8 (if add then val1 8 p.s (.reg r) + tgtOf laddr t else tgtOf laddr t)) hp rfl fun s2 g1 g2 g3 g4 => ?_⟩
    cases add with
    | false =>
      simp only [Bool.false_eq_true, if_false] at g1 g4
      refine ⟨s2, rfl, fun q _ _ h => g1 q (h r rfl), ?_, fun _ _ _ e => (by cases e), fun _ => g2, g3⟩
      rintro d ⟨⟩
      rw [g4]; rfl
    | true =>
      simp only [if_true, t2] at g1 g4
      refine ⟨_, runs_one (s_addR n31 (by decide) s2), fun q h1 h2 h => ?_, ?_, fun _ _ _ e => (by cases e), fun _ => g2, g3⟩
      · rw [set_ne _ _ (h r rfl)]; exact g1 q h2
      · rintro d ⟨⟩
        rw [set_self, t2, g4, g1 _ n10]; rfl
  | mem b o w =>
    obtain ⟨ws, -, e1, -⟩ := store_run (t := ⟨3, false, true⟩) (by decide) (fun _ => rfl) rfl hd (r := TMP_REG1) (by decide) ⟨fun _ => 0#64, fun _ => 0#8, ⟨false, false, false, false⟩⟩
    have st : ∀ (s s2 : St) (v : BitVec 64), (∀ q, q ≠ 9#5 → q ≠ 10#5 → s2.r q = s.r q) → s2.m = s.m → s2.f = s.f → s2.r 9#5 = v →
        ∃ s3, runs ws s2 = some s3 ∧ Fin1 s s3 (.mem b o w) true 8 v := by
      intro s s2 v k1 k2 k3 k4
      obtain ⟨is, s3, f1, f2, f3, f4, f5⟩ := store_run (t := ⟨3, false, true⟩) (by decide) (fun _ => rfl) rfl hd (r := TMP_REG1) (by decide) s2
      rw [e1] at f1; cases f1
      refine ⟨s3, f2, fun q h1 h2 _ => (f4 q h2).trans (k1 q h1 h2), fun _ e => (by cases e), ?_, fun h => absurd rfl (h b o w), f3.trans k3⟩
      rintro _ _ _ ⟨⟩
      rw [f5, k2, x_ne (by decide), t1, k4, ea_eq hd (fun q q1 q2 _ => k1 q q1 q2)]
      rfl
    cases add with
    | false =>
      refine ⟨codeItem [] ++ .mov TMP_REG1 t :: codeItem ([] ++ ws), (by simp only [emitOpAddr, Bool.false_eq_true, if_false, Option.bind_some, e1, Option.map_some]), fun h => ?_⟩
      obtain ⟨a', ja', k1, k2⟩ := placed_three h
      refine ⟨a', ja', k1, fun p hp => k2 p p.s (fun s3 => Fin1 p.s s3 (.mem b o w) true 8 (tgtOf laddr t)) hp rfl fun s2 g1 g2 g3 g4 => ?_⟩
      rw [t1] at g1 g4
      exact st _ _ _ (fun q h1 _ => g1 q h1) g2 g3 g4
    | true =>
      obtain ⟨ls, -, e2, -⟩ := load_any (t := ⟨3, false, false⟩) (by decide) (fun _ => rfl) rfl hd (r := TMP_REG1) (by decide) ⟨fun _ => 0#64, fun _ => 0#8, ⟨false, false, false, false⟩⟩
      refine ⟨codeItem ls ++ .mov TMP_REG2 t :: codeItem ([ADD ||| RD TMP_REG1 ||| RN TMP_REG1 ||| RM TMP_REG2] ++ ws), (by simp only [emitOpAddr, if_true, Option.bind_some, e1, e2, Option.map_some]), fun h => ?_⟩
      obtain ⟨a', ja', k1, k2⟩ := placed_three h
      refine ⟨a', ja', k1, fun p hp => ?_⟩
      obtain ⟨is, s1, f1, f2, f3, f4, f5, f6⟩ := load_any (t := ⟨3, false, false⟩) (by decide) (fun _ => rfl) rfl hd (r := TMP_REG1) (by decide) p.s
      rw [e2] at f1; cases f1
      refine k2 p s1 (fun s3 => Fin1 p.s s3 (.mem b o w) true 8 (val1 8 p.s (.mem b o w) + tgtOf laddr t)) hp f2 fun s2 g1 g2 g3 g4 => ?_
      rw [t2] at g1 g4
      rw [t1] at f5 f6
      rw [runs_app (runs_one (s_addR (by decide) (by decide) s2))]
      refine st _ _ _ (fun q h1 h2 => ?_) ?_ ?_ ?_
      · rw [set_ne _ _ (by rw [t1]; exact h1), g1 q h2, f5 q h2 h1]
      · exact g2.trans f3
      · exact g3.trans f4
      · rw [t1, set_self, t2, g4, g1 _ (by decide), f6]; rfl

end Verif.A64
