import Verif.X86.GenLay
import Verif.X86.OpEff
import Verif.X86.Local

/-! # sljit_emit_op_addr on x86-64 -/

namespace Verif.X86

/-- Instructions as a piece of a program (nothing is pushed for the empty list). -/
def bytesItem (e : List Byte) : List Item := if e = [] then [] else [.bytes e]

/-- The register which gets the address (sljitNativeX86_common.c:5233-5236). -/
def addrReg (add : Bool) : Opd → Nat
  | .reg r => if add then TMP_REG2 else r
  | _ => TMP_REG1

/-- sljit_emit_op_addr (sljitNativeX86_common.c:5212-5273, SLJIT_CONFIG_X86_64): the pieces of the program; `none` is a failed assertion.  `add` is SLJIT_ADD_ABS_ADDR,
otherwise the operation is SLJIT_MOV_ADDR or SLJIT_MOV_ABS_ADDR; `t` is what sljit_set_label or sljit_set_target sets.  The displacements of SLJIT_SP are adjusted before
(ADJUST_LOCAL_OFFSET, sljitLir.c:341-343). -/
def emitOpAddr (win add : Bool) (dst : Opd) (t : Tgt) : Option (List Item) :=
  let post : Code := if add then ins win false {} (.reg (addrReg add dst)) dst [0x01#8] else match dst with | .mem .. => emitMov win false dst (.reg TMP_REG1) | _ => some []
  post.map fun q => .mov (addrReg add dst) t :: bytesItem q

variable {c : IMem} {win : Bool} {off a0 : BitVec 64} {laddr : List (BitVec 64)} {fin : BitVec 64}

theorem placed_bytes {e : List Byte} {is : List Item} {a : BitVec 64} {li : Nat} {ca : List (BitVec 64)} {ja : List Nat}
    (h : Placed c win off a0 laddr (bytesItem e ++ is) a li ca ja fin) : BytesAt c a e ∧ Placed c win off a0 laddr is (a + BitVec.ofNat 64 e.length) li ca ja fin := by
  unfold bytesItem at h
  split at h
  · next he => subst he; exact ⟨by simp [BytesAt], by simpa using h⟩
  · exact h

theorem placed_suffixW : ∀ (xs : List Item) {is : List Item} {a : BitVec 64} {li : Nat} {ca : List (BitVec 64)} {ja : List Nat},
    Placed c win off a0 laddr (xs ++ is) a li ca ja fin → ∃ a' ca' ja', Placed c win off a0 laddr is a' (li + Prog.labels xs) ca' ja' fin
  | [], _, a, _, ca, ja, h => ⟨a, ca, ja, h⟩
  | .bytes bs :: xs, _, _, _, _, _, h => placed_suffixW xs h.2
  | .const bs :: xs, _, _, _, _, _, ⟨_, _, _, h⟩ => placed_suffixW xs h
  | .label :: xs, _, _, li, _, _, h => by
    obtain ⟨a', ca', ja', q⟩ := placed_suffixW xs h.2
    exact ⟨a', ca', ja', by rw [Prog.labels, show li + (Prog.labels xs + 1) = li + 1 + Prog.labels xs by omega]; exact q⟩
  | .alabel al :: xs, _, _, li, _, _, ⟨_, _, _, _, h⟩ => by
    obtain ⟨a', ca', ja', q⟩ := placed_suffixW xs h
    exact ⟨a', ca', ja', by rw [Prog.labels, show li + (Prog.labels xs + 1) = li + 1 + Prog.labels xs by omega]; exact q⟩
  | .jump j :: xs, _, _, _, _, _, ⟨_, _, _, _, _, _, h⟩ => placed_suffixW xs h
  | .mov r t :: xs, _, _, _, _, _, ⟨_, _, _, _, _, h⟩ => placed_suffixW xs h

/-- Two pieces: an address and straight line code. -/
theorem placed_two {post : List Byte} {r : Nat} {t : Tgt} {is : List Item} {a : BitVec 64} {li : Nat} {ca : List (BitVec 64)} {ja : List Nat}
    (h : Placed c win off a0 laddr (.mov r t :: bytesItem post ++ is) a li ca ja fin) :
    ∃ a' ja', Placed c win off a0 laddr is a' li ca ja' fin ∧ ∀ (p : PSt) (Q : St → Prop), p.pc = a →
      (∀ s2, Res win false p.s s2 (some (.reg r)) (tgtOf laddr t) false false → s2.f = p.s.f → ∃ s3, Steps post s2 s3 ∧ Q s3) →
      ∃ p', PSteps c p p' ∧ p'.pc = a' ∧ Q p'.s := by
  obtain ⟨n, x, ja', rfl, h2, h3⟩ := h
  obtain ⟨h4, h5⟩ := placed_bytes h3
  refine ⟨_, ja', h5, fun p Q hs hq => ?_⟩
  obtain ⟨⟨s2, pc2⟩, g1, g2, g3, g4, g5, g6⟩ := h2 p hs
  simp only at g2 g3 g4 g5 g6
  subst g2
  obtain ⟨s3, q1, q2⟩ := hq s2 ⟨fun q k _ _ => g3 q (by simpa using k r rfl), fun d e => (by cases e; exact g6), g4⟩ g5
  exact ⟨_, g1.trans (q1.psteps h4), rfl, q2⟩

/-- SLJIT_MOV_ADDR, SLJIT_MOV_ABS_ADDR and SLJIT_ADD_ABS_ADDR. -/
theorem emitOpAddr_ok {add : Bool} {dst : Opd} {t : Tgt} (hd : Dst dst) :
    ∃ its, emitOpAddr win add dst t = some its ∧ ∀ {is : List Item} {a : BitVec 64} {li : Nat} {ca : List (BitVec 64)} {ja : List Nat}, Placed c win off a0 laddr (its ++ is) a li ca ja fin →
      ∃ a' ja', Placed c win off a0 laddr is a' li ca ja' fin ∧ ∀ p : PSt, p.pc = a → ∃ p', PSteps c p p' ∧ p'.pc = a' ∧
        Res win false p.s p'.s (some dst) (if add then opv win false p.s dst + tgtOf laddr t else tgtOf laddr t) true true ∧
        p'.s.f = if add then (addF (opv win false p.s dst) (tgtOf laddr t) false).2 else p.s.f := by
  cases add with
  | true =>
    have hr : addrReg true dst = TMP_REG1 ∨ addrReg true dst = TMP_REG2 ∧ long dst = false := by
      cases dst
      · exact Or.inr ⟨rfl, rfl⟩
      · exact Or.inl rfl
      · exact Or.inl rfl
    have hr' : 15 ≤ addrReg true dst ∧ addrReg true dst ≤ 16 := by
      rcases hr with e | ⟨e, -⟩ <;> rw [e] <;> decide
    obtain ⟨bs, hb⟩ := ins_some (win := win) (m32 := false) (fl := {}) rfl (addrReg true dst) hd.imm [0x01#8]
    refine ⟨.mov (addrReg true dst) t :: bytesItem bs, by simp only [emitOpAddr, if_true, hb, Option.map_some], fun h => ?_⟩
    obtain ⟨a', ja', k1, k2⟩ := placed_two h
    refine ⟨a', ja', k1, fun p hp => k2 p (fun s3 => Res win false p.s s3 (some dst) (opv win false p.s dst + tgtOf laddr t) true true ∧
      s3.f = (addF (opv win false p.s dst) (tgtOf laddr t) false).2) hp fun s2 g1 g2 => ?_⟩
    have ho : opv win false s2 dst = opv win false p.s dst := by
      refine g1.opv hd.good (fun d e => ⟨_, (Option.some.inj e).symm, by omega, by omega, ?_⟩) (fun e => by cases e) (fun e => by cases e) false
      cases dst with
      | reg r =>
        obtain ⟨q1, q2, q3⟩ := hd
        simp only [addrReg, if_true, uses, beq_eq_false_iff_ne]; unfold TMP_REG2; omega
      | imm v => rfl
      | mem b o w =>
        obtain ⟨q1, q2, q3⟩ := hd
        simp only [addrReg, uses, Bool.or_eq_false_iff, beq_eq_false_iff_ne]; unfold TMP_REG1; omega
    have hv : s2.r (num win (addrReg true dst)) = tgtOf laddr t := g1.val _ rfl
    have ha := aluN_of (m32 := false) (i := 0#3) (a := opv win false s2 dst) (b := s2.r (num win (addrReg true dst))) (f := s2.f)
      (x := (addF (opv win false s2 dst) (s2.r (num win (addrReg true dst))) false).1) (g := (addF (opv win false s2 dst) (s2.r (num win (addrReg true dst))) false).2) (by
        rw [show lo false (opv win false s2 dst) = opv win false s2 dst from BitVec.setWidth_eq _, show lo false (s2.r (num win (addrReg true dst))) = s2.r (num win (addrReg true dst)) from BitVec.setWidth_eq _]
        rfl)
    obtain ⟨s3, ⟨bs', e1, e2⟩, e3, e4⟩ := e_mr (win := win) (m32 := false) (s := s2) (i := 0#3) (r := addrReg true dst) hd.good hd.imm (fun hl => by
      rcases hr with e | ⟨-, e⟩
      · rw [e]; exact num_ne_t2 (by decide) (by decide)
      · rw [e] at hl; cases hl) ha
    have eb : bs' = bs := by
      have : ins win false {} (.reg (addrReg true dst)) dst [0x01#8] = some bs' := e1
      rw [hb] at this
      exact (Option.some.inj this).symm
    subst eb
    rw [ho, hv] at e4
    rw [ho, hv] at e3
    refine ⟨s3, e2, ?_, e4⟩
    have e5 : Res win false s2 s3 (some dst) (opv win false p.s dst + tgtOf laddr t) false (long dst) := by
      refine e3.congr ?_
      simp only [trunc, up, addF, Bool.false_eq_true, if_false]
      simp
      exact BitVec.setWidth_eq _
    exact (g1.comp e5 (fun d e => by cases e; exact hd.good) (by rcases hr with e | ⟨e, -⟩; exact Or.inl e; exact Or.inr (Or.inl e))).weaken (fun h => by cases h) (fun h => by cases h)
  | false =>
    cases dst with
    | imm v => exact absurd hd id
    | reg r =>
      refine ⟨.mov r t :: bytesItem [], rfl, fun h => ?_⟩
      obtain ⟨a', ja', k1, k2⟩ := placed_two h
      refine ⟨a', ja', k1, fun p hp => k2 p (fun s3 => Res win false p.s s3 (some (.reg r)) (tgtOf laddr t) true true ∧ s3.f = p.s.f) hp fun s2 g1 g2 => ?_⟩
      exact ⟨s2, Steps.nil s2, g1.weaken (fun h => by cases h) (fun h => by cases h), g2⟩
    | mem b o w =>
      obtain ⟨bs, hb⟩ := ins_some (win := win) (m32 := false) (fl := {}) rfl TMP_REG1 hd.imm [0x89#8]
      have hb' : emitMov win false (.mem b o w) (.reg TMP_REG1) = some bs := hb
      refine ⟨.mov TMP_REG1 t :: bytesItem bs, by simp only [emitOpAddr, addrReg, Bool.false_eq_true, if_false, hb', Option.map_some], fun h => ?_⟩
      obtain ⟨a', ja', k1, k2⟩ := placed_two h
      refine ⟨a', ja', k1, fun p hp => k2 p (fun s3 => Res win false p.s s3 (some (.mem b o w)) (tgtOf laddr t) true true ∧ s3.f = p.s.f) hp fun s2 g1 g2 => ?_⟩
      obtain ⟨s3, ⟨bs', e1, e2⟩, e3, e4⟩ := e_store (win := win) (m32 := false) (s := s2) (r := TMP_REG1) hd.good hd.imm (fun _ => num_ne_t2 (by decide) (by decide))
      rw [hb] at e1; cases e1
      rw [show s2.r (num win TMP_REG1) = tgtOf laddr t from g1.val _ rfl] at e3
      exact ⟨s3, e2, (g1.comp e3 (fun d e => by cases e; exact hd.good) (Or.inl rfl)).weaken (fun h => by cases h) (fun h => by cases h), e4.trans g2⟩

end Verif.X86
