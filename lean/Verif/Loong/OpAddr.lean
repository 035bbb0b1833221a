import Verif.Loong.JumpProof2
import Verif.Loong.FlagsOp

/-! # sljit_emit_op_addr on LoongArch64 -/

set_option linter.all false

namespace Verif.LA
open Verif.RV (Opd Sz MT dstR0)
open Verif.Imm.Loong (regMap)

/-- sljit_emit_op_addr (sljitNativeLOONGARCH_64.c:3958-3995) and the words the code generator puts in place of the record
(mov_addr_get_length, load_addr_to_reg), at the address `a`.  `add` is SLJIT_ADD_ABS_ADDR, otherwise the operation is SLJIT_MOV_ADDR or SLJIT_MOV_ABS_ADDR.
Simplified: `a` is the final address, the passes which compute it from the sizes of the records are those of C70. -/
def emitOpAddr (add : Bool) (dst : Opd) (a addr : BitVec 64) : Option Emit :=
  let dstR := match dst with | .reg r => r | _ => TMP_REG2
  let targetR := if add then TMP_REG1 else dstR
  let pre : Emit := match dst with | .mem b i w => if add then emitOpMem (.g .word false) true TMP_REG2 b i w else [] | _ => []
  let q := a + BitVec.ofNat 64 (4 * pre.length)
  let post : Emit := (if add then ins (ADD_D ||| RD dstR ||| RJ dstR ||| RK TMP_REG1) else []) ++
    (match dst with | .mem b i w => emitOpMem (.g .word false) false TMP_REG2 b i w | _ => [])
  (movWords (movDetect (addr - q) addr) targetR q addr).map fun e => pre ++ e ++ post

/-- The address of the words which load the address. -/
def opAddrAt (add : Bool) (dst : Opd) (a : BitVec 64) : BitVec 64 :=
  match dst with
  | .mem b i w => if add then a + BitVec.ofNat 64 (4 * (emitOpMem (.g .word false) true TMP_REG2 b i w).length) else a
  | _ => a

/-- Loading an address, with the form selected by the code generator. -/
theorem movSel {r : Nat} {q addr : BitVec 64} {s : Core} (hr0 : regMap r ≠ 0#5)
    (hw : ¬ (0x7ffff800 ≤ (addr - q).toInt ∧ (addr - q).toInt ≤ 0x7fffffff)) :
    ∃ e, movWords (movDetect (addr - q) addr) r q addr = some e ∧ ∀ code, CodeAt code q e →
      StepsJ code ⟨q, s⟩ ⟨q + BitVec.ofNat 64 (4 * e.length), s.wr (regMap r) addr⟩ := by
  have hsome : ∃ e, movWords (movDetect (addr - q) addr) r q addr = some e := by
    unfold movDetect
    split
    · next h => exact ⟨_, by simp only [movWords, loadAddr]; rw [if_pos h]; rfl⟩
    split
    · next h => exact ⟨_, by simp only [movWords, loadAddr]; rw [if_pos h]; rfl⟩
    split <;> exact ⟨_, rfl⟩
  obtain ⟨e, he⟩ := hsome
  refine ⟨e, he, fun code hc => mov_ok hr0 ?_ (fun hp => ?_) (fun hp => ?_) he hc⟩
  · unfold movDetect
    repeat' (split)
    all_goals simp
  · unfold movDetect at hp
    split at hp
    · next h => omega
    · repeat' (split at hp)
      all_goals cases hp
  · unfold movDetect at hp
    repeat' (split at hp)
    all_goals first | (cases hp; done) | assumption

theorem off_append (p : BitVec 64) (a b : Emit) : p + BitVec.ofNat 64 (4 * a.length) + BitVec.ofNat 64 (4 * b.length) = p + BitVec.ofNat 64 (4 * (a ++ b).length) := by
  rw [List.length_append, BitVec.add_assoc, ← BitVec.ofNat_add, Nat.mul_add]

/-- Three parts: straight line code, an address, straight line code. -/
theorem three {pre post : Emit} {r : Nat} {a addr : BitVec 64} {s : Core} {Q : Core → Prop} (hr0 : regMap r ≠ 0#5)
    (hw : ¬ (0x7ffff800 ≤ (addr - (a + BitVec.ofNat 64 (4 * pre.length))).toInt ∧ (addr - (a + BitVec.ofNat 64 (4 * pre.length))).toInt ≤ 0x7fffffff))
    (h : wp pre s fun s1 => wp post (s1.wr (regMap r) addr) Q) :
    ∃ e, ((movWords (movDetect (addr - (a + BitVec.ofNat 64 (4 * pre.length))) addr) r (a + BitVec.ofNat 64 (4 * pre.length)) addr).map fun e => pre ++ e ++ post) = some e ∧
      ∀ code, CodeAt code a e → ∃ s', StepsJ code ⟨a, s⟩ ⟨a + BitVec.ofNat 64 (4 * e.length), s'⟩ ∧ Q s' := by
  obtain ⟨s1, h1, s2, h2, h3⟩ := h
  obtain ⟨e, he, hs⟩ := movSel (s := s1) hr0 hw
  refine ⟨pre ++ e ++ post, by rw [he]; rfl, fun code hc => ⟨s2, ?_, h3⟩⟩
  rw [CodeAt_append, CodeAt_append] at hc
  refine (steps_of_run hc.1.1 h1).J.trans ((hs code hc.1.2).trans ?_)
  have := (steps_of_run hc.2 h2).J
  rw [off_append]
  rw [off_append] at this
  exact this

/-- SLJIT_MOV_ADDR, SLJIT_MOV_ABS_ADDR and SLJIT_ADD_ABS_ADDR. -/
theorem emitOpAddr_ok {add : Bool} {dst : Opd} {a addr : BitVec 64} {s : Core} (hd : DOk dst) (h0 : dst ≠ .reg 0)
    (hw : ¬ (0x7ffff800 ≤ (addr - opAddrAt add dst a).toInt ∧ (addr - opAddrAt add dst a).toInt ≤ 0x7fffffff)) :
    ∃ e, emitOpAddr add dst a addr = some e ∧ ∀ code, CodeAt code a e → ∃ s', StepsJ code ⟨a, s⟩ ⟨a + BitVec.ofNat 64 (4 * e.length), s'⟩ ∧
      Done .word dst (if add then opdVal .word false s dst + addr else addr) s s' ∧ s'.x 12#5 = s.x 12#5 ∧ s'.x 15#5 = s.x 15#5 := by
  have t1 : regMap TMP_REG1 = 13#5 := by decide
  have t2 : regMap TMP_REG2 = 1#5 := by decide
  have z : a + BitVec.ofNat 64 (4 * ([] : Emit).length) = a := by simp
  cases dst with
  | imm v => exact absurd hd (by simp [DOk])
  | reg r =>
    have hr0 : r ≠ 0 := by rintro rfl; exact h0 rfl
    have hdd := dstR0_ok hd
    simp only [dstR0, if_neg hr0] at hdd
    have fin : ∀ (v : BitVec 64) c', c'.x (regMap r) = v → Only [13#5, regMap r] s c' →
        Done .word (.reg r) v s c' ∧ c'.x 12#5 = s.x 12#5 ∧ c'.x 15#5 = s.x 15#5 := by
      intro v c' k1 k2
      refine ⟨⟨?_, k2.2.1, ?_, k2.2.2⟩, ?_, ?_⟩
      · rintro r' ⟨⟩ -; exact k1
      · intro q hq h
        refine k2.1 q ?_
        simp only [List.mem_cons, List.not_mem_nil, or_false, not_or] at hq ⊢
        exact ⟨hq.2.2.1, (h r rfl).resolve_right hr0⟩
      · exact k2.1 _ (by simp [hdd.n5.symm])
      · exact k2.1 _ (by simp [hdd.n28.symm])
    cases add with
    | false =>
      refine three (pre := []) (post := []) hdd.n0 (by rw [z]; exact hw) ?_
      rw [wp_nil, wp_nil]
      refine fin _ _ (by simp [hdd.n0]) ((Only.refl _ _).wr (by simp) _)
    | true =>
      refine three (pre := []) (post := ins (ADD_D ||| RD r ||| RJ r ||| RK TMP_REG1) ++ []) (r := TMP_REG1) (by decide) (by rw [z]; exact hw) ?_
      rw [wp_nil, List.append_nil, wp_ADD_D, Verif.RV.evR_add]
      refine fin _ _ ?_ (((Only.refl _ _).wr (by simp [t1]) _).wr (by simp) _)
      simp [hdd.n0, t1, hdd.n6, opdVal]
  | mem b i w =>
    obtain ⟨u1, u5, u6, u7, u28⟩ := user_ne hd.1
    obtain ⟨v1, v5, v6, v7, v28⟩ := user_ne hd.2.1
    have fin : ∀ (v : BitVec 64) (c : Core), c.x 1#5 = v → Only [1#5, 13#5] s c → wp (emitOpMem (.g .word false) false TMP_REG2 b i w) c fun s' =>
        Done .word (.mem b i w) v s s' ∧ s'.x 12#5 = s.x 12#5 ∧ s'.x 15#5 = s.x 15#5 := by
      intro v c k1 k2
      refine wp_mono (opMem_store (by decide) hd.1 hd.2.1 hd.2.2) ?_
      rintro c' ⟨c2, k, rfl⟩
      rw [ea_only k2 (by simp [u1, u6]) (by simp [v1, v6]), t2, k1, k2.2.1]
      have kk : ∀ q, q ≠ 1#5 → q ≠ 13#5 → c2.x q = s.x q := by
        intro q q1 q6
        rw [k.1 q (by simp [q6]), k2.1 q (by simp [q1, q6])]
      refine ⟨⟨fun _ h => by (cases h), rfl, fun q h1 _ => ?_, k.2.2.trans k2.2.2⟩, ?_, ?_⟩
      · simp only [List.mem_cons, List.not_mem_nil, or_false, not_or] at h1
        exact kk q h1.1 h1.2.2.1
      · exact kk _ (by decide) (by decide)
      · exact kk _ (by decide) (by decide)
    cases add with
    | false =>
      refine three (pre := []) (post := [] ++ emitOpMem (.g .word false) false TMP_REG2 b i w) (r := TMP_REG2) (by decide) (by rw [z]; exact hw) ?_
      rw [wp_nil, List.nil_append]
      exact fin _ _ (by simp [t2]) ((Only.refl _ _).wr (by simp [t2]) _)
    | true =>
      refine three (pre := emitOpMem (.g .word false) true TMP_REG2 b i w)
        (post := ins (ADD_D ||| RD TMP_REG2 ||| RJ TMP_REG2 ||| RK TMP_REG1) ++ emitOpMem (.g .word false) false TMP_REG2 b i w) (r := TMP_REG1) (by decide) hw ?_
      refine wp_mono (opMem_load (by decide) hd.1 hd.2.1 hd.2.2 (by rw [t2]; exact u1) (by decide)) ?_
      rintro c1 ⟨g1, g2⟩
      rw [wp_ADD_D_s, Verif.RV.evR_add]
      rw [t2] at g1 g2
      refine fin _ _ ?_ (((g2.mono (by simp)).wr (by simp [t1]) _).wr (by simp [t2]) _)
      simp [t1, t2, g1, opdVal]

end Verif.LA
