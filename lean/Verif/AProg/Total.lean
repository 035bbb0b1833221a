import Verif.AProg.Exec

/-!
# Every covered call has instructions (ARM64), and sljit_emit_cmp
-/

namespace Verif.ALir
open Verif.A64 hiding cond moved DstOk
open Verif.Props
open Verif.Imm.Arm64 (regMap)
open Verif.Lir (Val wd)
open Verif.XLir (neg swapType cmpOp holds_neg holds_swap swap_lt sub_zero)

variable {p : Frame} {st : FState}

/-- A state. -/
def ones : St := ⟨fun _ => 1#64, fun _ => 0#8, ⟨false, false, false, false⟩⟩

theorem ones_holds (st : FState) (t : JT) (n : Bool) : C47.Holds st t n ones (!A64.cond (getCc st t n) ones.f) := (Bool.not_not _).symm

theorem into_nz (is32 left : Bool) (dst a b : Nat) (n : Opd) : (emitShiftInto is32 left true dst a b n).isSome = (emitShiftInto is32 left false dst a b n).isSome := by
  unfold emitShiftInto
  split
  · rfl
  · cases n with
    | imm v => rfl
    | reg r => simp only; cases (intoCount is32 dst (.reg r)).1 <;> rfl
    | mem x y w => simp only; cases (intoCount is32 dst (.mem x y w)).1 <;> rfl

theorem emit_some (hp : Regs p) (st : FState) {ins : Lir.Ins} (h : InsOk p st ins) (hr : ∀ o is32 src, ins ≠ .ret o is32 src) :
    ∃ bs, emit p st ins = some bs := by
  have cy : ∀ op : RV.Op, ∃ cin, C47.CarryIs op ones cin := by
    intro op
    by_cases hc : op.code = .addc
    · exact ⟨_, fun _ => ones_holds .add .carry false, fun e => by rw [hc] at e; cases e⟩
    · exact ⟨_, fun e => absurd e hc, fun _ => ones_holds .sub .carry false⟩
  have hD : ∀ {r}, Decl p r → C47.Src (.reg (ar p r)) := fun hr => ao_src hp (o := .reg _) hr
  cases ins with
  | op0 o is32 =>
    by_cases hn : o = .nop
    · exact ⟨_, if_pos hn⟩
    · obtain ⟨bs, _, e, -⟩ := C47.c47_op0 (o := o) ⟨hn, by rintro rfl; rcases h with q | q | q | ⟨q, -⟩ <;> cases q⟩ is32 ones
      exact ⟨bs, (if_neg hn).trans e⟩
  | op1 o is32 dst src =>
    obtain ⟨hd, hs, ⟨ho, h32⟩ | ⟨ho, hi⟩⟩ := h
    · obtain ⟨bs, _, e, -⟩ := C47.c47_mov ho is32 (ao_dest hp hd) (ao_src hp hs) ones
      exact ⟨bs, e⟩
    · obtain ⟨bs, _, _, e, -⟩ := C47.c47_op1 ho is32 (ao_dest hp hd) (ao_src hp hs)
        (by cases src with
          | imm v => exact absurd rfl (hi v)
          | reg r => rintro v ⟨⟩
          | mem b i w => obtain ⟨B, I, W, q⟩ := ao_mem p b i w; rw [q]; rintro v ⟨⟩) ones
      exact ⟨bs, e⟩
  | op2 op dst a b =>
    obtain ⟨hd, ha, hb, hop, hfl, -⟩ := h
    obtain ⟨cin, hc⟩ := cy op
    obtain ⟨bs, _, e, -⟩ := C47.c47_op2 hop hfl (ao_dest hp hd) (ao_src hp ha) (ao_src hp hb) ones cin hc
    exact ⟨bs, e⟩
  | op2u op a b =>
    obtain ⟨ha, hb, hop, hfl, -⟩ := h
    obtain ⟨cin, hc⟩ := cy op
    obtain ⟨bs, _, e, -⟩ := C47.c47_op2u hop hfl (ao_src hp ha) (ao_src hp hb) ones cin hc
    exact ⟨bs, e⟩
  | shiftInto left is32 nz dst a b n =>
    obtain ⟨hd, ha, hb, hn, h1, h2⟩ := h
    cases nz with
    | false =>
      obtain ⟨bs, _, e, -⟩ := C47.c47_shift_into_partial is32 left false (hD hd) (hD ha) (hD hb) (ao_src hp hn) h1 h2 ones (fun h => by cases h)
      exact ⟨bs, e⟩
    | true =>
      obtain ⟨bs, _, e, -⟩ := C47.c47_shift_into_partial is32 left false (hD hd) (hD ha) (hD hb) (ao_src hp hn) h1 h2 ones (fun h => by cases h)
      have := into_nz is32 left (ar p dst) (ar p a) (ar p b) (ao p n)
      rw [e] at this
      exact Option.isSome_iff_exists.mp this
  | opFlags code is32 setZ dst type =>
    obtain ⟨hd, hc⟩ := h
    simp only [emit]
    by_cases hm : code = .mov
    · rw [if_pos hm]
      obtain ⟨bs, _, e, -⟩ := C47.c47_flags_mov is32 (ao_dest hp hd) st (jt type) (neg type) ones _ (ones_holds _ _ _)
      exact ⟨bs, e⟩
    · rw [if_neg hm]
      have hc : code = .and ∨ code = .or ∨ code = .xor := hc.resolve_left hm
      obtain ⟨bs, _, e, -⟩ := C47.c47_flags_op (op := ⟨code, is32, setZ, .none⟩) hc rfl
        (ao_dest hp hd) st (jt type) (neg type) ones _ (ones_holds _ _ _)
      exact ⟨bs, e⟩
  | select type is32 dst a b =>
    obtain ⟨hd, ha, hb⟩ := h
    obtain ⟨bs, _, e, -⟩ := C47.c47_select is32 (hD hd) (hD hb) (ao_src hp ha) st (jt type) (neg type) ones _ (ones_holds _ _ _)
    exact ⟨bs, e⟩
  | ret o is32 src => exact absurd rfl (hr _ _ _)
  | _ => exact ⟨_, rfl⟩

/-! ## sljit_emit_cmp -/

theorem cc_lt (st : FState) (type : Nat) : (Skip.cc (ccOf st type)).Ok := by
  show (getCc st (jt type) (neg type)).toNat < 14
  cases st <;> cases jt type <;> cases neg type <;> decide

theorem cmp_cc {w type : Nat} {is32 : Bool} (h : type < 10) {x y : BitVec w} {s : St} (hc : C47.CondsOk (cmpOp type is32) x y false s) :
    (!A64.cond (ccOf .sub type) s.f) = Lir.holds type x y := by
  rw [holds_neg h]
  have hst : stateAfter (cmpOp type is32).code .none = .sub := rfl
  have hc := hc .none
  rw [hst] at hc
  unfold ccOf
  by_cases h1 : type ≤ 1
  · have hj : jt type = .equal ∧ type / 2 * 2 = 0 := by
      have : type / 2 = 0 := by omega
      simp [jt, this]
    have h0 := hc.1 (by simp [cmpOp, h1]) (neg type)
    unfold C47.Holds at h0
    rw [hj.1, hj.2, h0, Bool.not_not]
    congr 1
    exact decide_eq_decide.mpr (sub_zero x y false)
  · have hd : type / 2 = 1 ∨ type / 2 = 2 ∨ type / 2 = 3 ∨ type / 2 = 4 := by omega
    have hfl : (cmpOp type is32).flag = C47.flagOf (jt type) ∧ (cmpOp type is32).flag ≠ .none := by
      rcases hd with e | e | e | e <;> simp [cmpOp, jt, e, C47.flagOf]
    have h0 := hc.2 hfl.2 (jt type) (neg type) hfl.1.symm
    unfold C47.Holds at h0
    rw [h0, hfl.1, Bool.not_not]
    congr 1
    rcases hd with e | e | e | e <;> simp only [jt, e] <;> rfl

theorem cmp_skip (type : Nat) (is32 : Bool) (a b : Opd) : (emitCmp type is32 a b).2.Ok := by
  unfold emitCmp
  split
  · trivial
  · split <;> exact cc_lt _ _

/-- emit_cmp_to0: the register holds the operand. -/
theorem to0_run (is32 : Bool) {o : Opd} (h : C47.Src o) (s : St) : ∃ ws s', (emitTo0 is32 o).1 = some ws ∧ runs ws s = some s' ∧ s'.m = s.m ∧
    (∀ q, 1 ≤ q → q ≤ 27 → s'.r (regMap q) = s.r (regMap q)) ∧ lo (!is32) (s'.x (regMap (emitTo0 is32 o).2)) = C47.value (W !is32) s o := by
  have t9 : regMap TMP_REG1 = 9#5 := by decide
  cases o with
  | reg r =>
    refine ⟨[], s, rfl, rfl, rfl, fun _ _ _ => rfl, ?_⟩
    show lo (!is32) (s.x (regMap r)) = lo (!is32) (s.r (regMap r))
    rw [x_ne (ur_map (r := r) ⟨h.1, h.2⟩).2.2.2]
  | imm v =>
    obtain ⟨ws, e1, e2⟩ := li_run TMP_REG1 (by decide) v s
    refine ⟨ws, _, e1, e2, rfl, fun q h1 h2 => set_ne _ _ (by rw [t9]; exact (usp_map h1 h2).1), ?_⟩
    show lo (!is32) ((s.set (regMap TMP_REG1) v).x (regMap TMP_REG1)) = lo (!is32) v
    rw [x_ne (by decide), set_self]
  | mem b i w =>
    obtain ⟨ws, s', e1, e2, e3, e4⟩ := load_run (t := ⟨if is32 then 2 else 3, false, false⟩) (by cases is32 <;> decide) (fun _ => rfl) rfl (C47.src_usr h) (Or.inl rfl) s
    refine ⟨ws, s', e1, e2, e3.m, fun q h1 h2 => e3.keep _ (by rw [t9]; exact (usp_map h1 h2).1), ?_⟩
    show lo (!is32) (s'.x (regMap TMP_REG1)) = _
    rw [x_ne (by decide), e4, C47.value_ov]
    cases is32 <;> rfl

theorem zero_val {o : RV.Opd} (h : zero (ao p o) = true) (n : Nat) (s : St) : C47.value n s (ao p o) = 0#n := by
  cases ho : ao p o with
  | imm v =>
    rw [ho] at h
    have : v = 0#64 := by simpa [zero] using h
    subst this
    exact BitVec.eq_of_toNat_eq (by simp [C47.value])
  | reg r => rw [ho] at h; cases h
  | mem b i w => rw [ho] at h; cases h

theorem cmp_some (hp : Regs p) {type : Nat} {is32 : Bool} {a b : RV.Opd} (ha : SrcOk p a) (hb : SrcOk p b) :
    ∃ bs, (emitCmp type is32 (ao p a) (ao p b)).1 = some bs := by
  have cy : ∀ {t}, C47.CarryIs (cmpOp t is32) ones false := ⟨(fun h => by cases h), (fun h => by cases h)⟩
  unfold emitCmp
  split
  · next o ho =>
    have : C47.Src o := by
      unfold to0 at ho
      split at ho
      · split at ho
        · rw [← Option.some.inj ho]; exact ao_src hp hb
        · split at ho
          · rw [← Option.some.inj ho]; exact ao_src hp ha
          · cases ho
      · cases ho
    obtain ⟨ws, _, e, -⟩ := to0_run is32 this ones
    exact ⟨ws, e⟩
  split
  · obtain ⟨bs, _, e, -⟩ := C47.c47_op2u (op := cmpOp (swapType type) is32) (by decide : C47.IsOp2 .sub) trivial (ao_src hp hb) (ao_src hp ha) ones false cy
    exact ⟨bs, e⟩
  · obtain ⟨bs, _, e, -⟩ := C47.c47_op2u (op := cmpOp type is32) (by decide : C47.IsOp2 .sub) trivial (ao_src hp ha) (ao_src hp hb) ones false cy
    exact ⟨bs, e⟩

variable {F : Nat} {m1 : MSt} {s : St} {l : Lir.LSt}

/-- The comparison in front of the jump. -/
theorem cmp_ok (hp : Regs p) (h : Inv p F m1 l s) {type : Nat} {is32 : Bool} {a b : RV.Opd} (ht : type < 10) (ha : SrcOk p a) (hb : SrcOk p b)
    {x y : BitVec (wd is32)} (ex : Lir.read (priv p F (m1.s.r 31#5)) is32 l a = some x) (ey : Lir.read (priv p F (m1.s.r 31#5)) is32 l b = some y) :
    ∃ s', Runs (emitCmp type is32 (ao p a) (ao p b)).1 s s' ∧ Inv p F m1 l.noFlags s' ∧
      ∀ call rew t, taken ⟨some (emitCmp type is32 (ao p a) (ao p b)).2, call, rew, t⟩ s' = Lir.holds type x y := by
  have one : ∀ {t : Nat} {a b : RV.Opd} {x y : BitVec (wd is32)}, t < 10 → SrcOk p a → SrcOk p b → Lir.read (priv p F (m1.s.r 31#5)) is32 l a = some x →
      Lir.read (priv p F (m1.s.r 31#5)) is32 l b = some y →
      ∃ s', Runs (emitOp2u (cmpOp t is32) (ao p a) (ao p b)) s s' ∧ Inv p F m1 l.noFlags s' ∧ (!A64.cond (ccOf .sub t) s'.f) = Lir.holds t x y := by
    intro t a b x y ht ha hb ex ey
    obtain ⟨bs, s', g1, g2, g3, g4⟩ := C47.c47_op2u (op := cmpOp t is32) (by decide : C47.IsOp2 .sub) trivial (ao_src hp ha) (ao_src hp hb) s false
      ⟨(fun h => by cases h), (fun h => by cases h)⟩
    rw [show (cmpOp t is32).is32 = is32 from rfl, wd_bits, read_ok hp h ha ex, read_ok hp h hb ey] at g4
    exact ⟨s', runs_of g1 g2, keep_ok h hp (fun q h1 h2 => g3.keep q h1 h2 (by rintro ⟨⟩)) (g3.same (by rintro _ _ _ ⟨⟩)) rfl rfl, cmp_cc ht g4⟩
  have eqz : ∀ {o : RV.Opd} {z : BitVec (wd is32)}, type ≤ 1 → SrcOk p o → Lir.read (priv p F (m1.s.r 31#5)) is32 l o = some z →
      ∃ s', Runs (emitTo0 is32 (ao p o)).1 s s' ∧ Inv p F m1 l.noFlags s' ∧
        ∀ call rew t, taken ⟨some (.cbz is32 (decide (type = 0)) (emitTo0 is32 (ao p o)).2), call, rew, t⟩ s' = (decide (z = 0#_) ^^ neg type) := by
    intro o z h1 ho ez
    obtain ⟨ws, s', g1, g2, g3, g4, g5⟩ := to0_run is32 (ao_src hp ho) s
    refine ⟨s', runs_of g1 g2, keep_ok h hp g4 g3 rfl rfl, fun call rew t => ?_⟩
    have hw : W (!is32) = wd is32 := by cases is32 <;> rfl
    have hz : decide (lo (!is32) (s'.x (regMap (emitTo0 is32 (ao p o)).2)) = 0#_) = decide (z = 0#_) := by
      have hv := read_ok hp h ho ez
      rw [g5]
      cases is32 <;> exact congrArg (fun u => decide (u = 0#_)) hv
    have h01 : type = 0 ∨ type = 1 := by omega
    simp only [taken]
    rcases h01 with rfl | rfl
    · rw [if_pos (by decide), hz, show neg 0 = false by decide, Bool.xor_false]
    · rw [if_neg (by decide), decide_not, hz, show neg 1 = true by decide, Bool.xor_true]
  have hpar : type ≤ 1 → type / 2 * 2 = 0 := by omega
  unfold emitCmp
  split
  · next o ho =>
    unfold to0 at ho
    split at ho
    next h1 =>
      split at ho
      · next hz =>
        rw [← Option.some.inj ho]
        obtain ⟨s', q1, q2, q3⟩ := eqz h1 hb ey
        refine ⟨s', q1, q2, fun call rew t => ?_⟩
        rw [q3, holds_neg ht, hpar h1]
        congr 1
        have : x = 0#_ := (read_ok hp h ha ex).symm.trans (zero_val hz _ s)
        rw [this]
        exact decide_eq_decide.mpr eq_comm
      · split at ho
        · next hz =>
          rw [← Option.some.inj ho]
          obtain ⟨s', q1, q2, q3⟩ := eqz h1 ha ex
          refine ⟨s', q1, q2, fun call rew t => ?_⟩
          rw [q3, holds_neg ht, hpar h1]
          congr 1
          have : y = 0#_ := (read_ok hp h hb ey).symm.trans (zero_val hz _ s)
          rw [this]
          rfl
        · cases ho
    · cases ho
  · split
    · obtain ⟨s', r1, r2, r3⟩ := one (swap_lt ht) hb ha ey ex
      exact ⟨s', r1, r2, fun _ _ _ => by rw [← holds_swap ht]; exact r3⟩
    · obtain ⟨s', r1, r2, r3⟩ := one ht ha hb ex ey
      exact ⟨s', r1, r2, fun _ _ _ => r3⟩

end Verif.ALir
