import Verif.A32.Alu

/-! # sljit_emit_op2 of ARM32 (helper lemmas) -/

namespace Verif.A32
open Verif.Imm.A32 (fld expand)
open Verif.Imm.Arm32 (regMap RM RD RN TMP_REG1 TMP_REG2 SRC2_IMM getImm computeImm Item loadImmediate IsImm getImm_sound computeImm_sound Pair)
open Verif (RV.OpC RV.Op RV.Flag RV.val RV.flagVal RV.Op.flagOk)

/-- The inp_flags of sljit_emit_op2 for the data processing operations. -/
structure InpOk (op : RV.Op) (inp : Inp) (src1 src2 : Opd) : Prop where
  imm : inp.imm = true
  inv : inp.inv = true → op.code = .and ∨ op.code = .xor ∧ (src1 = .imm (-1#32) ∨ src2 = .imm (-1#32))
  dbl : inp.dbl = true → op.code ≠ .and
  neg : op.code = .addc ∨ op.code = .subc → inp.neg = true

theorem dbl_of {op : RV.Op} (ho : isAlu op.code = true) (hand : op.code ≠ .and) (hf : op.flagOk) {s : St} {cin : Bool} (hc : CarryIn op s cin) {neg : Option RV.OpC}
    (hneg : neg = none ∨ neg = negOp op.code) {w : BitVec 32} {nx : RV.OpC → RV.OpC} (hnx : nx = next2 ∨ nx = next1 ∧ op.code ≠ .subc)
    (hx : op.code = .addc ∨ op.code = .subc → computeImm (-w) = none) (a : BitVec 32) {o : RV.OpC} {i1 i2 : BitVec 32} (h : double op.code neg w = some (o, i1, i2)) :
    Dbl s nx o i1 i2 (· = a) (RV.val op.code a w cin) := by
  unfold double at h
  cases e : computeImm w with
  | some v =>
    rw [e] at h
    obtain ⟨j1, j2⟩ := v
    simp only [Option.some.injEq, Prod.mk.injEq] at h
    obtain ⟨rfl, rfl, rfl⟩ := h
    exact dbl_same ho hand (computeImm_sound e) hc hf hnx a
  | none =>
    rw [e] at h
    rcases hneg with rfl | rfl
    · cases h
    · cases en : negOp op.code with
      | none => rw [en] at h; cases h
      | some no =>
        rw [en] at h
        simp only [Option.map_eq_some_iff] at h
        obtain ⟨⟨j1, j2⟩, h1, h2⟩ := h
        simp only [Prod.mk.injEq] at h2
        obtain ⟨rfl, rfl, rfl⟩ := h2
        have hP := computeImm_sound h1
        refine dbl_neg ?_ hP (hnx.imp id And.left) a
        cases hco : op.code <;> rw [hco] at en <;> simp only [negOp, Option.some.injEq, reduceCtorEq] at en <;> subst en
        · exact Or.inl ⟨rfl, rfl⟩
        · rw [hx (Or.inl hco)] at h1; cases h1
        · exact Or.inr ⟨rfl, rfl⟩
        · rw [hx (Or.inr hco)] at h1; cases h1

theorem val_comm {o : RV.OpC} (h : o = .add ∨ o = .addc ∨ o = .or ∨ o = .xor ∨ o = .and) (a b : BitVec 32) (cin : Bool) : RV.val o a b cin = RV.val o b a cin := by
  rcases h with rfl | rfl | rfl | rfl | rfl
  · simp only [RV.val, Nat.add_comm]
  · simp only [RV.val, Nat.add_comm a.toNat]
  · exact BitVec.or_comm a b
  · exact BitVec.xor_comm a b
  · exact BitVec.and_comm a b

/-- The result of emit_op. -/
def Goal (c : Option (List Item)) (op : RV.Op) (set : Bool) (s : St) (dst src1 src2 : Opd) (cin : Bool) : Prop :=
  Runs c s (fun s' => Fin s s' dst (RV.val op.code (ov s src1) (ov s src2) cin) set (FlagsOk op (ov s src1) (ov s src2) cin))

theorem getImm_m1 : getImm (-1#32) = 0#32 ∧ getImm (~~~ (-1#32)) ≠ 0#32 := by decide

theorem emit_alu {v6 : Bool} {op : RV.Op} (ho : isAlu op.code = true) (hf : op.flagOk) {set : Bool} {inp : Inp} {k : BitVec 32} {dst src1 src2 : Opd} (hd : DstOk dst) (h1 : Usr src1) (h2 : Usr src2)
    (hi : InpOk op inp src1 src2) (hx : Safe op set src1 src2) {s : St} {cin : Bool} (hc : CarryIn op s cin) : Goal (emitOp v6 op.code set inp k dst src1 src2) op set s dst src1 src2 cin := by
  unfold emitOp
  generalize hinp : (if set = true then { inp with dbl := false } else inp) = inp'
  have i1 : inp'.imm = true := by rw [← hinp]; split <;> exact hi.imm
  have i2 : inp'.inv = inp.inv := by rw [← hinp]; split <;> rfl
  have i3 : inp'.dbl = true → set = false ∧ op.code ≠ .and := by
    rw [← hinp]; split
    · intro h; cases h
    next hs => exact fun h => ⟨by simpa using hs, hi.dbl h⟩
  simp only
  generalize hneg : (if inp'.neg = true then negOp op.code else none) = neg
  have n1 : neg = none ∨ neg = negOp op.code := by rw [← hneg]; split; exacts [Or.inr rfl, Or.inl rfl]
  have nsome : ∀ no, neg = some no → negOp op.code = some no := by
    intro no h; rcases n1 with e | e <;> rw [e] at h
    · cases h
    · exact h
  unfold pick
  rw [if_pos i1]
  cases hp2 : pick2 op.code neg inp' src1 src2 with
  | some p =>
    rw [Option.getD_some]
    cases src2 with
    | reg _ => cases hp2
    | mem _ _ _ => cases hp2
    | imm w =>
      simp only [pick2] at hp2
      by_cases g1 : getImm w ≠ 0#32
      · rw [if_pos g1] at hp2; cases hp2
        exact rest_imm rfl (getImm_sound g1).1 hd (fst_usr h1) (sing_alu ho hd (P := fun _ => True) (fun cc s1 x hs e => by rw [e]; exact core ho hf hc hs _ _ cc)) trivial (getImm_sound g1).2
      · rw [if_neg g1] at hp2
        have g1' : getImm w = 0#32 := by simpa using g1
        by_cases g2 : inp'.inv = true ∧ getImm (~~~ w) ≠ 0#32
        · rw [if_pos g2] at hp2; cases hp2
          refine rest_imm rfl (getImm_sound g2.2).1 hd (fst_usr h1) (sing_alu ho hd (P := fun _ => True) (fun cc s1 x hs e => ?_)) trivial (getImm_sound g2.2).2
          rw [e]
          rcases hi.inv (by rw [← i2]; exact g2.1) with h | ⟨h, h'⟩
          · refine post_z (log_flag hf (by simp [h])) _ _ cin ?_
            rw [h]
            show ov s src1 &&& ~~~ (~~~ w) = ov s src1 &&& w
            rw [BitVec.not_not]
          · refine post_z (log_flag hf (by simp [h])) _ _ cin ?_
            have hw : w = -1#32 := by
              rcases h' with h' | h'
              · exact hx.xor h h' w rfl g1' g2.2
              · exact Opd.imm.inj h'
            rw [h, hw]
            show ~~~ (ov s src1) = ov s src1 ^^^ -1#32
            rw [show (-1#32 : BitVec 32) = BitVec.allOnes 32 by decide, BitVec.xor_allOnes]
        · rw [if_neg g2] at hp2
          cases en : neg with
          | none => rw [en] at hp2; cases hp2
          | some no =>
            rw [en] at hp2
            simp only at hp2
            by_cases g3 : getImm (if no = .add ∨ no = .sub then -w else ~~~ w) ≠ 0#32
            · rw [if_pos g3] at hp2; cases hp2
              have hno : isAlu no = true := by
                have := nsome no en
                cases hco : op.code <;> rw [hco] at this <;> simp only [negOp, Option.some.injEq, reduceCtorEq] at this <;> subst this <;> rfl
              exact rest_imm rfl (getImm_sound g3).1 hd (fst_usr h1) (sing_alu hno hd (P := fun _ => True) (fun cc s1 x hs e => by rw [e]; exact core_neg (nsome no en) hf hc hs _ w cc g1')) trivial (getImm_sound g3).2
            · rw [if_neg g3] at hp2; cases hp2
  | none =>
    rw [Option.getD_none]
    cases hp1 : pick1 op.code neg inp' src1 src2 with
    | some p =>
      rw [Option.getD_some]
      cases src1 with
      | reg _ => cases hp1
      | mem _ _ _ => cases hp1
      | imm w =>
        simp only [pick1] at hp1
        by_cases g1 : getImm w ≠ 0#32
        · rw [if_pos g1] at hp1; cases hp1
          exact rest_imm rfl (getImm_sound g1).1 hd (fst_usr h2) (sing_alu ho hd (P := fun _ => True) (fun cc s1 x hs e => by rw [e]; exact core_swap ho hf hc hs _ _ cc)) trivial (getImm_sound g1).2
        · rw [if_neg g1] at hp1
          have g1' : getImm w = 0#32 := by simpa using g1
          by_cases g2 : inp'.inv = true ∧ getImm (~~~ w) ≠ 0#32
          · rw [if_pos g2] at hp1; cases hp1
            refine rest_imm rfl (getImm_sound g2.2).1 hd (fst_usr h2) (sing_alu ho hd (P := fun _ => True) (fun cc s1 x hs e => ?_)) trivial (getImm_sound g2.2).2
            rw [e]
            rcases hi.inv (by rw [← i2]; exact g2.1) with h | ⟨h, h'⟩
            · refine post_z (log_flag hf (by simp [h])) _ _ cin ?_
              rw [h]
              show ov s src2 &&& ~~~ (~~~ w) = w &&& ov s src2
              rw [BitVec.not_not, BitVec.and_comm]
            · refine post_z (log_flag hf (by simp [h])) _ _ cin ?_
              have hw : w = -1#32 := by
                rcases h' with h' | h'
                · exact Opd.imm.inj h'
                · rw [h'] at hp2
                  simp only [pick2, getImm_m1.1, ne_eq, not_true_eq_false, if_false] at hp2
                  rw [if_pos ⟨g2.1, getImm_m1.2⟩] at hp2
                  cases hp2
              rw [h, hw]
              show ~~~ (ov s src2) = -1#32 ^^^ ov s src2
              rw [show (-1#32 : BitVec 32) = BitVec.allOnes 32 by decide, BitVec.xor_comm, BitVec.xor_allOnes]
          · rw [if_neg g2] at hp1
            split at hp1
            next =>
              by_cases g3 : getImm (-w) ≠ 0#32
              · rw [if_pos g3] at hp1; cases hp1
                have hco : op.code = .add := by
                  have := nsome _ rfl
                  cases hco : op.code <;> rw [hco] at this <;> simp [negOp] at this <;> rfl
                obtain ⟨w0, wm⟩ := getImm_ne g1'
                refine rest_imm rfl (getImm_sound g3).1 hd (fst_usr h2) (sing_alu rfl hd (P := fun _ => True) (fun cc s1 x hs e => ?_)) trivial (getImm_sound g3).2
                rw [e]
                show PostT op w (ov s src2) cin (awc (ov s src2) (~~~ (-w)) true)
                rw [awc_neg_sub _ w0 wm, awc_comm]
                exact post_add hco hf _ _ cin
              · rw [if_neg g3] at hp1; cases hp1
            next =>
              by_cases g3 : getImm (-w) ≠ 0#32
              · have hco : op.code = .addc := by
                  have := nsome _ rfl
                  cases hco : op.code <;> rw [hco] at this <;> simp [negOp] at this <;> rfl
                exact absurd (hx.neg1 hco w rfl g1') g3
              · rw [if_neg g3] at hp1; cases hp1
            next => cases hp1
    | none =>
      rw [Option.getD_none]
      refine rest_none hd (P := fun _ => True) (fst_usr h1) h2 (fun _ => trivial) (fun h => (i3 h).1) ?_ ?_ (sing_alu ho hd (fun cc s1 x hs e => by rw [e]; exact core ho hf hc hs _ _ cc))
      · rintro hb w rfl o i1 i2 hdd
        refine dbl_of ho (i3 hb).2 hf hc n1 (Or.inl rfl) (fun hco => ?_) _ hdd
        -- neither the constant nor its complement is an immediate
        have i4 : inp'.neg = true := by rw [← hinp]; split <;> exact hi.neg hco
        rw [if_pos i4] at hneg
        have g1 : getImm w = 0#32 := by
          by_contra g
          simp only [pick2] at hp2
          rw [if_pos g] at hp2; cases hp2
        refine hx.dbl2 hco (i3 hb).1 w rfl g1 ?_
        by_contra g
        simp only [pick2] at hp2
        rw [if_neg (by simpa using g1)] at hp2
        by_cases g2 : inp'.inv = true ∧ getImm (~~~ w) ≠ 0#32
        · rw [if_pos g2] at hp2; cases hp2
        · rw [if_neg g2, ← hneg] at hp2
          rcases hco with hco | hco <;> (rw [hco] at hp2; simp [negOp, g] at hp2)
      · rintro hb hs1 hs2 w rfl o i1 i2 hdd
        have hcm : op.code = .add ∨ op.code = .addc ∨ op.code = .or ∨ op.code = .xor ∨ op.code = .and := by
          cases hco : op.code <;> rw [hco] at ho <;> first | exact absurd ho (by decide) | simp_all
        rw [val_comm hcm]
        refine dbl_of ho (i3 hb).2 hf hc n1 (Or.inr ⟨rfl, hs2⟩) (fun hco => ?_) _ hdd
        rcases hco with hco | hco
        · refine hx.dbl1 hco (i3 hb).1 w rfl ?_
          by_contra g
          simp only [pick1] at hp1
          rw [if_pos g] at hp1; cases hp1
        · exact absurd hco hs2

/-- emit_op without immediates. -/
theorem emit_plain {v6 : Bool} {op : RV.Op} {set : Bool} {k : BitVec 32} {dst src1 src2 : Opd} (hd : DstOk dst) {s : St} {A X F} (h1 : Fst s src1 A) (h2 : Usr src2)
    (hS : Sing s op.code (flOf set false false dst) k dst A (fun x => ∃ r, x = .reg r) (ov s src2) X F) :
    Runs (emitOp v6 op.code set ⟨false, false, false, false⟩ k dst src1 src2) s (fun s' => Fin s s' dst X set F) := by
  unfold emitOp
  have e : (if set = true then ({ imm := false, inv := false, neg := false, dbl := false } : Inp) else ⟨false, false, false, false⟩) = ⟨false, false, false, false⟩ := by split <;> rfl
  simp only [e]
  refine rest_none hd h1 h2 (fun r => ⟨r, rfl⟩) (fun h => by cases h) (fun h => by cases h) (fun h => by cases h) hS

theorem dst_12 {dst : Opd} (h : DstOk dst) : dstReg dst ≠ TMP_REG1 → regMap (dstReg dst) ≠ 12#4 := by
  cases dst with
  | reg d =>
    intro hne
    refine (usr_reg ?_).1
    have h1 : d ≤ 14 := h.2
    have h2 : d ≠ 14 := hne
    show d ≤ 13
    omega
  | imm _ => exact h.elim
  | mem _ _ _ => intro _; show regMap TMP_REG2 ≠ 12#4; decide

theorem emit_mul {v6 : Bool} {op : RV.Op} (ho : op.code = .mul) (hf : op.flagOk) {set : Bool} {k : BitVec 32} {dst src1 src2 : Opd} (hd : DstOk dst) (h1 : Usr src1) (h2 : Usr src2)
    {s : St} {cin : Bool} : Goal (emitOp v6 op.code set ⟨false, false, false, false⟩ k dst src1 src2) op set s dst src1 src2 cin := by
  refine emit_plain hd (fst_usr h1) h2 (fun s1 r1 x hp h14 h15 ha hx hP hb => ?_)
  obtain ⟨r, rfl⟩ := hP
  have hb : s1.r (regMap r) = ov s src2 := hb
  rw [ho]
  refine (single_mul (f := flOf set false false dst) (k := k) (dstReg_ok hd) h15 hx (dst_12 hd) s1).mono (fun s' d => ?_)
  rw [ha, hb] at d
  have hv : ov s src1 * ov s src2 = RV.val .mul (ov s src1) (ov s src2) cin := by
    show _ = BitVec.ofNat 32 _
    rw [BitVec.ofNat_mul, BitVec.ofNat_toNat, BitVec.ofNat_toNat, BitVec.setWidth_eq, BitVec.setWidth_eq]
  rw [RV.Op.flagOk, ho] at hf
  refine ⟨d.keep, fun hu => (d.val hu).trans hv, d.mem, fun hs => ?_⟩
  have hz := d.flags hs
  refine ⟨fun e => ?_, fun _ e => ?_, fun _ e => ?_, fun _ e => ?_, fun e _ => ?_, fun _ e => ?_, fun _ e => ?_, fun _ e => ?_, fun _ e => ?_⟩
  · rw [hf.2] at e; cases e
  · rw [ho] at e; simp at e
  · rw [ho] at e; simp at e
  · rw [ho] at e; simp at e
  · rw [hz, ho]; rfl
  all_goals rw [ho] at e; cases e

theorem flags_z {op : RV.Op} (hf : op.flag = .none) (a b : BitVec 32) (cin : Bool) {n z c v : Bool} (h : z = decide (RV.val op.code a b cin = 0#32)) : FlagsOk op a b cin n z c v := by
  refine ⟨fun _ => h, fun e => ?_, fun e => ?_, fun e => ?_, fun e => ?_, fun e => ?_, fun e => ?_, fun e => ?_, fun e => ?_⟩
  all_goals rw [hf] at e; cases e

theorem shift_flag {op : RV.Op} (ho : isShift op.code = true) (hf : op.flagOk) : op.flag = .none := by
  cases h : op.code <;> rw [h] at ho <;> first | exact absurd ho (by decide) | skip
  all_goals (rw [RV.Op.flagOk, h] at hf; first | exact hf | exact hf.1)

theorem emit_shift {v6 : Bool} {op : RV.Op} (ho : isShift op.code = true) (hf : op.flagOk) {set : Bool} {dst src1 src2 : Opd} (hd : DstOk dst) (h1 : Usr src1) (h2 : Usr src2)
    {s : St} (hcnt : CountOk op.code (ov s src2)) {cin : Bool} : Goal (emitOp v6 op.code set ⟨false, false, false, false⟩ 0x20#32 dst src1 src2) op set s dst src1 src2 cin := by
  refine emit_plain hd (fst_usr h1) h2 (fun s1 r1 x hp h14 h15 ha hx hP hb => ?_)
  obtain ⟨r, rfl⟩ := hP
  have hb : s1.r (regMap r) = ov s src2 := hb
  refine (single_shift ho (f := flOf set false false dst) (dstReg_ok hd) h15 h14 hx s1 (by rw [hb]; exact hcnt) cin).mono (fun s' d => ?_)
  rw [ha, hb] at d
  exact ⟨d.keep, d.val, d.mem, fun hs => flags_z (shift_flag ho hf) _ _ _ (d.flags hs)⟩

theorem emit_shift_imm {v6 : Bool} {op : RV.Op} (ho : isShift op.code = true) (hf : op.flagOk) {set : Bool} {dst src1 : Opd} {w : BitVec 32} (hd : DstOk dst) (h1 : Usr src1)
    {s : St} {cin : Bool} : Goal (emitOp v6 op.code set ⟨false, false, false, false⟩ (w &&& 0x1f#32) dst (.reg TMP_REG1) src1) op set s dst src1 (.imm w) cin := by
  refine emit_plain hd (A := fun _ => True) ⟨by decide, by decide, fun _ _ => trivial, Or.inr fun _ => trivial⟩ h1 (fun s1 r1 x hp h14 h15 ha hx hP hb => ?_)
  obtain ⟨r, rfl⟩ := hP
  have hb : s1.r (regMap r) = ov s src1 := hb
  refine (single_shift_imm ho (f := flOf set false false dst) (src1 := r1) (dstReg_ok hd) hx s1 w cin).mono (fun s' d => ?_)
  rw [hb] at d
  exact ⟨d.keep, d.val, d.mem, fun hs => flags_z (shift_flag ho hf) _ _ _ (d.flags hs)⟩

/-- Operations of sljit_emit_op2. -/
def isOp2 (c : RV.OpC) : Bool := isAlu c || decide (c = .mul) || isShift c

/-- All operations. -/
theorem emit_op2 {v6 : Bool} {op : RV.Op} (ho : isOp2 op.code = true) (hf : op.flagOk) {dst src1 src2 : Opd} (hd : DstOk dst) (h1 : Usr src1) (h2 : Usr src2)
    (hx : Safe op (hasFlags op) src1 src2) {s : St} {cin : Bool} (hc : CarryIn op s cin) (hcnt : (∀ w, src2 ≠ .imm w) → CountOk op.code (ov s src2)) :
    Goal (emitOp2 v6 op dst src1 src2) op (hasFlags op) s dst src1 src2 cin := by
  unfold emitOp2
  obtain ⟨code, is32, setZ, flag⟩ := op
  cases code <;> first | (simp [isOp2, isAlu, isShift] at ho; done) | skip
  case add =>
    refine emit_alu (op := ⟨_, is32, setZ, flag⟩) rfl hf hd h1 h2 ?_ hx hc
    exact ⟨rfl, fun e => (by cases e), fun _ => (by simp), fun _ => rfl⟩
  case addc =>
    refine emit_alu (op := ⟨_, is32, setZ, flag⟩) rfl hf hd h1 h2 ?_ hx hc
    exact ⟨rfl, fun e => (by cases e), fun _ => (by simp), fun _ => rfl⟩
  case sub =>
    refine emit_alu (op := ⟨_, is32, setZ, flag⟩) rfl hf hd h1 h2 ?_ hx hc
    exact ⟨rfl, fun e => (by cases e), fun _ => (by simp), fun _ => rfl⟩
  case subc =>
    refine emit_alu (op := ⟨_, is32, setZ, flag⟩) rfl hf hd h1 h2 ?_ hx hc
    exact ⟨rfl, fun e => (by cases e), fun _ => (by simp), fun _ => rfl⟩
  case mul => exact emit_mul (op := ⟨_, is32, setZ, flag⟩) rfl hf hd h1 h2
  case and =>
    refine emit_alu (op := ⟨_, is32, setZ, flag⟩) rfl hf hd h1 h2 ?_ hx hc
    exact ⟨rfl, fun _ => Or.inl rfl, fun e => (by cases e), fun e => (by simp at e)⟩
  case or =>
    refine emit_alu (op := ⟨_, is32, setZ, flag⟩) rfl hf hd h1 h2 ?_ hx hc
    exact ⟨rfl, fun e => (by cases e), fun _ => (by simp), fun e => (by simp at e)⟩
  case xor =>
    refine emit_alu (op := ⟨_, is32, setZ, flag⟩) rfl hf hd h1 h2 ?_ hx hc
    exact ⟨rfl, fun e => Or.inr ⟨rfl, by simpa using e⟩, fun _ => (by simp), fun e => (by simp at e)⟩
  all_goals
    cases src2 with
    | imm w => exact emit_shift_imm (op := ⟨_, is32, setZ, flag⟩) rfl hf hd h1
    | reg r => exact emit_shift (op := ⟨_, is32, setZ, flag⟩) rfl hf hd h1 h2 (hcnt (fun _ e => by cases e))
    | mem _ _ _ => exact emit_shift (op := ⟨_, is32, setZ, flag⟩) rfl hf hd h1 h2 (hcnt (fun _ e => by cases e))

end Verif.A32
