import Verif.RISCV.CmpProof
import Verif.RISCV.EmitOp2Proof

/-!
# sljit_emit_op_flags (helper lemmas)
-/

namespace Verif.RV

/-- The condition types which hold when OTHER_FLAG is zero. -/
def inverted (type : Nat) : Bool :=
  type ∈ [3, 5, 7, 9, 11, 13, 14, 17, 25, 30, 19, 27, 29, 20, 34, 32, 22]

/-- The flag registers say that the condition `type` is `t`. -/
def FlagIs (c : Core) (addSub : Bool) (type : Nat) (t : Bool) : Prop :=
  if type = 0 then (c.x 5#5 = 0#64 ↔ t = true)
  else if type = 1 then (c.x 5#5 = 0#64 ↔ t = false)
  else if addSub = false ∧ (type = 10 ∨ type = 11) then (c.x 28#5 ≠ 0#64 ↔ t = decide (type = 10))
  else c.x 28#5 = bool64 (t ^^ inverted type)

/-- The register with the condition, after `flagSrc` and the XORI of `invert`. -/
theorem flagSrc_ok {addSub : Bool} {d type : Nat} {t : Bool} {c : Core} (hd : regMap d ≠ 0#5) (hty : type < 36) (h : FlagIs c addSub type t) :
    wp ((flagSrc addSub d type).1 ++ (if (flagSrc addSub d type).2.2 then w32 (XORI ||| RD d ||| RS1 (flagSrc addSub d type).2.1 ||| IMM_I 1#64) else [])) c
      fun c' => c'.x (regMap (if (flagSrc addSub d type).2.2 then d else (flagSrc addSub d type).2.1)) = bool64 t ∧ Only [regMap d] c c' := by
  have o1 : ∀ v, Only [regMap d] c (c.wr (regMap d) v) := fun v => (Only.refl _ _).wr (by simp) _
  have o2 : ∀ v w, Only [regMap d] c ((c.wr (regMap d) v).wr (regMap d) w) := fun v w => (o1 v).wr (by simp) _
  have b1 : ∀ t, bool64 t ^^^ 1#64 = bool64 (!t) := by decide
  have f1 : Fits12 1#64 := by unfold Fits12; decide
  have z : c.x (regMap 0) = 0#64 := c.x0
  have u : ∀ v : BitVec 64, v.ult 1#64 = decide (v = 0#64) := by
    intro v; simp only [BitVec.ult, decide_eq_decide]
    rw [← BitVec.toNat_inj]; simp
  unfold FlagIs at h
  interval_cases type <;> cases addSub <;>
    simp [flagSrc, inverted] at h ⊢ <;>
    (try wps [IOp.eval])
  all_goals first
    | exact ⟨h, Only.refl _ _⟩
    | refine ⟨?_, o1 _⟩
    | refine ⟨?_, o2 _ _⟩
  all_goals first
    | (rw [if_neg hd, h, b1]; simp)
    | skip
  all_goals
    simp only [if_neg hd, u]
    generalize c.x _ = v at h
    by_cases hv : v = 0#64 <;> cases t <;> simp_all [bool64]

theorem flagSrc_reg (addSub : Bool) (d type : Nat) : (flagSrc addSub d type).2.1 = d ∨ (flagSrc addSub d type).2.1 = OTHER_FLAG := by
  unfold flagSrc
  split <;> first | exact Or.inl rfl | exact Or.inr rfl | (split <;> first | exact Or.inl rfl | exact Or.inr rfl)

theorem dok_of {dst : Opd} (h : DOk dst) (h0 : dst ≠ .reg 0) : regMap (dstR0 dst) ≠ 0#5 := (dstR0_ok h).2

/-- SLJIT_MOV of a condition. -/
theorem emitOpFlags_mov {cfg : Cfg} {is32 setZ addSub : Bool} {dst : Opd} {type : Nat} {t : Bool} {c : Core}
    (hd : DOk dst) (h0 : dst ≠ .reg 0) (hty : type < 36) (hF : FlagIs c addSub type t) :
    wp (emitOpFlags cfg .mov is32 setZ addSub dst type) c fun c' =>
      Done (if is32 then .int else .word) dst (bool64 t) c c' ∧ c'.x 5#5 = c.x 5#5 ∧ c'.x 28#5 = c.x 28#5 := by
  have hr := flagSrc_ok (d := dstR0 dst) (dok_of hd h0) hty hF
  have hreg := flagSrc_reg addSub (dstR0 dst) type
  have hdd := dstR0_ok hd
  cases dst with
  | imm v => exact absurd hd (by simp [DOk])
  | reg r =>
    have hr0 : r ≠ 0 := by rintro rfl; exact h0 rfl
    simp only [dstR0, if_neg hr0] at hr hreg hdd
    refine (?_ : wp ([] ++ ((flagSrc addSub r type).1 ++ ((if (flagSrc addSub r type).2.2 then w32 (XORI ||| RD r ||| RS1 (flagSrc addSub r type).2.1 ||| IMM_I 1#64) else []) ++
      (if (if (flagSrc addSub r type).2.2 then r else (flagSrc addSub r type).2.1) ≠ r then
        w32 (ADDI ||| RD r ||| RS1 (if (flagSrc addSub r type).2.2 then r else (flagSrc addSub r type).2.1) ||| IMM_I 0#64) else [])))) c _)
    rw [List.nil_append, ← List.append_assoc]
    refine wp_append (wp_mono hr ?_)
    rintro c1 ⟨g1, g2⟩
    have fin : ∀ c', c'.x (regMap r) = bool64 t → Only [regMap r] c c' → Done (if is32 then .int else .word) (.reg r) (bool64 t) c c' ∧ c'.x 5#5 = c.x 5#5 ∧ c'.x 28#5 = c.x 28#5 := by
      intro c' k1 k2
      refine ⟨⟨?_, k2.2.1, ?_, k2.2.2⟩, ?_, ?_⟩
      · rintro r' ⟨⟩ -; exact k1
      · intro q _ h
        refine k2.1 q ?_
        simp only [List.mem_singleton]
        exact (h r rfl).resolve_right hr0
      · exact k2.1 _ (by simpa using hdd.3.symm)
      · exact k2.1 _ (by simpa using hdd.4.symm)
    generalize (if (flagSrc addSub r type).2.2 then r else (flagSrc addSub r type).2.1) = q at g1
    by_cases hq : q = r
    · rw [if_neg (by simpa using hq), wp_nil]
      rw [hq] at g1
      exact fin c1 g1 g2
    · rw [if_pos hq]
      wps [IOp.eval]
      refine fin _ ?_ ((g2.wr (by simp) _))
      simp [hdd.2, g1]
  | mem b i w =>
    simp only [dstR0] at hr hreg hdd
    refine (?_ : wp ([] ++ ((flagSrc addSub TMP_REG2 type).1 ++ ((if (flagSrc addSub TMP_REG2 type).2.2 then w32 (XORI ||| RD TMP_REG2 ||| RS1 (flagSrc addSub TMP_REG2 type).2.1 ||| IMM_I 1#64) else []) ++
      emitOpMem cfg (if is32 then .g .int true else .g .word false) false (if (flagSrc addSub TMP_REG2 type).2.2 then TMP_REG2 else (flagSrc addSub TMP_REG2 type).2.1) b i w))) c _)
    rw [List.nil_append, ← List.append_assoc]
    refine wp_append (wp_mono hr ?_)
    rintro c1 ⟨g1, g2⟩
    have hq : (if (flagSrc addSub TMP_REG2 type).2.2 then TMP_REG2 else (flagSrc addSub TMP_REG2 type).2.1) = TMP_REG2 ∨
      (if (flagSrc addSub TMP_REG2 type).2.2 then TMP_REG2 else (flagSrc addSub TMP_REG2 type).2.1) = OTHER_FLAG := by
      split
      · exact Or.inl rfl
      · exact hreg
    replace g1 : c1.x (regMap (if (flagSrc addSub TMP_REG2 type).2.2 then TMP_REG2 else (flagSrc addSub TMP_REG2 type).2.1)) = bool64 t := g1
    revert g1 hq
    generalize (if (flagSrc addSub TMP_REG2 type).2.2 then TMP_REG2 else (flagSrc addSub TMP_REG2 type).2.1) = q
    intro hq g1
    obtain ⟨u1, u5, u6, u7, u28⟩ := user_ne hd.1
    obtain ⟨v1, v5, v6, v7, v28⟩ := user_ne hd.2
    have hsz : (if is32 then MT.g .int true else MT.g .word false) = MT.g (if is32 then .int else .word) is32 := by cases is32 <;> rfl
    rw [hsz]
    refine wp_mono (opMem_store (by rcases hq with rfl | rfl <;> decide) (by rcases hq with rfl | rfl <;> decide) u6 u7) ?_
    rintro c' ⟨c2, k1, rfl⟩
    have hea : ea c1 b i w = ea c b i w := by
      simp only [ea, g2.1 _ (show regMap b ∉ [regMap TMP_REG2] by simpa [rm26] using u1),
        g2.1 _ (show regMap i ∉ [regMap TMP_REG2] by simpa [rm26] using v1)]
    rw [hea, g1, g2.2.1]
    have kk : ∀ q, q ≠ 1#5 → q ≠ 6#5 → q ≠ 7#5 → c2.x q = c.x q := by
      intro q q1 q6 q7
      rw [k1.1 q (by simp [q6, q7]), g2.1 q (by simpa [rm26] using q1)]
    refine ⟨⟨fun _ h => by (cases h), rfl, fun q h1 _ => ?_, k1.2.2.trans g2.2.2⟩, ?_, ?_⟩
    · simp only [List.mem_cons, List.not_mem_nil, or_false, not_or] at h1
      exact kk q h1.1 h1.2.2.1 h1.2.2.2.1
    · exact kk _ (by decide) (by decide) (by decide)
    · exact kk _ (by decide) (by decide) (by decide)

theorem isOp2_logic {o : OpC} (h : o = .and ∨ o = .or ∨ o = .xor) : o.isOp2 = true := by rcases h with rfl | rfl | rfl <;> rfl

/-- SLJIT_AND, SLJIT_OR, SLJIT_XOR of the destination and a condition. -/
theorem emitOpFlags_logic {cfg : Cfg} {op : Op} {addSub : Bool} {dst : Opd} {type : Nat} {t : Bool} {c : Core}
    (hc : op.code = .and ∨ op.code = .or ∨ op.code = .xor) (hfl : op.flag = .none)
    (hd : DOk dst) (hdn : dst ≠ .reg TMP_REG2) (h0 : dst ≠ .reg 0) (hty : type < 36) (hF : FlagIs c addSub type t)
    (h32 : op.is32 = true → Sx (opdVal (opSz op) op.is32 c dst)) :
    wp (emitOpFlags cfg op.code op.is32 op.setZ addSub dst type) c
      (Done2 op dst (opdVal (opSz op) op.is32 c dst) (bool64 t) false c) := by
  have hsx : ∀ t, Sx (bool64 t) := by unfold Sx; decide
  have hf : op.flagOk := by unfold Op.flagOk; rcases hc with h | h | h <;> rw [h] <;> simp [hfl]
  have hop : (⟨op.code, op.is32, op.setZ, .none⟩ : Op) = op := by cases op; simp only [Op.mk.injEq] at *; exact ⟨trivial, trivial, trivial, hfl.symm⟩
  have hmv : decide (op.code = .mov) = false := by rcases hc with h | h | h <;> rw [h] <;> rfl
  have hsz : (if op.is32 then MT.g .int true else MT.g .word false) = opData op := by unfold opData; cases op.is32 <;> rfl
  -- the operation on two registers
  have core : ∀ (fl : SF) (k : Cache) (x y : Nat) (c1 : Core), fl.unused = false → CacheOk k c1 → Only temps c c1 →
      regMap x ≠ 5#5 → regMap y ≠ 5#5 → c1.x (regMap x) = opdVal (opSz op) op.is32 c dst → c1.x (regMap y) = bool64 t →
      wp (emitSingle cfg op fl (dstR0 dst) x (.reg y) ++ emitStore cfg (opData op) k (dstR0 dst) dst) c1
        (Done2 op dst (opdVal (opSz op) op.is32 c dst) (bool64 t) false c) := by
    intro fl k x y c1 hfl0 hk ho x5 y5 hx hy
    refine finish_ok hd hk ho (by rw [hfl0]; simp [h0]) ?_
    unfold emitSingle
    rw [if_pos (isOp2_logic hc)]
    unfold emitSingle2
    rcases hc with h | h | h
    · rw [h]; exact and_reg h hf (dstR0_ok hd) x5 y5 hx hy (fun q => ⟨h32 q, hsx t⟩)
    · rw [h]; exact or_reg h hf (dstR0_ok hd) x5 y5 hx hy (fun q => ⟨h32 q, hsx t⟩)
    · rw [h]; exact xor_reg h hf (dstR0_ok hd) x5 y5 hx hy (fun q => ⟨h32 q, hsx t⟩)
  have t2 : regMap TMP_REG2 ≠ 0#5 := by decide
  have hreg := flagSrc_reg addSub TMP_REG2 type
  have hq : (if (flagSrc addSub TMP_REG2 type).2.2 then TMP_REG2 else (flagSrc addSub TMP_REG2 type).2.1) = TMP_REG2 ∨
      (if (flagSrc addSub TMP_REG2 type).2.2 then TMP_REG2 else (flagSrc addSub TMP_REG2 type).2.1) = OTHER_FLAG := by
    split
    · exact Or.inl rfl
    · exact hreg
  have hq5 : regMap (if (flagSrc addSub TMP_REG2 type).2.2 then TMP_REG2 else (flagSrc addSub TMP_REG2 type).2.1) ≠ 5#5 := by
    rcases hq with e | e <;> rw [e] <;> decide
  have hlog : ∀ k x y, emitOp cfg op (opData op) ⟨true, true, false⟩ k dst (.reg x) (.reg y) =
      emitSingle cfg op ⟨decide (dst = .reg 0), dst.isReg && !decide (dst = .reg 0), true⟩ (dstR0 dst) x (.reg y) ++ emitStore cfg (opData op) k (dstR0 dst) dst := by
    intro k x y
    simp [emitOp, immSwap, Opd.smallImm, emitSrc1, emitSrc2, emitSlow, Opd.slow, Opd.isReg]
  cases dst with
  | imm v => exact absurd hd (by simp [DOk])
  | reg r =>
    have hr : r ≤ 24 := hd.resolve_right (fun h => hdn (by rw [h]))
    obtain ⟨u1, u5, u6, u7, u28⟩ := user_ne hr
    have he : emitOpFlags cfg op.code op.is32 op.setZ addSub (.reg r) type = (flagSrc addSub TMP_REG2 type).1 ++
        ((if (flagSrc addSub TMP_REG2 type).2.2 then w32 (XORI ||| RD TMP_REG2 ||| RS1 (flagSrc addSub TMP_REG2 type).2.1 ||| IMM_I 1#64) else []) ++
        emitOp cfg op (opData op) ⟨true, true, false⟩ ⟨none, 0#64⟩ (.reg r) (.reg r)
          (.reg (if (flagSrc addSub TMP_REG2 type).2.2 then TMP_REG2 else (flagSrc addSub TMP_REG2 type).2.1))) := by
      unfold emitOpFlags
      simp only [hmv, hsz, hop, Bool.false_eq_true, if_false, Opd.isMem, List.nil_append]
    rw [he, ← List.append_assoc]
    refine wp_append (wp_mono (flagSrc_ok t2 hty hF) ?_)
    rintro c1 ⟨g1, g2⟩
    rw [hlog]
    refine core _ _ _ _ c1 (by simp; rintro rfl; exact h0 rfl) (cache_none _ _) (g2.mono (by simp [rm26])) u5 hq5 ?_ g1
    exact g2.1 _ (by simpa [rm26] using u1)
  | mem b i w =>
    have he : emitOpFlags cfg op.code op.is32 op.setZ addSub (.mem b i w) type =
        (emitOpMem2 cfg (opData op) true false ⟨none, 0#64⟩ TMP_REG1 b i w (some (b, i, w))).1 ++ ((flagSrc addSub TMP_REG2 type).1 ++
        ((if (flagSrc addSub TMP_REG2 type).2.2 then w32 (XORI ||| RD TMP_REG2 ||| RS1 (flagSrc addSub TMP_REG2 type).2.1 ||| IMM_I 1#64) else []) ++
        emitOp cfg op (opData op) ⟨true, true, false⟩ (emitOpMem2 cfg (opData op) true false ⟨none, 0#64⟩ TMP_REG1 b i w (some (b, i, w))).2 (.mem b i w) (.reg TMP_REG1)
          (.reg (if (flagSrc addSub TMP_REG2 type).2.2 then TMP_REG2 else (flagSrc addSub TMP_REG2 type).2.1)))) := by
      unfold emitOpFlags
      simp only [hmv, hsz, hop, Bool.false_eq_true, if_false, if_true, Opd.isMem]
    rw [he]
    simp only [hlog]
    rw [opSz_data]
    refine wp_append (wp_mono (opMem2_load hd.1 hd.2 (cache_none _ _) (by decide)) ?_)
    rintro c1 ⟨c0, g1, gk, rfl⟩
    have o1 : Only [1#5, 6#5, 7#5] c (c0.wr (regMap TMP_REG1) (opdVal (opSz op) op.is32 c (.mem b i w))) :=
      (g1.mono (by simp [tmpR, rm25])).wr (by simp [rm25]) _
    have hF1 : FlagIs (c0.wr (regMap TMP_REG1) (opdVal (opSz op) op.is32 c (.mem b i w))) addSub type t := by
      unfold FlagIs at hF ⊢
      rw [o1.1 5#5 (by decide), o1.1 28#5 (by decide)]; exact hF
    rw [← List.append_assoc]
    refine wp_append (wp_mono (flagSrc_ok t2 hty hF1) ?_)
    rintro c2 ⟨k1, k2⟩
    have o2 : Only temps c c2 := by
      refine Only.mono (o1.trans (k2.mono (by simp [rm26]))) (by simp)
    have gk1 : CacheOk (emitOpMem2 cfg (.g (opSz op) op.is32) true false ⟨none, 0#64⟩ TMP_REG1 b i w (some (b, i, w))).2 c2 := by
      refine (gk.wr (Or.inl rm25) (opdVal (opSz op) op.is32 c (.mem b i w))).of_eq ?_ ?_
      · exact k2.1 _ (by simp [rm26])
      · intro r hr
        exact k2.1 _ (by simpa [rm26] using (user_ne hr).1)
    rw [← opSz_data] at gk1 ⊢
    refine core _ _ _ _ c2 (by simp) gk1 o2 (by decide) hq5 ?_ k1
    rw [k2.1 _ (by decide)]; simp [rm25]

end Verif.RV
