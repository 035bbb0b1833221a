import Verif.Loong.Api3
import Verif.Loong.Into

/-! # sljit_emit_op_flags on LoongArch64 (helper lemmas) -/

set_option linter.all false

namespace Verif.LA
open Verif.RV

/-- The flag registers say that the condition `type` is `t`. -/
def FlagIs (c : Core) (addSub : Bool) (type : Nat) (t : Bool) : Prop :=
  if type = 0 then (c.x 12#5 = 0#64 ↔ t = true)
  else if type = 1 then (c.x 12#5 = 0#64 ↔ t = false)
  else if (addSub = false ∧ (type = 10 ∨ type = 11)) ∨ type = 14 ∨ type = 15 then (c.x 15#5 ≠ 0#64 ↔ t = decide (type % 2 = 0))
  else c.x 15#5 = bool64 (t ^^ decide (type % 2 = 1))

theorem rmEq : regMap EQUAL_FLAG = 12#5 := by decide
theorem rmOther : regMap OTHER_FLAG = 15#5 := by decide

/-- The register with the condition, after `flagSrc` and the XORI of `invert`. -/
theorem flagSrc_ok {addSub : Bool} {d type : Nat} {t : Bool} {c : Core} (hd : regMap d ≠ 0#5) (hty : type < 36) (h : FlagIs c addSub type t) :
    wp ((flagSrc addSub d type).1 ++ (if (flagSrc addSub d type).2.2 then ins (XORI ||| RD d ||| RJ (flagSrc addSub d type).2.1 ||| IMM_I12 1#64) else [])) c
      fun c' => c'.x (regMap (if (flagSrc addSub d type).2.2 then d else (flagSrc addSub d type).2.1)) = bool64 t ∧ Only [regMap d] c c' := by
  have o1 : ∀ v, Only [regMap d] c (c.wr (regMap d) v) := fun v => (Only.refl _ _).wr (by simp) _
  have o2 : ∀ v w, Only [regMap d] c ((c.wr (regMap d) v).wr (regMap d) w) := fun v w => (o1 v).wr (by simp) _
  have b1 : ∀ t, bool64 t ^^^ 1#64 = bool64 (!t) := by decide
  have u : ∀ v : BitVec 64, v.ult 1#64 = decide (v = 0#64) := by
    intro v; simp only [BitVec.ult, decide_eq_decide]
    rw [← BitVec.toNat_inj]; simp
  have s1 : ((1#64 : BitVec 64).setWidth 12).signExtend 64 = 1#64 := by decide
  have s2 : ((1#64 : BitVec 64).setWidth 12).setWidth 64 = 1#64 := by decide
  unfold FlagIs at h
  interval_cases type <;> cases addSub <;>
    simp [flagSrc] at h ⊢ <;>
    (try simp only [wp_SLTUI_s, wp_SLTUI, wp_XORI, wp_nil, rmEq, rmOther, IOp.eval, s1, s2])
  all_goals first
    | exact ⟨h, Only.refl _ _⟩
    | refine ⟨?_, o1 _⟩
    | refine ⟨?_, o2 _ _⟩
  all_goals first
    | (simp only [x_wr, hd, and_true, if_true, not_false_eq_true, ne_eq, h, b1]; cases t <;> rfl)
    | skip
  all_goals
    simp only [x_wr, hd, and_true, if_true, not_false_eq_true, ne_eq, u]
    generalize c.x _ = v at h
    by_cases hv : v = 0#64 <;> cases t <;> simp_all [bool64]

theorem flagSrc_reg (addSub : Bool) (d type : Nat) : (flagSrc addSub d type).2.1 = d ∨ (flagSrc addSub d type).2.1 = OTHER_FLAG := by
  unfold flagSrc
  split <;> first | exact Or.inl rfl | exact Or.inr rfl | (split <;> first | exact Or.inl rfl | exact Or.inr rfl)

/-- emit_op_mem for stores. -/
theorem opMem_store {sz : Sz} {sg : Bool} {reg b i : Nat} {w : BitVec 64} {c : Core} (hr : regMap reg ≠ 13#5) (hb : b ≤ 24) (hi : i ≤ 24)
    (hx : IdxOk i w) :
    wp (emitOpMem (.g sz sg) false reg b i w) c fun c' => ∃ c1, Only [13#5] c c1 ∧
      c' = c1.setMem ((stOp sz).eval c.mem (ea c b i w) (c.x (regMap reg))) := by
  unfold emitOpMem
  simp only [Bool.false_eq_true, if_false]
  have hb6 := (user_ne hb).2.2.1
  have t0 : TMP_REG1 ≠ 0 := by decide
  by_cases hf : fastArg i w = true
  · rw [if_pos hf, wp_store, pa_fast hf]
    exact ⟨c, Only.refl _ _, rfl⟩
  rw [if_neg hf]
  by_cases h0 : i = 0
  · subst h0
    rw [if_neg (not_not.mpr rfl)]
    refine wp_append (wp_loadImm (by decide) ?_)
    by_cases hb0 : b = 0
    · subst hb0
      rw [if_neg (not_not.mpr rfl), wp_store]
      refine ⟨_, (Only.refl _ _).wr (r := regMap TMP_REG1) (by simp) w, ?_⟩
      have : pa (c.wr (regMap TMP_REG1) w) TMP_REG1 0 0#64 = ea c 0 0 w := by simp [pa, ea]
      rw [this]; simp [hr]
    · rw [if_pos hb0, wp_store]
      refine ⟨_, (Only.refl _ _).wr (r := regMap TMP_REG1) (by simp) w, ?_⟩
      have : pa (c.wr (regMap TMP_REG1) w) b TMP_REG1 0#64 = ea c b 0 w := by simp [pa, ea, hb6, t0]
      rw [this]; simp [hr]
  · rw [if_pos h0]
    have hw4 : w.toNat < 4 := hx h0
    have h3 : w &&& 3#64 = w := by
      apply BitVec.eq_of_toNat_eq
      rw [BitVec.toNat_and, show (3#64).toNat = 2 ^ 2 - 1 from rfl, Nat.and_two_pow_sub_one_eq_mod]; omega
    have hw : w ≠ 0#64 := by rintro rfl; simp [fastArg] at hf
    rw [h3, if_pos hw, wp_SLLI_D_s _ _ (by omega), wp_store]
    refine ⟨_, (Only.refl _ _).wr (r := regMap TMP_REG1) (by simp) (ShOp.eval .sll (c.x (regMap i)) (w.toNat)), ?_⟩
    have h64 : w.toNat % 64 = w.toNat := by omega
    have : ∀ v, v = c.x (regMap i) <<< w.toNat → pa (c.wr (regMap TMP_REG1) v) b TMP_REG1 0#64 = ea c b i w := by
      rintro v rfl; simp [pa, ea, hb6, h0, t0, h3]
    rw [this _ (by simp [ShOp.eval, h64])]; simp [hr]

/-- emit_op_mem2 for loads with an empty cache. -/
theorem opMem2_load {sz : Sz} {sg : Bool} {b i : Nat} {w : BitVec 64} {c : Core} {next : Option (Nat × Nat × BitVec 64)} (hb : b ≤ 24) (hi : i ≤ 24)
    (hx : IdxOk i w) :
    wp (emitOpMem2 (.g sz sg) ⟨none, 0#64⟩ TMP_REG1 b i w next).1 c fun c' => ∃ c1, Only [14#5, 13#5] c c1 ∧
      CacheOk (emitOpMem2 (.g sz sg) ⟨none, 0#64⟩ TMP_REG1 b i w next).2 c1 ∧ c' = c1.wr 13#5 (opdVal sz sg c (.mem b i w)) := by
  unfold emitOpMem2
  by_cases hf : fastArg i w = true
  · rw [if_pos hf]
    simp only []
    rw [wp_load, pa_fast hf, rm25]
    exact ⟨c, Only.refl _ _, k0 _, rfl⟩
  · rw [if_neg hf]
    refine wp_mono (getput_load hb hi hx (by simpa using hf) (fun _ _ => k0 c)) ?_
    rintro c' ⟨c1, h1, h2, h3⟩
    refine ⟨c1, h1, ?_, h3⟩
    rcases h2 with h | ⟨-, h⟩
    · exact h
    · rw [h]; exact k0 _

/-- SLJIT_MOV of a condition. -/
theorem emitOpFlags_mov {is32 setZ addSub : Bool} {dst : Opd} {type : Nat} {t : Bool} {c : Core}
    (hd : DOk dst) (h0 : dst ≠ .reg 0) (hty : type < 36) (hF : FlagIs c addSub type t) :
    wp (emitOpFlags .mov is32 setZ addSub dst type) c fun c' =>
      Done (if is32 then .int else .word) dst (bool64 t) c c' ∧ c'.x 12#5 = c.x 12#5 ∧ c'.x 15#5 = c.x 15#5 := by
  have hr := flagSrc_ok (d := dstR0 dst) (dstR0_ok hd).n0 hty hF
  have hreg := flagSrc_reg addSub (dstR0 dst) type
  have hdd := dstR0_ok hd
  cases dst with
  | imm v => exact absurd hd (by simp [DOk])
  | reg r =>
    have hr0 : r ≠ 0 := by rintro rfl; exact h0 rfl
    simp only [dstR0, if_neg hr0] at hr hreg hdd
    refine (?_ : wp ([] ++ ((flagSrc addSub r type).1 ++ ((if (flagSrc addSub r type).2.2 then ins (XORI ||| RD r ||| RJ (flagSrc addSub r type).2.1 ||| IMM_I12 1#64) else []) ++
      (if (if (flagSrc addSub r type).2.2 then r else (flagSrc addSub r type).2.1) ≠ r then
        ins (ADDI_D ||| RD r ||| RJ (if (flagSrc addSub r type).2.2 then r else (flagSrc addSub r type).2.1) ||| IMM_I12 0#64) else [])))) c _)
    rw [List.nil_append, ← List.append_assoc]
    refine wp_append (wp_mono hr ?_)
    rintro c1 ⟨g1, g2⟩
    have fin : ∀ c', c'.x (regMap r) = bool64 t → Only [regMap r] c c' → Done (if is32 then .int else .word) (.reg r) (bool64 t) c c' ∧ c'.x 12#5 = c.x 12#5 ∧ c'.x 15#5 = c.x 15#5 := by
      intro c' k1 k2
      refine ⟨⟨?_, k2.2.1, ?_, k2.2.2⟩, ?_, ?_⟩
      · rintro r' ⟨⟩ -; exact k1
      · intro q _ h
        refine k2.1 q ?_
        simp only [List.mem_singleton]
        exact (h r rfl).resolve_right hr0
      · exact k2.1 _ (by simpa using hdd.n5.symm)
      · exact k2.1 _ (by simpa using hdd.n28.symm)
    generalize (if (flagSrc addSub r type).2.2 then r else (flagSrc addSub r type).2.1) = q at g1
    by_cases hq : q = r
    · rw [if_neg (by simpa using hq), wp_nil]
      rw [hq] at g1
      exact fin c1 g1 g2
    · rw [if_pos hq, wp_ADDI_D _ _ fits0]
      refine fin _ ?_ ((g2.wr (by simp) _))
      simp [hdd.n0, g1]
  | mem b i w =>
    simp only [dstR0] at hr hreg hdd
    refine (?_ : wp ([] ++ ((flagSrc addSub TMP_REG2 type).1 ++ ((if (flagSrc addSub TMP_REG2 type).2.2 then ins (XORI ||| RD TMP_REG2 ||| RJ (flagSrc addSub TMP_REG2 type).2.1 ||| IMM_I12 1#64) else []) ++
      emitOpMem (if is32 then .g .int true else .g .word false) false (if (flagSrc addSub TMP_REG2 type).2.2 then TMP_REG2 else (flagSrc addSub TMP_REG2 type).2.1) b i w))) c _)
    rw [List.nil_append, ← List.append_assoc]
    refine wp_append (wp_mono hr ?_)
    rintro c1 ⟨g1, g2⟩
    have hq : (if (flagSrc addSub TMP_REG2 type).2.2 then TMP_REG2 else (flagSrc addSub TMP_REG2 type).2.1) = TMP_REG2 ∨
      (if (flagSrc addSub TMP_REG2 type).2.2 then TMP_REG2 else (flagSrc addSub TMP_REG2 type).2.1) = OTHER_FLAG := by
      split
      · exact Or.inl rfl
      · exact hreg
    replace g1 : c1.x (regMap (if (flagSrc addSub TMP_REG2 type).2.2 then TMP_REG2 else (flagSrc addSub TMP_REG2 type).2.1)) = bool64 t := g1
    replace g2 : Only [1#5] c c1 := g2
    revert g1 hq
    generalize (if (flagSrc addSub TMP_REG2 type).2.2 then TMP_REG2 else (flagSrc addSub TMP_REG2 type).2.1) = q
    intro hq g1
    obtain ⟨u1, u5, u6, u7, u28⟩ := user_ne hd.1
    obtain ⟨v1, v5, v6, v7, v28⟩ := user_ne hd.2.1
    have hsz : (if is32 then MT.g .int true else MT.g .word false) = MT.g (if is32 then .int else .word) is32 := by cases is32 <;> rfl
    rw [hsz]
    refine wp_mono (opMem_store (by rcases hq with rfl | rfl <;> decide) hd.1 hd.2.1 hd.2.2) ?_
    rintro c' ⟨c2, k1, rfl⟩
    rw [ea_only g2 (by simpa using u1) (by simpa using v1), g1, g2.2.1]
    have kk : ∀ q, q ≠ 1#5 → q ≠ 13#5 → c2.x q = c.x q := by
      intro q q1 q6
      rw [k1.1 q (by simp [q6]), g2.1 q (by simpa using q1)]
    refine ⟨⟨fun _ h => by (cases h), rfl, fun q h1 _ => ?_, k1.2.2.trans g2.2.2⟩, ?_, ?_⟩
    · simp only [List.mem_cons, List.not_mem_nil, or_false, not_or] at h1
      exact kk q h1.1 h1.2.2.1
    · exact kk _ (by decide) (by decide)
    · exact kk _ (by decide) (by decide)

/-- Logical operations with two registers; the second one may be OTHER_FLAG. -/
theorem logic_reg {op : Op} {fl : SF} {dst a b : Nat} {c : Core} {A B : BitVec 64} (hc : op.code = .and ∨ op.code = .or ∨ op.code = .xor)
    (hfl : op.flag = .none) (hu : fl.unused = false) (hd : DstOk dst) (ha : regMap a ≠ 12#5) (hb : regMap b ≠ 12#5)
    (hA : c.x (regMap a) = A) (hB : c.x (regMap b) = B) (h32 : op.is32 = true → Sx A ∧ Sx B) :
    wp (emitSingle op fl dst a (.reg b)) c (Post2 op fl (regMap dst) A B false c) := by
  obtain ⟨hdl, hd0, hd5, hd28, hd6⟩ := hd
  have hs5 := hd5.symm
  unfold emitSingle
  rw [if_pos (by rcases hc with h | h | h <;> rw [h] <;> rfl)]
  unfold emitSingle2
  rcases hc with hc | hc | hc
  · have hl := resL_of (op := op) (by rw [hc]; decide)
    have hr := resX_and hc A B false h32
    rw [hc]; simp only []; unfold emitLogical
    rcases hz : op.setZ with _ | _ <;>
      simp [hu, wp_AND_s, wp_AND, rmEq] <;> apply Post2.plain <;> simp +contextual [hfl, hz, hu, hr, Kept, *]
  · have hl := resL_of (op := op) (by rw [hc]; decide)
    have hr := resX_or hc A B false h32
    rw [hc]; simp only []; unfold emitLogical
    rcases hz : op.setZ with _ | _ <;>
      simp [hu, wp_OR_s, wp_OR, rmEq] <;> apply Post2.plain <;> simp +contextual [hfl, hz, hu, hr, Kept, *]
  · have hl := resL_of (op := op) (by rw [hc]; decide)
    have hr := resX_xor hc A B false h32
    rw [hc]; simp only []; unfold emitLogical
    rcases hz : op.setZ with _ | _ <;>
      simp [hu, wp_XOR_s, wp_XOR, rmEq] <;> apply Post2.plain <;> simp +contextual [hfl, hz, hu, hr, Kept, *]

/-- SLJIT_AND, SLJIT_OR, SLJIT_XOR of the destination and a condition. -/
theorem emitOpFlags_logic {op : Op} {addSub : Bool} {dst : Opd} {type : Nat} {t : Bool} {c : Core}
    (hc : op.code = .and ∨ op.code = .or ∨ op.code = .xor) (hfl : op.flag = .none)
    (hd : DOk dst) (hdn : dst ≠ .reg TMP_REG2) (h0 : dst ≠ .reg 0) (hty : type < 36) (hF : FlagIs c addSub type t)
    (h32 : op.is32 = true → Sx (opdVal (opSz op) op.is32 c dst)) :
    wp (emitOpFlags op.code op.is32 op.setZ addSub dst type) c
      (Done2 op dst (opdVal (opSz op) op.is32 c dst) (bool64 t) false c) := by
  have hsx : ∀ t, Sx (bool64 t) := by unfold Sx; decide
  have hop : (⟨op.code, op.is32, op.setZ, .none⟩ : Op) = op := by cases op; simp only [Op.mk.injEq] at *; exact ⟨trivial, trivial, trivial, hfl.symm⟩
  have hmv : decide (op.code = .mov) = false := by rcases hc with h | h | h <;> rw [h] <;> rfl
  have hna : op.code ≠ .addc := by rcases hc with h | h | h <;> rw [h] <;> decide
  have hsz : (if op.is32 then MT.g .int true else MT.g .word false) = opData op := by unfold opData; cases op.is32 <;> rfl
  -- the operation on two registers
  have core : ∀ (fl : SF) (k : Cache) (x y : Nat) (c1 : Core), fl.unused = false → CacheOk k c1 → Only temps c c1 →
      regMap x ≠ 12#5 → regMap y ≠ 12#5 → c1.x (regMap x) = opdVal (opSz op) op.is32 c dst → c1.x (regMap y) = bool64 t →
      wp (emitSingle op fl (dstR0 dst) x (.reg y) ++ emitStore (opData op) k (dstR0 dst) dst) c1
        (Done2 op dst (opdVal (opSz op) op.is32 c dst) (bool64 t) false c) := by
    intro fl k x y c1 hfl0 hk ho x5 y5 hx hy
    exact finish_ok hd (hk.store _) ho (fun _ h => absurd h hna) (by rw [hfl0]; simp [h0])
      (logic_reg hc hfl hfl0 (dstR0_ok hd) x5 y5 hx hy (fun q => ⟨h32 q, hsx t⟩))
  have t2 : regMap TMP_REG2 ≠ 0#5 := by decide
  have hreg := flagSrc_reg addSub TMP_REG2 type
  have hq : (if (flagSrc addSub TMP_REG2 type).2.2 then TMP_REG2 else (flagSrc addSub TMP_REG2 type).2.1) = TMP_REG2 ∨
      (if (flagSrc addSub TMP_REG2 type).2.2 then TMP_REG2 else (flagSrc addSub TMP_REG2 type).2.1) = OTHER_FLAG := by
    split
    · exact Or.inl rfl
    · exact hreg
  have hq5 : regMap (if (flagSrc addSub TMP_REG2 type).2.2 then TMP_REG2 else (flagSrc addSub TMP_REG2 type).2.1) ≠ 12#5 := by
    rcases hq with e | e <;> rw [e] <;> decide
  have hlog : ∀ k x y, emitOp op (opData op) ⟨true, true, false⟩ k dst (.reg x) (.reg y) =
      emitSingle op ⟨decide (dst = .reg 0), dst.isReg && !decide (dst = .reg 0), true⟩ (dstR0 dst) x (.reg y) ++ emitStore (opData op) k (dstR0 dst) dst := by
    intro k x y
    simp [emitOp, immSwap, Opd.smallImm, emitSrc1, emitSrc2, emitSlow, slow, Opd.isReg]
  cases dst with
  | imm v => exact absurd hd (by simp [DOk])
  | reg r =>
    have hr : r ≤ 24 := hd.resolve_right (fun h => hdn (by rw [h]))
    obtain ⟨u1, u5, u6, u7, u28⟩ := user_ne hr
    have he : emitOpFlags op.code op.is32 op.setZ addSub (.reg r) type = (flagSrc addSub TMP_REG2 type).1 ++
        ((if (flagSrc addSub TMP_REG2 type).2.2 then ins (XORI ||| RD TMP_REG2 ||| RJ (flagSrc addSub TMP_REG2 type).2.1 ||| IMM_I12 1#64) else []) ++
        emitOp op (opData op) ⟨true, true, false⟩ ⟨none, 0#64⟩ (.reg r) (.reg r)
          (.reg (if (flagSrc addSub TMP_REG2 type).2.2 then TMP_REG2 else (flagSrc addSub TMP_REG2 type).2.1))) := by
      unfold emitOpFlags
      simp only [hmv, hsz, hop, Bool.false_eq_true, if_false, Opd.isMem, List.nil_append]
    rw [he, ← List.append_assoc]
    refine wp_append (wp_mono (flagSrc_ok t2 hty hF) ?_)
    rintro c1 ⟨g1, g2⟩
    replace g2 : Only [1#5] c c1 := g2
    rw [hlog]
    refine core _ _ _ _ c1 (by simp; rintro rfl; exact h0 rfl) (k0 _) (g2.mono (by simp)) u5 hq5 ?_ g1
    exact g2.1 _ (by simpa using u1)
  | mem b i w =>
    have he : emitOpFlags op.code op.is32 op.setZ addSub (.mem b i w) type =
        (emitOpMem2 (opData op) ⟨none, 0#64⟩ TMP_REG1 b i w (some (b, i, w))).1 ++ ((flagSrc addSub TMP_REG2 type).1 ++
        ((if (flagSrc addSub TMP_REG2 type).2.2 then ins (XORI ||| RD TMP_REG2 ||| RJ (flagSrc addSub TMP_REG2 type).2.1 ||| IMM_I12 1#64) else []) ++
        emitOp op (opData op) ⟨true, true, false⟩ (emitOpMem2 (opData op) ⟨none, 0#64⟩ TMP_REG1 b i w (some (b, i, w))).2 (.mem b i w) (.reg TMP_REG1)
          (.reg (if (flagSrc addSub TMP_REG2 type).2.2 then TMP_REG2 else (flagSrc addSub TMP_REG2 type).2.1)))) := by
      unfold emitOpFlags
      simp only [hmv, hsz, hop, Bool.false_eq_true, if_false, if_true, Opd.isMem]
    rw [he]
    simp only [hlog]
    rw [opSz_data]
    refine wp_append (wp_mono (opMem2_load hd.1 hd.2.1 hd.2.2) ?_)
    rintro c1 ⟨c0, g1, gk, rfl⟩
    have o1 : Only [13#5, 14#5] c (c0.wr 13#5 (opdVal (opSz op) op.is32 c (.mem b i w))) :=
      (g1.mono (by simp)).wr (by simp) _
    have hF1 : FlagIs (c0.wr 13#5 (opdVal (opSz op) op.is32 c (.mem b i w))) addSub type t := by
      unfold FlagIs at hF ⊢
      rw [o1.1 12#5 (by decide), o1.1 15#5 (by decide)]; exact hF
    rw [← List.append_assoc]
    refine wp_append (wp_mono (flagSrc_ok t2 hty hF1) ?_)
    rintro c2 ⟨k1, k2⟩
    replace k2 : Only [1#5] _ c2 := k2
    have o2 : Only temps c c2 := Only.trans (o1.mono (by simp)) (k2.mono (by simp))
    have gk1 : CacheOk (emitOpMem2 (.g (opSz op) op.is32) ⟨none, 0#64⟩ TMP_REG1 b i w (some (b, i, w))).2 c2 := by
      refine (gk.wr (Or.inl rfl) (opdVal (opSz op) op.is32 c (.mem b i w))).of_eq ?_ ?_
      · exact k2.1 _ (by simp)
      · intro r hr
        exact k2.1 _ (by simpa using (user_ne hr).1)
    rw [← opSz_data] at gk1 ⊢
    refine core _ _ _ _ c2 (by simp) gk1 o2 (by decide) hq5 ?_ k1
    rw [k2.1 _ (by decide)]; simp

end Verif.LA
