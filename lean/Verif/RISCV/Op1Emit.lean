import Verif.RISCV.EmitOp2Proof
import Verif.RISCV.ClzProof

/-!
# sljit_emit_op1 on RV64 (helper lemmas)
-/

namespace Verif.RV

section
variable {cfg : Cfg} {sz : Sz} {sg : Bool} {c : Core}

/-- Fetching the source of a one operand operation. -/
theorem ufetch_ok {tmp : Nat} {o dst : Opd} (ho : OpdOk o) (h0 : regMap tmp ≠ 0#5) (h2 : regMap tmp ≠ 2#5) (h7 : regMap tmp ≠ 7#5) :
    wp ((emitSrc2 cfg (.g sz sg) tmp o).1 ++ (emitSlow cfg (.g sz sg) ⟨none, 0#64⟩ dst (.reg 0) o 0 tmp).1) c fun c' =>
      c'.x (regMap (emitSrc2 cfg (.g sz sg) tmp o).2) = opdVal sz sg c o ∧ Only [regMap tmp, 6#5, 7#5] c c' ∧
      (regMap tmp = 1#5 → CacheOk (emitSlow cfg (.g sz sg) ⟨none, 0#64⟩ dst (.reg 0) o 0 tmp).2 c') := by
  have k0 : ∀ c, CacheOk ⟨none, 0#64⟩ c := fun c b i h => by cases h
  have hs1 : (Opd.reg 0).slow = false := rfl
  cases hs : o.slow
  · have e3 : emitSlow cfg (.g sz sg) ⟨none, 0#64⟩ dst (.reg 0) o 0 tmp = ([], ⟨none, 0#64⟩) := by
      simp only [emitSlow, hs1, hs]
    rw [e3, List.append_nil]
    refine wp_mono (emitSrc_ok ho hs h0 h2 h7) ?_
    rintro c1 ⟨g1, g2⟩
    exact ⟨g1, g2.mono (by simp), fun _ => k0 _⟩
  · have e3 : emitSlow cfg (.g sz sg) ⟨none, 0#64⟩ dst (.reg 0) o 0 tmp = loadSlow cfg (.g sz sg) false ⟨none, 0#64⟩ tmp o dst := by
      simp only [emitSlow, hs1, hs]; rfl
    rw [e3, emitSrc2_slow hs, List.nil_append]
    refine wp_mono (loadSlow_ok ho hs (k0 _) h0) ?_
    rintro c' ⟨c1, g1, g2, rfl⟩
    refine ⟨by simp [h0], ?_, fun h1 => g2.wr (Or.inr h1) _⟩
    exact (g1.mono (by simp [tmpR])).wr (by simp) _

/-- The operation and the store together. -/
theorem finish1 {k : Cache} {dst : Opd} {c1 : Core} {e : Emit} {R : BitVec 64 → Prop} (hd : DOk dst) (hd0 : dst ≠ .reg 0)
    (hk : CacheOk k c1) (ho : Only temps c c1) (he : wpB e c1 (Post1 R (regMap (dstR0 dst)) c1)) :
    wpB (e ++ emitStore cfg (.g sz sg) k (dstR0 dst) dst) c1 fun c' => ∃ v, R v ∧ Done sz dst v c c' := by
  refine wpB_append (wpB_mono he ?_)
  intro c2 p
  apply wp.B
  have hkept : ∀ q, q ∉ ([1#5, 5#5, 6#5, 7#5, 28#5] : List Reg) → (∀ r, dst = .reg r → q ≠ regMap r ∨ r = 0) → c2.x q = c1.x q := by
    intro q g1 g2
    simp only [List.mem_cons, List.not_mem_nil, or_false, not_or] at g1
    refine p.kept.1 q ?_ g1.2.1 g1.2.2.2.2 g1.2.2.1 g1.1
    cases dst with
    | reg r =>
      simp only [dstR0]
      by_cases hr : r = 0
      · rw [if_pos hr]; exact g1.1
      · rw [if_neg hr]; exact (g2 r rfl).resolve_right hr
    | imm v => exact absurd hd (by simp [DOk])
    | mem => exact g1.1
  have hkc : ∀ q, q ∉ ([1#5, 5#5, 6#5, 7#5, 28#5] : List Reg) → (∀ r, dst = .reg r → q ≠ regMap r ∨ r = 0) → c2.x q = c.x q := by
    intro q g1 g2
    rw [hkept q g1 g2]
    apply ho.1
    simp only [List.mem_cons, List.not_mem_nil, or_false, not_or] at g1 ⊢
    exact ⟨g1.2.2.1, g1.1, g1.2.2.2.1⟩
  have hk0 : ∀ c, CacheOk ⟨none, 0#64⟩ c := fun c b i h => by cases h
  have fin : ∀ c', (Done sz dst (c2.x (regMap (dstR0 dst))) c c' ∧ c'.x 5#5 = c2.x 5#5 ∧ c'.x 28#5 = c2.x 28#5) →
      ∃ v, R v ∧ Done sz dst v c c' := fun c' h => ⟨_, p.res, h.1⟩
  cases hm : dst.isMem
  · have : emitStore cfg (.g sz sg) k (dstR0 dst) dst = emitStore cfg (.g sz sg) ⟨none, 0#64⟩ (dstR0 dst) dst := by
      cases dst <;> first | rfl | simp [Opd.isMem] at hm
    rw [this]
    exact wp_mono (store_ok hd (hk0 _) (fun _ => rfl) (p.kept.2.1.trans ho.2.1) (p.kept.2.2.trans ho.2.2) hkc) fin
  · have hk2 : CacheOk k c2 := by
      cases dst with
      | mem b i w =>
        refine hk.of_eq ?_ ?_
        · exact p.kept.1 _ (by simp [dstR0]) (by decide) (by decide) (by decide) (by decide)
        · intro r hr
          obtain ⟨u1, u5, u6, u7, u28⟩ := user_ne hr
          exact hkept _ (by simp [u1, u5, u6, u7, u28]) (fun _ h => by cases h)
      | _ => simp [Opd.isMem] at hm
    exact wp_mono (store_ok hd hk2 (fun _ => rfl) (p.kept.2.1.trans ho.2.1) (p.kept.2.2.trans ho.2.2) hkc) fin

/-- The one operand operations that are not moves. -/
def OpC.un (o : OpC) : Prop := o = .rev ∨ o = .revU16 ∨ o = .revS16 ∨ o = .revU32 ∨ o = .revS32 ∨ o = .clz ∨ o = .ctz

theorem single1_all {op : Op} {fl : SF} {dst src : Nat} {A : BitVec 64} (hc : op.code.un)
    (h32 : op.code = .revU32 ∨ op.code = .revS32 → op.is32 = true) (hr : op.code = .rev → op.is32 = true → cfg.zbb = true)
    (hx : op.code = .clz ∨ op.code = .ctz → src = TMP_REG2 → op.is32 = true → cfg.zbb = true ∨ A = sx32 (lo32 A))
    (hd : DstOk dst) (hs : SrcOk src) (hs6 : regMap src ≠ 6#5) (hA : c.x (regMap src) = A) :
    wpB (emitSingle1 cfg op fl dst src) c (Post1 (UnSpec op.code op.is32 A) (regMap dst) c) := by
  by_cases hz : cfg.zbb = true
  · refine (single1_un (o := op.code) ?_ rfl h32 hr hd hs hs6 hA).B
    rcases hc with h | h | h | h | h | h | h <;> simp [h, hz]
  · have hz' : cfg.zbb = false := by simpa using hz
    rcases hc with h | h | h | h | h | hcc
    · exact (single1_un (o := op.code) (Or.inl h) rfl h32 hr hd hs hs6 hA).B
    · exact (single1_un (o := op.code) (by simp [h]) rfl h32 hr hd hs hs6 hA).B
    · exact (single1_un (o := op.code) (by simp [h]) rfl h32 hr hd hs hs6 hA).B
    · exact (single1_un (o := op.code) (by simp [h]) rfl h32 hr hd hs hs6 hA).B
    · exact (single1_un (o := op.code) (by simp [h]) rfl h32 hr hd hs hs6 hA).B
    · have e : emitSingle1 cfg op fl dst src = emitClzCtz op dst src := by
        rcases hcc with h | h <;> simp only [emitSingle1, h, hz', Bool.false_eq_true, if_false]
      rw [e]
      exact emitClzCtz_ok hcc hd hs (fun h1 h2 => (hx hcc h1 h2).resolve_left hz) hA

/-- emit_op for the operations that are not moves. -/
theorem emitOp_un {op : Op} {dst src : Opd} (hc : op.code.un) (hd : DOk dst) (hd0 : dst ≠ .reg 0) (ho : OpdOk src)
    (h32 : op.code = .revU32 ∨ op.code = .revS32 → op.is32 = true) (hr : op.code = .rev → op.is32 = true → cfg.zbb = true)
    (hx : op.code = .clz ∨ op.code = .ctz → op.is32 = true → src.isReg = false → cfg.zbb = true ∨
      opdVal sz sg c src = sx32 (lo32 (opdVal sz sg c src))) :
    wpB (emitOp cfg op (.g sz sg) ⟨false, false, false⟩ ⟨none, 0#64⟩ dst (.reg 0) src) c
      fun c' => ∃ v, UnSpec op.code op.is32 (opdVal sz sg c src) v ∧ Done sz dst v c c' := by
  have h2 : op.code.isOp2 = false := by rcases hc with h | h | h | h | h | h | h <;> rw [h] <;> rfl
  have hsw : immSwap ⟨false, false, false⟩ (.reg 0) src = (none, .reg 0, src) := rfl
  have hs1 : ∀ t, emitSrc1 cfg t (.reg 0) = ([], 0) := fun _ => rfl
  unfold emitOp
  simp only [hsw, hs1, h2, Bool.false_eq_true, and_false, false_and, if_false, Bool.and_false, List.nil_append]
  rw [← List.append_assoc]
  refine wpB_append (wpB_mono (ufetch_ok (dst := dst) (tmp := TMP_REG2) ho (by decide) (by decide) (by decide)).B ?_)
  rintro c1 ⟨g1, g2, g3⟩
  refine finish1 hd hd0 (g3 rfl) (g2.mono (by simp)) ?_
  simp only [emitSingle, h2, Bool.false_eq_true, if_false]
  have hr6 : regMap (emitSrc2 cfg (.g sz sg) TMP_REG2 src).2 ≠ 6#5 := by
    rw [emitSrc2_reg]
    cases src with
    | reg r => exact (user_ne ho).2.2.1
    | imm v => simp only []; split <;> decide
    | mem => simp
  refine single1_all hc h32 hr ?_ (dstR0_ok hd) (opdOk_srcOk ho (Or.inr rfl)) hr6 g1
  intro q1 q2 q3
  apply hx q1 q3
  rw [emitSrc2_reg] at q2
  cases src with
  | reg r =>
    have h1 : r ≤ 24 := ho
    have h2 : r = 26 := q2
    omega
  | _ => rfl

/-! ## Moves -/

/-- The moves. -/
def OpC.isMv : OpC → Bool
  | .mov | .movU8 | .movS8 | .movU16 | .movS16 | .movU32 | .movS32 => true
  | _ => false
/-- Their data type (sljitNativeRISCV_common.c:2622-2652). -/
def mvSz : OpC → Sz
  | .movU8 | .movS8 => .byte
  | .movU16 | .movS16 => .half
  | .movU32 | .movS32 => .int
  | _ => .word
def mvSg : OpC → Bool
  | .movS8 | .movS16 | .movS32 => true
  | _ => false

theorem movX_idem (o : OpC) (a : BitVec 64) : movX o (movX o a) = movX o a := by
  cases o <;> simp only [movX] <;> bits [BitVec.getLsbD_signExtend, BitVec.msb_eq_getLsbD_last]

theorem movX_ld {o : OpC} (h : o.isMv = true) (m) (a : BitVec 64) : movX o ((ldOp (mvSz o) (mvSg o)).eval m a) = (ldOp (mvSz o) (mvSg o)).eval m a := by
  cases o <;> simp [OpC.isMv] at h <;> simp only [movX, ldOp, mvSz, mvSg, LdOp.eval] <;>
    bits [BitVec.getLsbD_signExtend, BitVec.msb_eq_getLsbD_last]

theorem movX_st {o : OpC} (m) (a v : BitVec 64) : (stOp (mvSz o)).eval m a (movX o v) = (stOp (mvSz o)).eval m a v := by
  have key : ∀ w, w ≤ 64 → ((v.setWidth w).setWidth 64).setWidth w = v.setWidth w := by
    intro w hw; apply BitVec.eq_of_getLsbD_eq; intro i hi; simp [BitVec.getLsbD_setWidth, hi]; omega
  have key' : ∀ w, w ≤ 64 → ((v.setWidth w).signExtend 64).setWidth w = v.setWidth w := by
    intro w hw; apply BitVec.eq_of_getLsbD_eq; intro i hi; simp [BitVec.getLsbD_setWidth, BitVec.getLsbD_signExtend, hi]; omega
  cases o <;> simp only [movX, stOp, mvSz, StOp.eval, key _ (show 8 ≤ 64 by decide), key _ (show 16 ≤ 64 by decide),
    key _ (show 32 ≤ 64 by decide), key' _ (show 8 ≤ 64 by decide), key' _ (show 16 ≤ 64 by decide), key' _ (show 32 ≤ 64 by decide)]

/-- The state after a move of the value `v`. -/
structure MDone (sz : Sz) (dst : Opd) (v : BitVec 64) (c c' : Core) : Prop where
  reg : ∀ r, dst = .reg r → c'.x (regMap r) = v
  mem : c'.mem = match dst with | .mem b i w => (stOp sz).eval c.mem (ea c b i w) v | _ => c.mem
  kept : ∀ q, q ∉ temps → (∀ r, dst = .reg r → q ≠ regMap r) → c'.x q = c.x q
  fregs : c'.f = c.f

/-- Register to register. -/
theorem mv_rr {op : Op} {fl : SF} {dst src : Nat} (ho : op.code.isMv = true) (hfl : fl.regDest = true ∧ fl.reg2Src = true ∨ op.code = .mov)
    (hd : regMap dst ≠ 0#5) (hl : dst ≤ 24) (hs : src ≤ 24) :
    wp (emitSingle1 cfg op fl dst src) c fun c' => c'.x (regMap dst) = movX op.code (c.x (regMap src)) ∧ Only [regMap dst] c c' := by
  have W : ∀ v, Only [regMap dst] c (c.wr (regMap dst) v) := fun v => (Only.refl _ _).wr (by simp) _
  have W2 : ∀ v u, Only [regMap dst] c ((c.wr (regMap dst) v).wr (regMap dst) u) := fun v u => (W v).wr (by simp) _
  rcases hfl with ⟨f1, f2⟩ | hm
  swap
  · simp only [emitSingle1, hm, movX]
    by_cases he : dst = src
    · rw [if_pos he, wp_nil, he]; exact ⟨rfl, Only.refl _ _⟩
    · rw [if_neg he]
      cases hcc : cfg.c
      · have f0 : Fits12 0#64 := by unfold Fits12; decide
        wps [f0, IOp.eval, hd, W]
      · by_cases h0 : src = 0
        · subst h0; wps [hd, W]
        · have hs0 : regMap src ≠ 0#5 := rm_ne0 (by omega) h0
          wps [hd, W, h0, hs0]
  · cases h : op.code <;> rw [h] at ho <;> first | exact absurd ho (by decide) | skip
    all_goals simp only [emitSingle1, h, movX, f1, f2, Bool.and_true, if_true]
    · by_cases he : dst = src
      · rw [if_pos he, wp_nil, he]; exact ⟨rfl, Only.refl _ _⟩
      · rw [if_neg he]
        cases hcc : cfg.c
        · have f0 : Fits12 0#64 := by unfold Fits12; decide
          wps [f0, IOp.eval, hd, W]
        · by_cases h0 : src = 0
          · subst h0; wps [hd, W]
          · have hs0 : regMap src ≠ 0#5 := rm_ne0 (by omega) h0
            wps [hd, W, h0, hs0]
    · wps [IOp.eval, hd, W]
      bits []
    · cases hz : cfg.zbb
      · cases h3 : op.is32
        · wps [emitExt, h3, ShOp.eval, hd, W2]
          bits [BitVec.getLsbD_signExtend, BitVec.msb_eq_getLsbD_last, BitVec.getLsbD_sshiftRight]
        · wps [emitExt, h3, ShOp.eval32, hd, W2]
          bits [sx32, lo32, BitVec.getLsbD_signExtend, BitVec.msb_eq_getLsbD_last, BitVec.getLsbD_sshiftRight]
      · wps [UnOp.eval, hd, W]
    · cases hz : cfg.zbb
      · cases h3 : op.is32
        · wps [emitExt, h3, ShOp.eval, hd, W2]
          bits [BitVec.getLsbD_signExtend, BitVec.msb_eq_getLsbD_last, BitVec.getLsbD_sshiftRight]
        · wps [emitExt, h3, ShOp.eval32, hd, W2]
          bits [sx32, lo32, BitVec.getLsbD_signExtend, BitVec.msb_eq_getLsbD_last, BitVec.getLsbD_sshiftRight]
      · wps [UnOp.eval, hd, W]
    · cases hz : cfg.zbb
      · cases h3 : op.is32
        · wps [emitExt, h3, ShOp.eval, hd, W2]
          bits [BitVec.getLsbD_signExtend, BitVec.msb_eq_getLsbD_last, BitVec.getLsbD_sshiftRight]
        · wps [emitExt, h3, ShOp.eval32, hd, W2]
          bits [sx32, lo32, BitVec.getLsbD_signExtend, BitVec.msb_eq_getLsbD_last, BitVec.getLsbD_sshiftRight]
      · wps [UnOp.eval, hd, W]
    · wps [ShOp.eval, hd, W2]
      bits []
    · by_cases he : cfg.c = true ∧ dst = src
      · rw [if_pos he]
        obtain ⟨-, rfl⟩ := he
        wps [hd, W]
        bits [sx32, lo32, BitVec.getLsbD_signExtend, BitVec.msb_eq_getLsbD_last]
      · rw [if_neg he]
        have f0 : Fits12 0#64 := by unfold Fits12; decide
        rw [show (ADDI ||| 0x8#32) = (ADDI ||| WORD true) from rfl, wp_ADDIW' _ _ f0]
        refine ⟨?_, W _⟩
        simp only [x_wr, hd, ne_eq, not_false_eq_true, and_self, addw, if_true, show lo32 0#64 = 0#32 from rfl, BitVec.add_zero]
        bits [sx32, lo32, BitVec.getLsbD_signExtend, BitVec.msb_eq_getLsbD_last]

/-- A register that already holds the value. -/
theorem mv_idem {op : Op} {fl : SF} {r : Nat} (ho : op.code.isMv = true) (hfl : (fl.regDest && fl.reg2Src) = false)
    (hv : movX op.code (c.x (regMap r)) = c.x (regMap r)) :
    wp (emitSingle1 cfg op fl r r) c (Only [] c) := by
  have W : Only [] c (c.wr (regMap r) (movX op.code (c.x (regMap r)))) := by
    refine ⟨fun q _ => ?_, rfl, rfl⟩
    rw [hv]
    by_cases h0 : regMap r = 0#5
    · simp [h0]
    · by_cases hq : q = regMap r
      · subst hq; simp
      · simp [hq]
  cases h : op.code <;> rw [h] at ho <;> first | exact absurd ho (by decide) | skip
  all_goals
    rw [h] at W
    simp only [movX] at W
    simp only [emitSingle1, h, hfl, Bool.false_eq_true, if_false, if_true]
  all_goals first
    | (rw [wp_nil]; exact Only.refl _ _)
    | (cases hz : cfg.zbb
       · simp only [Bool.false_eq_true, if_false, wp_nil]; exact Only.refl _ _
       · wps [UnOp.eval]; exact W)

/-- The source register of a store keeps its value. -/
theorem mv_st {op : Op} {fl : SF} {r : Nat} (ho : op.code.isMv = true) (hfl : (fl.regDest && fl.reg2Src) = false)
    (hz : cfg.zbb = true → op.code ≠ .movS8 ∧ op.code ≠ .movU16 ∧ op.code ≠ .movS16) :
    emitSingle1 cfg op fl r r = [] := by
  cases h : op.code <;> rw [h] at ho hz <;> first | exact absurd ho (by decide) | skip
  all_goals simp only [emitSingle1, h, hfl, Bool.false_eq_true, if_false, if_true]
  all_goals
    cases hzb : cfg.zbb
    · rfl
    · have := hz hzb; simp at this

theorem Only.mdone {dst : Nat} {sz : Sz} {v : BitVec 64} {c' : Core} (h : Only [regMap dst, 6#5, 7#5] c c') (hv : c'.x (regMap dst) = v) :
    MDone sz (.reg dst) v c c' := by
  refine ⟨fun r e => ?_, h.2.1, fun q g1 g2 => h.1 q ?_, h.2.2⟩
  · cases e; exact hv
  · have := g2 _ rfl
    simp only [List.mem_cons, List.not_mem_nil, or_false, not_or] at g1 ⊢
    exact ⟨this, g1.1, g1.2.2⟩

/-- The store of a move. -/
theorem mstore_ok {k : Cache} {b i r : Nat} {w v : BitVec 64} {c1 : Core} (hb : b ≤ 24) (hi : i ≤ 24) (hk : CacheOk k c1)
    (ho : Only temps c c1) (hv : c1.x (regMap r) = v) (h7 : regMap r ≠ 7#5) (h6 : regMap r ≠ 6#5) :
    wp (emitStore cfg (.g sz sg) k r (.mem b i w)) c1 (MDone sz (.mem b i w) v c) := by
  have hea : ea c1 b i w = ea c b i w := ea_only ho (user_temps hb) (user_temps hi)
  simp only [emitStore]
  by_cases hf : fastArg i w = true
  · rw [if_pos hf, wp_store]
    simp only [fastArg, Bool.and_eq_true, decide_eq_true_eq, fits12_iff] at hf
    obtain ⟨rfl, hw⟩ := hf
    rw [sext12 hw, ho.2.1, hv]
    have : c1.x (regMap b) + w = ea c b 0 w := by rw [← hea]; simp [ea]
    rw [this]
    exact ⟨fun _ h => by (cases h), rfl, fun q h1 _ => ho.1 q h1, ho.2.2⟩
  · rw [if_neg hf]
    refine wp_mono (getput_store hb hi hk h7 (by simpa [tmpR] using h6)) ?_
    rintro c' ⟨c2, h1, rfl⟩
    rw [hea, hv, ho.2.1]
    refine ⟨fun _ h => by (cases h), rfl, fun q g1 g2 => ?_, h1.2.2.trans ho.2.2⟩
    rw [← ho.1 q g1]
    apply h1.1
    simp only [List.mem_cons, List.not_mem_nil, or_false, not_or] at g1
    simp [tmpR, g1]

/-- emit_op for the moves. -/
theorem emitOp_mv {op : Op} {dst src : Opd} (ho : op.code.isMv = true) (hd : DOk dst) (hd0 : dst ≠ .reg 0) (hd2 : dst ≠ .reg 24)
    (hd26 : dst ≠ .reg 26) (hs : OpdOk src) (hi : ∀ v, src = .imm v → movX op.code v = v)
    (hz : cfg.zbb = true → src.isReg = true → dst.isMem = true → op.code ≠ .movS8 ∧ op.code ≠ .movU16 ∧ op.code ≠ .movS16) :
    wp (emitOp cfg op (.g (mvSz op.code) (mvSg op.code)) ⟨false, false, true⟩ ⟨none, 0#64⟩ dst (.reg 0) src) c
      (MDone (mvSz op.code) dst (movX op.code (opdVal (mvSz op.code) (mvSg op.code) c src)) c) := by
  have h2 : op.code.isOp2 = false := by revert ho; cases op.code <;> decide
  have hsw : immSwap ⟨false, false, true⟩ (.reg 0) src = (none, .reg 0, src) := rfl
  have hs1 : ∀ t, emitSrc1 cfg t (.reg 0) = ([], 0) := fun _ => rfl
  have k0 : ∀ c, CacheOk ⟨none, 0#64⟩ c := fun c b i h => by cases h
  -- a fetched value is already extended
  have hidem : src.isReg = false → movX op.code (opdVal (mvSz op.code) (mvSg op.code) c src) = opdVal (mvSz op.code) (mvSg op.code) c src := by
    intro hr
    cases src with
    | reg r => simp [Opd.isReg] at hr
    | imm v => exact hi v rfl
    | mem b i w => exact movX_ld ho _ _
  unfold emitOp
  cases dst with
  | imm v => exact absurd hd (by simp [DOk])
  | reg r =>
    have hr0 : r ≠ 0 := by rintro rfl; exact hd0 rfl
    have hr24 : r ≤ 24 := by
      rcases hd with h | h
      · exact h
      · exact absurd (by rw [h]) hd26
    have hrr : regMap r ≠ 0#5 := rm_ne0 (by omega) hr0
    obtain ⟨u1, u5, u6, u7, u28⟩ := user_ne hr24
    have hr2 : regMap r ≠ 2#5 := by
      have : ∀ a : Fin 25, a.1 ≠ 24 → regMap a.1 ≠ 2#5 := by decide +kernel
      exact this ⟨r, by omega⟩ (by rintro e; exact hd2 (by rw [show r = 24 from e]))
    have hun : decide (Opd.reg r = Opd.reg 0) = false := by simpa using hr0
    simp only [hsw, hs1, h2, hun, dstR0, if_neg hr0, Opd.isReg, Opd.isMem, Bool.false_eq_true, Bool.true_eq_false, true_and, and_false, false_and, and_true, if_false,
      Bool.and_false, Bool.and_true, Bool.not_false, List.nil_append, if_true, emitStore, List.append_nil, emitSingle]
    cases src with
    | reg q =>
      simp only [emitSrc2, emitSlow, Opd.slow, Opd.isReg, List.nil_append, reduceCtorEq, decide_false, Bool.false_eq_true, Bool.true_eq_false, true_and, and_false, false_and, if_false, h2]
      refine wp_mono (mv_rr ho (Or.inl ⟨rfl, rfl⟩) hrr hr24 hs) ?_
      rintro c' ⟨g1, g2⟩
      exact (g2.mono (by simp)).mdone g1
    | imm v =>
      by_cases hv : v = 0#64
      · subst hv
        simp only [emitSrc2, emitSlow, Opd.slow, Opd.isReg, List.nil_append, decide_true, Bool.false_eq_true, Bool.true_eq_false, true_and, and_false, if_false, if_true,
          ne_eq, not_true, and_self, show OpC.isOp2 .mov = false from rfl]
        refine wp_mono (mv_rr (op := ⟨.mov, false, false, .none⟩) rfl (Or.inr rfl) hrr hr24 (by decide)) ?_
        rintro c' ⟨g1, g2⟩
        refine (g2.mono (by simp)).mdone ?_
        rw [g1]
        have := hi _ rfl
        simp only [opdVal, this]
        simp [movX]
      · have hne : ¬ (Opd.imm v = Opd.imm 0#64) := by simpa using hv
        rw [← List.append_assoc]
        refine wp_append (wp_mono (ufetch_ok (tmp := r) hs hrr hr2 u7) ?_)
        rintro c1 ⟨g1, g2, -⟩
        simp only [hne, decide_false, Bool.false_eq_true, Bool.true_eq_false, true_and, and_false, false_and, if_false, h2]
        rw [emitSrc2_reg] at g1 ⊢
        simp only [if_neg hv] at g1 ⊢
        refine wp_mono (mv_idem ho (by simp [Opd.isReg]) (by rw [g1]; exact hidem rfl)) ?_
        intro c' g
        refine (g2.trans (g.mono (by simp))).mdone ?_
        rw [hidem rfl, g.1 _ (by simp), g1]
    | mem b i w =>
      have hne : ¬ (Opd.mem b i w = Opd.imm 0#64) := by simp
      rw [← List.append_assoc]
      refine wp_append (wp_mono (ufetch_ok (tmp := r) hs hrr hr2 u7) ?_)
      rintro c1 ⟨g1, g2, -⟩
      simp only [hne, decide_false, Bool.false_eq_true, Bool.true_eq_false, true_and, and_false, false_and, if_false, h2]
      rw [emitSrc2_reg] at g1 ⊢
      simp only [] at g1 ⊢
      refine wp_mono (mv_idem ho (by simp [Opd.isReg]) (by rw [g1]; exact hidem rfl)) ?_
      intro c' g
      refine (g2.trans (g.mono (by simp))).mdone ?_
      rw [hidem rfl, g.1 _ (by simp), g1]
  | mem b i w =>
    have hun : decide (Opd.mem b i w = Opd.reg 0) = false := by simp
    have hb : b ≤ 24 := hd.1
    have hi' : i ≤ 24 := hd.2
    simp only [hsw, hs1, h2, hun, dstR0, Opd.isReg, Opd.isMem, Bool.false_eq_true, Bool.true_eq_false, true_and, and_false, false_and, and_true, if_false,
      Bool.and_false, Bool.false_and, Bool.and_true, Bool.not_false, List.nil_append, if_true, emitSingle]
    -- the value stored
    have fin : ∀ c', MDone (mvSz op.code) (.mem b i w) (opdVal (mvSz op.code) (mvSg op.code) c src) c c' →
        MDone (mvSz op.code) (.mem b i w) (movX op.code (opdVal (mvSz op.code) (mvSg op.code) c src)) c c' := by
      rintro c' ⟨k1, k2, k3, k4⟩
      exact ⟨fun _ h => (by cases h), by rw [k2]; simp only [movX_st], k3, k4⟩
    cases src with
    | reg q =>
      obtain ⟨u1, u5, u6, u7, u28⟩ := user_ne (show q ≤ 24 from hs)
      simp only [emitSrc2, emitSlow, Opd.slow, Opd.isReg, List.nil_append, reduceCtorEq, decide_false, Bool.false_eq_true, Bool.true_eq_false, true_and, and_false, false_and, if_false, h2,
        and_self, if_true]
      rw [mv_st ho (by rfl) (fun h => hz h rfl rfl), List.nil_append]
      exact wp_mono (mstore_ok hb hi' (k0 _) (Only.refl _ _) rfl u7 u6) fin
    | imm v =>
      by_cases hv : v = 0#64
      · subst hv
        simp only [emitSrc2, emitSlow, Opd.slow, Opd.isReg, List.nil_append, decide_true, Bool.false_eq_true, Bool.true_eq_false, true_and, and_false, if_false, if_true,
          ne_eq, not_true, and_self, false_and, and_false, h2]
        have h0 := hi _ rfl
        refine wp_append (wp_mono (mv_idem ho (by rfl) (by simpa using h0)) ?_)
        intro c1 g
        refine wp_mono (mstore_ok (v := 0#64) hb hi' (k0 _) (g.mono (by simp)) (by simp) (by decide) (by decide)) fin
      · have hne : ¬ (Opd.imm v = Opd.imm 0#64) := by simpa using hv
        rw [← List.append_assoc]
        refine wp_append (wp_mono (ufetch_ok (tmp := TMP_REG2) hs (by decide) (by decide) (by decide)) ?_)
        rintro c1 ⟨g1, g2, g3⟩
        simp only [hne, decide_false, Bool.false_eq_true, Bool.true_eq_false, true_and, and_false, false_and, if_false, h2, Opd.isReg]
        rw [emitSrc2_reg] at g1 ⊢
        simp only [if_neg hv] at g1 ⊢
        refine wp_append (wp_mono (mv_idem ho (by rfl) (by rw [g1]; exact hidem rfl)) ?_)
        intro c2 g
        have g4 : Only temps c c2 := (g2.mono (by simp)).trans (g.mono (by simp))
        refine wp_mono (mstore_ok hb hi' ?_ g4 (by rw [g.1 _ (by simp), g1]) (by decide) (by decide)) fin
        exact (g3 rfl).of_eq (g.1 _ (by simp)) (fun r hr => g.1 _ (by simp))
    | mem b' i'' w' =>
      have hne : ¬ (Opd.mem b' i'' w' = Opd.imm 0#64) := by simp
      rw [← List.append_assoc]
      refine wp_append (wp_mono (ufetch_ok (tmp := TMP_REG2) hs (by decide) (by decide) (by decide)) ?_)
      rintro c1 ⟨g1, g2, g3⟩
      simp only [hne, decide_false, Bool.false_eq_true, Bool.true_eq_false, true_and, and_false, false_and, if_false, h2, Opd.isReg]
      rw [emitSrc2_reg] at g1 ⊢
      simp only [] at g1 ⊢
      refine wp_append (wp_mono (mv_idem ho (by rfl) (by rw [g1]; exact hidem rfl)) ?_)
      intro c2 g
      have g4 : Only temps c c2 := (g2.mono (by simp)).trans (g.mono (by simp))
      refine wp_mono (mstore_ok hb hi' ?_ g4 (by rw [g.1 _ (by simp), g1]) (by decide) (by decide)) fin
      exact (g3 rfl).of_eq (g.1 _ (by simp)) (fun r hr => g.1 _ (by simp))
end

end Verif.RV
