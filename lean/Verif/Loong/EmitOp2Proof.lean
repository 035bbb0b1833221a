import Verif.Loong.EmitOpProof
import Verif.Loong.Api
import Verif.RISCV.EmitOp2Proof

/-!
# sljit_emit_op2 on LoongArch64 (helper lemmas)
-/

set_option linter.all false

namespace Verif.LA
open Verif.RV

/-- A destination: a user register, SLJIT_SP, nothing, TMP_REG2 (SLJIT_MULADD), or memory. -/
def DOk : Opd → Prop
  | .reg r => r ≤ 24 ∨ r = TMP_REG2
  | .imm _ => False
  | .mem b i w => b ≤ 24 ∧ i ≤ 24 ∧ IdxOk i w

/-- The state after an operation with result `v`. -/
structure Done (sz : Sz) (dst : Opd) (v : BitVec 64) (c c' : Core) : Prop where
  reg : ∀ r, dst = .reg r → r ≠ 0 → c'.x (regMap r) = v
  mem : c'.mem = match dst with | .mem b i w => (stOp sz).eval c.mem (ea c b i w) v | _ => c.mem
  kept : ∀ q, q ∉ ([1#5, 12#5, 13#5, 14#5, 15#5] : List Reg) → (∀ r, dst = .reg r → q ≠ regMap r ∨ r = 0) → c'.x q = c.x q
  fregs : c'.f = c.f

/-- SLJIT_ADDC32 when the signed sum does not fit into 32 bits. -/
def AddcOv (op : Op) (a b : BitVec 64) (cin : Bool) : Prop :=
  op.code = .addc ∧ op.is32 = true ∧ ¬ (-2147483648 ≤ (lo32 a).toInt + (lo32 b).toInt + cin.toNat ∧
    (lo32 a).toInt + (lo32 b).toInt + cin.toNat < 2147483648)

/-- The register image of the result: the low word is right, and except for `AddcOv` also the upper half. -/
def Good (op : Op) (v a b : BitVec 64) (cin : Bool) : Prop :=
  lo32 v = lo32 (resX op a b cin) ∧ (¬ AddcOv op a b cin → v = resX op a b cin)

theorem good_resL {op : Op} {a b : BitVec 64} {cin : Bool} (h : op.is32 = true → op.code = .addc → Sx a ∧ Sx b) :
    Good op (resL op a b cin) a b cin := by
  unfold Good resL
  by_cases hc : op.code = .addc
  · rw [if_pos hc]
    cases hw : op.is32
    · have : resX op a b cin = a + b + bool64 cin := by
        simp only [resX, hw, Bool.false_eq_true, if_false, hc, val]
        apply BitVec.eq_of_toNat_eq
        cases cin <;> simp [bool64, BitVec.toNat_add, BitVec.toNat_ofNat]
      rw [this]; exact ⟨rfl, fun _ => rfl⟩
    · obtain ⟨s1, s2⟩ := h hw hc
      have hr : resX op a b cin = sx32 (lo32 a + lo32 b + lo32 (bool64 cin)) := by
        simp only [resX, hw, if_true, hc, val]
        congr 1
        apply BitVec.eq_of_toNat_eq
        cases cin <;> simp [bool64, BitVec.toNat_add, BitVec.toNat_ofNat, lo32] <;> omega
      have hl : lo32 (a + b + bool64 cin) = lo32 a + lo32 b + lo32 (bool64 cin) := by
        simp only [lo32]; rw [BitVec.setWidth_add _ _ (by decide), BitVec.setWidth_add _ _ (by decide)]
      rw [hr]
      refine ⟨by rw [lo32_sx32, hl], ?_⟩
      intro hno
      rw [← hl]
      have hin : -2147483648 ≤ (lo32 a).toInt + (lo32 b).toInt + cin.toNat ∧
          (lo32 a).toInt + (lo32 b).toInt + cin.toNat < 2147483648 := by
        by_contra hn; exact hno ⟨hc, hw, hn⟩
      have ia : a.toInt = (lo32 a).toInt := by
        conv => lhs; rw [s1]
        rw [sx32, BitVec.toInt_signExtend_of_le (by decide)]
      have ib : b.toInt = (lo32 b).toInt := by
        conv => lhs; rw [s2]
        rw [sx32, BitVec.toInt_signExtend_of_le (by decide)]
      have ic : (bool64 cin).toInt = cin.toNat := by cases cin <;> rfl
      have hi : (a + b + bool64 cin).toInt = a.toInt + b.toInt + cin.toNat := by
        rw [BitVec.toInt_add, BitVec.toInt_add, ic, Int.bmod_add_bmod]
        rw [← ia, ← ib] at hin
        apply Int.bmod_eq_of_le <;> omega
      apply BitVec.eq_of_toInt_eq
      rw [sx32, BitVec.toInt_signExtend_of_le (by decide), lo32, BitVec.toInt_setWidth]
      rw [ia, ib] at hi
      have hcd := BitVec.toInt_eq_toNat_cond (a + b + bool64 cin)
      have hlt := (a + b + bool64 cin).isLt
      generalize a + b + bool64 cin = x at *
      rw [Int.bmod_def]
      split at hcd <;> split <;> omega
  · rw [if_neg hc]; exact ⟨rfl, fun _ => rfl⟩

/-- The state after a binary operation on the values `a` and `b`. -/
structure Done2 (op : Op) (dst : Opd) (a b : BitVec 64) (cin : Bool) (c c' : Core) : Prop where
  done : ∃ v, Done (opSz op) dst v c c' ∧ Good op v a b cin
  zero : op.setZ = true → (c'.x 12#5 = 0#64 ↔ resX op a b cin = 0#64)
  flag : op.flag ≠ .none → (c'.x 15#5 ≠ 0#64 ↔ flagX op a b cin = true)
  bool : op.flag ≠ .none → op.flag ≠ .overflow ∨ op.code ≠ .mul → c'.x 15#5 = bool64 (flagX op a b cin)

theorem dstR0_ok {dst : Opd} (h : DOk dst) : DstOk (dstR0 dst) := by
  have t : DstOk TMP_REG2 := ⟨by decide, by decide, by decide, by decide, by decide⟩
  cases dst with
  | reg r =>
    simp only [dstR0]
    by_cases hr : r = 0
    · rw [if_pos hr]; exact t
    · rw [if_neg hr]
      rcases h with h | h
      · obtain ⟨h1, h5, h6, h7, h28⟩ := user_ne h
        exact ⟨by omega, rm_ne0 (by omega) hr, h5, h28, h6⟩
      · rw [h]; exact t
  | imm v => exact absurd h (by simp [DOk])
  | mem b i w => exact t

theorem CacheOk.of_eq {k : Cache} {c c' : Core} (h : CacheOk k c) (h7 : c'.x 14#5 = c.x 14#5)
    (hu : ∀ r, r ≤ 24 → c'.x (regMap r) = c.x (regMap r)) : CacheOk k c' := by
  intro b i hbi
  obtain ⟨p1, p2, p3⟩ := h b i hbi
  refine ⟨p1, p2, ?_⟩
  rw [h7, p3]; simp only [ea, hu b p1, hu i p2]

/-- The store after the operation. -/
theorem store_ok {sz : Sz} {sg : Bool} {k : Cache} {dst : Opd} {c c1 : Core} {v : BitVec 64} (hd : DOk dst)
    (hk : StoreOk k dst c1) (hv : dst.isMem = true ∨ dst ≠ .reg 0 → c1.x (regMap (dstR0 dst)) = v)
    (hm : c1.mem = c.mem) (hff : c1.f = c.f)
    (hkept : ∀ q, q ∉ ([1#5, 12#5, 13#5, 14#5, 15#5] : List Reg) → (∀ r, dst = .reg r → q ≠ regMap r ∨ r = 0) → c1.x q = c.x q) :
    wp (emitStore (.g sz sg) k (dstR0 dst) dst) c1 fun c' => Done sz dst v c c' ∧ c'.x 12#5 = c1.x 12#5 ∧ c'.x 15#5 = c1.x 15#5 := by
  cases dst with
  | imm v => exact absurd hd (by simp [DOk])
  | reg r =>
    simp only [emitStore, wp_nil]
    refine ⟨⟨?_, hm, hkept, hff⟩, trivial, trivial⟩
    intro r' h hr
    cases h
    have := hv (Or.inr (by simpa using hr))
    simpa only [dstR0, if_neg hr] using this
  | mem b i w =>
    replace hv := hv (Or.inl rfl)
    have hu : ∀ r, r ≤ 24 → c1.x (regMap r) = c.x (regMap r) := by
      intro r hr
      obtain ⟨u1, u5, u6, u7, u28⟩ := user_ne hr
      exact hkept _ (by simp [u1, u5, u6, u7, u28]) (fun _ h => by cases h)
    have hea : ea c1 b i w = ea c b i w := by simp only [ea, hu b hd.1, hu i hd.2.1]
    simp only [emitStore, dstR0] at hv ⊢
    by_cases hf : fastArg i w = true
    · rw [if_pos hf, wp_store, pa_fast hf, hm, hv, hea]
      exact ⟨⟨fun _ h => by (cases h), rfl, fun q h1 h2 => hkept q h1 h2, hff⟩, rfl, rfl⟩
    · rw [if_neg hf]
      refine wp_mono (getput_store hd.1 hd.2.1 hd.2.2 (by simpa using hf) (fun e1 e2 => hk (by simpa [slow] using hf) b w (by rw [e1]) e2) (by decide) (by decide)) ?_
      rintro c' ⟨c2, h1, rfl⟩
      rw [hea, hv, hm]
      refine ⟨⟨fun _ h => by (cases h), rfl, fun q g1 g2 => ?_, h1.2.2.trans hff⟩, ?_, ?_⟩
      · rw [← hkept q g1 g2]
        apply h1.1
        simp only [List.mem_cons, List.not_mem_nil, or_false, not_or] at g1
        simp [tmpR, g1]
      · exact h1.1 _ (by simp [tmpR])
      · exact h1.1 _ (by simp [tmpR])

theorem opSz_data (op : Op) : opData op = .g (opSz op) op.is32 := by
  unfold opData opSz; cases op.is32 <;> rfl

/-- The operation and the store together. -/
theorem finish_ok {op : Op} {fl : SF} {k : Cache} {dst : Opd} {c c1 : Core} {e : Emit} {a b : BitVec 64} {cin : Bool}
    (hd : DOk dst) (hk : StoreOk k dst c1) (ho : Only temps c c1) (h32 : op.is32 = true → op.code = .addc → Sx a ∧ Sx b) (hu : fl.unused = decide (dst = .reg 0))
    (he : wp e c1 (Post2 op fl (regMap (dstR0 dst)) a b cin c1)) :
    wp (e ++ emitStore (opData op) k (dstR0 dst) dst) c1 (Done2 op dst a b cin c) := by
  refine wp_append (wp_mono he ?_)
  intro c2 p
  have hd' := dstR0_ok hd
  rw [opSz_data]
  have hkept : ∀ q, q ∉ ([1#5, 12#5, 13#5, 14#5, 15#5] : List Reg) → (∀ r, dst = .reg r → q ≠ regMap r ∨ r = 0) → c2.x q = c1.x q := by
    intro q g1 g2
    simp only [List.mem_cons, List.not_mem_nil, or_false, not_or] at g1
    refine p.kept.1 q ?_ g1.2.1 g1.2.2.2.2 g1.2.2.1 g1.1
    cases dst with
    | reg r =>
      simp only [dstR0]
      by_cases hr : r = 0
      · rw [if_pos hr]; exact g1.1
      · rw [if_neg hr]; exact (g2 r rfl).resolve_right hr
    | imm v => exact absurd hd (by simp [DOk])
    | mem => exact g1.1
  have hk2 : dst.isMem = true → StoreOk k dst c2 := by
    intro hm
    cases dst with
    | mem b i w =>
      intro hs b' w' he hf
      refine (hk hs b' w' he hf).of_eq ?_ ?_
      · exact p.kept.1 _ (by simp [dstR0]) (by decide) (by decide) (by decide) (by decide)
      · intro r hr
        obtain ⟨u1, u5, u6, u7, u28⟩ := user_ne hr
        exact hkept _ (by simp [u1, u5, u6, u7, u28]) (fun _ h => by cases h)
    | _ => simp [Opd.isMem] at hm
  have hst : ∀ P : Core → Prop, (StoreOk k dst c2 → wp (emitStore (.g (opSz op) op.is32) k (dstR0 dst) dst) c2 P) →
      (dst.isMem = false → wp (emitStore (.g (opSz op) op.is32) k (dstR0 dst) dst) c2 P) →
      wp (emitStore (.g (opSz op) op.is32) k (dstR0 dst) dst) c2 P := by
    intro P h1 h2
    cases hm : dst.isMem
    · exact h2 hm
    · exact h1 (hk2 hm)
  have hk0 : ∀ c, StoreOk ⟨none, 0#64⟩ dst c := fun c => (k0 c).store _
  have hv : dst.isMem = true ∨ dst ≠ .reg 0 → c2.x (regMap (dstR0 dst)) = resL op a b cin := by
    intro h
    apply p.res
    rw [hu, decide_eq_false_iff_not]
    rcases h with h | h
    · rintro rfl; simp [Opd.isMem] at h
    · exact h
  have fin : ∀ c', (Done (opSz op) dst (resL op a b cin) c c' ∧ c'.x 12#5 = c2.x 12#5 ∧ c'.x 15#5 = c2.x 15#5) → Done2 op dst a b cin c c' := by
    rintro c' ⟨h1, h2, h3⟩
    exact ⟨⟨_, h1, good_resL h32⟩, by rw [h2]; exact p.zero, by rw [h3]; exact p.flag, by rw [h3]; exact p.bool⟩
  have hkc : ∀ q, q ∉ ([1#5, 12#5, 13#5, 14#5, 15#5] : List Reg) → (∀ r, dst = .reg r → q ≠ regMap r ∨ r = 0) → c2.x q = c.x q := by
    intro q g1 g2
    rw [hkept q g1 g2]
    apply ho.1
    simp only [List.mem_cons, List.not_mem_nil, or_false, not_or] at g1 ⊢
    exact ⟨g1.2.2.1, g1.1, g1.2.2.2.1⟩
  refine wp_mono (hst _ (fun h => store_ok hd h hv (p.kept.2.1.trans ho.2.1) (p.kept.2.2.trans ho.2.2) hkc) ?_) fin
  intro hm
  have : ∀ k k', emitStore (.g (opSz op) op.is32) k (dstR0 dst) dst = emitStore (.g (opSz op) op.is32) k' (dstR0 dst) dst := by
    intro k k'; cases dst <;> first | rfl | simp [Opd.isMem] at hm
  rw [this k ⟨none, 0#64⟩]
  exact store_ok hd (hk0 _) hv (p.kept.2.1.trans ho.2.1) (p.kept.2.2.trans ho.2.2) hkc

/-! ## Cumulative operations -/

theorem Good.swap {op : Op} {v a b : BitVec 64} {cin : Bool} (h : (op2Flags op.code).cumulative = true) (g : Good op v a b cin) :
    Good op v b a cin := by
  unfold Good at *
  rw [resX_comm h b a]
  refine ⟨g.1, fun hn => g.2 fun hv => hn ?_⟩
  refine ⟨hv.1, hv.2.1, ?_⟩
  rw [Int.add_comm (lo32 b).toInt]; exact hv.2.2

theorem Done2.swap {op : Op} {dst : Opd} {a b : BitVec 64} {cin : Bool} {c c' : Core} (h : (op2Flags op.code).cumulative = true)
    (hf : op.flagOk) (hd : Done2 op dst a b cin c c') : Done2 op dst b a cin c c' := by
  obtain ⟨h1, h2, h3, h4⟩ := hd
  obtain ⟨v, h1, hg⟩ := h1
  refine ⟨⟨v, h1, hg.swap h⟩, ?_, ?_, ?_⟩
  · rw [resX_comm h]; exact h2
  · rw [flagX_comm h hf]; exact h3
  · rw [flagX_comm h hf]; exact h4

/-! ## emit_op for the binary operations -/

theorem opdOk_srcOk {t : MT} {tmp : Nat} {o : Opd} (h : OpdOk o) (ht : tmp = 25 ∨ tmp = 26) : SrcOk (emitSrc2 t tmp o).2 := by
  have t0 : SrcOk 0 := ⟨by decide, by decide, by decide⟩
  have tt : SrcOk tmp := by rcases ht with rfl | rfl <;> exact ⟨by decide, by decide, by decide⟩
  rw [emitSrc2_reg]
  cases o with
  | reg r => obtain ⟨u1, u5, u6, u7, u28⟩ := user_ne h; exact ⟨Nat.le_trans h (by decide), u5, u28⟩
  | imm v => simp only []; split <;> assumption
  | mem => exact tt

/-- Fetching the only source when the other one is a small immediate. -/
theorem fetch1_ok {sz : Sz} {sg : Bool} {dst o1 : Opd} {v : BitVec 64} {c : Core} {tmp : Nat} (h1 : OpdOk o1) :
    wp ((emitSrc1 (.g sz sg) o1).1 ++
        (emitSlow (.g sz sg) ⟨none, 0#64⟩ dst o1 (.imm v) (emitSrc1 (.g sz sg) o1).2 tmp).1) c fun c' =>
      c'.x (regMap (emitSrc1 (.g sz sg) o1).2) = opdVal sz sg c o1 ∧ Only temps c c' ∧
      StoreOk (emitSlow (.g sz sg) ⟨none, 0#64⟩ dst o1 (.imm v) (emitSrc1 (.g sz sg) o1).2 tmp).2 dst c' := by
  rw [emitSrc1_eq]
  have hsi : slow (Opd.imm v) = false := rfl
  cases hs1 : slow o1
  · have e3 : emitSlow (.g sz sg) ⟨none, 0#64⟩ dst o1 (.imm v) (emitSrc2 (.g sz sg) TMP_REG1 o1).2 tmp = ([], ⟨none, 0#64⟩) := by
      simp only [emitSlow, hs1, hsi]
    rw [e3, List.append_nil]
    refine wp_mono (emitSrc_ok h1 hs1 (by decide)) ?_
    rintro c1 ⟨g1, g2⟩
    exact ⟨g1, g2.mono (by simp), (k0 _).store _⟩
  · have e3 : emitSlow (.g sz sg) ⟨none, 0#64⟩ dst o1 (.imm v) (emitSrc2 (.g sz sg) TMP_REG1 o1).2 tmp =
        loadSlow (.g sz sg) false ⟨none, 0#64⟩ TMP_REG1 o1 dst := by
      simp only [emitSlow, hs1, hsi]
    rw [e3, emitSrc2_slow hs1, List.nil_append]
    refine wp_mono (loadSlow0_ok (reg := TMP_REG1) h1 hs1) ?_
    rintro c' ⟨c1, g1, g2, rfl⟩
    refine ⟨by simp, ?_, (g2.wr (by simp) _).store _⟩
    exact (g1.mono (by simp [tmpR])).wr (by simp) _

theorem src_ne0 {t : MT} {tmp : Nat} {o : Opd} (ht : tmp = 25 ∨ tmp = 26) (h : ¬ o.zero) : (emitSrc2 t tmp o).2 ≠ 0 := by
  rw [emitSrc2_reg]
  cases o with
  | reg r => intro hr; exact h (Or.inr (by rw [show r = 0 from hr]))
  | imm v =>
    have : v ≠ 0#64 := fun hv => h (Or.inl (by rw [hv]))
    simp only [if_neg this]; omega
  | mem => simp only []; omega

theorem fetched_reg {t : MT} {o : Opd} (h : OpdOk o) : regMap (emitSrc2 t TMP_REG1 o).2 ≠ 1#5 := by
  rw [emitSrc2_reg]
  cases o with
  | reg r => exact (user_ne h).1
  | imm v => simp only []; split <;> decide
  | mem => simp

/-- emit_op, binary operation, operands already normalized by sljit_emit_op2. -/
theorem emitOp_bin {op : Op} {dst o1 o2 : Opd} {c : Core} {cin : Bool} (hc : op.code.bin) (hf : op.flagOk)
    (hd : DOk dst) (h1 : OpdOk o1) (h2 : OpdOk o2)
    (hsh : op.code.isSh → ∀ v, o2 = .imm v → v.toNat < if op.is32 then 32 else 64)
    (hcin : op.code = .addc ∨ op.code = .subc → c.x 15#5 = bool64 cin)
    (h32 : op.is32 = true → Sx (opdVal (opSz op) op.is32 c o1) ∧ (op.code.isSh ∨ Sx (opdVal (opSz op) op.is32 c o2)))
    (hcy : op.flag = .carry → op.code = .add ∨ op.code = .addc →
      (o1.zero → o2.smallImm ≠ none) ∧ (o2.zero → o1.isReg = true → o1 ≠ dst))
    (hno : ¬ StaleCache dst o1 o2) :
    wp (emitOp op (opData op) (op2Flags op.code) ⟨none, 0#64⟩ dst o1 o2) c
      (Done2 op dst (opdVal (opSz op) op.is32 c o1) (opdVal (opSz op) op.is32 c o2) cin c) := by
  have hmv : (op2Flags op.code).moveOp = false := by cases op.code <;> rfl
  have h28 : ∀ c1, Only temps c c1 → c1.x 15#5 = c.x 15#5 := fun c1 h => h.1 _ (by decide)
  have himm : (op2Flags op.code).immOp = true → op.code ≠ .mul := by intro h h'; rw [h'] at h; cases h
  -- operation with a small immediate
  have immCase : ∀ (o : Opd) (v : BitVec 64) (tmp : Nat) (fl : SF), OpdOk o → fl.unused = decide (dst = .reg 0) → op.code ≠ .mul →
      v ≠ 0#64 → Fits12 v → (op.code.isSh → v.toNat < if op.is32 then 32 else 64) →
      (op.is32 = true → Sx (opdVal (opSz op) op.is32 c o)) → (op.is32 = true → op.code = .addc → Sx v) →
      wp ((emitSrc1 (opData op) o).1 ++ ((emitSlow (opData op) ⟨none, 0#64⟩ dst o (.imm v) (emitSrc1 (opData op) o).2 tmp).1 ++
        (emitSingle op fl (dstR0 dst) (emitSrc1 (opData op) o).2 (.imm v) ++
        emitStore (opData op) (emitSlow (opData op) ⟨none, 0#64⟩ dst o (.imm v) (emitSrc1 (opData op) o).2 tmp).2 (dstR0 dst) dst))) c
        (Done2 op dst (opdVal (opSz op) op.is32 c o) v cin c) := by
    intro o v tmp fl ho hu hm hv0 hv hs h3 hz
    rw [← List.append_assoc]
    refine wp_append ?_
    have key := fetch1_ok (sz := opSz op) (sg := op.is32) (dst := dst) (v := v) (c := c) (tmp := tmp) ho
    rw [← opSz_data] at key
    refine wp_mono key ?_
    rintro c1 ⟨g1, g2, g3⟩
    refine finish_ok hd g3 g2 (fun h h' => ⟨h3 h, hz h h'⟩) hu ?_
    unfold emitSingle
    rw [if_pos (bin_isOp2 hc)]
    rw [emitSrc1_eq] at g1 ⊢
    exact single2_imm hc hm hf (dstR0_ok hd) (opdOk_srcOk ho (Or.inl rfl)) (Or.inl (fetched_reg ho)) g1 hv hv0 hs
      (fun h => by rw [h28 c1 g2]; exact hcin h) h3
  unfold emitOp
  simp only [hmv, bin_isOp2 hc]
  -- the three outcomes of the swap
  have sw : (∃ v, o2 = .imm v ∧ v ≠ 0#64 ∧ Fits12 v ∧ (op2Flags op.code).immOp = true ∧ o2.smallImm = some v ∧
        immSwap (op2Flags op.code) o1 o2 = (some v, o1, o2)) ∨
      (∃ v, o1 = .imm v ∧ v ≠ 0#64 ∧ Fits12 v ∧ (op2Flags op.code).immOp = true ∧ (op2Flags op.code).cumulative = true ∧
        o1.smallImm = some v ∧ immSwap (op2Flags op.code) o1 o2 = (some v, o2, .imm v)) ∨
      (((op2Flags op.code).immOp = true → o2.smallImm = none) ∧ immSwap (op2Flags op.code) o1 o2 = (none, o1, o2)) := by
    unfold immSwap
    cases hi : (op2Flags op.code).immOp
    · exact Or.inr (Or.inr ⟨by simp, by simp⟩)
    · simp only [if_true]
      cases hs2 : o2.smallImm with
      | some v =>
        obtain ⟨q1, q2, q3⟩ := smallImm_some hs2
        exact Or.inl ⟨v, q1, q2, q3, by simp⟩
      | none =>
        cases hcu : (op2Flags op.code).cumulative
        · exact Or.inr (Or.inr ⟨fun _ => rfl, rfl⟩)
        · cases hs1 : o1.smallImm with
          | some v =>
            obtain ⟨q1, q2, q3⟩ := smallImm_some hs1
            exact Or.inr (Or.inl ⟨v, q1, q2, q3, by simp⟩)
          | none => exact Or.inr (Or.inr ⟨fun _ => rfl, rfl⟩)
  rcases sw with ⟨v, e1, e2, e3, e4, e5, e6⟩ | ⟨v, e1, e2, e3, e4, e5, e6, e7⟩ | ⟨e1, e2⟩
  · rw [e6]
    subst e1
    refine immCase o1 v _ _ h1 rfl (himm e4) e2 e3 (fun h => hsh h v rfl) (fun h => (h32 h).1) ?_
    intro h h'
    exact (h32 h).2.resolve_left (by rw [h']; simp [OpC.isSh])
  · rw [e7]
    subst e1
    have hns : ¬ op.code.isSh := by
      intro h
      rcases h with (q | q) | (q | q) | (q | q) | (q | q) <;> rw [q] at e5 <;> cases e5
    refine wp_mono (immCase o2 v _ _ h2 rfl (himm e4) e2 e3 (fun h => absurd h hns) (fun h => (h32 h).2.resolve_left hns) ?_) ?_
    · intro h h'; exact (h32 h).1
    · intro c' h; exact h.swap e5 hf
  · rw [e2]
    simp only [Bool.false_eq_true, and_false, false_and, true_and, if_false, Bool.and_false]
    generalize ht : (if o1.isReg = true then TMP_REG1 else TMP_REG2) = tmp
    have ht' : tmp = 25 ∨ tmp = 26 := by rw [← ht]; split <;> simp
    have key := fetch_ok (sz := opSz op) (sg := op.is32) (dst := dst) (c := c) h1 h2 ht.symm hno
    rw [← opSz_data] at key
    have as : ∀ (a b c d : Emit), a ++ (b ++ (c ++ d)) = (a ++ (b ++ c)) ++ d := by intros; simp
    rw [as]
    refine wp_append (wp_mono key ?_)
    rintro c1 ⟨g1, g2, g3, g4⟩
    refine finish_ok (fl := ⟨decide (dst = .reg 0), dst.isReg && !decide (dst = .reg 0), o2.isReg⟩) hd g4 g3 (fun h h' => ⟨(h32 h).1, (h32 h).2.resolve_left (by rw [h']; simp [OpC.isSh])⟩) rfl ?_
    unfold emitSingle
    rw [if_pos (bin_isOp2 hc)]
    rw [emitSrc1_eq] at g1 ⊢
    refine single2_reg hc hf (dstR0_ok hd) (opdOk_srcOk h1 (Or.inl rfl)) (opdOk_srcOk h2 ht') g1 g2
      (fun h => by rw [h28 c1 g3]; exact hcin h) h32 ?_
    intro hfl
    have imm' : op.code = .add ∨ op.code = .addc → o2.smallImm = none := by
      intro h; apply e1; rcases h with h | h <;> rw [h] <;> rfl
    have gen : ∀ alt, alt ≠ 0 → op.code = .add ∨ op.code = .addc →
        carrySrc (dstR0 dst) (emitSrc2 (opData op) TMP_REG1 o1).2 (emitSrc2 (opData op) tmp o2).2 alt ≠ 0 := by
      intro alt ha hcd
      obtain ⟨q1, q2⟩ := hcy hfl hcd
      have n1 : ¬ o1.zero := fun h => q1 h (imm' hcd)
      unfold carrySrc
      split
      · exact src_ne0 (Or.inl rfl) n1
      · next he =>
        have he := not_not.mp he
        split
        · apply src_ne0 ht'
          intro hz
          -- the first source is the destination register
          have : o1.isReg = true ∧ o1 = dst := by
            rw [emitSrc2_reg] at he
            cases o1 with
            | reg r =>
              refine ⟨rfl, ?_⟩
              have h1' : r ≤ 24 := h1
              have ht2 : Verif.RV.TMP_REG2 = 26 := rfl
              cases dst with
              | reg r' =>
                simp only [dstR0] at he
                split at he
                · omega
                · rw [show r = r' from he]
              | imm _ => exact absurd hd (by simp [DOk])
              | mem _ _ _ => simp only [dstR0] at he; omega
            | imm v =>
              exfalso
              have hv : v ≠ 0#64 := fun hv => n1 (Or.inl (by rw [hv]))
              simp only [if_neg hv] at he
              have := (dstR0_ok hd).n6
              rw [← he] at this; exact this (by decide)
            | mem _ _ _ =>
              exfalso
              have := (dstR0_ok hd).n6
              rw [← he] at this; exact this (by simp)
          exact q2 hz this.1 this.2
        · exact ha
    exact ⟨fun h => gen _ (by decide) (Or.inl h), fun h => gen _ (by decide) (Or.inr h)⟩

/-! ## sljit_emit_op2 -/

theorem Good.congr {op : Op} {v a a' b b' : BitVec 64} {cin : Bool} (h : Verif.RV.Same op a a' b b') (g : Good op v a b cin) :
    Good op v a' b' cin := by
  unfold Good at *
  rw [resX_congr h] at g
  refine ⟨g.1, fun hn => g.2 fun hv => hn ?_⟩
  obtain ⟨h1, h2, h3⟩ := hv
  refine ⟨h1, h2, ?_⟩
  obtain ⟨e1, e2⟩ := h
  rw [h2] at e1 e2
  simp only [if_true] at e1 e2
  rcases e2 with e2 | ⟨e2, -⟩
  · rw [← e1, ← e2]; exact h3
  · rw [h1] at e2; simp [OpC.isSh] at e2

theorem Done2.congr {op : Op} {dst : Opd} {a a' b b' : BitVec 64} {cin : Bool} {c c' : Core} (h : Verif.RV.Same op a a' b b')
    (hd : Done2 op dst a b cin c c') : Done2 op dst a' b' cin c c' := by
  obtain ⟨h1, h2, h3, h4⟩ := hd
  obtain ⟨v, h1, hg⟩ := h1
  refine ⟨⟨v, h1, hg.congr h⟩, ?_, ?_, ?_⟩
  · rw [← resX_congr h]; exact h2
  · rw [← flagX_congr h]; exact h3
  · rw [← flagX_congr h]; exact h4

theorem norm_val {op : Op} {c : Core} {o : Opd} (h : op.is32 = true → ∀ r, o = .reg r → Sx (c.x (regMap r))) :
    (if op.is32 then lo32 (opdVal (opSz op) op.is32 c (norm op o)) = lo32 (opdVal (opSz op) op.is32 c o)
      else opdVal (opSz op) op.is32 c (norm op o) = opdVal (opSz op) op.is32 c o) ∧
    (op.is32 = true → Sx (opdVal (opSz op) op.is32 c (norm op o))) := by
  unfold norm opSz
  cases hw : op.is32
  · simp
  · simp only [if_true]
    cases o with
    | reg r => exact ⟨rfl, fun _ => h hw r rfl⟩
    | imm v => simp only [Opd.s32, opdVal, lo32_sx32]; exact ⟨trivial, fun _ => Sx_sx32 _⟩
    | mem b i w => exact ⟨rfl, fun _ => Sx_load _ _⟩

theorem norm_ok {op : Op} {o : Opd} (h : OpdOk o) : OpdOk (norm op o) := by
  unfold norm; split
  · cases o <;> exact h
  · exact h

theorem norm_mem {op : Op} {o : Opd} {b i : Nat} {w : BitVec 64} : norm op o = .mem b i w ↔ o = .mem b i w := by
  unfold norm; split
  · cases o <;> simp [Opd.s32]
  · rfl

theorem mask_mem {o : Opd} {m : BitVec 64} {b i : Nat} {w : BitVec 64} : o.mask m = .mem b i w ↔ o = .mem b i w := by
  cases o <;> simp [Opd.mask]

/-- sljit_emit_op2 and sljit_emit_op2u. -/
theorem emitOp2_ok {op : Op} {dst o1 o2 : Opd} {c : Core} {cin : Bool} (hc : op.code.bin) (hf : op.flagOk)
    (hd : DOk dst) (h1 : OpdOk o1) (h2 : OpdOk o2)
    (hcin : op.code = .addc ∨ op.code = .subc → c.x 15#5 = bool64 cin)
    (h32 : op.is32 = true → (∀ r, o1 = .reg r → Sx (c.x (regMap r))) ∧ (∀ r, o2 = .reg r → op.code.isSh ∨ Sx (c.x (regMap r))))
    (hcy : CarryOk op dst o1 o2) (hno : ¬ StaleCache dst o1 o2) :
    wp (emitOp2 op dst o1 o2) c
      (Done2 op dst (opdVal (opSz op) op.is32 c o1) (opdVal (opSz op) op.is32 c o2) cin c) := by
  have e : emitOp2 op dst o1 o2 = emitOp op (opData op) (op2Flags op.code) ⟨none, 0#64⟩ dst (norm op o1) (shMask op (norm op o2)) := rfl
  rw [e]
  obtain ⟨v1, s1⟩ := norm_val (o := o1) fun h => (h32 h).1
  have hn : ∀ o, norm op o = o ∨ ∃ v v', o = .imm v ∧ norm op o = .imm v' := by
    intro o; unfold norm; split
    · cases o with
      | imm v => exact Or.inr ⟨v, _, rfl, rfl⟩
      | _ => exact Or.inl rfl
    · exact Or.inl rfl
  have nreg : ∀ {o : Opd}, (norm op o).isReg = true → norm op o = o := by
    intro o h; rcases hn o with q | ⟨v, v', q1, q2⟩
    · exact q
    · rw [q2] at h; cases h
  have hno' : ∀ p, (∀ b i w, p = .mem b i w ↔ o2 = .mem b i w) → ¬ StaleCache dst (norm op o1) p := by
    rintro p hp ⟨b1, i1, w1, b2, w2, b3, w3, q1, q2, q3, q4, q⟩
    exact hno ⟨b1, i1, w1, b2, w2, b3, w3, norm_mem.mp q1, q2, q3, (hp _ _ _).mp q4, q⟩
  by_cases hs : op.code.isSh
  · -- shifts and rotates
    have hfn : op.flag = .none := by
      unfold Op.flagOk at hf
      rcases hs with (h | h) | (h | h) | (h | h) | (h | h) <;> rw [h] at hf <;> first | exact hf | exact hf.1
    rw [shMask_of_sh hs]
    have hm : OpdOk ((norm op o2).mask (if op.is32 then 0x1f#64 else 0x3f#64)) := by
      have := norm_ok (op := op) h2
      cases hq : norm op o2 with
      | imm v => trivial
      | reg r => rw [hq] at this; exact this
      | mem b i w => rw [hq] at this; exact this
    refine wp_mono (emitOp_bin (cin := cin) hc hf hd (norm_ok h1) hm ?_ hcin (fun h => ⟨s1 h, Or.inl hs⟩) ?_ ?_) ?_
    · intro _ v hv
      cases hq : norm op o2 with
      | imm u =>
        rw [hq] at hv
        simp only [Opd.mask, Opd.imm.injEq] at hv
        rw [← hv]
        cases op.is32
        · simp only [Bool.false_eq_true, if_false, and63]; omega
        · simp only [if_true, and31]; omega
      | _ => rw [hq] at hv; cases hv
    · intro h; rw [hfn] at h; cases h
    · exact hno' _ fun b i w => mask_mem.trans norm_mem
    · intro c' hdone
      refine hdone.congr ⟨v1, Or.inr ⟨hs, hfn, ?_⟩⟩
      unfold norm
      cases hw : op.is32
      · simp only [Bool.false_eq_true, if_false]
        cases o2 with
        | imm v => simp only [Opd.mask, opdVal, and63]; omega
        | _ => rfl
      · simp only [if_true]
        cases o2 with
        | imm v => simp only [Opd.s32, Opd.mask, opdVal, lo32_mod, and31, sx32_mod]; omega
        | _ => rfl
  · rw [shMask_of_not hs]
    obtain ⟨v2, s2⟩ := norm_val (o := o2) fun h r hr => ((h32 h).2 r hr).resolve_left hs
    refine wp_mono (emitOp_bin (cin := cin) hc hf hd (norm_ok h1) (norm_ok h2) (fun h => absurd h hs) hcin
      (fun h => ⟨s1 h, Or.inr (s2 h)⟩) ?_ (hno' _ fun b i w => norm_mem)) fun c' h => h.congr ⟨v1, Or.inl v2⟩
    intro h h'
    obtain ⟨q1, q2⟩ := hcy h h'
    refine ⟨q1, fun hz hr => ?_⟩
    have := nreg hr
    rw [this] at hr ⊢
    exact q2 hz hr

/-! ## Results without the carry flag -/

theorem single2_nocarry {op : Op} {fl : SF} {dst a b : Nat} (hf : op.flag = .carry) (hc : op.code = .add ∨ op.code = .addc)
    (hu : fl.unused = false) (h : ∀ alt, carrySrc dst a b alt = 0) :
    emitSingle2 op fl dst a (.reg b) = emitSingle2 op.plain fl dst a (.reg b) := by
  have hne : ¬ (a = dst ∧ b = dst) := by
    rintro ⟨rfl, rfl⟩
    have := h 1
    simp [carrySrc] at this
  unfold emitSingle2
  rcases hc with hc | hc
  · rw [hc]
    simp only [Op.plain, hc, emitAddOp, hf, hu, h]
    simp [hne]
  · rw [hc]
    simp only [Op.plain, hc, emitAddcOp, hf, h]
    simp [hne]

theorem emitOp_nocarry {op : Op} {dst o1 o2 : Opd} (hf : op.flag = .carry) (hc : op.code = .add ∨ op.code = .addc)
    (hd : DOk dst) (hd0 : dst ≠ .reg 0) (h1 : OpdOk o1) 
    (h : (o1.zero ∧ o2.smallImm = none) ∨ (o2.zero ∧ o1.isReg = true ∧ o1 = dst)) :
    emitOp op (opData op) (op2Flags op.code) ⟨none, 0#64⟩ dst o1 o2 =
      emitOp op.plain (opData op) (op2Flags op.code) ⟨none, 0#64⟩ dst o1 o2 := by
  have hsw : immSwap (op2Flags op.code) o1 o2 = (none, o1, o2) := by
    rcases h with ⟨q1, q2⟩ | ⟨q1, q2, q3⟩
    · exact swap_none (fun _ => zero_small q1) q2
    · exact swap_none (fun _ => by cases o1 <;> first | rfl | cases q2) (zero_small q1)
  have hmv : (op2Flags op.code).moveOp = false := by cases op.code <;> rfl
  have hi : op.code.isOp2 = true := by rcases hc with hc | hc <;> rw [hc] <;> rfl
  have hi' : op.plain.code.isOp2 = true := hi
  have hdn : dstR0 dst ≠ 0 := by
    have := (dstR0_ok hd).n0
    intro h0; rw [h0] at this; exact this (by decide)
  have hun : decide (dst = .reg 0) = false := decide_eq_false hd0
  have zr : ∀ {o : Opd} {tmp}, o.zero → (emitSrc2 (opData op) tmp o).2 = 0 := by
    intro o tmp h
    rw [emitSrc2_reg]
    rcases h with rfl | rfl <;> rfl
  have hcs : ∀ tmp alt, carrySrc (dstR0 dst) (emitSrc1 (opData op) o1).2 (emitSrc2 (opData op) tmp o2).2 alt = 0 := by
    intro tmp alt
    rw [emitSrc1_eq]
    unfold carrySrc
    rcases h with ⟨q1, q2⟩ | ⟨q1, q2, q3⟩
    · rw [zr q1, if_pos hdn.symm]
    · have : (emitSrc2 (opData op) TMP_REG1 o1).2 = dstR0 dst := by
        rw [emitSrc2_reg, ← q3]
        cases o1 with
        | reg r =>
          have : r ≠ 0 := by rintro rfl; exact hd0 q3.symm
          simp only [dstR0, if_neg this]
        | _ => cases q2
      rw [if_neg (by rw [this]; simp), zr q1, if_pos hdn.symm]
  unfold emitOp
  simp only [hsw, hmv, hi, hi', hun]
  simp only [Bool.false_eq_true, and_false, false_and, if_false, Bool.and_false]
  unfold emitSingle
  rw [if_pos hi, if_pos hi']
  rw [single2_nocarry hf hc rfl (hcs _)]

/-- The result of sljit_emit_op2; no condition on the carry flag. -/
theorem emitOp2_res {op : Op} {dst o1 o2 : Opd} {c : Core} {cin : Bool} (hc : op.code.bin) (hf : op.flagOk)
    (hd : DOk dst) (hd0 : dst ≠ .reg 0) (h1 : OpdOk o1) (h2 : OpdOk o2)
    (hcin : op.code = .addc ∨ op.code = .subc → c.x 15#5 = bool64 cin)
    (h32 : op.is32 = true → (∀ r, o1 = .reg r → Sx (c.x (regMap r))) ∧ (∀ r, o2 = .reg r → op.code.isSh ∨ Sx (c.x (regMap r))))
    (hno : ¬ StaleCache dst o1 o2) :
    wp (emitOp2 op dst o1 o2) c
      (fun c' => ∃ v, Done (opSz op) dst v c c' ∧ Good op v (opdVal (opSz op) op.is32 c o1) (opdVal (opSz op) op.is32 c o2) cin) := by
  by_cases hcy : CarryOk op dst o1 o2
  · exact wp_mono (emitOp2_ok hc hf hd h1 h2 hcin h32 hcy hno) fun c' h => h.done
  · simp only [CarryOk, Classical.not_imp] at hcy
    obtain ⟨hfl, hcc, hx⟩ := hcy
    have hns : ¬ op.code.isSh := by rcases hcc with h | h <;> rw [h] <;> simp [OpC.isSh]
    have e : emitOp2 op dst o1 o2 = emitOp2 op.plain dst o1 o2 := by
      have a1 : emitOp2 op dst o1 o2 = emitOp op (opData op) (op2Flags op.code) ⟨none, 0#64⟩ dst (norm op o1) (norm op o2) := by
        rw [← shMask_of_not (o := norm op o2) hns]; rfl
      have a2 : emitOp2 op.plain dst o1 o2 = emitOp op.plain (opData op) (op2Flags op.code) ⟨none, 0#64⟩ dst (norm op o1) (norm op o2) := by
        rw [← shMask_of_not (o := norm op o2) hns]; rfl
      rw [a1, a2]
      apply emitOp_nocarry hfl hcc hd hd0 (norm_ok h1)
      rw [not_and_or] at hx
      rcases hx with hx | hx
      · simp only [Classical.not_imp, ne_eq, not_not] at hx
        exact Or.inl hx
      · simp only [Classical.not_imp, ne_eq, not_not] at hx
        have : norm op o1 = o1 := by
          unfold norm; split
          · cases o1 with
            | imm v => simp [Opd.isReg] at hx
            | _ => rfl
          · rfl
        rw [this]; exact Or.inr ⟨hx.1, hx.2.1, hx.2.2⟩
    rw [e]
    have hf' : op.plain.flagOk := by
      unfold Op.flagOk at hf ⊢
      rcases hcc with h | h
      · rw [show op.plain.code = .add from h]; exact Or.inl rfl
      · rw [show op.plain.code = .addc from h]
        rw [h] at hf
        exact ⟨Or.inl rfl, hf.2⟩
    refine wp_mono (emitOp2_ok (op := op.plain) (cin := cin) hc hf' hd h1 h2 hcin h32 ?_ hno) fun c' h => h.done
    · intro h; cases h

end Verif.LA
