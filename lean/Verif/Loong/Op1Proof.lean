import Verif.Loong.Api1
import Verif.Loong.EmitOp2Proof
import Verif.RISCV.Op1Emit

/-! # sljit_emit_op1 on LoongArch64 (helper lemmas) -/

set_option linter.all false

namespace Verif.LA
open Verif.RV

theorem pick (n w : Nat) (v : BitVec n) : v.extractLsb' 0 w = v.setWidth w := by
  apply BitVec.eq_of_getLsbD_eq; intro i hi; simp [BitVec.getLsbD_extractLsb', BitVec.getLsbD_setWidth, hi]

section
variable {c : Core} {Q : Core → Prop}

@[simp] theorem wp_PICK15_s (w : Bool) (d a : Nat) (r : Emit) : wp (ins (INST BSTRPICK_W BSTRPICK_D w ||| RD d ||| RJ a ||| 15#32 <<< 16) ++ r) c Q ↔
    wp r (c.wr (regMap d) (((c.x (regMap a)).setWidth 16).setWidth 64)) Q := by
  cases w
  · simp only [INST, Bool.false_eq_true, if_false]
    rw [wp_ins_s (dec_BSTRPICK_D15 d a)]
    simp only [exec]
    have : (((c.x (regMap a)).extractLsb' (0#6).toNat ((15#6).toNat + 1 - (0#6).toNat)).setWidth 64) = ((c.x (regMap a)).setWidth 16).setWidth 64 := by
      generalize c.x (regMap a) = v
      exact congrArg (BitVec.setWidth 64) (pick 64 16 v)
    rw [this]
  · simp only [INST, if_true]
    rw [wp_ins_s (dec_BSTRPICK_W d a)]
    simp only [exec]
    have : sx32 (((lo32 (c.x (regMap a))).extractLsb' (0#5).toNat ((15#5).toNat + 1 - (0#5).toNat)).setWidth 32) = ((c.x (regMap a)).setWidth 16).setWidth 64 := by
      generalize c.x (regMap a) = v
      refine (congrArg (fun x => sx32 (BitVec.setWidth 32 x)) (pick 32 16 (lo32 v))).trans ?_
      show sx32 (((lo32 v).setWidth 16).setWidth 32) = _
      bits [sx32, lo32, BitVec.getLsbD_signExtend, BitVec.msb_eq_getLsbD_last]
    rw [this]
@[simp] theorem wp_PICK15 (w : Bool) (d a : Nat) : wp (ins (INST BSTRPICK_W BSTRPICK_D w ||| RD d ||| RJ a ||| 15#32 <<< 16)) c Q ↔
    Q (c.wr (regMap d) (((c.x (regMap a)).setWidth 16).setWidth 64)) := by
  have := wp_PICK15_s (c := c) (Q := Q) w d a []; rwa [List.append_nil, wp_nil] at this
@[simp] theorem wp_PICK31 (d a : Nat) : wp (ins (BSTRPICK_D ||| RD d ||| RJ a ||| 31#32 <<< 16)) c Q ↔
    Q (c.wr (regMap d) (((c.x (regMap a)).setWidth 32).setWidth 64)) := by
  rw [wp_ins (dec_BSTRPICK_D31 d a)]
  simp only [exec]
  have : (((c.x (regMap a)).extractLsb' (0#6).toNat ((31#6).toNat + 1 - (0#6).toNat)).setWidth 64) = ((c.x (regMap a)).setWidth 32).setWidth 64 := by
    generalize c.x (regMap a) = v
    exact congrArg (BitVec.setWidth 64) (pick 64 32 v)
  rw [this]

theorem sll0 (a : BitVec 64) : sx32 (ShOp.eval32 .sll (lo32 a) (0#64).toNat) = (a.setWidth 32).signExtend 64 := by
  simp [ShOp.eval32, sx32, lo32]

/-- Fetching the source of a one operand operation. -/
theorem ufetch_ok {sz : Sz} {sg : Bool} {tmp : Nat} {o dst : Opd} (ho : OpdOk o) (h0 : regMap tmp ≠ 0#5) :
    wp ((emitSrc2 (.g sz sg) tmp o).1 ++ (emitSlow (.g sz sg) ⟨none, 0#64⟩ dst (.reg 0) o 0 tmp).1) c fun c' =>
      c'.x (regMap (emitSrc2 (.g sz sg) tmp o).2) = opdVal sz sg c o ∧ Only [regMap tmp, 13#5, 14#5] c c' ∧
      (regMap tmp = 1#5 → CacheOk (emitSlow (.g sz sg) ⟨none, 0#64⟩ dst (.reg 0) o 0 tmp).2 c') := by
  have hs1 : slow (Opd.reg 0) = false := rfl
  cases hs : slow o
  · have e3 : emitSlow (.g sz sg) ⟨none, 0#64⟩ dst (.reg 0) o 0 tmp = ([], ⟨none, 0#64⟩) := by
      simp only [emitSlow, hs1, hs]
    rw [e3, List.append_nil]
    refine wp_mono (emitSrc_ok ho hs h0) ?_
    rintro c1 ⟨g1, g2⟩
    exact ⟨g1, g2.mono (by simp), fun _ => k0 _⟩
  · have e3 : emitSlow (.g sz sg) ⟨none, 0#64⟩ dst (.reg 0) o 0 tmp = loadSlow (.g sz sg) false ⟨none, 0#64⟩ tmp o dst := by
      simp only [emitSlow, hs1, hs]; rfl
    rw [e3, emitSrc2_slow hs, List.nil_append]
    refine wp_mono (loadSlow0_ok ho hs) ?_
    rintro c' ⟨c1, g1, g2, rfl⟩
    refine ⟨by simp [h0], ?_, fun h1 => g2.wr (Or.inr h1) _⟩
    exact (g1.mono (by simp [tmpR])).wr (by simp) _

/-! ## Bit counting and byte order -/

/-- What the operations compute; the upper half of SLJIT_REV32 is not sign extended. -/
def UnL (o : OpC) (is32 : Bool) (a r : BitVec 64) : Prop :=
  if o = .rev ∧ is32 = true then IsRev 4 a r else UnSpec o is32 a r

theorem swap16_get (v : BitVec 16) (i : Nat) (hi : i < 16) : (swap16 v).getLsbD i = v.getLsbD (if i < 8 then i + 8 else i - 8) := by
  have h := BitVec.getLsbD_append (x := v.extractLsb' 0 8) (y := v.extractLsb' 8 8) (i := i)
  refine (show (swap16 v).getLsbD i = _ from h).trans ?_
  split <;> simp [BitVec.getLsbD_extractLsb'] <;> grind
theorem swap32_get (v : BitVec 32) (i : Nat) (hi : i < 32) : (swap32 v).getLsbD i = v.getLsbD (24 - i / 8 * 8 + i % 8) := by
  have h := BitVec.getLsbD_append (x := v.extractLsb' 0 8 ++ v.extractLsb' 8 8 ++ v.extractLsb' 16 8) (y := v.extractLsb' 24 8) (i := i)
  have h1 := BitVec.getLsbD_append (x := v.extractLsb' 0 8 ++ v.extractLsb' 8 8) (y := v.extractLsb' 16 8) (i := i - 8)
  have h2 := BitVec.getLsbD_append (x := v.extractLsb' 0 8) (y := v.extractLsb' 8 8) (i := i - 8 - 8)
  refine (show (swap32 v).getLsbD i = _ from h).trans ?_
  interval_cases i <;> simp_all
theorem app64_get (x y : BitVec 32) (i : Nat) : (x ++ y : BitVec 64).getLsbD i = if i < 32 then y.getLsbD i else x.getLsbD (i - 32) := BitVec.getLsbD_append
theorem app32_get (x y : BitVec 16) (i : Nat) : (x ++ y : BitVec 32).getLsbD i = if i < 16 then y.getLsbD i else x.getLsbD (i - 16) := BitVec.getLsbD_append
theorem revb2h_eq (a : BitVec 64) (i : Nat) (hi : i < 2) : byte (UOp.eval .revb2h a) i = byte a (1 - i) := by
  interval_cases i <;> bits [byte, UOp.eval, sx32, swap16_get, app32_get, BitVec.getLsbD_signExtend, BitVec.msb_eq_getLsbD_last]
theorem revb2w_eq (a : BitVec 64) (i : Nat) (hi : i < 4) : byte (UOp.eval .revb2w a) i = byte a (3 - i) := by
  interval_cases i <;> bits [byte, UOp.eval, swap32_get, app64_get]
theorem revbd_eq (a : BitVec 64) (i : Nat) (hi : i < 8) : byte (UOp.eval .revbd a) i = byte a (7 - i) := by
  interval_cases i <;> bits [byte, UOp.eval, swap32_get, app64_get]

theorem byte_low {n m : Nat} {v u : BitVec 64} (h : v.setWidth n = u.setWidth n) (hm : 8 * m ≤ n) {i : Nat} (hi : i < m) : byte v i = byte u i := by
  apply BitVec.eq_of_getLsbD_eq
  intro k hk
  simp only [byte, BitVec.getLsbD_extractLsb']
  have := congrArg (fun x => x.getLsbD (8 * i + k)) h
  simp only [BitVec.getLsbD_setWidth] at this
  have hlt : 8 * i + k < n := by omega
  simp only [hlt, decide_true, Bool.true_and] at this
  rw [this]

theorem ext_low (w : Nat) (hw : w ≤ 64) (v : BitVec 64) : ((v.setWidth w).setWidth 64).setWidth w = v.setWidth w := by
  apply BitVec.eq_of_getLsbD_eq; intro i hi; simp [BitVec.getLsbD_setWidth, hi]; omega
theorem sext_low (w : Nat) (hw : w ≤ 64) (v : BitVec 64) : ((v.setWidth w).signExtend 64).setWidth w = v.setWidth w := by
  apply BitVec.eq_of_getLsbD_eq; intro i hi; simp [BitVec.getLsbD_setWidth, BitVec.getLsbD_signExtend, hi]; omega

/-- The result is in `dst`, nothing else has changed. -/
theorem single1_un {op : Op} {fl : SF} {dst src : Nat} {A : BitVec 64} (hc : op.code.un)
    (hd : regMap dst ≠ 0#5) (hA : c.x (regMap src) = A) :
    wp (emitSingle1 op fl dst src) c fun c' => UnL op.code op.is32 A (c'.x (regMap dst)) ∧ Only [regMap dst] c c' := by
  have W : ∀ v, Only [regMap dst] c (c.wr (regMap dst) v) := fun v => (Only.refl _ _).wr (by simp) _
  have W2 : ∀ v u, Only [regMap dst] c ((c.wr (regMap dst) v).wr (regMap dst) u) := fun v u => (W v).wr (by simp) _
  have X : ∀ v, (c.wr (regMap dst) v).x (regMap dst) = v := fun v => by rw [x_wr, if_pos ⟨rfl, hd⟩]
  have X2 : ∀ v u, ((c.wr (regMap dst) v).wr (regMap dst) u).x (regMap dst) = u := fun v u => by rw [x_wr, if_pos ⟨rfl, hd⟩]
  rcases hc with h | h | h | h | h | h | h
  · simp only [emitSingle1, h, UnL, true_and]
    cases h3 : op.is32
    · simp only [INST, Bool.false_eq_true, if_false, wp_REVB_D]
      refine ⟨?_, W _⟩
      rw [X, hA]; exact fun i hi => revbd_eq A i hi
    · simp only [INST, if_true, wp_REVB_2W]
      refine ⟨?_, W _⟩
      rw [X, hA]; exact fun i hi => revb2w_eq A i hi
  · simp only [emitSingle1, h, UnL, reduceCtorEq, false_and, if_false, wp_REVB_2H_s, wp_PICK15, X, hA]
    refine ⟨?_, W2 _ _⟩
    rw [X2]
    refine ⟨fun i hi => ?_, by rw [ext_low 16 (by decide)]⟩
    rw [byte_low (n := 16) (m := 2) (ext_low 16 (by decide) _) (by decide) hi]
    exact revb2h_eq A i hi
  · simp only [emitSingle1, h, UnL, reduceCtorEq, false_and, if_false, wp_REVB_2H_s, wp_EXT_W_H, X, hA]
    refine ⟨?_, W2 _ _⟩
    rw [X2]
    refine ⟨fun i hi => ?_, by simp only [UOp.eval]; rw [sext_low 16 (by decide)]⟩
    simp only [UOp.eval]
    rw [byte_low (n := 16) (m := 2) (sext_low 16 (by decide) _) (by decide) hi]
    exact revb2h_eq A i hi
  · simp only [emitSingle1, h, UnL, reduceCtorEq, false_and, if_false, wp_REVB_2W_s, wp_PICK31, X, hA]
    refine ⟨?_, W2 _ _⟩
    rw [X2]
    refine ⟨fun i hi => ?_, by rw [ext_low 32 (by decide)]⟩
    rw [byte_low (n := 32) (m := 4) (ext_low 32 (by decide) _) (by decide) hi]
    exact revb2w_eq A i hi
  · simp only [emitSingle1, h, UnL, reduceCtorEq, false_and, if_false, wp_REVB_2W_s]
    rw [wp_SLLI_W _ _ (by decide), X, hA, sll0]
    refine ⟨?_, W2 _ _⟩
    rw [X2]
    refine ⟨fun i hi => ?_, by rw [sext_low 32 (by decide)]⟩
    rw [byte_low (n := 32) (m := 4) (sext_low 32 (by decide) _) (by decide) hi]
    exact revb2w_eq A i hi
  · simp only [emitSingle1, h, UnL, reduceCtorEq, false_and, if_false, UnSpec]
    cases h3 : op.is32
    · simp only [INST, Bool.false_eq_true, if_false, wp_CLZ_D]
      refine ⟨⟨_, ?_, clzN_ok (by decide) A⟩, W _⟩
      rw [X, hA]; rfl
    · simp only [INST, if_true, wp_CLZ_W]
      refine ⟨⟨_, ?_, clzN_ok (by decide) (A.setWidth 32)⟩, W _⟩
      rw [X, hA]; rfl
  · simp only [emitSingle1, h, UnL, reduceCtorEq, false_and, if_false, UnSpec]
    cases h3 : op.is32
    · simp only [INST, Bool.false_eq_true, if_false, wp_CTZ_D]
      refine ⟨⟨_, ?_, ctzN_ok A⟩, W _⟩
      rw [X, hA]; rfl
    · simp only [INST, if_true, wp_CTZ_W]
      refine ⟨⟨_, ?_, ctzN_ok (A.setWidth 32)⟩, W _⟩
      rw [X, hA]; rfl

/-- The state after a move or a one operand operation with result `v`: the flag registers are kept. -/
structure MDone (sz : Sz) (dst : Opd) (v : BitVec 64) (c c' : Core) : Prop where
  reg : ∀ r, dst = .reg r → c'.x (regMap r) = v
  mem : c'.mem = match dst with | .mem b i w => (stOp sz).eval c.mem (ea c b i w) v | _ => c.mem
  kept : ∀ q, q ∉ temps → (∀ r, dst = .reg r → q ≠ regMap r) → c'.x q = c.x q
  fregs : c'.f = c.f

theorem Only.mdone {dst : Nat} {sz : Sz} {v : BitVec 64} {c' : Core} (h : Only [regMap dst, 1#5, 13#5, 14#5] c c') (hv : c'.x (regMap dst) = v) :
    MDone sz (.reg dst) v c c' := by
  refine ⟨fun r e => ?_, h.2.1, fun q g1 g2 => h.1 q ?_, h.2.2⟩
  · cases e; exact hv
  · have := g2 _ rfl
    simp only [List.mem_cons, List.not_mem_nil, or_false, not_or] at g1 ⊢
    exact ⟨this, g1.2.1, g1.1, g1.2.2⟩

/-- The store. -/
theorem mstore_ok {sz : Sz} {sg : Bool} {k : Cache} {b i r : Nat} {w v : BitVec 64} {c1 : Core} (hb : b ≤ 24) (hi : i ≤ 24) (hw : IdxOk i w) (hk : CacheOk k c1)
    (ho : Only temps c c1) (hv : c1.x (regMap r) = v) (h7 : regMap r ≠ 14#5) (h6 : regMap r ≠ 13#5) :
    wp (emitStore (.g sz sg) k r (.mem b i w)) c1 (MDone sz (.mem b i w) v c) := by
  have hea : ea c1 b i w = ea c b i w := ea_only ho (user_temps hb) (user_temps hi)
  simp only [emitStore]
  by_cases hf : fastArg i w = true
  · rw [if_pos hf, wp_store, pa_fast hf, ho.2.1, hv, hea]
    exact ⟨fun _ h => by (cases h), rfl, fun q h1 _ => ho.1 q h1, ho.2.2⟩
  · rw [if_neg hf]
    refine wp_mono (getput_store hb hi hw (by simpa using hf) (fun _ _ => hk) h7 (by simpa [tmpR] using h6)) ?_
    rintro c' ⟨c2, h1, rfl⟩
    rw [hea, hv, ho.2.1]
    refine ⟨fun _ h => by (cases h), rfl, fun q g1 g2 => ?_, h1.2.2.trans ho.2.2⟩
    rw [← ho.1 q g1]
    apply h1.1
    simp only [List.mem_cons, List.not_mem_nil, or_false, not_or] at g1
    simp [tmpR, g1]

/-- emit_op for the operations that are not moves. -/
theorem emitOp_un {op : Op} {sz : Sz} {sg : Bool} {dst src : Opd} (hc : op.code.un) (hd : DOk dst) (hd0 : dst ≠ .reg 0) (h26 : dst ≠ .reg 26) (ho : OpdOk src) :
    wp (emitOp op (.g sz sg) ⟨false, false, false⟩ ⟨none, 0#64⟩ dst (.reg 0) src) c
      fun c' => ∃ v, UnL op.code op.is32 (opdVal sz sg c src) v ∧ MDone sz dst v c c' := by
  have h2 : op.code.isOp2 = false := by rcases hc with h | h | h | h | h | h | h <;> rw [h] <;> rfl
  have hsw : immSwap ⟨false, false, false⟩ (.reg 0) src = (none, .reg 0, src) := rfl
  have hs1 : ∀ t, emitSrc1 t (.reg 0) = ([], 0) := fun _ => rfl
  unfold emitOp
  simp only [hsw, hs1, h2, Bool.false_eq_true, and_false, false_and, if_false, Bool.and_false, List.nil_append]
  rw [← List.append_assoc]
  refine wp_append (wp_mono (ufetch_ok (dst := dst) (tmp := TMP_REG2) ho (by decide)) ?_)
  rintro c1 ⟨g1, g2, g3⟩
  simp only [emitSingle, h2, Bool.false_eq_true, if_false]
  have hdr := (dstR0_ok hd).n0
  refine wp_append (wp_mono (single1_un hc hdr g1) ?_)
  rintro c2 ⟨p1, p2⟩
  cases dst with
  | imm v => exact absurd hd (by simp [DOk])
  | reg r =>
    have hr0 : r ≠ 0 := by rintro rfl; exact hd0 rfl
    simp only [emitStore, wp_nil, dstR0, if_neg hr0] at p1 p2 ⊢
    refine ⟨_, p1, Only.mdone ?_ rfl⟩
    exact (g2.mono (by simp)).trans (p2.mono (by simp))
  | mem b i w =>
    simp only [dstR0] at p1 p2 ⊢
    have hk2 := (g3 rfl).of_eq (p2.1 14#5 (by decide)) (fun r hr => p2.1 _ (by simpa using (user_ne hr).1))
    refine wp_mono (mstore_ok hd.1 hd.2.1 hd.2.2 hk2 ((g2.mono (by simp)).trans (p2.mono (by simp))) rfl (by decide) (by decide)) ?_
    exact fun c' h => ⟨_, p1, h⟩

/-! ## Moves -/

/-- Register to register. -/
theorem mv_rr {op : Op} {fl : SF} {dst src : Nat} (ho : op.code.isMv = true) (h32 : op.code = .mov → op.is32 = false) (hfl : fl.regDest = true ∧ fl.reg2Src = true ∨ op.code = .mov)
    (hd : regMap dst ≠ 0#5) :
    wp (emitSingle1 op fl dst src) c fun c' => c'.x (regMap dst) = movX op.code (c.x (regMap src)) ∧ Only [regMap dst] c c' := by
  have W : ∀ v, Only [regMap dst] c (c.wr (regMap dst) v) := fun v => (Only.refl _ _).wr (by simp) _
  have X : ∀ v, (c.wr (regMap dst) v).x (regMap dst) = v := fun v => by rw [x_wr, if_pos ⟨rfl, hd⟩]
  have mvCase : op.code = .mov → wp (if dst ≠ src then ins (ADDx op.is32 ||| RD dst ||| RJ src ||| IMM_I12 0#64) else []) c
      fun c' => c'.x (regMap dst) = c.x (regMap src) ∧ Only [regMap dst] c c' := by
    intro hm
    by_cases he : dst = src
    · rw [if_neg (by simpa using he), wp_nil, he]; exact ⟨rfl, Only.refl _ _⟩
    · rw [if_pos he, wp_ADDxz, h32 hm]
      refine ⟨?_, W _⟩
      rw [X]; simp [addw]
  rcases hfl with ⟨f1, f2⟩ | hm
  swap
  · simp only [emitSingle1, hm, movX]; exact mvCase hm
  · cases h : op.code <;> rw [h] at ho <;> first | exact absurd ho (by decide) | skip
    all_goals simp only [emitSingle1, h, movX, f1, f2, Bool.and_true, if_true]
    · exact mvCase h
    · rw [wp_ANDI]
      refine ⟨?_, W _⟩
      rw [X]
      generalize c.x (regMap src) = v
      simp only [IOp.eval]
      bits []
    · rw [wp_EXT_W_B]; exact ⟨X _, W _⟩
    · rw [wp_PICK15]; exact ⟨X _, W _⟩
    · rw [wp_EXT_W_H]; exact ⟨X _, W _⟩
    · rw [wp_PICK31]; exact ⟨X _, W _⟩
    · rw [wp_SLLI_W _ _ (by decide), sll0]; exact ⟨X _, W _⟩

/-- No code without a register destination and a register source. -/
theorem mv_nil {op : Op} {fl : SF} {r : Nat} (ho : op.code.isMv = true) (hfl : (fl.regDest && fl.reg2Src) = false) :
    emitSingle1 op fl r r = [] := by
  cases h : op.code <;> rw [h] at ho <;> first | exact absurd ho (by decide) | skip
  all_goals simp [emitSingle1, h, hfl]

/-- emit_op for the moves. -/
theorem emitOp_mv {op : Op} {dst src : Opd} (ho : op.code.isMv = true) (h32 : op.code = .mov → op.is32 = false) (hd : DOk dst) (hd0 : dst ≠ .reg 0)
    (hd26 : dst ≠ .reg 26) (hs : OpdOk src) (hi : ∀ v, src = .imm v → movX op.code v = v) :
    wp (emitOp op (.g (mvSz op.code) (mvSg op.code)) ⟨false, false, true⟩ ⟨none, 0#64⟩ dst (.reg 0) src) c
      (MDone (mvSz op.code) dst (movX op.code (opdVal (mvSz op.code) (mvSg op.code) c src)) c) := by
  have h2 : op.code.isOp2 = false := by revert ho; cases op.code <;> decide
  have hsw : immSwap ⟨false, false, true⟩ (.reg 0) src = (none, .reg 0, src) := rfl
  have hs1 : ∀ t, emitSrc1 t (.reg 0) = ([], 0) := fun _ => rfl
  have hidem : src.isReg = false → movX op.code (opdVal (mvSz op.code) (mvSg op.code) c src) = opdVal (mvSz op.code) (mvSg op.code) c src := by
    intro hr
    cases src with
    | reg r => simp [Opd.isReg] at hr
    | imm v => exact hi v rfl
    | mem b i w => exact movX_ld ho _ _
  unfold emitOp
  cases dst with
  | imm v => exact absurd hd (by simp [DOk])
  | reg r =>
    have hr0 : r ≠ 0 := by rintro rfl; exact hd0 rfl
    have hr24 : r ≤ 24 := by
      rcases hd with h | h
      · exact h
      · exact absurd (by rw [h]) hd26
    have hrr : regMap r ≠ 0#5 := rm_ne0 (by omega) hr0
    have hun : decide (Opd.reg r = Opd.reg 0) = false := by simpa using hr0
    simp only [hsw, hs1, h2, hun, dstR0, if_neg hr0, Opd.isReg, Opd.isMem, Bool.false_eq_true, Bool.true_eq_false, true_and, and_false, false_and, and_true, if_false,
      Bool.and_false, Bool.and_true, Bool.not_false, List.nil_append, if_true, emitStore, List.append_nil, emitSingle]
    cases src with
    | reg q =>
      simp only [emitSrc2, emitSlow, slow, Opd.isReg, List.nil_append, reduceCtorEq, decide_false, Bool.false_eq_true, Bool.true_eq_false, true_and, and_false, false_and, if_false, h2]
      refine wp_mono (mv_rr ho h32 (Or.inl ⟨rfl, rfl⟩) hrr) ?_
      rintro c' ⟨g1, g2⟩
      exact (g2.mono (by simp)).mdone g1
    | imm v =>
      by_cases hv : v = 0#64
      · subst hv
        simp only [emitSrc2, emitSlow, slow, Opd.isReg, List.nil_append, decide_true, Bool.false_eq_true, Bool.true_eq_false, true_and, and_false, if_false, if_true,
          ne_eq, not_true, and_self, show OpC.isOp2 .mov = false from rfl]
        refine wp_mono (mv_rr (op := ⟨.mov, false, false, .none⟩) rfl (fun _ => rfl) (Or.inr rfl) hrr) ?_
        rintro c' ⟨g1, g2⟩
        refine (g2.mono (by simp)).mdone ?_
        rw [g1]
        have := hi _ rfl
        simp only [opdVal, this]
        simp [movX, TMP_ZERO]
      · have hne : ¬ (Opd.imm v = Opd.imm 0#64) := by simpa using hv
        rw [← List.append_assoc]
        refine wp_append (wp_mono (ufetch_ok (tmp := r) hs hrr) ?_)
        rintro c1 ⟨g1, g2, -⟩
        simp only [hne, decide_false, Bool.false_eq_true, Bool.true_eq_false, true_and, and_false, false_and, if_false, h2]
        rw [emitSrc2_reg] at g1 ⊢
        simp only [if_neg hv] at g1 ⊢
        rw [mv_nil ho (by simp [Opd.isReg]), wp_nil]
        refine (g2.mono (by simp)).mdone ?_
        rw [hidem rfl, g1]
    | mem b i w =>
      have hne : ¬ (Opd.mem b i w = Opd.imm 0#64) := by simp
      rw [← List.append_assoc]
      refine wp_append (wp_mono (ufetch_ok (tmp := r) hs hrr) ?_)
      rintro c1 ⟨g1, g2, -⟩
      simp only [hne, decide_false, Bool.false_eq_true, Bool.true_eq_false, true_and, and_false, false_and, if_false, h2]
      rw [emitSrc2_reg] at g1 ⊢
      simp only [] at g1 ⊢
      rw [mv_nil ho (by simp [Opd.isReg]), wp_nil]
      refine (g2.mono (by simp)).mdone ?_
      rw [hidem rfl, g1]
  | mem b i w =>
    have hun : decide (Opd.mem b i w = Opd.reg 0) = false := by simp
    have hb : b ≤ 24 := hd.1
    have hi' : i ≤ 24 := hd.2.1
    have hw' := hd.2.2
    simp only [hsw, hs1, h2, hun, dstR0, Opd.isReg, Opd.isMem, Bool.false_eq_true, Bool.true_eq_false, true_and, and_false, false_and, and_true, if_false,
      Bool.and_false, Bool.false_and, Bool.and_true, Bool.not_false, List.nil_append, if_true, emitSingle]
    have fin : ∀ c', MDone (mvSz op.code) (.mem b i w) (opdVal (mvSz op.code) (mvSg op.code) c src) c c' →
        MDone (mvSz op.code) (.mem b i w) (movX op.code (opdVal (mvSz op.code) (mvSg op.code) c src)) c c' := by
      rintro c' ⟨k1, k2, k3, k4⟩
      exact ⟨fun _ h => (by cases h), by rw [k2]; simp only [movX_st], k3, k4⟩
    cases src with
    | reg q =>
      obtain ⟨u1, u5, u6, u7, u28⟩ := user_ne (show q ≤ 24 from hs)
      simp only [emitSrc2, emitSlow, slow, Opd.isReg, List.nil_append, reduceCtorEq, decide_false, Bool.false_eq_true, Bool.true_eq_false, true_and, and_false, false_and, if_false, h2,
        and_self, if_true]
      rw [mv_nil ho (by rfl), wp_nil_append]
      exact wp_mono (mstore_ok hb hi' hw' (k0 _) (Only.refl _ _) rfl u7 u6) fin
    | imm v =>
      by_cases hv : v = 0#64
      · subst hv
        simp only [emitSrc2, emitSlow, slow, Opd.isReg, List.nil_append, decide_true, Bool.false_eq_true, Bool.true_eq_false, true_and, and_false, if_false, if_true,
          ne_eq, not_true, and_self, false_and, and_false, h2, TMP_ZERO]
        rw [mv_nil ho (by rfl), wp_nil_append]
        exact wp_mono (mstore_ok (v := 0#64) hb hi' hw' (k0 _) (Only.refl _ _) (by simp) (by decide) (by decide)) fin
      · have hne : ¬ (Opd.imm v = Opd.imm 0#64) := by simpa using hv
        rw [← List.append_assoc]
        refine wp_append (wp_mono (ufetch_ok (tmp := TMP_REG2) hs (by decide)) ?_)
        rintro c1 ⟨g1, g2, g3⟩
        simp only [hne, decide_false, Bool.false_eq_true, Bool.true_eq_false, true_and, and_false, false_and, if_false, h2, Opd.isReg]
        rw [emitSrc2_reg] at g1 ⊢
        simp only [if_neg hv] at g1 ⊢
        rw [mv_nil ho (by rfl), wp_nil_append]
        exact wp_mono (mstore_ok hb hi' hw' (g3 rfl) (g2.mono (by simp)) g1 (by decide) (by decide)) fin
    | mem b' i'' w' =>
      have hne : ¬ (Opd.mem b' i'' w' = Opd.imm 0#64) := by simp
      rw [← List.append_assoc]
      refine wp_append (wp_mono (ufetch_ok (tmp := TMP_REG2) hs (by decide)) ?_)
      rintro c1 ⟨g1, g2, g3⟩
      simp only [hne, decide_false, Bool.false_eq_true, Bool.true_eq_false, true_and, and_false, false_and, if_false, h2, Opd.isReg]
      rw [emitSrc2_reg] at g1 ⊢
      simp only [] at g1 ⊢
      rw [mv_nil ho (by rfl), wp_nil_append]
      exact wp_mono (mstore_ok hb hi' hw' (g3 rfl) (g2.mono (by simp)) g1 (by decide) (by decide)) fin
end

end Verif.LA
