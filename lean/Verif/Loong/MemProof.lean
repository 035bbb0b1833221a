import Verif.Loong.Mem
import Verif.Loong.OpsProof
import Verif.RISCV.MemProof

/-!
# Memory operands: address computation and the TMP_REG3 cache (helper lemmas)
-/

set_option linter.all false

namespace Verif.LA
open Verif.RV (Op OpC Flag S2 SF Sz Opd Cache OF fits12 toArgwHi nextSame nextW immSwap dstR0 ldOp stOp fits12_iff sext_sub argwHi_add
  and3_lt sext12 Fits12 lo32 sx32 bool64)
open Verif.Imm.Loong (loadImmediate loadImmediate_run)

/-! ## load_immediate -/

theorem la_put_get (x y : Verif.Imm.La.Regs) (h : ∀ q, Verif.Imm.La.get x q = Verif.Imm.La.get y q) (r v q) :
    Verif.Imm.La.get (Verif.Imm.La.put x r v) q = Verif.Imm.La.get (Verif.Imm.La.put y r v) q := by
  have g := h q
  unfold Verif.Imm.La.get Verif.Imm.La.put at *
  by_cases hq : q = 0#5
  · rw [if_pos hq, if_pos hq]
  · rw [if_neg hq, if_neg hq] at g
    rw [if_neg hq, if_neg hq, g]

theorem la_exec_get (i : Verif.Imm.La.Inst) (x y : Verif.Imm.La.Regs) (h : ∀ q, Verif.Imm.La.get x q = Verif.Imm.La.get y q) (q) :
    Verif.Imm.La.get (Verif.Imm.La.exec i x) q = Verif.Imm.La.get (Verif.Imm.La.exec i y) q := by
  cases i <;> simp only [Verif.Imm.La.exec, h] <;> exact la_put_get x y h _ _ q

theorem la_run {ws : List (BitVec 32)} {x x' : Verif.Imm.La.Regs} (h : Verif.Imm.La.run ws x = some x') (c : Core)
    (hx : ∀ q, Verif.Imm.La.get x q = c.x q) :
    ∃ c', run ws c = some c' ∧ (∀ q, c'.x q = Verif.Imm.La.get x' q) ∧ c'.f = c.f ∧ c'.mem = c.mem := by
  induction ws generalizing x c with
  | nil => cases h; exact ⟨c, rfl, fun q => (hx q).symm, rfl, rfl⟩
  | cons w ws ih =>
    simp only [Verif.Imm.La.run] at h
    cases hd : Verif.Imm.La.decode w with
    | none => rw [hd] at h; cases h
    | some i =>
      rw [hd] at h
      have hdec : decode w = some (.la i) := by unfold decode; rw [hd]
      have hcx : ∀ q, Verif.Imm.La.get x q = Verif.Imm.La.get c.x q := by
        intro q; rw [hx]; unfold Verif.Imm.La.get; split
        · next hq => rw [hq, x_zero]
        · rfl
      obtain ⟨c', h1, h2, h3, h4⟩ := ih h (exec (.la i) c) (fun q => la_exec_get i x c.x hcx q)
      exact ⟨c', by simp only [run, hdec]; exact h1, h2, h3, h4⟩

theorem wp_loadImm {d : Nat} {v : BitVec 64} {c : Core} {Q : Core → Prop} (hd : regMap d ≠ 0#5) (h : Q (c.wr (regMap d) v)) :
    wp (loadImmediate d v) c Q := by
  have hx : ∀ q, Verif.Imm.La.get c.x q = c.x q := by
    intro q; unfold Verif.Imm.La.get; split
    · next hq => rw [hq, x_zero]
    · rfl
  obtain ⟨c', h1, h2, h3, h4⟩ := la_run (loadImmediate_run (dst := d) hd v c.x) c hx
  refine ⟨c', h1, ?_⟩
  have : c' = c.wr (regMap d) v := by
    refine Core.ext' (funext fun q => ?_) h3 h4
    rw [h2, x_wr]
    unfold Verif.Imm.La.get Verif.Imm.La.put
    by_cases hq : q = 0#5
    · subst hq; rw [if_pos rfl, if_neg (fun h => hd h.1.symm), x_zero]
    · rw [if_neg hq]
      by_cases hr : q = regMap d
      · subst hr; rw [if_pos rfl, if_pos ⟨rfl, hd⟩]
      · rw [if_neg hr, if_neg (fun h => hr h.1)]
  rw [this]; exact h

/-! ## push_mem_inst -/

/-- The address of a load or store instruction. -/
def pa (c : Core) (base idx : Nat) (off : BitVec 64) : BitVec 64 :=
  c.x (regMap base) + (if idx = 0 then (off.setWidth 12).signExtend 64 else c.x (regMap idx))

theorem wp_load {sz : Sz} {s : Bool} {reg base idx : Nat} {off : BitVec 64} {c : Core} {Q : Core → Prop} :
    wp (pushMem (.g sz s) true reg base idx off) c Q ↔ Q (c.wr (regMap reg) ((ldOp sz s).eval c.mem (pa c base idx off))) := by
  unfold pushMem pa
  by_cases h : idx = 0
  · rw [if_neg (not_not.mpr h), if_pos h]
    cases sz <;> cases s <;> simp only [dataTransfer, ldOp, wp_LD_B, wp_LD_H, wp_LD_W, wp_LD_D, wp_LD_BU, wp_LD_HU, wp_LD_WU]
  · rw [if_pos h, if_neg h]
    cases sz <;> cases s <;> simp only [dataTransferX, ldOp, wp_LDX_B, wp_LDX_H, wp_LDX_W, wp_LDX_D, wp_LDX_BU, wp_LDX_HU, wp_LDX_WU]

theorem wp_store {sz : Sz} {s : Bool} {reg base idx : Nat} {off : BitVec 64} {c : Core} {Q : Core → Prop} :
    wp (pushMem (.g sz s) false reg base idx off) c Q ↔
      Q (c.setMem ((stOp sz).eval c.mem (pa c base idx off) (c.x (regMap reg)))) := by
  unfold pushMem pa
  by_cases h : idx = 0
  · rw [if_neg (not_not.mpr h), if_pos h]
    cases sz <;> cases s <;> simp only [dataTransfer, stOp, wp_ST_B, wp_ST_H, wp_ST_W, wp_ST_D]
  · rw [if_pos h, if_neg h]
    cases sz <;> cases s <;> simp only [dataTransferX, stOp, wp_STX_B, wp_STX_H, wp_STX_W, wp_STX_D]

/-! ## getput_arg -/

/-- Effective address of a memory operand (sljitLir.h:998-1014): base register (0 for none) plus displacement, or base
register plus shifted offset register. -/
def ea (c : Core) (b i : Nat) (w : BitVec 64) : BitVec 64 :=
  c.x (regMap b) + (if i = 0 then w else c.x (regMap i) <<< (w &&& 3#64).toNat)

/-- The cache fields describe TMP_REG3. -/
def CacheOk (k : Cache) (c : Core) : Prop :=
  ∀ b i, k.arg = some (b, i) → b ≤ 24 ∧ i ≤ 24 ∧ c.x 14#5 = ea c b i k.argw

/-- `c1` differs from `c` at most in the registers of `W`. -/
def Only (W : List Reg) (c c1 : Core) : Prop :=
  (∀ q, q ∉ W → c1.x q = c.x q) ∧ c1.mem = c.mem ∧ c1.f = c.f

theorem user_ne {r : Nat} (h : r ≤ 24) : regMap r ≠ 1#5 ∧ regMap r ≠ 12#5 ∧ regMap r ≠ 13#5 ∧ regMap r ≠ 14#5 ∧ regMap r ≠ 15#5 := by
  revert r; decide +kernel

theorem ea_only {W : List Reg} {c c1 : Core} {b i : Nat} {w : BitVec 64} (h : Only W c c1) (hb : regMap b ∉ W) (hi : regMap i ∉ W) :
    ea c1 b i w = ea c b i w := by
  simp only [ea, h.1 _ hb, h.1 _ hi]

def tmpR (tmp2 : Bool) : Nat := if tmp2 then TMP_REG2 else TMP_REG1

/-- Post-condition of the address computation of getput_arg. -/
structure AddrOk (tmp : Nat) (k : Cache) (b i : Nat) (w : BitVec 64) (r : Cache × Nat × Nat × BitVec 64) (c c1 : Core) : Prop where
  only : Only [14#5, regMap tmp] c c1
  cache : CacheOk r.1 c1 ∨ (i ≠ 0 ∧ r.1 = k)
  addr : pa c1 r.2.1 r.2.2.1 r.2.2.2 = ea c b i w

theorem tmpR_facts (tmp2 : Bool) : regMap (tmpR tmp2) ≠ 0#5 ∧ regMap (tmpR tmp2) ≠ 14#5 ∧ regMap (tmpR tmp2) ≠ 3#5 ∧
    ∀ r ≤ 24, regMap r ≠ regMap (tmpR tmp2) := by
  cases tmp2 <;> decide +kernel

theorem CacheOk.set {tmp : Nat} (tu : ∀ r ≤ 24, regMap r ≠ regMap tmp) {c c1 : Core} {b i : Nat} {v : BitVec 64}
    (ho : Only [14#5, regMap tmp] c c1) (hb : b ≤ 24) (hi : i ≤ 24) (he : c1.x 14#5 = ea c b i v) :
    CacheOk ⟨some (b, i), v⟩ c1 := by
  intro b' i' h
  simp only [Option.some.injEq, Prod.mk.injEq] at h
  obtain ⟨rfl, rfl⟩ := h
  refine ⟨hb, hi, ?_⟩
  rw [ea_only ho (by simp [tu _ hb, (user_ne hb).2.2.2.1]) (by simp [tu _ hi, (user_ne hi).2.2.2.1]), he]

theorem Only.refl (W c) : Only W c c := ⟨fun _ _ => rfl, rfl, rfl⟩
theorem Only.wr {W : List Reg} {c c1 : Core} (h : Only W c c1) {r : Reg} (hr : r ∈ W) (v : BitVec 64) : Only W c (c1.wr r v) := by
  refine ⟨fun q hq => ?_, h.2.1, h.2.2⟩
  have : q ≠ r := fun e => hq (e ▸ hr)
  simp [this, h.1 q hq]

theorem getputAddr_idx {tmp2 : Bool} {k : Cache} {base idx : Nat} {w : BitVec 64}
    {next : Option (Nat × Nat × BitVec 64)} {c : Core} (hb : base ≤ 24) (hi : idx ≤ 24) (h0 : idx ≠ 0) (hw : w ≠ 0#64) (hw4 : w.toNat < 4) :
    wp (getputAddr tmp2 k base idx w next).1 c (AddrOk (tmpR tmp2) k base idx w (getputAddr tmp2 k base idx w next).2 c) := by
  obtain ⟨b1, -, b6, b7, -⟩ := user_ne hb
  have h3 : w &&& 3#64 = w := by
    apply BitVec.eq_of_toNat_eq
    rw [BitVec.toNat_and, show (3#64).toNat = 2 ^ 2 - 1 from rfl, Nat.and_two_pow_sub_one_eq_mod]; omega
  unfold getputAddr
  simp only [ne_eq, h0, not_false_eq_true, if_true, h3, hw]
  rw [wp_SLLI_D _ _ (by omega)]
  refine ⟨(Only.refl _ _).wr (by simp) _, Or.inr ⟨h0, rfl⟩, ?_⟩
  simp only [pa, ea, h0, if_false, h3, show TMP_REG3 = 27 from rfl]
  simp [b7]

theorem getputAddr_disp {tmp2 : Bool} {k : Cache} {base : Nat} {w : BitVec 64}
    {next : Option (Nat × Nat × BitVec 64)} {c : Core} (hb : base ≤ 24) (hk : fits12 (w - k.argw) = true → CacheOk k c) :
    wp (getputAddr tmp2 k base 0 w next).1 c (AddrOk (tmpR tmp2) k base 0 w (getputAddr tmp2 k base 0 w next).2 c) := by
  obtain ⟨b1, -, b6, b7, -⟩ := user_ne hb
  obtain ⟨t0, t7, t2, tu⟩ := tmpR_facts tmp2
  have t7' := t7.symm
  have tb := tu _ hb
  have hea : ea c base 0 w = c.x (regMap base) + w := by simp [ea]
  unfold getputAddr
  simp only [ne_eq, not_true, if_false]
  rw [show (if tmp2 = true then TMP_REG2 else TMP_REG1) = tmpR tmp2 from rfl]
  generalize tmpR tmp2 = tmp at *
  generalize nextSame base 0 next = nextIs
  generalize nextW next = nextw
  have m7 : (14#5 : Reg) ∈ [14#5, regMap tmp] := by simp
  have mt : regMap tmp ∈ [14#5, regMap tmp] := by simp
  by_cases hc1 : k.arg = some (base, 0) ∧ fits12 (w - k.argw) = true
  · simp only [if_pos hc1, wp_nil]
    refine ⟨Only.refl .., Or.inl (hk hc1.2), ?_⟩
    have := (hk hc1.2 _ _ hc1.1).2.2
    have h2 := sext_sub hc1.2
    simp only [ea, if_true] at this
    simp only [pa, if_true, rm27, this, hea]
    rw [BitVec.add_assoc, h2]
  · simp only [if_neg hc1]
    -- the constant in TMP_REG3
    have key : ∀ (e : Emit) (kw off w' : BitVec 64), kw + (off.setWidth 12).signExtend 64 = w →
        (wp e c fun c1 => c1.x 14#5 = kw ∧ Only [14#5, regMap tmp] c c1) →
        ∀ r, r = (if base = 0 then ((e, ⟨some (0, 0), kw⟩, TMP_REG3, 0, off) : Emit × Cache × Nat × Nat × BitVec 64)
          else if nextIs = true ∧ fits12 (nextw - w') = true then
            (e ++ ins (ADD_D ||| RD TMP_REG3 ||| RJ TMP_REG3 ||| RK base), ⟨some (base, 0), kw⟩, TMP_REG3, 0, off)
          else if off = 0#64 then (e, ⟨some (0, 0), kw⟩, base, TMP_REG3, 0#64)
          else (e ++ ins (ADD_D ||| RD tmp ||| RJ TMP_REG3 ||| RK base), ⟨some (0, 0), kw⟩, tmp, 0, off)) →
        wp r.1 c (AddrOk tmp k base 0 w r.2 c) := by
      rintro e kw off w' h1 h2 r rfl
      by_cases hb0 : base = 0
      · subst hb0
        simp only [if_true]
        refine wp_mono h2 ?_
        rintro c1 ⟨h3, h4⟩
        refine ⟨h4, Or.inl (CacheOk.set tu h4 (by decide) (by decide) (by simp [ea, h3])), ?_⟩
        simp only [pa, if_true, rm27, h3, h1, ea, rm0, x_zero, BitVec.zero_add]
      · simp only [if_neg hb0]
        split
        · refine wp_append (wp_mono h2 ?_)
          rintro c1 ⟨h3, h4⟩
          have h5 := h4.1 (regMap base) (by simp [b7, tb])
          rw [wp_ADD_D, Verif.RV.evR_add]
          have ho := h4.wr m7 (c1.x 14#5 + c1.x (regMap base))
          simp only [rm27]
          refine ⟨ho, Or.inl (CacheOk.set tu ho hb (by decide) (by simp [ea, h3, h5, BitVec.add_comm])), ?_⟩
          rw [hea, ← h1]
          simp [pa, h3, h5]; ac_rfl
        · split
          · next hoff =>
            subst hoff
            refine wp_mono h2 ?_
            rintro c1 ⟨h3, h4⟩
            have h5 := h4.1 (regMap base) (by simp [b7, tb])
            refine ⟨h4, Or.inl (CacheOk.set tu h4 (by decide) (by decide) (by simp [ea, h3])), ?_⟩
            rw [hea, ← h1]
            simp [pa, h3, h5]
          · refine wp_append (wp_mono h2 ?_)
            rintro c1 ⟨h3, h4⟩
            have h5 := h4.1 (regMap base) (by simp [b7, tb])
            rw [wp_ADD_D, Verif.RV.evR_add]
            simp only [rm27]
            have ho := h4.wr mt (c1.x 14#5 + c1.x (regMap base))
            refine ⟨ho, Or.inl (CacheOk.set tu ho (by decide) (by decide) (by simp [ea, h3, t7'])), ?_⟩
            rw [hea, ← h1]
            simp [pa, t0, h3, h5]; ac_rfl
    have limm : ∀ v, wp (loadImmediate TMP_REG3 v) c fun c1 => c1.x 14#5 = v ∧ Only [14#5, regMap tmp] c c1 := by
      intro v
      refine wp_loadImm (by decide) ⟨by simp, ?_⟩
      rw [rm27]; exact (Only.refl _ _).wr m7 _
    by_cases hc2 : k.arg = some (0, 0) ∧ fits12 (w - k.argw) = true
    · simp only [if_pos hc2]
      have hx := (hk hc2.2 _ _ hc2.1).2.2
      exact key [] k.argw (w - k.argw) w (sext_sub hc2.2) (by rw [wp_nil]; exact ⟨by simpa [ea] using hx, Only.refl _ _⟩) _ rfl
    · simp only [if_neg hc2]
      by_cases hc3 : next.isSome = true ∧ fits12 (nextw - w) = true ∧ ¬toArgwHi w = toArgwHi nextw
      · simp only [if_pos hc3]
        exact key _ w 0#64 w (by simp) (limm _) _ rfl
      · simp only [if_neg hc3]
        exact key _ (toArgwHi w) (w &&& 0xfff#64) (toArgwHi w) (argwHi_add w) (limm _) _ rfl

/-- An indexed operand that getput_arg gets: a shift by 1, 2 or 3. -/
def IdxOk (i : Nat) (w : BitVec 64) : Prop := i ≠ 0 → w.toNat < 4

theorem getputAddr_ok {tmp2 : Bool} {k : Cache} {base idx : Nat} {w : BitVec 64}
    {next : Option (Nat × Nat × BitVec 64)} {c : Core} (hb : base ≤ 24) (hi : idx ≤ 24) (hx : IdxOk idx w) (hs : fastArg idx w = false)
    (hk : idx = 0 → fits12 (w - k.argw) = true → CacheOk k c) :
    wp (getputAddr tmp2 k base idx w next).1 c (AddrOk (tmpR tmp2) k base idx w (getputAddr tmp2 k base idx w next).2 c) := by
  by_cases h0 : idx = 0
  · subst h0; exact getputAddr_disp hb (hk rfl)
  · refine getputAddr_idx hb hi h0 ?_ (hx h0)
    rintro rfl; simp [fastArg] at hs

/-- The constant in the cache after a non-indexed access that began with an empty cache. -/
theorem getputAddr_kw {tmp2 : Bool} {base : Nat} {w : BitVec 64} {next : Option (Nat × Nat × BitVec 64)} {v : BitVec 64} :
    (getputAddr tmp2 ⟨none, v⟩ base 0 w next).2.1.argw = w ∨ (getputAddr tmp2 ⟨none, v⟩ base 0 w next).2.1.argw = toArgwHi w := by
  unfold getputAddr
  simp only [ne_eq, not_true, if_false, false_and, reduceCtorEq]
  by_cases hc3 : next.isSome = true ∧ fits12 (nextW next - w) = true ∧ ¬toArgwHi w = toArgwHi (nextW next)
  · simp only [if_pos hc3]
    left; repeat' split
    all_goals rfl
  · simp only [if_neg hc3]
    right; repeat' split
    all_goals rfl

/-- A load through getput_arg reads the effective address; TMP_REG3 and one temporary may change before the load. -/
theorem getput_load {sz : Sz} {sg tmp2 : Bool} {k : Cache} {reg base idx : Nat} {w : BitVec 64}
    {next : Option (Nat × Nat × BitVec 64)} {c : Core} (hb : base ≤ 24) (hi : idx ≤ 24) (hx : IdxOk idx w) (hs : fastArg idx w = false)
    (hk : idx = 0 → fits12 (w - k.argw) = true → CacheOk k c) :
    wp (getputArg (.g sz sg) true tmp2 k reg base idx w next).1 c fun c' => ∃ c1, Only [14#5, regMap (tmpR tmp2)] c c1 ∧
      (CacheOk (getputArg (.g sz sg) true tmp2 k reg base idx w next).2 c1 ∨
        (idx ≠ 0 ∧ (getputArg (.g sz sg) true tmp2 k reg base idx w next).2 = k)) ∧
      c' = c1.wr (regMap reg) ((ldOp sz sg).eval c.mem (ea c base idx w)) := by
  unfold getputArg
  refine wp_append (wp_mono (getputAddr_ok hb hi hx hs hk) ?_)
  intro c1 h
  rw [wp_load, h.addr, h.only.2.1]
  exact ⟨c1, h.only, h.cache, rfl⟩

theorem getput_store {sz : Sz} {sg tmp2 : Bool} {k : Cache} {reg base idx : Nat} {w : BitVec 64}
    {next : Option (Nat × Nat × BitVec 64)} {c : Core} (hb : base ≤ 24) (hi : idx ≤ 24) (hx : IdxOk idx w) (hs : fastArg idx w = false)
    (hk : idx = 0 → fits12 (w - k.argw) = true → CacheOk k c) (hr : regMap reg ≠ 14#5) (hr' : regMap reg ≠ regMap (tmpR tmp2)) :
    wp (getputArg (.g sz sg) false tmp2 k reg base idx w next).1 c fun c' => ∃ c1, Only [14#5, regMap (tmpR tmp2)] c c1 ∧
      c' = c1.setMem ((stOp sz).eval c.mem (ea c base idx w) (c.x (regMap reg))) := by
  unfold getputArg
  refine wp_append (wp_mono (getputAddr_ok hb hi hx hs hk) ?_)
  intro c1 h
  rw [wp_store, h.addr, h.only.2.1, h.only.1 _ (by simp [hr, hr'])]
  exact ⟨c1, h.only, rfl⟩

/-- Fast operands. -/
theorem pa_fast {c : Core} {b i : Nat} {w : BitVec 64} (hf : fastArg i w = true) : pa c b i w = ea c b i w := by
  simp only [fastArg, Bool.or_eq_true, Bool.and_eq_true, decide_eq_true_eq, fits12_iff] at hf
  unfold pa ea
  by_cases hi : i = 0
  · rw [if_pos hi, if_pos hi]
    rcases hf with hf | hf
    · subst hf; simp
    · rw [sext12 hf.2]
  · rw [if_neg hi, if_neg hi]
    rcases hf with hf | hf
    · subst hf; simp
    · exact absurd hf.1 hi

end Verif.LA
