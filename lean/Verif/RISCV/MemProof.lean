import Verif.RISCV.MemRules
import Verif.RISCV.OpsProof
import Verif.RISCV.LoadImmProof

/-!
# Memory operands: address computation and the TMP_REG3 cache (helper lemmas)
-/

namespace Verif.RV

/-- Effective address of a memory operand (sljitLir.h:998-1014): base register (0 for none) plus displacement, or base
register plus shifted offset register. -/
def ea (c : Core) (b i : Nat) (w : BitVec 64) : BitVec 64 :=
  c.x (regMap b) + (if i = 0 then w else c.x (regMap i) <<< (w &&& 3#64).toNat)

/-- The cache fields describe TMP_REG3. -/
def CacheOk (k : Cache) (c : Core) : Prop :=
  ∀ b i, k.arg = some (b, i) → b ≤ 24 ∧ i ≤ 24 ∧ c.x 7#5 = ea c b i k.argw

/-- `c1` differs from `c` at most in the registers of `W`. -/
def Only (W : List Reg) (c c1 : Core) : Prop :=
  (∀ q, q ∉ W → c1.x q = c.x q) ∧ c1.mem = c.mem ∧ c1.f = c.f

theorem user_ne {r : Nat} (h : r ≤ 24) : regMap r ≠ 1#5 ∧ regMap r ≠ 5#5 ∧ regMap r ≠ 6#5 ∧ regMap r ≠ 7#5 ∧ regMap r ≠ 28#5 := by
  revert r; decide +kernel

theorem wp_loadImm {cfg : Cfg} {d t : Nat} {v : BitVec 64} {c : Core} (hd : regMap d ≠ 0#5) (hd2 : regMap d ≠ 2#5)
    (ht : regMap t ≠ 0#5) (hne : regMap d ≠ regMap t) :
    wp (loadImm cfg d v t) c fun c1 => c1.x (regMap d) = v ∧ Only [regMap d, regMap t] c c1 := by
  rintro s rfl
  obtain ⟨s', h1, h2, h3⟩ := loadImm_ok cfg d t v hd hd2 ht hne s
  exact ⟨s', h1, h2, fun q hq => h3.reg q hq, h3.mem, h3.f⟩

theorem argwHi_add (w : BitVec 64) : toArgwHi w + ((w &&& 0xfff#64).setWidth 12).signExtend 64 = w := by
  have h1 : (w &&& 0xfff#64).setWidth 12 = w.setWidth 12 := by bits []
  have h2 : (w &&& ~~~0xfff#64) + (w.setWidth 12).setWidth 64 = w := by
    rw [BitVec.add_eq_or_of_and_eq_zero]
    · bits []
    · bits []
  have h3 : (w.setWidth 12).msb = w.getLsbD 11 := by simp [BitVec.msb_eq_getLsbD_last]
  have h4 : (w &&& 0x800#64 ≠ 0#64) ↔ w.getLsbD 11 = true := by
    constructor
    · intro h
      by_contra hc
      apply h
      bits [show w.getLsbD 11 = false by simpa using hc]
    · intro h hc
      have := congrArg (fun x => x.getLsbD 11) hc
      simp at this
      rw [← BitVec.getLsbD_eq_getElem, h] at this; cases this
  have h5 : (w.setWidth 12).signExtend 64 = (w.setWidth 12).setWidth 64 - (if w.getLsbD 11 = true then 0x1000#64 else 0#64) := by
    rw [← h3]
    generalize w.setWidth 12 = l
    have hl := l.isLt
    apply BitVec.eq_of_toNat_eq
    rw [BitVec.toNat_signExtend]
    have hm := BitVec.msb_eq_decide l
    by_cases hb : l.msb = true
    · have : 2048 ≤ l.toNat := by simpa [hb] using hm
      simp only [hb, if_true, BitVec.toNat_sub, BitVec.toNat_setWidth]
      simp
      omega
    · have : l.msb = false := by simpa using hb
      simp [this]
  rw [h1, h5, toArgwHi]
  simp only [h4]
  generalize w &&& ~~~0xfff#64 = a at *
  generalize (w.setWidth 12).setWidth 64 = b at *
  rw [← h2]
  split <;> bv_omega

theorem fits12_iff {i : BitVec 64} : fits12 i = true ↔ Fits12 i := by
  simp only [fits12, Fits12, Bool.and_eq_true, decide_eq_true_eq]
  exact And.comm

/-- Adding the sign extended offset of the last instruction. -/
theorem sext_sub {w v : BitVec 64} (h : fits12 (w - v) = true) : v + ((w - v).setWidth 12).signExtend 64 = w := by
  rw [sext12 (fits12_iff.mp h)]; bv_omega


theorem ea_only {W : List Reg} {c c1 : Core} {b i : Nat} {w : BitVec 64} (h : Only W c c1) (hb : regMap b ∉ W) (hi : regMap i ∉ W) :
    ea c1 b i w = ea c b i w := by
  simp only [ea, h.1 _ hb, h.1 _ hi]

theorem and3_idem (w : BitVec 64) : (w &&& 3#64) &&& 3#64 = w &&& 3#64 := by rw [BitVec.and_assoc]; rfl

theorem and3_lt (w : BitVec 64) : (w &&& 3#64).toNat < 4 := by
  have := BitVec.toNat_and w 3#64
  rw [this]; exact Nat.lt_of_le_of_lt Nat.and_le_right (by decide)

def tmpR (tmp2 : Bool) : Nat := if tmp2 then TMP_REG2 else TMP_REG1

/-- Post-condition of the address computation of getput_arg. -/
structure AddrOk (tmp : Nat) (b i : Nat) (w : BitVec 64) (r : Cache × Nat × BitVec 64) (c c1 : Core) : Prop where
  only : Only [7#5, regMap tmp] c c1
  cache : CacheOk r.1 c1
  addr : c1.x (regMap r.2.1) + (r.2.2.setWidth 12).signExtend 64 = ea c b i w

theorem tmpR_facts (tmp2 : Bool) : regMap (tmpR tmp2) ≠ 0#5 ∧ regMap (tmpR tmp2) ≠ 7#5 ∧ regMap (tmpR tmp2) ≠ 2#5 ∧
    ∀ r ≤ 24, regMap r ≠ regMap (tmpR tmp2) := by
  cases tmp2 <;> decide +kernel

theorem CacheOk.set {tmp : Nat} (tu : ∀ r ≤ 24, regMap r ≠ regMap tmp) {c c1 : Core} {b i : Nat} {v : BitVec 64}
    (ho : Only [7#5, regMap tmp] c c1) (hb : b ≤ 24) (hi : i ≤ 24) (he : c1.x 7#5 = ea c b i v) :
    CacheOk ⟨some (b, i), v⟩ c1 := by
  intro b' i' h
  simp only [Option.some.injEq, Prod.mk.injEq] at h
  obtain ⟨rfl, rfl⟩ := h
  refine ⟨hb, hi, ?_⟩
  rw [ea_only ho (by simp [tu _ hb, (user_ne hb).2.2.2.1]) (by simp [tu _ hi, (user_ne hi).2.2.2.1]), he]

theorem CacheOk.keep {tmp : Nat} (tu : ∀ r ≤ 24, regMap r ≠ regMap tmp) {c c1 : Core} {k : Cache} (hk : CacheOk k c)
    (ho : Only [7#5, regMap tmp] c c1) (he : c1.x 7#5 = c.x 7#5) : CacheOk k c1 := by
  intro b i h
  obtain ⟨p1, p2, p3⟩ := hk b i h
  refine ⟨p1, p2, ?_⟩
  rw [he, p3, ea_only ho (by simp [tu _ p1, (user_ne p1).2.2.2.1]) (by simp [tu _ p2, (user_ne p2).2.2.2.1])]

theorem Only.refl (W c) : Only W c c := ⟨fun _ _ => rfl, rfl, rfl⟩
theorem Only.wr {W : List Reg} {c c1 : Core} (h : Only W c c1) {r : Reg} (hr : r ∈ W) (v : BitVec 64) : Only W c (c1.wr r v) := by
  refine ⟨fun q hq => ?_, h.2.1, h.2.2⟩
  have : q ≠ r := fun e => hq (e ▸ hr)
  simp [this, h.1 q hq]

theorem getputAddr_idx {cfg : Cfg} {tmp2 : Bool} {k : Cache} {base idx : Nat} {w : BitVec 64}
    {next : Option (Nat × Nat × BitVec 64)} {c : Core} (hb : base ≤ 24) (hi : idx ≤ 24) (h0 : idx ≠ 0) (hk : CacheOk k c) :
    wp (getputAddr cfg tmp2 k base idx w next).1 c (AddrOk (tmpR tmp2) base idx w (getputAddr cfg tmp2 k base idx w next).2 c) := by
  obtain ⟨b1, -, b6, b7, -⟩ := user_ne hb
  obtain ⟨i1, -, i6, i7, -⟩ := user_ne hi
  obtain ⟨t0, t7, t2, tu⟩ := tmpR_facts tmp2
  have t7' := t7.symm
  have tb := tu _ hb
  have ti := tu _ hi
  have h3 := and3_idem w
  have h4 := and3_lt w
  have hea : ea c base idx w = c.x (regMap base) + c.x (regMap idx) <<< (w &&& 3#64).toNat := by simp [ea, h0]
  unfold getputAddr
  simp only [ne_eq, h0, not_false_eq_true, if_true]
  rw [show (if tmp2 = true then TMP_REG2 else TMP_REG1) = tmpR tmp2 from rfl]
  generalize tmpR tmp2 = tmp at *
  have hv3 : ∀ b, ea c b idx (w &&& 3#64) = c.x (regMap b) + c.x (regMap idx) <<< (w &&& 3#64).toNat := by simp [ea, h0, h3]
  generalize hv : w &&& 3#64 = v at *
  generalize nextSame base idx next = nextIs
  generalize nextW next = nextw
  have m7 : (7#5 : Reg) ∈ [7#5, regMap tmp] := by simp
  have mt : regMap tmp ∈ [7#5, regMap tmp] := by simp
  by_cases hz : cfg.zba = true
  · simp only [hz, if_true]
    have hvv : v = 0#64 ∨ v = 1#64 ∨ v = 2#64 ∨ v = 3#64 := by
      have : v.toNat = 0 ∨ v.toNat = 1 ∨ v.toNat = 2 ∨ v.toNat = 3 := by omega
      rcases this with h | h | h | h
      · left; exact BitVec.eq_of_toNat_eq (by simpa using h)
      · right; left; exact BitVec.eq_of_toNat_eq (by simpa using h)
      · right; right; left; exact BitVec.eq_of_toNat_eq (by simpa using h)
      · right; right; right; exact BitVec.eq_of_toNat_eq (by simpa using h)
    have fin : ∀ x, x = ea c base idx w → AddrOk tmp base idx w (k, tmp, 0#64) c (c.wr (regMap tmp) x) := by
      intro x hx
      have ho := (Only.refl [7#5, regMap tmp] c).wr mt x
      exact ⟨ho, hk.keep tu ho (by simp [t7']), by simp [t0, hx]⟩
    rcases hvv with h | h | h | h <;> rw [hea, h] at fin <;> rw [h] <;> wps [] <;> apply fin <;> simp [BitVec.add_comm]
  · simp only [hz, if_false, Bool.false_eq_true]
    by_cases hc1 : v = k.argw ∧ k.arg = some (base, idx)
    · simp only [if_pos hc1, wp_nil]
      refine ⟨Only.refl .., hk, ?_⟩
      have := (hk _ _ hc1.2).2.2
      rw [← hc1.1, hv3] at this
      simp [this, hea]
    · simp only [if_neg hc1]
      by_cases hc2 : v = k.argw ∧ k.arg = some (0, idx)
      · simp only [if_pos hc2]
        have hx := (hk _ _ hc2.2).2.2
        rw [← hc2.1, hv3] at hx
        simp only [rm0, x_zero, BitVec.zero_add] at hx
        split
        · wps []
          have ho := (Only.refl [7#5, regMap tmp] c).wr m7 (c.x 7#5 + c.x (regMap base))
          refine ⟨ho, CacheOk.set tu ho hb hi ?_, ?_⟩
          · rw [hv3]; simp [hx, BitVec.add_comm]
          · rw [hea]; simp [hx, BitVec.add_comm]
        · wps []
          have ho := (Only.refl [7#5, regMap tmp] c).wr mt (c.x (regMap base) + c.x 7#5)
          refine ⟨ho, hk.keep tu ho (by simp [t7']), ?_⟩
          rw [hea]; simp [t0, hx]
      · simp only [if_neg hc2]
        by_cases hv0 : v = 0#64
        · have hea0 : ea c base idx w = c.x (regMap base) + c.x (regMap idx) := by rw [hea, hv0]; simp
          have hv0' : ea c base idx v = c.x (regMap base) + c.x (regMap idx) := by rw [hv3, hv0]; simp
          simp only [hv0, not_true, if_false, if_true]
          rw [hv0] at hv0'
          split
          · wps []
            have ho := (Only.refl [7#5, regMap tmp] c).wr m7 (c.x (regMap base) + c.x (regMap idx))
            exact ⟨ho, CacheOk.set tu ho hb hi (by simp [hv0']), by simp [hea0]⟩
          · wps []
            have ho := (Only.refl [7#5, regMap tmp] c).wr mt (c.x (regMap base) + c.x (regMap idx))
            exact ⟨ho, hk.keep tu ho (by simp [t7']), by simp [hea0, t0]⟩
        · simp only [hv0, not_false_eq_true, if_true, if_false]
          have hs : v.toNat < 64 := by omega
          have hs6 : (v.setWidth 6).toNat = v.toNat := by simp only [BitVec.toNat_setWidth]; omega
          split
          · wps [hs, hs6, b7]
            have ho := ((Only.refl [7#5, regMap tmp] c).wr m7 (c.x (regMap idx) <<< v.toNat)).wr m7 (c.x (regMap base) + c.x (regMap idx) <<< v.toNat)
            exact ⟨ho, CacheOk.set tu ho hb hi (by simp [hv3]), by simp [hea]⟩
          · wps [hs, hs6, b7]
            have ho := ((Only.refl [7#5, regMap tmp] c).wr m7 (c.x (regMap idx) <<< v.toNat)).wr mt (c.x (regMap base) + c.x (regMap idx) <<< v.toNat)
            exact ⟨ho, CacheOk.set tu ho (by decide) hi (by rw [hv3]; simp [t7']), by simp [hea, t0]⟩

theorem getputAddr_disp {cfg : Cfg} {tmp2 : Bool} {k : Cache} {base : Nat} {w : BitVec 64}
    {next : Option (Nat × Nat × BitVec 64)} {c : Core} (hb : base ≤ 24) (hk : CacheOk k c) :
    wp (getputAddr cfg tmp2 k base 0 w next).1 c (AddrOk (tmpR tmp2) base 0 w (getputAddr cfg tmp2 k base 0 w next).2 c) := by
  obtain ⟨b1, -, b6, b7, -⟩ := user_ne hb
  obtain ⟨t0, t7, t2, tu⟩ := tmpR_facts tmp2
  have t7' := t7.symm
  have tb := tu _ hb
  have hea : ea c base 0 w = c.x (regMap base) + w := by simp [ea]
  unfold getputAddr
  simp only [ne_eq, not_true, if_false]
  rw [show (if tmp2 = true then TMP_REG2 else TMP_REG1) = tmpR tmp2 from rfl]
  generalize tmpR tmp2 = tmp at *
  generalize nextSame base 0 next = nextIs
  generalize nextW next = nextw
  have m7 : (7#5 : Reg) ∈ [7#5, regMap tmp] := by simp
  have mt : regMap tmp ∈ [7#5, regMap tmp] := by simp
  by_cases hc1 : k.arg = some (base, 0) ∧ fits12 (w - k.argw) = true
  · simp only [if_pos hc1, wp_nil]
    refine ⟨Only.refl .., hk, ?_⟩
    have := (hk _ _ hc1.1).2.2
    have h2 := sext_sub hc1.2
    simp only [ea, if_true] at this
    simp only [rm27, this, hea]
    rw [BitVec.add_assoc, h2]
  · simp only [if_neg hc1]
    -- the constant in TMP_REG3
    have key : ∀ (e : Emit) (kw off w' : BitVec 64), kw + (off.setWidth 12).signExtend 64 = w →
        (wp e c fun c1 => c1.x 7#5 = kw ∧ Only [7#5, regMap tmp] c c1) →
        ∀ r, r = (if base = 0 then ((e, ⟨some (0, 0), kw⟩, TMP_REG3, off) : Emit × Cache × Nat × BitVec 64)
          else if nextIs = true ∧ fits12 (nextw - w') = true then
            (e ++ w32 (ADD ||| RD TMP_REG3 ||| RS1 TMP_REG3 ||| RS2 base), ⟨some (base, 0), kw⟩, TMP_REG3, off)
          else (e ++ w32 (ADD ||| RD tmp ||| RS1 TMP_REG3 ||| RS2 base), ⟨some (0, 0), kw⟩, tmp, off)) →
        wp r.1 c (AddrOk tmp base 0 w r.2 c) := by
      rintro e kw off w' h1 h2 r rfl
      by_cases hb0 : base = 0
      · subst hb0
        simp only [if_true]
        refine wp_mono h2 ?_
        rintro c1 ⟨h3, h4⟩
        refine ⟨h4, CacheOk.set tu h4 (by decide) (by decide) (by simp [ea, h3]), ?_⟩
        simp [h3, h1, ea]
      · simp only [if_neg hb0]
        split
        · refine wp_append (wp_mono h2 ?_)
          rintro c1 ⟨h3, h4⟩
          have h5 := h4.1 (regMap base) (by simp [b7, tb])
          wps []
          have ho := h4.wr m7 (c1.x 7#5 + c1.x (regMap base))
          refine ⟨ho, CacheOk.set tu ho hb (by decide) (by simp [ea, h3, h5, BitVec.add_comm]), ?_⟩
          rw [hea, ← h1]
          simp [h3, h5]; ac_rfl
        · refine wp_append (wp_mono h2 ?_)
          rintro c1 ⟨h3, h4⟩
          have h5 := h4.1 (regMap base) (by simp [b7, tb])
          wps []
          have ho := h4.wr mt (c1.x 7#5 + c1.x (regMap base))
          refine ⟨ho, CacheOk.set tu ho (by decide) (by decide) (by simp [ea, h3, t7']), ?_⟩
          rw [hea, ← h1]
          simp [t0, h3, h5]; ac_rfl
    by_cases hc2 : k.arg = some (0, 0) ∧ fits12 (w - k.argw) = true
    · simp only [if_pos hc2]
      have hx := (hk _ _ hc2.1).2.2
      exact key [] k.argw (w - k.argw) w (sext_sub hc2.2) (by rw [wp_nil]; exact ⟨by simpa [ea] using hx, Only.refl _ _⟩) _ rfl
    · simp only [if_neg hc2]
      by_cases hc3 : next.isSome = true ∧ fits12 (nextw - w) = true ∧ ¬toArgwHi w = toArgwHi nextw
      · simp only [if_pos hc3]
        exact key _ w 0#64 w (by simp) (wp_loadImm (d := TMP_REG3) (by decide) (by decide) t0 (by rw [rm27]; exact t7')) _ rfl
      · simp only [if_neg hc3]
        exact key _ (toArgwHi w) (w &&& 0xfff#64) (toArgwHi w) (argwHi_add w) (wp_loadImm (d := TMP_REG3) (by decide) (by decide) t0 (by rw [rm27]; exact t7')) _ rfl

theorem getputAddr_ok {cfg : Cfg} {tmp2 : Bool} {k : Cache} {base idx : Nat} {w : BitVec 64}
    {next : Option (Nat × Nat × BitVec 64)} {c : Core} (hb : base ≤ 24) (hi : idx ≤ 24) (hk : CacheOk k c) :
    wp (getputAddr cfg tmp2 k base idx w next).1 c (AddrOk (tmpR tmp2) base idx w (getputAddr cfg tmp2 k base idx w next).2 c) := by
  by_cases h0 : idx = 0
  · subst h0; exact getputAddr_disp hb hk
  · exact getputAddr_idx hb hi h0 hk

/-- A load through getput_arg reads the effective address; TMP_REG3 and one temporary may change before the load. -/
theorem getput_load {cfg : Cfg} {sz : Sz} {sg tmp2 : Bool} {k : Cache} {reg base idx : Nat} {w : BitVec 64}
    {next : Option (Nat × Nat × BitVec 64)} {c : Core} (hb : base ≤ 24) (hi : idx ≤ 24) (hk : CacheOk k c) (hr : regMap reg ≠ 0#5) :
    wp (getputArg cfg (.g sz sg) true tmp2 k reg base idx w next).1 c fun c' => ∃ c1, Only [7#5, regMap (tmpR tmp2)] c c1 ∧
      CacheOk (getputArg cfg (.g sz sg) true tmp2 k reg base idx w next).2 c1 ∧
      c' = c1.wr (regMap reg) ((ldOp sz sg).eval c.mem (ea c base idx w)) := by
  unfold getputArg
  refine wp_append (wp_mono (getputAddr_ok hb hi hk) ?_)
  intro c1 h
  rw [wp_load hr, h.addr, h.only.2.1]
  exact ⟨c1, h.only, h.cache, rfl⟩

theorem getput_store {cfg : Cfg} {sz : Sz} {sg tmp2 : Bool} {k : Cache} {reg base idx : Nat} {w : BitVec 64}
    {next : Option (Nat × Nat × BitVec 64)} {c : Core} (hb : base ≤ 24) (hi : idx ≤ 24) (hk : CacheOk k c)
    (hr : regMap reg ≠ 7#5) (hr' : regMap reg ≠ regMap (tmpR tmp2)) :
    wp (getputArg cfg (.g sz sg) false tmp2 k reg base idx w next).1 c fun c' => ∃ c1, Only [7#5, regMap (tmpR tmp2)] c c1 ∧
      c' = c1.setMem ((stOp sz).eval c.mem (ea c base idx w) (c.x (regMap reg))) := by
  unfold getputArg
  refine wp_append (wp_mono (getputAddr_ok hb hi hk) ?_)
  intro c1 h
  rw [wp_store, h.addr, h.only.2.1, h.only.1 _ (by simp [hr, hr'])]
  exact ⟨c1, h.only, rfl⟩

end Verif.RV
