import Verif.RISCV.Frame
import Verif.RISCV.MemProof
import Verif.RISCV.Op1Proof
import Verif.RISCV.OpMemProof
import Verif.RISCV.Blk
import Mathlib.Data.List.Nodup

/-! # Function frames: helper lemmas -/

namespace Verif.RV

/-! ## Memory -/

theorem st64_out (m : BitVec 64 → BitVec 8) (a v q : BitVec 64) (h : 8 ≤ (q - a).toNat) : st64 m a v q = m q := by
  have n : ∀ k : BitVec 64, k.toNat < 8 → q ≠ a + k := by
    rintro k hk rfl
    have e : a + k - a = k := by rw [BitVec.add_comm, BitVec.add_sub_cancel]
    rw [e] at h
    omega
  have n0 : q ≠ a := by have := n 0#64 (by decide); simpa using this
  simp only [st64, st32, st16, st8, BitVec.add_assoc]
  simp only [BitVec.reduceAdd]
  simp only [if_neg n0, if_neg (n 1#64 (by decide)), if_neg (n 2#64 (by decide)), if_neg (n 3#64 (by decide)), if_neg (n 4#64 (by decide)),
    if_neg (n 5#64 (by decide)), if_neg (n 6#64 (by decide)), if_neg (n 7#64 (by decide))]

theorem ld64_same (m : BitVec 64 → BitVec 8) (a v : BitVec 64) : ld64 (st64 m a v) a = v := by
  have ne : ∀ k l : BitVec 64, k ≠ l → a + k ≠ a + l := by
    intro k l h e; exact h (by simpa using e)
  have ne0 : ∀ k : BitVec 64, k ≠ 0#64 → a ≠ a + k := by
    intro k h e; exact h (by simpa using e.symm)
  simp only [ld64, ld32, ld16, ld8, st64, st32, st16, st8, BitVec.add_assoc]
  simp only [BitVec.reduceAdd]
  simp [ne, ne0]
  bits []

/-- A load depends on eight bytes only. -/
theorem ld64_congr {m m' : BitVec 64 → BitVec 8} {a : BitVec 64} (h : ∀ k < 8, m (a + BitVec.ofNat 64 k) = m' (a + BitVec.ofNat 64 k)) :
    ld64 m a = ld64 m' a := by
  have h0 : m a = m' a := by simpa using h 0 (by decide)
  simp only [ld64, ld32, ld16, ld8, BitVec.add_assoc]
  simp only [BitVec.reduceAdd]
  rw [h0, h 1 (by decide), h 2 (by decide), h 3 (by decide), h 4 (by decide), h 5 (by decide), h 6 (by decide), h 7 (by decide)]

/-- Words stored downward from `a`. -/
def saveTo (m : BitVec 64 → BitVec 8) (a : BitVec 64) : List (BitVec 64) → BitVec 64 → BitVec 8
  | [] => m
  | v :: vs => saveTo (st64 m (a - 8#64) v) (a - 8#64) vs

theorem saveTo_append (m) (a : BitVec 64) (l1 l2 : List (BitVec 64)) :
    saveTo m a (l1 ++ l2) = saveTo (saveTo m a l1) (a - BitVec.ofNat 64 (8 * l1.length)) l2 := by
  induction l1 generalizing m a with
  | nil => simp [saveTo]
  | cons v vs ih =>
    simp only [List.cons_append, saveTo, ih, List.length_cons]
    congr 1
    apply BitVec.eq_of_toNat_eq
    simp only [BitVec.toNat_sub, BitVec.toNat_ofNat]
    omega

/-- Nothing else is written. -/
theorem saveTo_out (m) (a : BitVec 64) (vs : List (BitVec 64)) (hl : 8 * vs.length < 2 ^ 64) (q : BitVec 64)
    (h : 8 * vs.length ≤ (a - 1#64 - q).toNat) : saveTo m a vs q = m q := by
  induction vs generalizing m a with
  | nil => rfl
  | cons v vs ih =>
    simp only [List.length_cons] at h hl
    rw [saveTo, ih _ _ (by omega), st64_out]
    · bv_omega
    · bv_omega

theorem ld_saveTo (m) (a : BitVec 64) (vs : List (BitVec 64)) (hl : 8 * vs.length < 2 ^ 64) (k : Nat) (hk : k < vs.length) :
    ld64 (saveTo m a vs) (a - BitVec.ofNat 64 (8 * (k + 1))) = vs[k] := by
  induction vs generalizing m a k with
  | nil => simp at hk
  | cons v vs ih =>
    simp only [List.length_cons] at hl hk
    rw [saveTo]
    cases k with
    | zero =>
      rw [show a - BitVec.ofNat 64 (8 * (0 + 1)) = a - 8#64 from rfl]
      refine Eq.trans (ld64_congr fun j hj => saveTo_out _ _ _ (by omega) _ ?_) (ld64_same ..)
      simp only [BitVec.toNat_sub, BitVec.toNat_add, BitVec.toNat_ofNat]
      omega
    | succ k =>
      have := ih (st64 m (a - 8#64) v) (a - 8#64) (by omega) k (by omega)
      rw [show a - 8#64 - BitVec.ofNat 64 (8 * (k + 1)) = a - BitVec.ofNat 64 (8 * (k + 1 + 1)) by
        apply BitVec.eq_of_toNat_eq
        simp only [BitVec.toNat_sub, BitVec.toNat_ofNat]
        omega] at this
      rw [this]; rfl

/-! ## Single accesses -/

theorem off_sext {off : Nat} (h : off < 2048) : ((BitVec.ofNat 64 off).setWidth 12).signExtend 64 = BitVec.ofNat 64 off := by
  apply sext12
  unfold Fits12
  have : (BitVec.ofNat 64 off).toInt = off := by
    rw [BitVec.toInt_eq_toNat_of_lt] <;> simp only [BitVec.toNat_ofNat] <;> omega
  rw [this]
  omega

theorem and7 {off : Nat} (h : off % 8 = 0) : BitVec.ofNat 64 off &&& 7#64 = 0#64 := by
  apply BitVec.eq_of_toNat_eq
  rw [BitVec.toNat_and]
  have : (7#64).toNat = 2 ^ 3 - 1 := rfl
  rw [this, Nat.and_two_pow_sub_one_eq_mod]
  simp only [BitVec.toNat_ofNat]
  omega

variable {c : Core} {Q : Core → Prop} {cfg : Cfg} {rest : Emit}

theorem wp_stackStore {r off : Nat} (h8 : off % 8 = 0) (h : off < 2048) :
    wp (stackStore cfg r off ++ rest) c Q ↔ wp rest (c.setMem (st64 c.mem (c.x 2#5 + BitVec.ofNat 64 off) (c.x (regMap r)))) Q := by
  have e : execC (.store .d 2#5 (regMap r) ((BitVec.ofNat 64 off).setWidth 12)) c =
      some (c.setMem (st64 c.mem (c.x 2#5 + BitVec.ofNat 64 off) (c.x (regMap r)))) := by
    simp only [execC, execS, Option.map_some, st_rd, off_sext h]
    exact congrArg some (Core.ext' (funext fun q => st_rd c q) rfl rfl)
  unfold stackStore
  rw [wp_ite_s]
  split
  · rename_i hc
    refine wp_step16 ?_ rfl e
    rw [BitVec.or_assoc, BitVec.or_comm (C_ST64_SP _), ← BitVec.or_assoc]
    exact dec_C_SDSP _ _ (by simp only [BitVec.toNat_ofNat]; omega) (and7 h8)
  · exact wp_step32 (dec_SD ..) rfl e

theorem wp_stackFStore {r off : Nat} (h8 : off % 8 = 0) (h : off < 2048) :
    wp (stackFStore cfg r off ++ rest) c Q ↔ wp rest (c.setMem (st64 c.mem (c.x 2#5 + BitVec.ofNat 64 off) (c.f (fregMap r)))) Q := by
  have e : execC (.fsd 2#5 (fregMap r) ((BitVec.ofNat 64 off).setWidth 12)) c =
      some (c.setMem (st64 c.mem (c.x 2#5 + BitVec.ofNat 64 off) (c.f (fregMap r)))) := by
    simp only [execC, execS, Option.map_some, st_rd, off_sext h]
    exact congrArg some (Core.ext' (funext fun q => st_rd c q) rfl rfl)
  unfold stackFStore
  rw [wp_ite_s]
  split
  · rename_i hc
    exact wp_step16 (dec_C_FSDSP _ _ (by simp only [BitVec.toNat_ofNat]; omega) (and7 h8)) rfl e
  · exact wp_step32 (dec_FSD ..) rfl e

theorem wp_stackLoad {r off : Nat} (h8 : off % 8 = 0) (h : off < 2048) (hr : regMap r ≠ 0#5) :
    wp (stackLoad cfg r off ++ rest) c Q ↔ wp rest (c.wr (regMap r) (ld64 c.mem (c.x 2#5 + BitVec.ofNat 64 off))) Q := by
  have e : execC (.load .d (regMap r) 2#5 ((BitVec.ofNat 64 off).setWidth 12)) c =
      some (c.wr (regMap r) (ld64 c.mem (c.x 2#5 + BitVec.ofNat 64 off))) := by
    simp only [execC, execS, Option.map_some, st_rd, off_sext h, core_wr, core_st]
    rfl
  unfold stackLoad
  rw [wp_ite_s]
  split
  · rename_i hc
    refine wp_step16 ?_ rfl e
    rw [BitVec.or_assoc, BitVec.or_comm (C_LD64_SP _), ← BitVec.or_assoc]
    exact dec_C_LDSP _ _ hr (by simp only [BitVec.toNat_ofNat]; omega) (and7 h8)
  · exact wp_step32 (dec_LD ..) rfl e

theorem dec_FLD (d a : Nat) (i : BitVec 64) :
    decode32 (FLD ||| FRD d ||| RS1 a ||| IMM_I i) = some (.fld (fregMap d) (regMap a) (i.setWidth 12)) := by
  have := dec_fload d a i .double rfl
  rw [BitVec.or_assoc, BitVec.or_assoc, BitVec.or_comm (FRD d), BitVec.or_assoc, BitVec.or_comm (IMM_I i), ← BitVec.or_assoc]
  exact this

theorem wp_stackFLoad {r off : Nat} (h8 : off % 8 = 0) (h : off < 2048) :
    wp (stackFLoad cfg r off ++ rest) c Q ↔ wp rest (c.wrf (fregMap r) (ld64 c.mem (c.x 2#5 + BitVec.ofNat 64 off))) Q := by
  have e : execC (.fld (fregMap r) 2#5 ((BitVec.ofNat 64 off).setWidth 12)) c =
      some (c.wrf (fregMap r) (ld64 c.mem (c.x 2#5 + BitVec.ofNat 64 off))) := by
    simp only [execC, execS, Option.map_some, st_rd, off_sext h]
    exact congrArg some (Core.ext' (funext fun q => st_rd c q) rfl rfl)
  unfold stackFLoad
  rw [wp_ite_s]
  split
  · rename_i hc
    exact wp_step16 (dec_C_FLDSP _ _ (by simp only [BitVec.toNat_ofNat]; omega) (and7 h8)) rfl e
  · exact wp_step32 (dec_FLD ..) rfl e

/-! ## Stack pointer -/

theorem dec_sub16 (k : Fin 32) :
    decode16 (C_ADDI16SP ||| (imm16sp (-(BitVec.ofNat 16 (16 * (k + 1)))) ||| 0x1000#16)) =
      some (.opi .add 2#5 2#5 (-(BitVec.ofNat 12 (16 * (k + 1))))) := by
  revert k; decide +kernel

theorem dec_add16 (k : Fin 31) :
    decode16 (C_ADDI16SP ||| imm16sp (BitVec.ofNat 16 (16 * (k + 1)))) = some (.opi .add 2#5 2#5 (BitVec.ofNat 12 (16 * (k + 1)))) := by
  revert k; decide +kernel

theorem toInt_ofNat {n : Nat} (h : n < 2 ^ 63) : (BitVec.ofNat 64 n).toInt = n := by
  rw [BitVec.toInt_eq_toNat_of_lt] <;> simp only [BitVec.toNat_ofNat] <;> omega

theorem sext_neg {n : Nat} (h0 : 0 < n) (h : n ≤ 2048) : ((-(BitVec.ofNat 64 n)).setWidth 12).signExtend 64 = -(BitVec.ofNat 64 n) := by
  apply sext12
  unfold Fits12
  rw [BitVec.toInt_neg, toInt_ofNat (by omega)]
  rw [Int.bmod_eq_of_le] <;> omega

theorem sext_neg12 {n : Nat} (h0 : 0 < n) (h : n ≤ 2048) : (-(BitVec.ofNat 12 n)).signExtend 64 = -(BitVec.ofNat 64 n) := by
  rw [← sext_neg h0 h]
  congr 1
  apply BitVec.eq_of_toNat_eq
  simp only [BitVec.toNat_neg, BitVec.toNat_ofNat, BitVec.toNat_setWidth]
  omega

theorem sext_pos12 {n : Nat} (h : n < 2048) : (BitVec.ofNat 12 n).signExtend 64 = BitVec.ofNat 64 n := by
  rw [← off_sext h]
  congr 1
  apply BitVec.eq_of_toNat_eq
  simp only [BitVec.toNat_ofNat, BitVec.toNat_setWidth]
  omega

theorem wp_enterSp {n : Nat} (h0 : 0 < n) (h16 : n % 16 = 0) :
    wp (enterSp cfg n) c fun c1 => c1.x 2#5 = c.x 2#5 - BitVec.ofNat 64 (enterTop n) ∧
      (4096 < n → c1.x 6#5 = BitVec.ofNat 64 (n - 2048)) ∧ Only [2#5, 6#5, 7#5] c c1 := by
  unfold enterSp enterTop
  by_cases h1 : n ≤ 2048
  · rw [if_pos h1, if_pos h1]
    rw [wp_ite]
    split
    · rename_i hc
      have e := dec_sub16 ⟨n / 16 - 1, by omega⟩
      have en : 16 * (n / 16 - 1 + 1) = n := by omega
      simp only [en] at e
      refine (wp_step16' (c1 := c.wr 2#5 (c.x 2#5 - BitVec.ofNat 64 n)) e rfl ?_).2 ?_
      · simp only [execC, execS, IOp.eval, sext_neg12 h0 h1, core_wr, core_st, st_rd, Option.map_some, BitVec.sub_eq_add_neg]
      refine ⟨?_, fun _ => by omega, Only.wr (Only.refl _ _) (by simp) _⟩
      simp
    · rw [wp_ADDI]
      refine ⟨?_, fun _ => by omega, Only.wr (Only.refl _ _) (by simp [rm24]) _⟩
      simp only [IOp.eval, sext_neg h0 h1, x_wr, rm24, BitVec.sub_eq_add_neg]
      rfl
  · rw [if_neg h1, if_neg h1, wp_ADDI_s]
    have e2 : ((2048#64).setWidth 12).signExtend 64 = -(2048#64) := by decide
    have hx : (c.wr (regMap SLJIT_SP) (IOp.add.eval (c.x (regMap SLJIT_SP)) ((2048#64).setWidth 12))).x 2#5 =
        c.x 2#5 - 2048#64 := by
      simp only [IOp.eval, e2, x_wr, rm24, BitVec.sub_eq_add_neg]
      rfl
    split
    · refine wp_mono (wp_loadImm (by decide) (by decide) (by decide) (by decide)) fun c1 h => ?_
      obtain ⟨h2, h3⟩ := h
      refine ⟨?_, fun _ => h2, ?_⟩
      · rw [h3.1 2#5 (by decide), hx]
      · exact (Only.wr (Only.refl _ _) (by simp [rm24]) _).trans (h3.mono (by simp [rm25, rm27]))
    · rw [wp_nil]
      exact ⟨hx, fun _ => by omega, Only.wr (Only.refl _ _) (by simp [rm24]) _⟩

theorem wp_enterSp2 {n : Nat} (h6 : 4096 < n → c.x 6#5 = BitVec.ofNat 64 (n - 2048)) :
    wp (enterSp2 n) c fun c1 => c1.x 2#5 = c.x 2#5 - BitVec.ofNat 64 (n - enterTop n) ∧ Only [2#5] c c1 := by
  unfold enterSp2 enterTop
  split
  · rw [wp_nil]; simp [Only.refl]
  · split
    · rw [wp_SUB]
      refine ⟨?_, Only.wr (Only.refl _ _) (by simp [rm24]) _⟩
      simp only [ROp.eval, x_wr, rm24, rm25, h6 (by omega)]
      rfl
    · rw [wp_ADDI]
      refine ⟨?_, Only.wr (Only.refl _ _) (by simp [rm24]) _⟩
      simp only [IOp.eval, sext_neg (n := n - 2048) (by omega) (by omega), x_wr, rm24, BitVec.sub_eq_add_neg]
      rfl

theorem wp_releaseSp {n : Nat} :
    wp (releaseSp cfg n) c fun c1 => c1.x 2#5 = c.x 2#5 + BitVec.ofNat 64 (n - releaseTop n) ∧ Only [2#5, 1#5, 7#5] c c1 := by
  unfold releaseSp releaseTop
  split
  · split
    · refine wp_append (wp_mono (wp_loadImm (by decide) (by decide) (by decide) (by decide)) fun c1 h => ?_)
      obtain ⟨h2, h3⟩ := h
      rw [wp_ADD]
      refine ⟨?_, Only.wr (h3.mono (by simp [rm26, rm27])) (by simp [rm24]) _⟩
      have := h3.1 2#5 (by decide)
      simp only [ROp.eval, x_wr, rm24, this, h2]
      rfl
    · rw [wp_ADDI]
      refine ⟨?_, Only.wr (Only.refl _ _) (by simp [rm24]) _⟩
      simp only [IOp.eval, off_sext (off := n - 2032) (by omega), x_wr, rm24]
      rfl
  · rw [wp_nil]; simp [Only.refl]

theorem wp_releaseSp2 {n : Nat} (h0 : 0 < n) (h16 : n % 16 = 0) (hn : n < 2048) :
    wp (releaseSp2 cfg n) c fun c1 => c1 = c.wr 2#5 (c.x 2#5 + BitVec.ofNat 64 n) := by
  unfold releaseSp2
  rw [wp_ite]
  split
  · have e := dec_add16 ⟨n / 16 - 1, by omega⟩
    have en : 16 * (n / 16 - 1 + 1) = n := by omega
    simp only [en] at e
    refine (wp_step16' e rfl (by wpr)).2 ?_
    simp only [IOp.eval, sext_pos12 hn, core_wr, core_st, st_rd]
  · rw [wp_ADDI]
    simp only [IOp.eval, off_sext hn, rm24]

/-! ## Loops -/

theorem wp_saveRegs (rs : List Nat) (off : Nat) (h8 : off % 8 = 0) (h : off ≤ 2048) (hl : 8 * rs.length ≤ off) :
    wp (slots (stackStore cfg) rs off) c fun c1 =>
      c1 = c.setMem (saveTo c.mem (c.x 2#5 + BitVec.ofNat 64 off) (rs.map fun r => c.x (regMap r))) := by
  induction rs generalizing c off with
  | nil => rw [slots, wp_nil]; rfl
  | cons r rs ih =>
    simp only [List.length_cons] at hl
    rw [slots, wp_stackStore (by omega) (by omega)]
    refine wp_mono (ih (off - 8) (by omega) (by omega) (by omega)) fun c1 h1 => ?_
    have e : c.x 2#5 + BitVec.ofNat 64 (off - 8) = c.x 2#5 + BitVec.ofNat 64 off - 8#64 := by
      apply BitVec.eq_of_toNat_eq
      simp only [BitVec.toNat_sub, BitVec.toNat_add, BitVec.toNat_ofNat]
      omega
    rw [h1]
    simp only [List.map_cons, saveTo, ← e]
    rfl

theorem wp_saveFRegs (rs : List Nat) (off : Nat) (h8 : off % 8 = 0) (h : off ≤ 2048) (hl : 8 * rs.length ≤ off) :
    wp (slots (stackFStore cfg) rs off) c fun c1 =>
      c1 = c.setMem (saveTo c.mem (c.x 2#5 + BitVec.ofNat 64 off) (rs.map fun r => c.f (fregMap r))) := by
  induction rs generalizing c off with
  | nil => rw [slots, wp_nil]; rfl
  | cons r rs ih =>
    simp only [List.length_cons] at hl
    rw [slots, wp_stackFStore (by omega) (by omega)]
    refine wp_mono (ih (off - 8) (by omega) (by omega) (by omega)) fun c1 h1 => ?_
    have e : c.x 2#5 + BitVec.ofNat 64 (off - 8) = c.x 2#5 + BitVec.ofNat 64 off - 8#64 := by
      apply BitVec.eq_of_toNat_eq
      simp only [BitVec.toNat_sub, BitVec.toNat_add, BitVec.toNat_ofNat]
      omega
    rw [h1]
    simp only [List.map_cons, saveTo, ← e]
    rfl

theorem wp_loadRegs (rs : List Nat) (off : Nat) (h8 : off % 8 = 0) (h : off ≤ 2048) (hl : 8 * rs.length ≤ off)
    (hr : ∀ r ∈ rs, regMap r ≠ 0#5 ∧ regMap r ≠ 2#5) (hd : (rs.map regMap).Nodup) :
    wp (slots (stackLoad cfg) rs off) c fun c1 => Only (rs.map regMap) c c1 ∧
      ∀ k (hk : k < rs.length), c1.x (regMap rs[k]) = ld64 c.mem (c.x 2#5 + BitVec.ofNat 64 off - BitVec.ofNat 64 (8 * (k + 1))) := by
  induction rs generalizing c off with
  | nil => rw [slots, wp_nil]; exact ⟨Only.refl _ _, fun k hk => by simp at hk⟩
  | cons r rs ih =>
    simp only [List.length_cons] at hl
    have hr0 := hr r (by simp)
    rw [slots, wp_stackLoad (by omega) (by omega) hr0.1]
    simp only [List.map_cons, List.nodup_cons] at hd
    refine wp_mono (ih (off - 8) (by omega) (by omega) (by omega) (fun q hq => hr q (by simp [hq])) hd.2) fun c1 h1 => ?_
    obtain ⟨h1, h2⟩ := h1
    have hx2 : (c.wr (regMap r) (ld64 c.mem (c.x 2#5 + BitVec.ofNat 64 (off - 8)))).x 2#5 = c.x 2#5 := by
      simp [hr0.2.symm]
    refine ⟨(Only.wr (Only.refl _ _) (by simp) _).trans (h1.mono fun q hq => by simp at hq ⊢; exact Or.inr hq), fun k hk => ?_⟩
    cases k with
    | zero =>
      simp only [List.getElem_cons_zero]
      rw [h1.1 _ hd.1, x_wr, if_pos ⟨rfl, hr0.1⟩]
      congr 1
      apply BitVec.eq_of_toNat_eq
      simp only [BitVec.toNat_sub, BitVec.toNat_add, BitVec.toNat_ofNat]
      omega
    | succ k =>
      simp only [List.getElem_cons_succ]
      have := h2 k (by simpa using hk)
      rw [this, hx2]
      congr 1
      apply BitVec.eq_of_toNat_eq
      simp only [BitVec.toNat_sub, BitVec.toNat_add, BitVec.toNat_ofNat]
      omega

theorem wp_loadFRegs (rs : List Nat) (off : Nat) (h8 : off % 8 = 0) (h : off ≤ 2048) (hl : 8 * rs.length ≤ off)
    (hd : (rs.map fregMap).Nodup) :
    wp (slots (stackFLoad cfg) rs off) c fun c1 => (c1.x = c.x ∧ c1.mem = c.mem ∧ ∀ q, q ∉ rs.map fregMap → c1.f q = c.f q) ∧
      ∀ k (hk : k < rs.length), c1.f (fregMap rs[k]) = ld64 c.mem (c.x 2#5 + BitVec.ofNat 64 off - BitVec.ofNat 64 (8 * (k + 1))) := by
  induction rs generalizing c off with
  | nil => rw [slots, wp_nil]; exact ⟨⟨rfl, rfl, fun _ _ => rfl⟩, fun k hk => by simp at hk⟩
  | cons r rs ih =>
    simp only [List.length_cons] at hl
    rw [slots, wp_stackFLoad (by omega) (by omega)]
    simp only [List.map_cons, List.nodup_cons] at hd
    refine wp_mono (ih (off - 8) (by omega) (by omega) (by omega) hd.2) fun c1 h1 => ?_
    obtain ⟨⟨g1, g2, g3⟩, h2⟩ := h1
    refine ⟨⟨g1, g2, fun q hq => ?_⟩, fun k hk => ?_⟩
    · simp only [List.map_cons, List.mem_cons, not_or] at hq
      rw [g3 q hq.2]
      simp [Core.wrf, hq.1]
    cases k with
    | zero =>
      simp only [List.getElem_cons_zero]
      rw [g3 _ hd.1]
      simp only [Core.wrf, if_true]
      congr 1
      apply BitVec.eq_of_toNat_eq
      simp only [BitVec.toNat_sub, BitVec.toNat_add, BitVec.toNat_ofNat]
      omega
    | succ k =>
      simp only [List.getElem_cons_succ]
      have := h2 k (by simpa using hk)
      rw [this]
      change ld64 c.mem (c.x 2#5 + _ - _) = _
      congr 1
      apply BitVec.eq_of_toNat_eq
      simp only [BitVec.toNat_sub, BitVec.toNat_add, BitVec.toNat_ofNat]
      omega

/-! ## Frame shapes -/

/-- What check_sljit_emit_enter (sljitLir.c:1413-1448) is meant to accept. -/
structure Frame.Ok (p : Frame) : Prop where
  kept : p.kept ≤ 3
  keptSav : p.kept ≤ p.sav
  sav : p.sav ≤ 12
  regs : p.scr + p.sav ≤ 23
  fsav : p.fsav ≤ 12
  fregs : p.fscr + p.fsav ≤ 30
  locals : p.locals ≤ 1048576

theorem mem_down {hi lo r : Nat} (h : 1 ≤ lo) : r ∈ down hi lo ↔ lo ≤ r ∧ r ≤ hi := by
  simp only [down, List.mem_map, List.mem_range]
  constructor
  · rintro ⟨a, h1, rfl⟩; omega
  · rintro ⟨h1, h2⟩; exact ⟨hi - r, by omega, by omega⟩

theorem length_down (hi lo : Nat) : (down hi lo).length = hi + 1 - lo := by simp [down]

theorem nodup_down (hi lo : Nat) (h : 1 ≤ lo) : (down hi lo).Nodup := by
  unfold down
  apply List.Nodup.map_on _ List.nodup_range
  intro a ha b hb e
  simp only [List.mem_range] at ha hb
  omega

namespace Frame
variable {p : Frame}

theorem mem_regs (h : p.Ok) {r : Nat} : r ∈ p.regs ↔ (23 - p.sav < r ∧ r ≤ 23 - p.kept) ∨ (12 ≤ r ∧ r ≤ p.scr) := by
  have := h.sav
  simp only [Frame.regs, List.mem_append, mem_down (Nat.le_add_left 1 _)]
  have : SLJIT_S0 = 23 := rfl
  omega

theorem mem_fregs (h : p.Ok) {r : Nat} : r ∈ p.fregs ↔ (30 - p.fsav < r ∧ r ≤ 30) ∨ (19 ≤ r ∧ r ≤ p.fscr) := by
  have := h.fsav
  simp only [Frame.fregs, List.mem_append, mem_down (Nat.le_add_left 1 _)]
  simp only [SLJIT_FS0]
  omega

theorem regs_range (h : p.Ok) {r : Nat} (hr : r ∈ p.regs) : 12 ≤ r ∧ r ≤ 23 := by
  have := h.sav; have := h.regs
  rw [mem_regs h] at hr
  omega

theorem fregs_range (h : p.Ok) {r : Nat} (hr : r ∈ p.fregs) : 19 ≤ r ∧ r ≤ 30 := by
  have := h.fsav; have := h.fregs
  rw [mem_fregs h] at hr
  omega

theorem length_regs (h : p.Ok) : p.regs.length = (p.sav - p.kept) + (p.scr - 11) := by
  have := h.sav; have := h.keptSav
  have : SLJIT_S0 = 23 := rfl
  simp only [Frame.regs, List.length_append, length_down, FIRST_SAVED_REG]
  omega

theorem length_fregs (h : p.Ok) : p.fregs.length = p.fsav + (p.fscr - 18) := by
  have := h.fsav
  simp only [Frame.fregs, List.length_append, length_down, FIRST_SAVED_FREG, SLJIT_FS0]
  omega

theorem nodup_regs (h : p.Ok) : p.regs.Nodup := by
  have := h.sav; have := h.regs
  refine List.nodup_append.2 ⟨nodup_down _ _ (by omega), nodup_down _ _ (by decide), fun a ha b hb e => ?_⟩
  subst e
  rw [mem_down (by omega)] at ha
  rw [mem_down (by decide)] at hb
  have e : SLJIT_S0 = 23 := rfl
  simp only [FIRST_SAVED_REG, e] at *
  omega

theorem nodup_fregs (h : p.Ok) : p.fregs.Nodup := by
  have := h.fsav; have := h.fregs
  refine List.nodup_append.2 ⟨nodup_down _ _ (by omega), nodup_down _ _ (by decide), fun a ha b hb e => ?_⟩
  subst e
  rw [mem_down (by omega)] at ha
  rw [mem_down (by decide)] at hb
  simp only [FIRST_SAVED_FREG, SLJIT_FS0] at *
  omega

theorem nodup_regMap (h : p.Ok) : (p.regs.map regMap).Nodup :=
  List.Nodup.map_on (fun a ha b hb e => rm_inj _ (by have := regs_range h ha; omega) _ (by have := regs_range h hb; omega) e) (nodup_regs h)

theorem frm_inj : ∀ a, a ≤ 32 → 1 ≤ a → ∀ b, b ≤ 32 → 1 ≤ b → fregMap a = fregMap b → a = b := by decide +kernel

theorem nodup_fregMap (h : p.Ok) : (p.fregs.map fregMap).Nodup :=
  List.Nodup.map_on (fun a ha b hb e => by
    have h1 := fregs_range h ha
    have h2 := fregs_range h hb
    exact frm_inj a (by omega) (by omega) b (by omega) (by omega) e) (nodup_fregs h)

theorem total_16 : p.total % 16 = 0 := by unfold Frame.total; omega

theorem total_ge (h : p.Ok) : p.locals + 8 * (p.regs.length + 1 + p.fregs.length) ≤ p.total := by
  rw [length_regs h, length_fregs h]
  unfold Frame.total
  split <;> split <;> omega

theorem total_lt (h : p.Ok) : p.total < p.locals + 8 * (p.regs.length + 1 + p.fregs.length) + 16 := by
  rw [length_regs h, length_fregs h]
  unfold Frame.total
  split <;> split <;> omega

theorem size_le (h : p.Ok) : p.regs.length ≤ 12 ∧ p.fregs.length ≤ 12 := by
  rw [length_regs h, length_fregs h]
  have := h.regs; have := h.sav; have := h.fregs; have := h.fsav
  omega

/-- The saved values in the order of their slots, downward from the stack pointer at entry. -/
def saved (p : Frame) (c : Core) : List (BitVec 64) :=
  c.x 1#5 :: (p.regs.map (fun r => c.x (regMap r)) ++ p.fregs.map fun r => c.f (fregMap r))

theorem length_saved (c : Core) : (p.saved c).length = p.regs.length + 1 + p.fregs.length := by simp [saved]; omega

end Frame

theorem sav_ne {r : Nat} (h : 12 ≤ r) (h2 : r ≤ 23) : regMap r ≠ 0#5 ∧ regMap r ≠ 1#5 ∧ regMap r ≠ 2#5 ∧ regMap r ≠ 6#5 ∧ regMap r ≠ 7#5 := by
  revert h; revert r; decide +kernel

/-- sljit_emit_enter in front of the argument moves. -/
theorem wp_enterSave {p : Frame} (h : p.Ok) :
    wp (enterSp cfg p.total ++
      (slots (stackStore cfg) (TMP_REG2 :: p.regs) (enterTop p.total) ++
      (slots (stackFStore cfg) p.fregs (enterTop p.total - 8 * (p.regs.length + 1)) ++ enterSp2 p.total))) c fun c1 =>
      c1.x 2#5 = c.x 2#5 - BitVec.ofNat 64 p.total ∧ c1.mem = saveTo c.mem (c.x 2#5) (p.saved c) ∧ c1.f = c.f ∧
      ∀ q, q ≠ 2#5 → q ≠ 6#5 → q ≠ 7#5 → c1.x q = c.x q := by
  have t16 := Frame.total_16 (p := p)
  have tge := Frame.total_ge h
  have hs := Frame.size_le h
  have htop : enterTop p.total ≤ 2048 ∧ enterTop p.total % 8 = 0 ∧ 8 * (p.regs.length + 1 + p.fregs.length) ≤ enterTop p.total ∧
      enterTop p.total ≤ p.total := by
    unfold enterTop; split <;> omega
  obtain ⟨t1, t2, t3, t4⟩ := htop
  refine wp_append (wp_mono (wp_enterSp (by omega) t16) fun c1 g => ?_)
  obtain ⟨g1, g2, g3⟩ := g
  refine wp_append (wp_mono (wp_saveRegs _ _ t2 t1 (by simp only [List.length_cons]; omega)) fun c2 g => ?_)
  subst g
  refine wp_append (wp_mono (wp_saveFRegs _ _ (by omega) (by omega) (by omega)) fun c3 g => ?_)
  subst g
  refine wp_mono (wp_enterSp2 (n := p.total) (c := Core.setMem _ _) g2) fun c4 g => ?_
  obtain ⟨k1, k2⟩ := g
  refine ⟨?_, ?_, ?_, fun q q2 q6 q7 => ?_⟩
  · rw [k1]
    change c1.x 2#5 - _ = _
    rw [g1]
    apply BitVec.eq_of_toNat_eq
    simp only [BitVec.toNat_sub, BitVec.toNat_ofNat]
    omega
  · rw [k2.2.1]
    change saveTo (saveTo c1.mem _ _) _ _ = _
    rw [Frame.saved, ← List.cons_append, saveTo_append]
    have e1 : c1.x 2#5 + BitVec.ofNat 64 (enterTop p.total) = c.x 2#5 := by
      rw [g1, BitVec.sub_add_cancel]
    have e2 : (TMP_REG2 :: p.regs).map (fun r => c1.x (regMap r)) = c.x 1#5 :: p.regs.map fun r => c.x (regMap r) := by
      rw [List.map_cons, rm26, g3.1 1#5 (by decide)]
      congr 1
      apply List.map_congr_left
      intro r hr
      have := Frame.regs_range h hr
      have := sav_ne this.1 this.2
      exact g3.1 _ (by simp [this])
    have e3 : (p.fregs.map fun r => (c1.setMem (saveTo c1.mem (c1.x 2#5 + BitVec.ofNat 64 (enterTop p.total))
        ((TMP_REG2 :: p.regs).map (fun r => c1.x (regMap r))))).f (fregMap r)) = p.fregs.map fun r => c.f (fregMap r) := by
      apply List.map_congr_left
      intro r _
      change c1.f _ = _
      rw [g3.2.2]
    rw [e3, e2, e1, g3.2.1]
    congr 1
    change c1.x 2#5 + _ = _
    rw [g1]
    simp only [List.length_cons, List.length_map]
    apply BitVec.eq_of_toNat_eq
    simp only [BitVec.toNat_sub, BitVec.toNat_add, BitVec.toNat_ofNat]
    omega
  · rw [k2.2.2]; exact g3.2.2
  · rw [k2.1 q (by simp [q2])]
    exact g3.1 q (by simp [q2, q6, q7])

/-- emit_stack_frame_release. -/
theorem wp_release {p : Frame} (h : p.Ok) (rt : Bool) (sp : BitVec 64) (hsp : c.x 2#5 = sp - BitVec.ofNat 64 p.total) :
    wp (emitRelease cfg p rt) c fun c1 => c1.x 2#5 = sp ∧ c1.mem = c.mem ∧
      (rt = false → c1.x 1#5 = ld64 c.mem (sp - 8#64)) ∧
      (∀ k (hk : k < p.regs.length), c1.x (regMap p.regs[k]) = ld64 c.mem (sp - BitVec.ofNat 64 (8 * (k + 2)))) ∧
      (∀ k (hk : k < p.fregs.length), c1.f (fregMap p.fregs[k]) = ld64 c.mem (sp - BitVec.ofNat 64 (8 * (p.regs.length + k + 2)))) ∧
      (∀ q, q ≠ 1#5 → q ≠ 2#5 → q ≠ 7#5 → q ∉ p.regs.map regMap → c1.x q = c.x q) ∧
      (∀ q, q ∉ p.fregs.map fregMap → c1.f q = c.f q) := by
  have t16 := Frame.total_16 (p := p)
  have tge := Frame.total_ge h
  have hs := Frame.size_le h
  have htop : 0 < releaseTop p.total ∧ releaseTop p.total < 2048 ∧ releaseTop p.total % 16 = 0 ∧
      8 * (p.regs.length + 1 + p.fregs.length) ≤ releaseTop p.total ∧ releaseTop p.total ≤ p.total := by
    unfold releaseTop; split <;> omega
  obtain ⟨t0, t1, t2, t3, t4⟩ := htop
  have nd := Frame.nodup_regMap h
  have hrr : ∀ r ∈ p.regs, regMap r ≠ 0#5 ∧ regMap r ≠ 1#5 ∧ regMap r ≠ 2#5 ∧ regMap r ≠ 6#5 ∧ regMap r ≠ 7#5 := fun r hr => by
    have := Frame.regs_range h hr
    exact sav_ne this.1 this.2
  refine wp_append (wp_mono wp_releaseSp fun c1 g => ?_)
  obtain ⟨g1, g2⟩ := g
  have s1 : c1.x 2#5 = sp - BitVec.ofNat 64 (releaseTop p.total) := by
    rw [g1, hsp]
    apply BitVec.eq_of_toNat_eq
    simp only [BitVec.toNat_sub, BitVec.toNat_add, BitVec.toNat_ofNat]
    omega
  have ra : wp (if rt = true then [] else stackLoad cfg TMP_REG2 (releaseTop p.total - 8)) c1 fun c2 =>
      (rt = false → c2.x 1#5 = ld64 c.mem (sp - 8#64)) ∧ Only [1#5] c1 c2 := by
    cases rt with
    | true => rw [if_pos rfl, wp_nil]; exact ⟨fun e => (by cases e), Only.refl _ _⟩
    | false =>
      rw [if_neg (by decide), ← List.append_nil (stackLoad ..), wp_stackLoad (by omega) (by omega) (by decide), wp_nil]
      refine ⟨fun _ => ?_, Only.wr (Only.refl _ _) (by simp [rm26]) _⟩
      rw [rm26, x_wr, if_pos ⟨rfl, by decide⟩, g2.2.1]
      congr 1
      rw [s1]
      apply BitVec.eq_of_toNat_eq
      simp only [BitVec.toNat_sub, BitVec.toNat_add, BitVec.toNat_ofNat]
      omega
  refine wp_append (wp_mono ra fun c2 g => ?_)
  obtain ⟨k1, k2⟩ := g
  have s2 : c2.x 2#5 = sp - BitVec.ofNat 64 (releaseTop p.total) := by rw [k2.1 2#5 (by decide), s1]
  have m2 : c2.mem = c.mem := k2.2.1.trans g2.2.1
  refine wp_append (wp_mono (wp_loadRegs _ _ (by omega) (by omega) (by omega) (fun r hr => ⟨(hrr r hr).1, (hrr r hr).2.2.1⟩) nd) fun c3 g => ?_)
  obtain ⟨l1, l2⟩ := g
  have s3 : c3.x 2#5 = sp - BitVec.ofNat 64 (releaseTop p.total) := by
    rw [l1.1 2#5 ?_, s2]
    simp only [List.mem_map, not_exists, not_and]
    exact fun r hr e => (hrr r hr).2.2.1 e
  refine wp_append (wp_mono (wp_loadFRegs _ _ (by omega) (by omega) (by omega) (Frame.nodup_fregMap h)) fun c4 g => ?_)
  obtain ⟨⟨n1, n2, n3⟩, n4⟩ := g
  refine wp_mono (wp_releaseSp2 t0 t2 t1) fun c5 g => ?_
  subst g
  refine ⟨?_, ?_, fun e => ?_, fun k hk => ?_, fun k hk => ?_, fun q q1 q2 q7 qr => ?_, fun q hq => ?_⟩
  · rw [x_wr, if_pos ⟨rfl, by decide⟩, n1, s3, BitVec.sub_add_cancel]
  · exact n2.trans (l1.2.1.trans m2)
  · rw [x_wr, if_neg (by decide), n1, l1.1 1#5 ?_, k1 e]
    simp only [List.mem_map, not_exists, not_and]
    exact fun r hr e => (hrr r hr).2.1 e
  · rw [x_wr, if_neg (fun e => (hrr _ (List.getElem_mem hk)).2.2.1 e.1), n1, l2 k hk, m2, s2]
    congr 1
    apply BitVec.eq_of_toNat_eq
    simp only [BitVec.toNat_sub, BitVec.toNat_add, BitVec.toNat_ofNat]
    omega
  · change c4.f _ = _
    rw [n4 k hk, l1.2.1, m2, s3]
    congr 1
    apply BitVec.eq_of_toNat_eq
    simp only [BitVec.toNat_sub, BitVec.toNat_add, BitVec.toNat_ofNat]
    omega
  · rw [x_wr, if_neg (fun e => q2 e.1), n1, l1.1 q qr, k2.1 q (by simp [q1]), g2.1 q (by simp [q1, q2, q7])]
  · change c4.f _ = _
    rw [n3 q hq, l1.2.2, k2.2.2, g2.2.2]

/-! ## Arguments -/

/-- One argument descriptor of four bits is a word (`Sum.inl`, with SLJIT_ARG_TYPE_SCRATCH_REG or not) or a float. -/
def isWordT (t : Nat) : Bool := decide (t % 8 < 4)
def isSavedT (t : Nat) : Bool := decide (t % 8 < 4) && decide (t / 8 % 2 = 0)

/-- Descriptors packed from the lowest bits up. -/
def packArgs : List Nat → Nat
  | [] => 0
  | t :: ts => t + 16 * packArgs ts

theorem wp_argMoves (ts : List Nat) (h0 : ∀ t ∈ ts, 0 < t ∧ t < 16) (w0 s0 : Nat) (hw : w0 + ts.countP isWordT ≤ 8) (hs : s0 + ts.countP isSavedT ≤ 12) :
    wp (argMoves cfg (packArgs ts) (1 + w0) s0) c fun c1 => c1.mem = c.mem ∧ c1.f = c.f ∧
      (∀ q, (∀ k, s0 ≤ k → k < s0 + ts.countP isSavedT → q ≠ regMap (23 - k)) → c1.x q = c.x q) ∧
      ∀ n (hn : n < ts.length), isSavedT ts[n] = true →
        c1.x (regMap (23 - (s0 + (ts.take n).countP isSavedT))) = c.x (regMap (1 + (w0 + (ts.take n).countP isWordT))) := by
  induction ts generalizing w0 s0 c with
  | nil =>
    rw [packArgs, argMoves, dif_pos rfl, wp_nil]
    exact ⟨rfl, rfl, fun _ _ => rfl, fun n hn => by simp at hn⟩
  | cons t ts ih =>
    have ht := h0 t (by simp)
    have htl : ∀ t ∈ ts, 0 < t ∧ t < 16 := fun u hu => h0 u (by simp [hu])
    have hm : (t + 16 * packArgs ts) % 8 = t % 8 := by omega
    have hd : (t + 16 * packArgs ts) / 8 % 2 = t / 8 % 2 := by omega
    have hd2 : (t + 16 * packArgs ts) / 16 = packArgs ts := by omega
    rw [packArgs, argMoves, dif_neg (by omega), hm, hd, hd2]
    simp only [List.countP_cons] at hw hs
    by_cases h1 : t % 8 < 4
    · rw [if_pos h1]
      have hwt : isWordT t = true := by simp [isWordT, h1]
      by_cases h2 : t / 8 % 2 = 0
      · rw [if_pos h2]
        have hst : isSavedT t = true := by simp [isSavedT, h1, h2]
        simp only [hwt, hst, if_true] at hw hs
        have mv : ∀ Q, wp ((if cfg.c = true then w16 (C_MV ||| C_RD (SLJIT_S0 - s0) ||| C_RS2 (1 + w0))
            else w32 (ADDI ||| RD (SLJIT_S0 - s0) ||| RS1 (1 + w0) ||| IMM_I 0#64)) ++ argMoves cfg (packArgs ts) (1 + w0 + 1) (s0 + 1)) c Q ↔
            wp (argMoves cfg (packArgs ts) (1 + w0 + 1) (s0 + 1)) (c.wr (regMap (23 - s0)) (c.x (regMap (1 + w0)))) Q := by
          intro Q
          have hr : regMap (1 + w0) ≠ 0#5 := by
            have : ∀ w, w ≤ 8 → regMap (1 + w) ≠ 0#5 := by decide +kernel
            exact this _ (by omega)
          have e : SLJIT_S0 = 23 := rfl
          rw [wp_ite_s, e]
          split
          · rw [wp_C_MV_s _ _ hr]
            simp [ROp.eval, c.x0]
          · rw [wp_ADDI_s]
            simp [IOp.eval]
        rw [mv]
        have ne : ∀ k, k ≤ 11 → ∀ j, j ≤ 11 → k ≠ j → regMap (23 - k) ≠ regMap (23 - j) := by decide +kernel
        have nw : ∀ k, k ≤ 11 → ∀ j, j ≤ 8 → regMap (1 + j) ≠ regMap (23 - k) := by decide +kernel
        have nz : ∀ k, k ≤ 11 → regMap (23 - k) ≠ 0#5 := by decide +kernel
        refine wp_mono (ih htl (w0 + 1) (s0 + 1) (by omega) (by omega)) fun c1 g => ?_
        obtain ⟨g1, g2, g3, g4⟩ := g
        refine ⟨g1, g2, fun q hq => ?_, fun n hn hsv => ?_⟩
        · rw [g3 q fun k k1 k2 => hq k (by omega) (by simp only [List.countP_cons, hst, if_true]; omega), x_wr,
            if_neg fun e => hq s0 (by omega) (by simp only [List.countP_cons, hst, if_true]; omega) e.1]
        · cases n with
          | zero =>
            simp only [List.take_zero, List.countP_nil, Nat.add_zero]
            rw [g3 _ fun k k1 k2 => ne _ (by omega) _ (by omega) (by omega), x_wr, if_pos ⟨rfl, nz _ (by omega)⟩]
          | succ n =>
            simp only [List.take_succ_cons, List.countP_cons, hst, hwt, if_true]
            have := g4 n (by simpa using hn) (by simpa using hsv)
            have l1 : (ts.take n).countP isWordT ≤ ts.countP isWordT := (List.take_sublist n ts).countP_le
            rw [x_wr, if_neg fun e => nw _ (by omega) _ (by omega) e.1] at this
            rw [show s0 + ((ts.take n).countP isSavedT + 1) = s0 + 1 + (ts.take n).countP isSavedT by omega,
              show w0 + ((ts.take n).countP isWordT + 1) = w0 + 1 + (ts.take n).countP isWordT by omega]
            exact this
      · rw [if_neg h2]
        have hst : isSavedT t = false := by simp [isSavedT, h2]
        simp only [hwt, hst, if_true] at hw hs
        refine wp_mono (ih htl (w0 + 1) s0 (by omega) (by simpa using hs)) fun c1 g => ?_
        obtain ⟨g1, g2, g3, g4⟩ := g
        refine ⟨g1, g2, fun q hq => g3 q fun k k1 k2 => hq k k1 (by simpa [List.countP_cons, hst] using k2), fun n hn hsv => ?_⟩
        cases n with
        | zero => simp [hst] at hsv
        | succ n =>
          have := g4 n (by simpa using hn) (by simpa using hsv)
          simp only [List.take_succ_cons, List.countP_cons, hst, hwt, if_true]
          rw [show w0 + ((ts.take n).countP isWordT + 1) = w0 + 1 + (ts.take n).countP isWordT by omega]
          simpa using this
    · rw [if_neg h1]
      have hwt : isWordT t = false := by simp [isWordT, h1]
      have hst : isSavedT t = false := by simp [isSavedT, h1]
      refine wp_mono (ih htl w0 s0 (by simpa [hwt] using hw) (by simpa [hst] using hs)) fun c1 g => ?_
      obtain ⟨g1, g2, g3, g4⟩ := g
      refine ⟨g1, g2, fun q hq => g3 q fun k k1 k2 => hq k k1 (by simpa [List.countP_cons, hst] using k2), fun n hn hsv => ?_⟩
      cases n with
      | zero => simp [hst] at hsv
      | succ n =>
        have := g4 n (by simpa using hn) (by simpa using hsv)
        simp only [List.take_succ_cons, List.countP_cons, hst, hwt]
        simpa using this

/-! ## Jumps -/

theorem step_jalr {code : Code} {s : St} {d a : Nat} (hc : CodeAt code s.pc (w32 (JALR ||| RD d ||| RS1 a ||| IMM_I 0#64))) :
    step code s = some { s.wr (regMap d) (s.pc + 4#64) with pc := s.rd (regMap a) &&& ~~~1#64 } := by
  simp only [w32, CodeAt] at hc
  simp only [step]
  simp only [hc.1, hc.2.1]
  rw [join32, not_isC_of_decode32 (by rw [dec_JALR]; rfl), dec_JALR]
  simp [exec, execS, execJ]

theorem dec_C_JR (d : Nat) (h : regMap d ≠ 0#5) : decode16 (C_JR ||| C_RD d) = some (.jalr 0#5 (regMap d) 0#12) := by
  have h1 : (C_JR ||| C_RD d).extractLsb' 0 2 = 2#2 := by cdec [C_JR]
  have h2 : (C_JR ||| C_RD d).extractLsb' 13 3 = 4#3 := by cdec [C_JR]
  have h3 : (C_JR ||| C_RD d).extractLsb' 7 5 = regMap d := by cdec [C_JR]
  have h4 : (C_JR ||| C_RD d).extractLsb' 2 5 = 0#5 := by cdec [C_JR]
  have h5 : (C_JR ||| C_RD d).extractLsb' 12 1 = 0#1 := by cdec [C_JR]
  simp [decode16, h1, h2, h3, h4, h5, h]

theorem dec_C_JALR (d : Nat) (h : regMap d ≠ 0#5) : decode16 (C_JALR ||| C_RD d) = some (.jalr 1#5 (regMap d) 0#12) := by
  have h1 : (C_JALR ||| C_RD d).extractLsb' 0 2 = 2#2 := by cdec [C_JALR]
  have h2 : (C_JALR ||| C_RD d).extractLsb' 13 3 = 4#3 := by cdec [C_JALR]
  have h3 : (C_JALR ||| C_RD d).extractLsb' 7 5 = regMap d := by cdec [C_JALR]
  have h4 : (C_JALR ||| C_RD d).extractLsb' 2 5 = 0#5 := by cdec [C_JALR]
  have h5 : (C_JALR ||| C_RD d).extractLsb' 12 1 = 1#1 := by cdec [C_JALR]
  simp [decode16, h1, h2, h3, h4, h5, h]

/-- The jump to a register: one step to the target; with `link` the return address is the end of the code. -/
theorem step_ijump {code : Code} {s : St} {link : Bool} {r : Nat} (hr : regMap r ≠ 0#5) (hc : CodeAt code s.pc (ijumpReg cfg link r)) :
    step code s = some { s.wr (if link then 1#5 else 0#5) (s.pc + BitVec.ofNat 64 (2 * (ijumpReg cfg link r).length)) with
      pc := s.rd (regMap r) &&& ~~~1#64 } := by
  unfold ijumpReg at *
  by_cases h : cfg.c = true
  · rw [if_pos h] at hc ⊢
    have hd : decode16 ((if link = true then C_JALR else C_JR) ||| C_RD r) = some (.jalr (if link then 1#5 else 0#5) (regMap r) 0#12) := by
      cases link
      · exact dec_C_JR r hr
      · exact dec_C_JALR r hr
    simp only [w16, CodeAt] at hc
    simp only [step, hc.1]
    rw [isC_of_decode16 (by rw [hd]; rfl), hd]
    simp [exec, execS, execJ, w16]
  · rw [if_neg h] at hc ⊢
    rw [step_jalr hc]
    cases link
    · rfl
    · rfl

end Verif.RV
