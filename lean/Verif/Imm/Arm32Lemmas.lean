import Verif.Imm.A32
import Verif.Imm.Arm32
import Mathlib.Tactic.IntervalCases

/-! # Rotated immediates of ARM32 (helper lemmas) -/

namespace Verif.Imm.Arm32

macro "bits" "[" ls:Lean.Parser.Tactic.simpLemma,* "]" : tactic =>
  `(tactic| (apply BitVec.eq_of_getLsbD_eq; intro k hk; interval_cases k <;> simp [-BitVec.getLsbD_eq_getElem, -BitVec.setWidth_eq, $ls,*]))

theorem rotl_bit (x : BitVec 32) (n i : Nat) (hi : i < 32) : (x.rotateLeft n).getLsbD i = x.getLsbD ((i + 32 - n % 32) % 32) := by
  rw [BitVec.getLsbD_rotateLeft]
  have : n % 32 < 32 := Nat.mod_lt _ (by omega)
  by_cases h : i < n % 32
  · simp only [h, decide_true, cond_true]; congr 1; omega
  · simp only [h, decide_false, cond_false, hi, decide_true, Bool.true_and]; congr 1; omega

theorem rotr_bit (x : BitVec 32) (n i : Nat) (hi : i < 32) : (x.rotateRight n).getLsbD i = x.getLsbD ((i + n) % 32) := by
  rw [BitVec.getLsbD_rotateRight]
  have : n % 32 < 32 := Nat.mod_lt _ (by omega)
  by_cases h : i < 32 - n % 32
  · simp only [h, decide_true, cond_true]; congr 1; omega
  · simp only [h, decide_false, cond_false, hi, decide_true, Bool.true_and]; congr 1; omega

theorem rotl_rotl (x : BitVec 32) (a b : Nat) : (x.rotateLeft a).rotateLeft b = x.rotateLeft (a + b) := by
  apply BitVec.eq_of_getLsbD_eq
  intro i hi
  rw [rotl_bit _ _ _ hi, rotl_bit _ _ _ (Nat.mod_lt _ (by omega)), rotl_bit _ _ _ hi]
  congr 1; omega

theorem rotr_rotl (x : BitVec 32) (a b : Nat) (h : (a + b) % 32 = 0) : (x.rotateLeft a).rotateLeft b = x := by
  rw [rotl_rotl]
  apply BitVec.eq_of_getLsbD_eq
  intro i hi
  rw [rotl_bit _ _ _ hi]
  congr 1; omega

theorem rotr_eq (x : BitVec 32) (a b : Nat) (h : (a + b) % 32 = 0) : x.rotateRight a = x.rotateLeft b := by
  apply BitVec.eq_of_getLsbD_eq
  intro i hi
  rw [rotl_bit _ _ _ hi, rotr_bit _ _ _ hi]
  congr 1; omega

theorem rotl_congr (x : BitVec 32) {a b : Nat} (h : a % 32 = b % 32) : x.rotateLeft a = x.rotateLeft b := by
  apply BitVec.eq_of_getLsbD_eq
  intro i hi
  rw [rotl_bit _ _ _ hi, rotl_bit _ _ _ hi, h]

theorem rotr_or (x y : BitVec 32) (n : Nat) : (x ||| y).rotateRight n = x.rotateRight n ||| y.rotateRight n := by
  apply BitVec.eq_of_getLsbD_eq
  intro i hi
  simp only [BitVec.getLsbD_or, rotr_bit _ _ _ hi]

theorem rotr_and (x y : BitVec 32) (n : Nat) : (x &&& y).rotateRight n = x.rotateRight n &&& y.rotateRight n := by
  apply BitVec.eq_of_getLsbD_eq
  intro i hi
  simp only [BitVec.getLsbD_and, rotr_bit _ _ _ hi]

theorem zero_bits {x m : BitVec 32} (h : x &&& m = 0#32) : ∀ k, m.getLsbD k = true → x.getLsbD k = false := by
  intro k hm
  have := congrArg (fun v => v.getLsbD k) h
  simpa [-BitVec.getLsbD_eq_getElem, hm] using this

theorem or_shr {x : BitVec 32} (n : Nat) (h : n < 32) (h0 : 0 < n) : (x <<< n) ||| (x >>> (32 - n)) = x.rotateLeft n := by
  rw [BitVec.rotateLeft_def, Nat.mod_eq_of_lt h]

/-- A shift left which only drops zeros is a rotation. -/
theorem shl_rotl {x mask : BitVec 32} {k : Nat} (hk : (mask, k) ∈ [(0xff000000#32, 8), (0xf0000000#32, 4), (0xc0000000#32, 2)])
    (h : x &&& mask = 0#32) : x <<< k = x.rotateLeft k := by
  have hz := zero_bits h
  simp only [List.mem_cons, Prod.mk.injEq, List.not_mem_nil, or_false] at hk
  rcases hk with ⟨rfl, rfl⟩ | ⟨rfl, rfl⟩ | ⟨rfl, rfl⟩ <;>
  · apply BitVec.eq_of_getLsbD_eq
    intro i hi
    rw [rotl_bit _ _ _ hi]
    interval_cases i <;> simp [-BitVec.getLsbD_eq_getElem] <;> first | rfl | (exact (hz _ (by decide)).symm) | exact (hz _ (by decide))

/-- The invariant of the steps: the value is X rotated left by 24 + 2 rol. -/
def Inv (X : BitVec 32) (p : BitVec 32 × Nat) : Prop := p.1 = X.rotateLeft (24 + 2 * p.2)

theorem Inv.step {X mask k p} (hk : (mask, k) ∈ [(0xff000000#32, 8), (0xf0000000#32, 4), (0xc0000000#32, 2)]) (h : Inv X p) :
    Inv X (shiftStep mask k p) := by
  unfold shiftStep
  split
  next hz =>
    have e : 2 * (k / 2) = k := by
      simp only [List.mem_cons, Prod.mk.injEq, List.not_mem_nil, or_false] at hk
      rcases hk with ⟨_, rfl⟩ | ⟨_, rfl⟩ | ⟨_, rfl⟩ <;> rfl
    show p.1 <<< k = _
    rw [shl_rotl hk hz, h, rotl_rotl]
    congr 1
    simp only; omega
  next => exact h

theorem step_rol {mask : BitVec 32} {k : Nat} {p : BitVec 32 × Nat} (r : Nat) (h : p.2 ≤ r) : (shiftStep mask k p).2 ≤ r + k / 2 := by
  unfold shiftStep; split
  · show p.2 + k / 2 ≤ _; omega
  · omega

/-- A byte found at the top stands for the value which was searched. -/
theorem Inv.core {X p} (h : Inv X p) (hz : p.1 &&& 0x00ffffff#32 = 0#32) : X = (p.1 >>> 24).rotateRight (2 * p.2) := by
  have e : p.1 = (p.1 >>> 24).rotateLeft 24 := by
    have hb := zero_bits hz
    apply BitVec.eq_of_getLsbD_eq
    intro i hi
    rw [rotl_bit _ _ _ hi]
    interval_cases i <;> simp [-BitVec.getLsbD_eq_getElem] <;> exact (hb _ (by decide))
  have e2 := congrArg (fun v => v.rotateLeft (8 + (32 - 2 * p.2 % 32))) (h.symm.trans e)
  rw [rotr_rotl _ _ _ (by omega)] at e2
  rw [e2, rotl_rotl, rotr_eq _ _ (32 - 2 * p.2 % 32) (by omega)]
  exact rotl_congr _ (by omega)

/-- The encoded field expands to the rotated byte. -/
theorem expand_src2 {b : BitVec 32} {rol : Nat} (hb : b ≤ 0xff#32) (hr : rol < 16) :
    A32.expand ((src2Imm b rol).extractLsb' 0 12) = b.rotateRight (2 * rol) := by
  have h1 : (((src2Imm b rol).extractLsb' 0 12).extractLsb' 0 8).setWidth 32 = b := by
    have e : ∀ i, 8 ≤ i → b.getLsbD i = false := fun i hi => by
      have : b.toNat < 2 ^ i := Nat.lt_of_lt_of_le (show b.toNat < 2 ^ 8 from Nat.lt_succ_of_le hb) (Nat.pow_le_pow_right (by omega) hi)
      exact Nat.testBit_lt_two_pow this
    apply BitVec.eq_of_getLsbD_eq
    intro i hi
    simp only [src2Imm, SRC2_IMM]
    interval_cases i <;> simp [-BitVec.getLsbD_eq_getElem, e]
  have h2 : ((src2Imm b rol).extractLsb' 0 12).extractLsb' 8 4 = BitVec.ofNat 4 rol := by
    have e : ∀ i, 8 ≤ i → b.getLsbD i = false := fun i hi => by
      have : b.toNat < 2 ^ i := Nat.lt_of_lt_of_le (show b.toNat < 2 ^ 8 from Nat.lt_succ_of_le hb) (Nat.pow_le_pow_right (by omega) hi)
      exact Nat.testBit_lt_two_pow this
    apply BitVec.eq_of_getLsbD_eq
    intro i hi
    simp only [src2Imm, SRC2_IMM]
    interval_cases rol <;> interval_cases i <;> simp [-BitVec.getLsbD_eq_getElem, e]
  rw [A32.expand, h1, h2, BitVec.toNat_ofNat, Nat.mod_eq_of_lt (by omega)]

theorem shr24_le (x : BitVec 32) : x >>> 24 ≤ 0xff#32 := by
  show (x >>> 24).toNat ≤ 255
  have := x.isLt
  simp only [BitVec.toNat_ushiftRight, Nat.shiftRight_eq_div_pow]; omega

/-- The high bits of a found immediate. -/
def IsImm (w : BitVec 32) : Prop := w &&& ~~~ 0xfff#32 = SRC2_IMM

theorem isImm_src2 {b : BitVec 32} {rol : Nat} (hb : b ≤ 0xff#32) (hr : rol < 16) : IsImm (src2Imm b rol) := by
  have e : ∀ i, 8 ≤ i → b.getLsbD i = false := fun i hi => by
    have : b.toNat < 2 ^ i := Nat.lt_of_lt_of_le (show b.toNat < 2 ^ 8 from Nat.lt_succ_of_le hb) (Nat.pow_le_pow_right (by omega) hi)
    exact Nat.testBit_lt_two_pow this
  have e2 : ∀ i, 4 ≤ i → (BitVec.ofNat 32 rol).getLsbD i = false := fun i hi => by
    have : rol < 2 ^ i := Nat.lt_of_lt_of_le (show rol < 2 ^ 4 from hr) (Nat.pow_le_pow_right (by omega) hi)
    rw [BitVec.getLsbD_ofNat, Nat.testBit_lt_two_pow this]; simp
  apply BitVec.eq_of_getLsbD_eq
  intro i hi
  simp only [src2Imm, SRC2_IMM]
  interval_cases i <;> simp [-BitVec.getLsbD_eq_getElem, e, e2]

theorem getImm_sound {imm : BitVec 32} (h : getImm imm ≠ 0#32) :
    IsImm (getImm imm) ∧ A32.expand ((getImm imm).extractLsb' 0 12) = imm := by
  unfold getImm at h ⊢
  split at h
  next hle =>
    rw [if_pos hle]
    have e : SRC2_IMM ||| imm = src2Imm imm 0 := by simp [src2Imm]
    rw [e]
    refine ⟨isImm_src2 hle (by omega), ?_⟩
    rw [expand_src2 hle (by omega), rotr_eq _ _ 0 (by omega)]
    have := rotr_rotl imm 0 0 (by omega)
    rwa [rotl_rotl] at this
  next hle =>
    rw [if_neg hle]
    simp only at h ⊢
    generalize hp0 : (if imm &&& 0xff000000#32 = 0#32 then (imm <<< 8, 8) else ((imm <<< 24) ||| (imm >>> 8), 0)) = p0 at h ⊢
    have i0 : Inv imm p0 := by
      subst hp0
      split
      next hz => show imm <<< 8 = _; rw [shl_rotl (by simp) hz]; exact rotl_congr _ (by omega)
      next => exact or_shr 24 (by omega) (by omega)
    have r0 : p0.2 ≤ 8 := by subst hp0; split <;> simp
    have i3 := ((i0.step (mask := 0xff000000#32) (k := 8) (by simp)).step (mask := 0xf0000000#32) (k := 4) (by simp)).step
      (mask := 0xc0000000#32) (k := 2) (by simp)
    have r3 := step_rol (mask := 0xc0000000#32) (k := 2) _ (step_rol (mask := 0xf0000000#32) (k := 4) _
      (step_rol (mask := 0xff000000#32) (k := 8) _ r0))
    generalize shiftStep 0xc0000000#32 2 (shiftStep 0xf0000000#32 4 (shiftStep 0xff000000#32 8 p0)) = p at h i3 r3 ⊢
    split at h
    next hz =>
      rw [if_pos hz]
      exact ⟨isImm_src2 (shr24_le _) (by omega), by rw [expand_src2 (shr24_le _) (by omega)]; exact (i3.core hz).symm⟩
    next => exact absurd rfl h


theorem low_zero {x mask : BitVec 32} {rol : Nat} (h : x &&& mask = 0#32) (h0 : 0 < rol) (h1 : rol < 32)
    (hm : ∀ i, i < 8 → mask.getLsbD (i + 32 - rol) = true) (hlow : 8 ≤ rol) : x.rotateLeft rol &&& 0xff#32 = 0#32 := by
  have hz := zero_bits h
  apply BitVec.eq_of_getLsbD_eq
  intro i hi
  rw [BitVec.getLsbD_and, rotl_bit _ _ _ hi]
  by_cases h8 : i < 8
  · rw [show (i + 32 - rol % 32) % 32 = i + 32 - rol by omega, hz _ (hm i h8)]; simp
  · have : (0xff#32).getLsbD i = false := Nat.testBit_lt_two_pow (i := i) (Nat.lt_of_lt_of_le (show 255 < 2 ^ 8 by omega)
      (Nat.pow_le_pow_right (by omega) (by omega)))
    rw [this]; simp

/-- The second loop finds a rotation with a zero byte at the bottom. -/
theorem zeroByte2_inv {X c : BitVec 32} (hc : c = X.rotateLeft 8) : ∀ n rol mask, rol % 2 = 0 → 24 ≤ rol → rol < 32 →
    mask = 0xff00#32 >>> (rol - 24) → ∀ p, zeroByte2 c mask rol n = some p → Inv X p ∧ p.1 &&& 0xff#32 = 0#32
  | 0, _, _, _, _, _, _, _, h => by simp [zeroByte2] at h
  | n + 1, rol, mask, h2, hlo, hhi, hm, p, h => by
    unfold zeroByte2 at h
    split at h
    next hz =>
      obtain rfl := Option.some.inj h
      simp only [or_shr rol hhi (by omega)]
      refine ⟨?_, low_zero hz (by omega) hhi ?_ (by omega)⟩
      · show c.rotateLeft rol = X.rotateLeft (24 + 2 * (rol / 2 - 8))
        rw [hc, rotl_rotl]; exact rotl_congr _ (by omega)
      · intro i hi
        rw [hm, BitVec.getLsbD_ushiftRight, show rol - 24 + (i + 32 - rol) = i + 8 by omega]
        interval_cases i <;> rfl
    next =>
      split at h
      next => simp at h
      next hm3 =>
        have : rol ≠ 30 ∧ rol ≠ 31 := by
          constructor
          · rintro rfl; subst hm; exact hm3 (by decide)
          · omega
        refine zeroByte2_inv hc n (rol + 2) _ (by omega) (by omega) (by omega) ?_ p h
        rw [hm, ← BitVec.shiftRight_add]; congr 1; omega

/-- The first loop finds a rotation with a zero byte at the bottom. -/
theorem zeroByte_inv {X : BitVec 32} : ∀ n rol mask, rol % 2 = 0 → 8 ≤ rol → rol < 32 →
    mask = 0xff000000#32 >>> (rol - 8) → ∀ p, zeroByte X mask rol n = some p → Inv X p ∧ p.1 &&& 0xff#32 = 0#32
  | 0, _, _, _, _, _, _, _, h => by simp [zeroByte] at h
  | n + 1, rol, mask, h2, hlo, hhi, hm, p, h => by
    unfold zeroByte at h
    split at h
    next hz =>
      obtain rfl := Option.some.inj h
      simp only [or_shr rol hhi (by omega)]
      refine ⟨?_, low_zero hz (by omega) hhi ?_ (by omega)⟩
      · show X.rotateLeft rol = X.rotateLeft (24 + 2 * (4 + rol / 2))
        exact rotl_congr _ (by omega)
      · intro i hi
        rw [hm, BitVec.getLsbD_ushiftRight, show rol - 8 + (i + 32 - rol) = i + 24 by omega]
        interval_cases i <;> rfl
    next =>
      split at h
      next => exact zeroByte2_inv (or_shr 8 (by omega) (by omega)) 16 24 _ (by omega) (by omega) (by omega) rfl p h
      next hm3 =>
        have : rol ≠ 30 ∧ rol ≠ 31 := by
          constructor
          · rintro rfl; subst hm; exact hm3 (by decide)
          · omega
        refine zeroByte_inv n (rol + 2) _ (by omega) (by omega) (by omega) ?_ p h
        rw [hm, ← BitVec.shiftRight_add]; congr 1; omega

/-- Two immediates which make up a constant without overlap. -/
def Pair (imm i1 i2 : BitVec 32) : Prop :=
  IsImm i1 ∧ IsImm i2 ∧ A32.expand (i1.extractLsb' 0 12) ||| A32.expand (i2.extractLsb' 0 12) = imm ∧
    A32.expand (i1.extractLsb' 0 12) &&& A32.expand (i2.extractLsb' 0 12) = 0#32

theorem ff_le (x : BitVec 32) : x &&& 0xff#32 ≤ 0xff#32 := by
  show (x &&& 0xff#32).toNat ≤ 255
  rw [BitVec.toNat_and]; exact Nat.and_le_right

/-- Expansion with the rotation modulo 16. -/
theorem expand_mod {b : BitVec 32} (rol : Nat) (hb : b ≤ 0xff#32) :
    A32.expand ((src2Imm b (rol % 16)).extractLsb' 0 12) = b.rotateRight (2 * rol) := by
  rw [expand_src2 hb (Nat.mod_lt _ (by omega)), rotr_eq _ _ (32 - 2 * rol % 32) (by omega), rotr_eq _ _ (32 - 2 * rol % 32) (by omega)]

/-- Rotating a value back. -/
theorem Inv.back {X p} (h : Inv X p) : X = p.1.rotateRight (24 + 2 * p.2) := by
  rw [rotr_eq _ _ (32 - (24 + 2 * p.2) % 32) (by omega), h, rotr_rotl _ _ _ (by omega)]

theorem rotr_shift {b : BitVec 32} {k n : Nat} (hb : b ≤ 0xff#32) (hk : k ≤ 24) (a : Nat) (h : (k + a) % 32 = n % 32) :
    b.rotateRight a = (b <<< k).rotateRight n := by
  have e : b <<< k = b.rotateLeft k := by
    apply BitVec.eq_of_getLsbD_eq
    intro i hi
    rw [rotl_bit _ _ _ hi, BitVec.getLsbD_shiftLeft]
    have hz : ∀ j, 8 ≤ j → b.getLsbD j = false := fun j hj => by
      have : b.toNat < 2 ^ j := Nat.lt_of_lt_of_le (show b.toNat < 2 ^ 8 from Nat.lt_succ_of_le hb) (Nat.pow_le_pow_right (by omega) hj)
      exact Nat.testBit_lt_two_pow this
    by_cases hik : i < k
    · rw [hz ((i + 32 - k % 32) % 32) (by omega)]; simp [hik]
    · simp only [hi, hik, decide_true, decide_false, Bool.true_and, Bool.not_false]; congr 1; omega
  rw [e, rotr_eq _ n (32 - n % 32) (by omega), rotl_rotl, rotr_eq _ a (32 - a % 32) (by omega)]
  exact rotl_congr _ (by omega)

/-- The byte at the top and the rest. -/
theorem pair_of_rest {X : BitVec 32} {p q : BitVec 32 × Nat} {i : BitVec 32 × BitVec 32} (h : Inv X p)
    (hq : ∀ Y, Inv Y (p.1 <<< 8, p.2 + 4) → Inv Y q)
    (hs : secondImm (src2Imm ((p.1 >>> 24) &&& 0xff#32) (p.2 % 16)) q = some i) : Pair X i.1 i.2 := by
  unfold secondImm at hs
  split at hs
  swap
  · simp at hs
  next hz =>
  obtain rfl := Option.some.inj hs
  have hY : Inv ((p.1 &&& 0x00ffffff#32).rotateRight (24 + 2 * p.2)) (p.1 <<< 8, p.2 + 4) := by
    show p.1 <<< 8 = _
    rw [rotr_eq _ _ (32 - (24 + 2 * p.2) % 32) (by omega), rotl_rotl]
    have e : p.1 <<< 8 = (p.1 &&& 0x00ffffff#32).rotateLeft 8 := by
      apply BitVec.eq_of_getLsbD_eq
      intro i hi
      rw [rotl_bit _ _ _ hi]
      interval_cases i <;> simp [-BitVec.getLsbD_eq_getElem]
    rw [e]
    exact rotl_congr _ (by simp only; omega)
  have hc := (hq _ hY).core hz
  refine ⟨isImm_src2 (ff_le _) (Nat.mod_lt _ (by omega)), isImm_src2 (shr24_le _) (Nat.mod_lt _ (by omega)), ?_⟩
  simp only
  rw [expand_mod _ (ff_le _), expand_mod _ (shr24_le _), ← hc, rotr_shift (k := 24) (n := 24 + 2 * p.2) (ff_le _) (by omega) _ (by omega),
    ← rotr_or, ← rotr_and]
  constructor
  · have e : ((p.1 >>> 24 &&& 0xff#32) <<< 24) ||| (p.1 &&& 0x00ffffff#32) = p.1 := by bits []
    rw [e]; exact h.back.symm
  · have : ((p.1 >>> 24 &&& 0xff#32) <<< 24) &&& (p.1 &&& 0x00ffffff#32) = 0#32 := by bits []
    rw [this, rotr_eq _ _ (32 - (24 + 2 * p.2) % 32) (by omega)]
    apply BitVec.eq_of_getLsbD_eq
    intro i hi
    rw [rotl_bit _ _ _ hi]; simp

set_option maxHeartbeats 800000 in
theorem computeImm_sound {imm : BitVec 32} {i : BitVec 32 × BitVec 32} (h : computeImm imm = some i) : Pair imm i.1 i.2 := by
  unfold computeImm at h
  obtain ⟨p, hp, h⟩ := Option.bind_eq_some_iff.mp h
  obtain ⟨hi, hz⟩ := zeroByte_inv 16 8 _ (by omega) (by omega) (by omega) rfl p hp
  simp only at h
  split at h
  next htop =>
    obtain rfl := Option.some.inj h
    refine ⟨isImm_src2 (ff_le _) (Nat.mod_lt _ (by omega)), isImm_src2 (ff_le _) (Nat.mod_lt _ (by omega)), ?_⟩
    simp only
    rw [expand_mod _ (ff_le _), expand_mod _ (ff_le _), rotr_shift (k := 16) (n := 24 + 2 * p.2) (ff_le _) (by omega) _ (by omega),
      rotr_shift (k := 8) (n := 24 + 2 * p.2) (ff_le (p.1 >>> 8)) (by omega) _ (by omega), ← rotr_or, ← rotr_and]
    constructor
    · suffices e : (((p.1 >>> 16) &&& 0xff#32) <<< 16) ||| (((p.1 >>> 8) &&& 0xff#32) <<< 8) = p.1 by
        rw [e]; exact hi.back.symm
      have h1 := zero_bits htop
      have h2 := zero_bits hz
      apply BitVec.eq_of_getLsbD_eq
      intro k hk
      have h1 := h1 k
      have h2 := h2 k
      interval_cases k <;> simp [-BitVec.getLsbD_eq_getElem] at h1 h2 ⊢ <;> simp only [*]
    · have : (((p.1 >>> 16) &&& 0xff#32) <<< 16) &&& (((p.1 >>> 8) &&& 0xff#32) <<< 8) = 0#32 := by bits []
      rw [this, rotr_eq _ _ (32 - (24 + 2 * p.2) % 32) (by omega)]
      apply BitVec.eq_of_getLsbD_eq
      intro i hi
      rw [rotl_bit _ _ _ hi]; simp
  next =>
    split at h
    · exact pair_of_rest hi (fun Y hY => ((hY.step (by simp)).step (by simp)).step (by simp)) h
    · exact pair_of_rest ((hi.step (by simp)).step (by simp)) (fun Y hY => (hY.step (by simp)).step (by simp)) h

end Verif.Imm.Arm32
