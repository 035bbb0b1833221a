import Verif.A64.Frame
import Verif.A64.JumpWords
import Verif.A64.Mem

/-! # The instructions of ARM64 frames (helper lemmas) -/

namespace Verif.A64
open Verif.Imm.A64 (fld)
open Verif.Imm.Arm64 (regMap RD RN TMP_ZERO)

/-! ## Memory -/

abbrev Memory := BitVec 64 → BitVec 8

theorem rd_congr {m m' : Memory} : ∀ {n : Nat} {a : BitVec 64}, (∀ k < n, m (a + BitVec.ofNat 64 k) = m' (a + BitVec.ofNat 64 k)) → rd m a n = rd m' a n
  | 0, _, _ => rfl
  | n + 1, a, h => by
    have h0 := h 0 (by omega)
    rw [BitVec.add_zero] at h0
    rw [rd, rd, h0, rd_congr (n := n) (a := a + 1#64) fun k hk => ?_]
    have := h (k + 1) (by omega)
    rwa [show BitVec.ofNat 64 (k + 1) = 1#64 + BitVec.ofNat 64 k by rw [BitVec.add_comm, BitVec.ofNat_add], ← BitVec.add_assoc] at this

theorem wr_out {q : BitVec 64} : ∀ {n : Nat} {m : Memory} {a x : BitVec 64}, n ≤ (q - a).toNat → wr m a x n q = m q
  | 0, _, _, _, _ => rfl
  | n + 1, m, a, x, h => by
    have e : (q - (a + 1#64)).toNat = (q - a).toNat - 1 := by
      rw [show q - (a + 1#64) = (q - a) - 1#64 by simp only [BitVec.sub_eq_add_neg, BitVec.neg_add]; ac_rfl, BitVec.toNat_sub_of_le (by rw [BitVec.le_def]; show 1 ≤ _; omega)]
      rfl
    rw [wr, wr_out (by omega), if_neg]
    rintro rfl
    simp at h

theorem wr_in : ∀ (n : Nat) (m : Memory) (a x : BitVec 64) (i : Nat), i < n → n ≤ 8 → wr m a x n (a + BitVec.ofNat 64 i) = (x >>> (8 * i)).setWidth 8
  | 0, _, _, _, _, h, _ => absurd h (Nat.not_lt_zero _)
  | n + 1, m, a, x, 0, _, hn => by
    rw [wr, wr_out]
    · simp
    · rw [show a + BitVec.ofNat 64 0 - (a + 1#64) = -1#64 by simp [BitVec.sub_eq_add_neg, BitVec.neg_add]; rw [← BitVec.add_assoc, BitVec.add_right_neg, BitVec.zero_add]]
      show n ≤ 2 ^ 64 - 1; omega
  | n + 1, m, a, x, i + 1, h, hn => by
    rw [wr, show a + BitVec.ofNat 64 (i + 1) = a + 1#64 + BitVec.ofNat 64 i by rw [BitVec.add_assoc, BitVec.add_comm 1#64, BitVec.ofNat_add],
      wr_in n _ _ _ i (by omega) (by omega)]
    rw [BitVec.shiftRight_add x 8 (8 * i) |>.symm, show 8 + 8 * i = 8 * (i + 1) by omega]

theorem rd_bits : ∀ (n : Nat) (m : Memory) (a : BitVec 64) (i : Nat), i < 8 * n → n ≤ 8 → (rd m a n).getLsbD i = (m (a + BitVec.ofNat 64 (i / 8))).getLsbD (i % 8)
  | 0, _, _, _, h, _ => absurd h (by omega)
  | n + 1, m, a, i, h, hn => by
    rw [rd, BitVec.getLsbD_or, BitVec.getLsbD_shiftLeft, BitVec.getLsbD_setWidth]
    by_cases h8 : i < 8
    · simp [h8, Nat.div_eq_of_lt h8, Nat.mod_eq_of_lt h8, show i < 64 by omega, -BitVec.getLsbD_eq_getElem]
    · rw [rd_bits n m (a + 1#64) (i - 8) (by omega) (by omega)]
      have e : a + 1#64 + BitVec.ofNat 64 ((i - 8) / 8) = a + BitVec.ofNat 64 (i / 8) := by
        rw [BitVec.add_assoc]; congr 1
        rw [show i / 8 = 1 + (i - 8) / 8 by omega, BitVec.ofNat_add]
      rw [e, show (i - 8) % 8 = i % 8 by omega]
      have : (m a).getLsbD i = false := BitVec.getLsbD_of_ge _ _ (by omega)
      simp [this, h8, show i < 64 by omega, -BitVec.getLsbD_eq_getElem]

theorem rd_wr (m : Memory) (a x : BitVec 64) : rd (wr m a x 8) a 8 = x := by
  apply BitVec.eq_of_getLsbD_eq; intro i hi
  rw [rd_bits 8 _ _ _ (by omega) (by omega), wr_in 8 _ _ _ _ (by omega) (by omega), BitVec.getLsbD_setWidth, BitVec.getLsbD_ushiftRight]
  simp only [show i % 8 < 8 by omega, decide_true, Bool.true_and]
  congr 1; omega

/-- Another place. -/
theorem rd_wr_ne {m : Memory} {a b x : BitVec 64} (h1 : 8 ≤ (a - b).toNat) (h2 : 8 ≤ (b - a).toNat) : rd (wr m a x 8) b 8 = rd m b 8 := by
  refine rd_congr fun k hk => wr_out ?_
  have e : b + BitVec.ofNat 64 k - a = (b - a) + BitVec.ofNat 64 k := by simp only [BitVec.sub_eq_add_neg]; ac_rfl
  have hs : (a - b).toNat = (2 ^ 64 - (b - a).toNat) % 2 ^ 64 := by
    rw [show a - b = -(b - a) by rw [BitVec.neg_sub, BitVec.sub_eq_add_neg, BitVec.add_comm], BitVec.toNat_neg]
  rw [e, BitVec.toNat_add, BitVec.toNat_ofNat]
  have := (b - a).isLt
  omega

/-! ## Runs -/

/-- The state without the program counter. -/
structure MSt where
  s : St
  v : BitVec 5 → BitVec 64

/-- The words, wherever they are, lead from one state to the other and the address after them. -/
def Run (ws : List (BitVec 32)) (m m' : MSt) : Prop :=
  ∀ c a, WordsAt c a ws → PSteps c ⟨m.s, m.v, a⟩ ⟨m'.s, m'.v, a + BitVec.ofNat 64 (4 * ws.length)⟩

theorem Run.nil (m : MSt) : Run [] m m := fun _ a _ => by simpa using PSteps.refl _

theorem Run.cat {xs ys : List (BitVec 32)} {m m1 m2 : MSt} (h : Run xs m m1) (h' : Run ys m1 m2) : Run (xs ++ ys) m m2 := fun c a hw => by
  rw [WordsAt.append] at hw
  have := (h c a hw.1).trans (h' c _ hw.2)
  rwa [BitVec.add_assoc, ← BitVec.ofNat_add, ← Nat.mul_add, ← List.length_append] at this

theorem Run.cons {w : BitVec 32} {ys : List (BitVec 32)} {m m1 m2 : MSt} (h : Run [w] m m1) (h' : Run ys m1 m2) : Run (w :: ys) m m2 := Run.cat h h'

theorem Run.of_runs {ws : List (BitVec 32)} {m : MSt} {s' : St} (h : runs ws m.s = some s') : Run ws m ⟨s', m.v⟩ := fun c a hw =>
  psteps_runs ws (p := ⟨m.s, m.v, a⟩) hw h

theorem Run.of_step {w : BitVec 32} {m : MSt} {s' : St} (h : step w m.s = some s') : Run [w] m ⟨s', m.v⟩ := Run.of_runs (by simp [runs, h])

theorem ctl_27 {w : BitVec 32} (h : w.getLsbD 27 = true) : ctl w = none := by
  have key : ∀ {lo n : Nat} {v : BitVec n}, lo ≤ 27 → 27 < lo + n → v.getLsbD (27 - lo) = false → fld w lo n ≠ v := by
    intro lo n v h1 h2 h3 e
    have := fld_bit w lo n (27 - lo) (by omega)
    rw [e, h3, show lo + (27 - lo) = 27 by omega, h] at this
    cases this
  unfold ctl
  rw [if_neg (key (by omega) (by omega) (by decide)), if_neg (key (by omega) (by omega) (by decide)), if_neg (key (by omega) (by omega) (by decide)),
    if_neg (key (by omega) (by omega) (by decide)), if_neg (fun e => key (by omega) (by omega) (by decide) e.1),
    if_neg (fun e => key (by omega) (by omega) (by decide) e.1), if_neg (fun e => key (by omega) (by omega) (by decide) e.1), if_neg]
  rintro rfl
  revert h; decide

theorem Run.of_xfer {w : BitVec 32} {x : Xfer} {m m' : MSt} (h : w.getLsbD 27 = true) (hx : xfer w = some x)
    (he : ∀ a, xferExec x ⟨m.s, m.v, a⟩ = some ⟨m'.s, m'.v, a + 4#64⟩) : Run [w] m m' := fun c a hw => by
  apply PSteps.one
  simp only [pstep, hw.1, ctl_27 h, hx]
  exact he a

/-! ## Encodings -/

/-- A pair. -/
def pairW (ld vec : Bool) (k : BitVec 3) (i : BitVec 7) (rt2 rn rt : BitVec 5) : BitVec 32 :=
  (if vec then 0b01#2 else 0b10#2) ++ 0b101#3 ++ (if vec then 1#1 else 0#1) ++ k ++ (if ld then 1#1 else 0#1) ++ i ++ rt2 ++ rn ++ rt

theorem pairW_bit (ld vec : Bool) (k : BitVec 3) (i : BitVec 7) (rt2 rn rt : BitVec 5) (n : Nat) (hn : n < 32) : (pairW ld vec k i rt2 rn rt).getLsbD n =
    if n < 5 then rt.getLsbD n else if n < 10 then rn.getLsbD (n - 5) else if n < 15 then rt2.getLsbD (n - 10) else if n < 22 then i.getLsbD (n - 15) else
      if n < 23 then ld else if n < 26 then k.getLsbD (n - 23) else if n < 27 then vec else if n < 30 then n ≠ 28 else if n < 31 then vec else !vec := by
  simp only [pairW, BitVec.getLsbD_append]
  interval_cases n <;> cases ld <;> cases vec <;> simp [-BitVec.getLsbD_eq_getElem]

theorem fld_of {w : BitVec 32} {lo n : Nat} {v : BitVec n} (h : ∀ k, k < n → w.getLsbD (lo + k) = v.getLsbD k) : fld w lo n = v := by
  apply BitVec.eq_of_getLsbD_eq; intro k hk; rw [fld_bit _ _ _ _ hk, h k hk]

theorem xfer_pairW (ld vec : Bool) {k : BitVec 3} {d : Idx} (hk : xferIdx k = some d) (i : BitVec 7) (rt2 rn rt : BitVec 5) :
    (pairW ld vec k i rt2 rn rt).getLsbD 27 = true ∧ xfer (pairW ld vec k i rt2 rn rt) = some ⟨ld, vec, d, (i ++ 0#3 : BitVec 10).signExtend 64, rn, rt, some rt2⟩ := by
  have bb := pairW_bit ld vec k i rt2 rn rt
  generalize pairW ld vec k i rt2 rn rt = w at *
  refine ⟨by rw [bb 27 (by omega)]; simp, ?_⟩
  have h1 : fld w 27 3 = 5#3 := fld_of fun j hj => by rw [bb _ (by omega)]; interval_cases j <;> simp
  have h2 : bit w 26 = vec := by rw [bit, bb _ (by omega)]; simp
  have h3 : fld w 30 2 = if vec then 1#2 else 2#2 := fld_of fun j hj => by rw [bb _ (by omega)]; interval_cases j <;> cases vec <;> simp
  have h4 : fld w 23 3 = k := fld_of fun j hj => by rw [bb _ (by omega)]; interval_cases j <;> simp [-BitVec.getLsbD_eq_getElem]
  have h5 : bit w 22 = ld := by rw [bit, bb _ (by omega)]; simp
  have h6 : fld w 15 7 = i := fld_of fun j hj => by rw [bb _ (by omega)]; interval_cases j <;> simp [-BitVec.getLsbD_eq_getElem]
  have h7 : fld w 5 5 = rn := fld_of fun j hj => by rw [bb _ (by omega)]; interval_cases j <;> simp [-BitVec.getLsbD_eq_getElem]
  have h8 : fld w 0 5 = rt := fld_of fun j hj => by rw [bb _ (by omega)]; interval_cases j <;> simp [-BitVec.getLsbD_eq_getElem]
  have h9 : fld w 10 5 = rt2 := fld_of fun j hj => by rw [bb _ (by omega)]; interval_cases j <;> simp [-BitVec.getLsbD_eq_getElem]
  rw [xfer, h2, h3, if_pos ⟨h1, rfl⟩, h4, hk, h5, h6, h7, h8, h9]
  rfl

/-- A vector register with an offset. -/
def vecW (ld : Bool) (i : BitVec 12) (rn rt : BitVec 5) : BitVec 32 := 0b111111010#9 ++ (if ld then 1#1 else 0#1) ++ i ++ rn ++ rt

theorem vecW_bit (ld : Bool) (i : BitVec 12) (rn rt : BitVec 5) (n : Nat) (hn : n < 32) : (vecW ld i rn rt).getLsbD n =
    if n < 5 then rt.getLsbD n else if n < 10 then rn.getLsbD (n - 5) else if n < 22 then i.getLsbD (n - 10) else
      if n < 23 then ld else (0b111111010#9 : BitVec 9).getLsbD (n - 23) := by
  simp only [vecW, BitVec.getLsbD_append]
  interval_cases n <;> cases ld <;> simp [-BitVec.getLsbD_eq_getElem]

theorem xfer_vecW (ld : Bool) (i : BitVec 12) (rn rt : BitVec 5) :
    (vecW ld i rn rt).getLsbD 27 = true ∧ xfer (vecW ld i rn rt) = some ⟨ld, true, .offset, (i ++ 0#3 : BitVec 15).setWidth 64, rn, rt, none⟩ := by
  have bb := vecW_bit ld i rn rt
  generalize vecW ld i rn rt = w at *
  refine ⟨by rw [bb 27 (by omega)]; simp, ?_⟩
  have h1 : fld w 27 3 = 7#3 := fld_of fun j hj => by rw [bb _ (by omega)]; interval_cases j <;> simp
  have h4 : fld w 23 9 = 0x1fa#9 := fld_of fun j hj => by rw [bb _ (by omega)]; interval_cases j <;> simp
  have h5 : bit w 22 = ld := by rw [bit, bb _ (by omega)]; simp
  have h6 : fld w 10 12 = i := fld_of fun j hj => by rw [bb _ (by omega)]; interval_cases j <;> simp [-BitVec.getLsbD_eq_getElem]
  have h7 : fld w 5 5 = rn := fld_of fun j hj => by rw [bb _ (by omega)]; interval_cases j <;> simp [-BitVec.getLsbD_eq_getElem]
  have h8 : fld w 0 5 = rt := fld_of fun j hj => by rw [bb _ (by omega)]; interval_cases j <;> simp [-BitVec.getLsbD_eq_getElem]
  rw [xfer, if_neg (by rw [h1]; exact fun e => absurd e.1 (by decide)), if_pos h4, h5, h6, h7, h8]

/-- A load with post-index. -/
def postW (i : BitVec 9) (rn rt : BitVec 5) : BitVec 32 := 0b11111000010#11 ++ i ++ 0b01#2 ++ rn ++ rt

theorem xfer_postW (i : BitVec 9) (rn rt : BitVec 5) :
    (postW i rn rt).getLsbD 27 = true ∧ xfer (postW i rn rt) = some ⟨true, false, .post, i.signExtend 64, rn, rt, none⟩ := by
  have bb : ∀ n, n < 32 → (postW i rn rt).getLsbD n = if n < 5 then rt.getLsbD n else if n < 10 then rn.getLsbD (n - 5) else if n < 12 then n = 10 else if n < 21 then i.getLsbD (n - 12) else
      (0b11111000010#11 : BitVec 11).getLsbD (n - 21) := by
    intro n hn
    simp only [postW, BitVec.getLsbD_append]
    interval_cases n <;> simp [-BitVec.getLsbD_eq_getElem]
  generalize postW i rn rt = w at *
  refine ⟨by rw [bb 27 (by omega)]; simp, ?_⟩
  have h1 : fld w 27 3 = 7#3 := fld_of fun j hj => by rw [bb _ (by omega)]; interval_cases j <;> simp
  have h4 : fld w 23 9 = 0x1f0#9 := fld_of fun j hj => by rw [bb _ (by omega)]; interval_cases j <;> simp
  have h5 : bit w 22 = true := by rw [bit, bb _ (by omega)]; simp
  have h51 : bit w 21 = false := by rw [bit, bb _ (by omega)]; simp
  have h52 : bit w 10 = true := by rw [bit, bb _ (by omega)]; simp
  have h53 : bit w 11 = false := by rw [bit, bb _ (by omega)]; simp
  have h6 : fld w 12 9 = i := fld_of fun j hj => by rw [bb _ (by omega)]; interval_cases j <;> simp [-BitVec.getLsbD_eq_getElem]
  have h7 : fld w 5 5 = rn := fld_of fun j hj => by rw [bb _ (by omega)]; interval_cases j <;> simp [-BitVec.getLsbD_eq_getElem]
  have h8 : fld w 0 5 = rt := fld_of fun j hj => by rw [bb _ (by omega)]; interval_cases j <;> simp [-BitVec.getLsbD_eq_getElem]
  rw [xfer, if_neg (by rw [h1]; exact fun e => absurd e.1 (by decide)), if_neg (by rw [h4]; decide), if_pos ⟨h4, h51, h52⟩, h5, h6, h7, h8, h53]
  simp

end Verif.A64
