import Verif.A64.GenPiece

/-! # Choosing the form of jumps on ARM64, aligned labels (helper lemmas) -/

namespace Verif.A64
open Verif.Imm.Arm64 (regMap RD RN)

/-- The final positions of the labels, as far as they are known at position `cp` (estimated: `E`); the next piece has `len` words. -/
structure Fits (L : List Nat) (cur : List Nat) (F : List Nat) (li E cp len : Nat) : Prop where
  len_eq : F.length = L.length
  old : ∀ k, k < li → F.getD k 0 = cur.getD k 0
  new : ∀ k, li ≤ k → k < L.length → cp + len ≤ F.getD k 0 ∧ F.getD k 0 + E ≤ L.getD k 0 + cp

/-- What is known about the state of the loop. -/
structure Inv (e : Env) (L : List Nat) (T : Nat) (cur : List Nat) (li E cp : Nat) : Prop where
  small : T < 2 ^ 58
  fit : e.n ≤ T
  base4 : e.base.toNat % 4 = 0
  off4 : e.off.toNat % 4 = 0
  wrap : e.base.toNat + 4 * T < 2 ^ 64
  wrapx : (e.base + e.off).toNat + 4 * T < 2 ^ 64
  bound : ∀ k, L.getD k 0 ≤ T
  le : cp ≤ E
  leE : E ≤ e.n
  len_eq : cur.length = L.length
  done : ∀ k, k < li → cur.getD k 0 ≤ cp ∧ L.getD k 0 + cp ≤ E + cur.getD k 0
  todo : ∀ k, li ≤ k → cur.getD k 0 = L.getD k 0

/-! ## The choice -/

/-- detect_jump_type in terms of the measured distance and target. -/
def pickJ (rew cnd : Bool) (d t : BitVec 64) : Patch :=
  if rew then .abs64
  else if cnd = true ∧ (d + 4#64).toInt ≤ 0xfffff ∧ -0x100000 ≤ (d + 4#64).toInt then .cond
  else if d.toInt ≤ 0x7ffffff ∧ -0x8000000 ≤ d.toInt then .b
  else if t.toNat < 0x100000000 then .abs32
  else if d.toInt ≤ 0xfffff000 ∧ -0x100000000 ≤ d.toInt then .b32
  else if t.toNat < 0x1000000000000 then .abs48
  else .abs64

/-- mov_addr_get_length. -/
def pickM (d t : BitVec 64) : Patch :=
  if d.toInt ≤ 0xfffff ∧ -0x100000 ≤ d.toInt then .b
  else if d.toInt ≤ 0xfffff000 ∧ -0x100000000 ≤ d.toInt then .b32
  else if t.toNat < 0x100000000 then .abs32
  else if t.toNat < 0x1000000000000 then .abs48
  else .abs64

theorem detectJump_pick (e : Env) (j : JInfo) (cp addr lsize : Nat) :
    detectJump e j cp addr lsize = pickJ j.rew j.skip.isSome (targetDiff e j.tgt cp addr lsize) (targetAddr e j.tgt lsize) := rfl

theorem detectMov_pick (e : Env) (t : Tgt) (cp addr lsize : Nat) :
    detectMov e t cp addr lsize = pickM (targetDiff e t cp addr lsize) (targetAddr e t lsize) := rfl

/-- `x` lies between 0 and `m`, or is `m`. -/
def Btw (x m : Int) : Prop := (m ≤ x ∧ x ≤ 0) ∨ (0 ≤ x ∧ x ≤ m) ∨ x = m

theorem pickJ_fits {j : JInfo} {d tm t a : BitVec 64} (h4 : (t - (a + BitVec.ofNat 64 (4 * j.pre))).toNat % 4 = 0)
    (hx : Btw (t - (a + BitVec.ofNat 64 (4 * j.pre))).toInt d.toInt) (ht : t.toNat ≤ tm.toNat) : JumpFits j t a (pickJ j.rew j.skip.isSome d tm) := by
  generalize hX : t - (a + BitVec.ofNat 64 (4 * j.pre)) = x at h4 hx
  unfold pickJ
  split
  · trivial
  · split
    · next h =>
      have hd := add_small d (k := 4) (by omega) (.inl (by omega))
      have hpre : j.pre = 1 := by unfold JInfo.pre; rw [if_pos h.1]
      have hta : t - a = x + BitVec.ofNat 64 4 := by
        rw [← hX, hpre]; bv_omega
      rw [hd] at h
      have hxi : -2 ^ 40 ≤ x.toInt ∧ x.toInt ≤ 2 ^ 40 := by unfold Btw at hx; omega
      have hx4 := add_small x (k := 4) (by omega) (.inr hxi)
      refine ⟨h.1, ?_, ?_, ?_⟩
      · rw [hta, BitVec.toNat_add, BitVec.toNat_ofNat]; omega
      · rw [hta, hx4]; unfold Btw at hx; omega
      · rw [hta, hx4]; unfold Btw at hx; omega
    · split
      · next h =>
        simp only [JumpFits, hX]
        refine ⟨h4, ?_, ?_⟩ <;> (unfold Btw at hx; omega)
      · split
        · next h => simp only [JumpFits]; omega
        · split
          · next h =>
            have hxi : -2 ^ 40 ≤ x.toInt ∧ x.toInt ≤ 2 ^ 40 := by unfold Btw at hx; omega
            have := page_sub t (a + BitVec.ofNat 64 (4 * j.pre)) (by rw [hX]; exact hxi)
            rw [hX] at this
            simp only [JumpFits]
            unfold Btw at hx
            omega
          · split
            · next h => simp only [JumpFits]; omega
            · trivial

theorem pickM_fits {d tm t a : BitVec 64} (hx : Btw (t - a).toInt d.toInt) (ht : t.toNat ≤ tm.toNat) : MovFits t a (pickM d tm) ∧ pickM d tm ≠ .cond := by
  unfold pickM
  split
  · next h => refine ⟨?_, by simp⟩; simp only [MovFits]; unfold Btw at hx; omega
  · split
    · next h =>
      refine ⟨?_, by simp⟩
      have := page_sub t a (by unfold Btw at hx; omega)
      simp only [MovFits]
      unfold Btw at hx
      omega
    · split
      · next h => refine ⟨?_, by simp⟩; simp only [MovFits]; omega
      · split
        · next h => refine ⟨?_, by simp⟩; simp only [MovFits]; omega
        · exact ⟨trivial, by simp⟩

theorem pickJ_cond {rew cnd : Bool} {d tm : BitVec 64} (h : pickJ rew cnd d tm = .cond) : cnd = true := by
  unfold pickJ at h
  split at h
  · cases h
  · split at h
    · next hc => exact hc.1
    · split_ifs at h

theorem pickJ_rew (cnd : Bool) (d tm : BitVec 64) : pickJ true cnd d tm = .abs64 := rfl

/-- The sizes are at most the estimated ones. -/
theorem pickJ_label {cnd : Bool} {d tm : BitVec 64} {M D : Int} (hd : d.toInt = 4 * M) (hb : -2 ^ 60 ≤ M ∧ M ≤ 2 ^ 60) (h : (D ≤ M ∧ M ≤ 0) ∨ (0 ≤ M ∧ M ≤ D)) :
    ext (pickJ false cnd d tm) ≤ lblTotal cnd D := by
  have hd4 : (d + 4#64).toInt = 4 * M + 4 := by
    have h4 : (4#64).toInt = 4 := by decide
    rw [BitVec.toInt_add, hd, h4]
    exact Int.bmod_eq_of_le (by omega) (by omega)
  unfold lblTotal
  split
  · next hc =>
    have : pickJ false cnd d tm = .cond := by
      unfold pickJ
      rw [if_neg (by decide), if_pos ⟨hc.1, by rw [hd4]; omega, by rw [hd4]; omega⟩]
    rw [this]; exact Nat.le_refl _
  · split
    · next hc =>
      have : pickJ false cnd d tm = .cond ∨ pickJ false cnd d tm = .b := by
        unfold pickJ
        rw [if_neg (by decide)]
        split
        · exact .inl rfl
        · rw [if_pos (by rw [hd]; omega)]; exact .inr rfl
      rcases this with h | h <;> rw [h] <;> decide
    · split
      · next hc =>
        unfold pickJ
        rw [if_neg (by decide)]
        split
        · decide
        · split
          · decide
          · split
            · decide
            · rw [if_pos (by rw [hd]; omega)]; decide
      · cases pickJ false cnd d tm <;> decide

theorem pickJ_addr (cnd : Bool) (d t : BitVec 64) : ext (pickJ false cnd d t) ≤ if t.toNat < 0x100000000 then 3 else if t.toNat < 0x1000000000000 then 4 else 5 := by
  unfold pickJ
  rw [if_neg (by decide)]
  split_ifs <;> decide

theorem pickM_label {d tm : BitVec 64} {M D : Int} (hd : d.toInt = 4 * M) (h : (D ≤ M ∧ M ≤ 0) ∨ (0 ≤ M ∧ M ≤ D)) :
    movLen (pickM d tm) ≤ lblMov D := by
  unfold lblMov
  split
  · next hc =>
    unfold pickM
    rw [if_pos (by rw [hd]; omega)]; decide
  · split
    · next hc =>
      unfold pickM
      split
      · decide
      · rw [if_pos (by rw [hd]; omega)]; decide
    · cases pickM d tm <;> decide

theorem pickM_addr (d t : BitVec 64) : movLen (pickM d t) ≤ if t.toNat < 0x100000000 then 1 else if t.toNat < 0x1000000000000 then 2 else 3 := by
  unfold pickM
  split_ifs <;> decide

/-! ## Jumps and move addresses -/

theorem exec_toNat {e : Env} {L cur : List Nat} {T li E cp : Nat} (hi : Inv e L T cur li E cp) {x : Nat} (hx : x ≤ T) : (e.exec x).toNat = (e.base + e.off).toNat + 4 * x := by
  have := hi.wrapx
  rw [exec_base, BitVec.toNat_add, BitVec.toNat_ofNat, Nat.mod_eq_of_lt (a := 4 * x) (by omega), Nat.mod_eq_of_lt (by omega)]

theorem exec_mod {e : Env} {L cur : List Nat} {T li E cp : Nat} (hi : Inv e L T cur li E cp) (x : Nat) : (e.exec x).toNat % 4 = 0 := by
  have h1 := hi.base4
  have h2 := hi.off4
  rw [Env.exec, BitVec.toNat_add, BitVec.toNat_add, BitVec.toNat_ofNat]
  omega

theorem sub_mod {x y : BitVec 64} (h1 : x.toNat % 4 = 0) (h2 : y.toNat % 4 = 0) : (x - y).toNat % 4 = 0 := by
  rw [BitVec.toNat_sub]; omega

/-- The measured distance of a label: its relation to the final one and to the estimated one. -/
theorem measure {e : Env} {L cur : List Nat} {T li A cp : Nat} (hi : Inv e L T cur li A cp) {k : Nat} (hk : k < L.length) (hlt : li ≤ k → A < L.getD k 0) :
    ∃ M : Int, (targetDiff e (.label k) cp A (cur.getD k 0)).toInt = 4 * M ∧ -2 ^ 59 ≤ M ∧ M ≤ 2 ^ 59 ∧
      (k < li → M = (cur.getD k 0 : Int) - cp ∧ M ≤ 0 ∧ (L.getD k 0 : Int) - A ≤ M) ∧ (li ≤ k → M = (L.getD k 0 : Int) - A ∧ 0 < M) ∧
      ∀ F len, Fits L cur F li A cp len → Btw (e.exec (F.getD k 0) - e.exec cp).toInt (4 * M) ∧ (e.exec (F.getD k 0)).toNat ≤ (e.exec (cur.getD k 0)).toNat := by
  have hsm := hi.small
  have hb := hi.bound k
  have hle := hi.le
  have hA : A ≤ T := by have := hi.leE; have := hi.fit; omega
  by_cases h : k < li
  · obtain ⟨d1, d2⟩ := hi.done k h
    refine ⟨(cur.getD k 0 : Int) - cp, ?_, by omega, by omega, fun _ => ⟨rfl, by omega, by omega⟩, fun h' => by omega, fun F len hF => ?_⟩
    · simp only [targetDiff, targetAddr]
      rw [if_neg (by omega)]
      exact exec_sub e (by omega) (by omega)
    · rw [hF.old k h]
      refine ⟨.inr (.inr (exec_sub e (by omega) (by omega))), Nat.le_refl _⟩
  · have ht := hi.todo k (by omega)
    have hlt := hlt (by omega)
    refine ⟨(L.getD k 0 : Int) - A, ?_, by omega, by omega, fun h' => by omega, fun _ => ⟨rfl, by omega⟩, fun F len hF => ?_⟩
    · simp only [targetDiff, targetAddr]
      rw [ht, if_pos (by omega)]
      exact exec_sub e (by omega) (by omega)
    · have hn := hF.new k (by omega) hk
      rw [exec_sub e (by omega) (by omega), exec_toNat hi (by omega), exec_toNat hi (by omega), ht]
      refine ⟨.inr (.inl ⟨by omega, by omega⟩), by omega⟩

/-- A jump at `cp` (position of its first word) whose record is at `cp + pre`; `li'`: number of labels which have been processed. -/
theorem jump_ok {e : Env} {L cur : List Nat} {T li li' A cp : Nat} {j : JInfo} (hi : Inv e L T cur li' A (cp + j.pre)) (hll : li ≤ li') {total : Nat}
    (htok : j.tgt.Ok L.length) (hal : j.tgt.Aligned) (he : EstJ L li A j total) (hlt : ∀ k, li' ≤ k → k < L.length → A < L.getD k 0)
    (hfirst : ∀ k, li ≤ k → k < li' → cur.getD k 0 = cp + j.pre ∧ j.skip.isSome = true) :
    let K := detectJump e j (cp + j.pre) A (tgtSize cur j.tgt)
    (jumpWords j K).length ≤ j.pre + total ∧ j.pre ≤ (jumpWords j K).length ∧ (j.rew = true → K = .abs64) ∧
    ∀ F, Fits L cur F li' A (cp + j.pre) 0 → JumpFits j (tgtPos e F j.tgt) (e.exec cp) K ∧
      Patches e F cp ⟨false, j.call, j.tgt, K, if K = .cond then cp + j.pre - 1 else cp + j.pre⟩ (jumpWords j K) (jumpFin j (tgtPos e F j.tgt) (e.exec cp) K) := by
  intro K
  have hK : K = pickJ j.rew j.skip.isSome (targetDiff e j.tgt (cp + j.pre) A (tgtSize cur j.tgt)) (targetAddr e j.tgt (tgtSize cur j.tgt)) := rfl
  have hcond : K = .cond → j.skip.isSome = true := fun h => pickJ_cond (hK ▸ h)
  have hlen := jumpWords_length j K
  have fits : ∀ F, Fits L cur F li' A (cp + j.pre) 0 → JumpFits j (tgtPos e F j.tgt) (e.exec cp) K := by
    intro F hF
    rw [hK]
    have ex : e.exec cp + BitVec.ofNat 64 (4 * j.pre) = e.exec (cp + j.pre) := (exec_add ..).symm
    cases ht : j.tgt with
    | addr a =>
      rw [ht] at hal
      refine pickJ_fits ?_ ?_ (Nat.le_refl _)
      · rw [ex]; exact sub_mod hal (exec_mod hi _)
      · rw [ex]; exact .inr (.inr rfl)
    | label k =>
      rw [ht] at htok
      obtain ⟨M, m1, -, -, -, -, m6⟩ := measure hi (k := k) htok (fun h => hlt k h htok)
      obtain ⟨m6, m7⟩ := m6 F _ hF
      refine pickJ_fits ?_ ?_ m7
      · rw [ex]; exact sub_mod (exec_mod hi _) (exec_mod hi _)
      · rw [ex]; simp only [tgtSize]; rw [m1]; exact m6
  refine ⟨?_, by omega, fun h => by rw [hK, h]; rfl, fun F hF => ⟨fits F hF, jump_patches (by rw [hF.len_eq]; exact htok) K hcond⟩⟩
  rw [hlen]
  suffices ext K ≤ total by omega
  rw [hK]
  unfold EstJ at he
  cases hrew : j.rew with
  | true =>
    rw [hrew] at he
    simp only at he
    rw [he]; exact Nat.le_refl _
  | false =>
    rw [hrew] at he
    cases ht : j.tgt with
    | addr a =>
      rw [ht] at he
      simp only at he
      rw [he]; exact pickJ_addr ..
    | label k =>
      rw [ht] at he htok
      simp only at he
      obtain ⟨hk, D, rfl, hD1, hD2⟩ := he
      obtain ⟨M, m1, m2, m3, m4, m5, -⟩ := measure hi (k := k) htok (fun h => hlt k h htok)
      by_cases h1 : k < li
      · have := m4 (by omega)
        have := hD1 h1
        exact pickJ_label m1 (by omega) (.inl (by omega))
      · by_cases h2 : k < li'
        · obtain ⟨f1, f2⟩ := hfirst k (by omega) h2
          have hM := (m4 h2).1
          rw [f1] at hM
          have : pickJ false j.skip.isSome (targetDiff e (.label k) (cp + j.pre) A (tgtSize cur (.label k))) (targetAddr e (.label k) (tgtSize cur (.label k))) = .cond := by
            have hd4 := add_small (targetDiff e (.label k) (cp + j.pre) A (tgtSize cur (.label k))) (k := 4) (by omega) (.inr (by
              simp only [tgtSize]; rw [m1]; omega))
            simp only [tgtSize] at hd4 ⊢
            rw [m1] at hd4
            unfold pickJ
            rw [if_neg (by decide), if_pos ⟨f2, by rw [show (4#64 : BitVec 64) = BitVec.ofNat 64 4 from rfl, hd4]; omega,
              by rw [show (4#64 : BitVec 64) = BitVec.ofNat 64 4 from rfl, hd4]; omega⟩]
          rw [this]; exact Nat.zero_le _
        · have := m5 (by omega)
          have := hD2 (by omega)
          exact pickJ_label m1 (by omega) (.inr (by omega))

theorem mov_ok {e : Env} {L cur : List Nat} {T li E cp : Nat} (hi : Inv e L T cur li E cp) {reg : Nat} {t : Tgt} {total : Nat}
    (htok : t.Ok L.length) (he : EstM L li E t total) (hlt : ∀ k, li ≤ k → k < L.length → E < L.getD k 0) :
    let K := detectMov e t cp E (tgtSize cur t)
    movLen K ≤ total ∧
    ∀ F, Fits L cur F li E cp 0 → MovFits (tgtPos e F t) (e.exec cp) K ∧
      Patches e F cp ⟨true, false, t, K, cp⟩ (RD reg :: List.replicate (movLen K) 0#32) (movFin reg (tgtPos e F t) (e.exec cp) K) := by
  intro K
  have hK : K = pickM (targetDiff e t cp E (tgtSize cur t)) (targetAddr e t (tgtSize cur t)) := rfl
  have fits : ∀ F, Fits L cur F li E cp 0 → MovFits (tgtPos e F t) (e.exec cp) K ∧ K ≠ .cond := by
    intro F hF
    rw [hK]
    cases t with
    | addr a => exact pickM_fits (.inr (.inr rfl)) (Nat.le_refl _)
    | label k =>
      obtain ⟨M, m1, -, -, -, -, m6⟩ := measure hi (k := k) htok (fun h => hlt k h htok)
      obtain ⟨m6, m7⟩ := m6 F _ hF
      refine pickM_fits ?_ m7
      simp only [tgtSize]; rw [m1]; exact m6
  refine ⟨?_, fun F hF => ⟨(fits F hF).1, mov_patches (by rw [hF.len_eq]; exact htok) K (fits F hF).2⟩⟩
  rw [hK]
  cases t with
  | addr a =>
    simp only [EstM] at he
    rw [he]; exact pickM_addr ..
  | label k =>
    simp only [EstM] at he
    obtain ⟨hk, D, rfl, hD1, hD2⟩ := he
    obtain ⟨M, m1, m2, m3, m4, m5, -⟩ := measure hi (k := k) htok (fun h => hlt k h htok)
    by_cases h1 : k < li
    · have := m4 (by omega)
      have := hD1 h1
      exact pickM_label m1 (.inl (by omega))
    · have := m5 (by omega)
      have := hD2 (by omega)
      exact pickM_label m1 (.inr (by omega))

/-! ## Aligned labels -/

theorem andNot_mask (x : BitVec 64) {al : Nat} (h2 : 2 ≤ al) (h : al ≤ 60) (h4 : x.toNat % 4 = 0) :
    (x &&& ~~~(BitVec.ofNat 64 (2 ^ al - 4))).toNat = x.toNat - x.toNat % 2 ^ al := by
  have hp : 2 ^ al ≤ 2 ^ 60 := Nat.pow_le_pow_right (by omega) h
  have h1 : 2 ^ 2 ≤ 2 ^ al := Nat.pow_le_pow_right (by omega) h2
  obtain ⟨b0, b1⟩ := mod4_bits h4
  have hm : x &&& BitVec.ofNat 64 (2 ^ al - 4) = x &&& BitVec.ofNat 64 (2 ^ al - 1) := by
    have e4 : 2 ^ al - 4 = (2 ^ (al - 2) - 1) <<< 2 := by
      obtain ⟨m, rfl⟩ := Nat.exists_eq_add_of_le h2
      rw [Nat.shiftLeft_eq, Nat.add_sub_cancel_left, Nat.pow_add]; omega
    apply BitVec.eq_of_getLsbD_eq
    intro i hi
    rw [BitVec.getLsbD_and, BitVec.getLsbD_and, BitVec.getLsbD_ofNat, BitVec.getLsbD_ofNat, e4, Nat.testBit_shiftLeft, Nat.testBit_two_pow_sub_one, Nat.testBit_two_pow_sub_one]
    by_cases h : i < 2
    · interval_cases i
      · rw [b0]; rfl
      · rw [b1]; rfl
    · have c1 : (decide (i ≥ 2)) = true := by simp; omega
      have c2 : (i - 2 < al - 2) ↔ i < al := by omega
      simp only [c1, c2, Bool.true_and]
  have hand : (x &&& BitVec.ofNat 64 (2 ^ al - 4)).toNat = x.toNat % 2 ^ al := by
    rw [hm, BitVec.toNat_and, BitVec.toNat_ofNat, Nat.mod_eq_of_lt (a := 2 ^ al - 1) (by omega), Nat.and_two_pow_sub_one_eq_mod]
  have e : x &&& ~~~(BitVec.ofNat 64 (2 ^ al - 4)) = x - (x &&& BitVec.ofNat 64 (2 ^ al - 4)) := by
    have : x = (x &&& ~~~(BitVec.ofNat 64 (2 ^ al - 4))) + (x &&& BitVec.ofNat 64 (2 ^ al - 4)) := by
      rw [BitVec.add_eq_or_of_and_eq_zero]
      · apply BitVec.eq_of_getLsbD_eq
        intro i hi
        simp only [BitVec.getLsbD_or, BitVec.getLsbD_and, BitVec.getLsbD_not, hi, decide_true, Bool.true_and]
        cases x.getLsbD i <;> cases (BitVec.ofNat 64 (2 ^ al - 4)).getLsbD i <;> rfl
      · apply BitVec.eq_of_getLsbD_eq
        intro i hi
        simp only [BitVec.getLsbD_and, BitVec.getLsbD_not, hi, decide_true, Bool.true_and, BitVec.getLsbD_zero]
        cases x.getLsbD i <;> cases (BitVec.ofNat 64 (2 ^ al - 4)).getLsbD i <;> rfl
    generalize x &&& BitVec.ofNat 64 (2 ^ al - 4) = u at *
    generalize x &&& ~~~BitVec.ofNat 64 (2 ^ al - 4) = v at *
    bv_omega
  rw [e, BitVec.toNat_sub_of_le (by rw [BitVec.le_def, hand]; exact Nat.mod_le ..), hand]

/-- Rounding down the position after the NOPs. -/
theorem alignDown_ok {e : Env} {cp al T : Nat} (hal : 3 ≤ al) (hb : e.base.toNat % 4 = 0) (hs : T < 2 ^ 58) (hw : e.base.toNat + 4 * T < 2 ^ 64) (hn : cp + nops al ≤ T) :
    ∃ q, alignDown e (cp + nops al) al = cp + q ∧ q ≤ nops al ∧ (e.base + BitVec.ofNat 64 (4 * (cp + q))).toNat % 2 ^ al = 0 := by
  have hal60 : al ≤ 60 := by
    rcases Nat.lt_or_ge 60 al with h | h
    · have : 2 ^ 59 ≤ 2 ^ (al - 2) := Nat.pow_le_pow_right (by omega) (by omega)
      have hm : nops al = 2 ^ (al - 2) - 1 := rfl
      omega
    · exact h
  have hx : ∀ x, x ≤ T → (e.base + BitVec.ofNat 64 (4 * x)).toNat = e.base.toNat + 4 * x := by
    intro x hx
    rw [BitVec.toNat_add, BitVec.toNat_ofNat, Nat.mod_eq_of_lt (a := 4 * x) (by omega), Nat.mod_eq_of_lt (by omega)]
  have hpow : 2 ^ al = 4 * 2 ^ (al - 2) := by
    obtain ⟨m, rfl⟩ := Nat.exists_eq_add_of_le (show 2 ≤ al by omega)
    rw [Nat.add_sub_cancel_left, Nat.pow_add]
  have hnp : nops al = 2 ^ (al - 2) - 1 := rfl
  have h1 : 1 ≤ 2 ^ (al - 2) := Nat.one_le_two_pow
  have ha := andNot_mask (e.base + BitVec.ofNat 64 (4 * (cp + nops al))) (by omega) hal60 (by rw [hx _ hn]; omega)
  rw [hx _ hn] at ha
  have hlt : (e.base.toNat + 4 * (cp + nops al)) % 2 ^ al < 2 ^ al := Nat.mod_lt _ (by omega)
  have hm4 : (e.base.toNat + 4 * (cp + nops al)) % 2 ^ al % 4 = 0 := by
    rw [Nat.mod_mod_of_dvd _ ⟨2 ^ (al - 2), hpow⟩]; omega
  generalize hr : (e.base.toNat + 4 * (cp + nops al)) % 2 ^ al = r at *
  have hal' : alignDown e (cp + nops al) al = (e.base.toNat + 4 * (cp + nops al) - r - e.base.toNat) / 4 := by
    simp only [alignDown]
    rw [BitVec.toNat_sub_of_le (by rw [BitVec.le_def, ha]; omega), ha]
  refine ⟨nops al - r / 4, by rw [hal']; omega, by omega, ?_⟩
  rw [hx _ (by omega)]
  have hdm := Nat.div_add_mod (e.base.toNat + 4 * (cp + nops al)) (2 ^ al)
  rw [hr] at hdm
  have : e.base.toNat + 4 * (cp + (nops al - r / 4)) = 2 ^ al * ((e.base.toNat + 4 * (cp + nops al)) / 2 ^ al) := by omega
  rw [this, Nat.mul_mod_right]

end Verif.A64
