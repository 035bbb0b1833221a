import Verif.RISCV.GenKind

/-! # Reach of the chosen kinds: helper lemmas -/

namespace Verif.RV

/-- The decision behind the chosen kind. -/
def KindDec (j : JInfo) (k : Kind) (d : Int) (t : BitVec 64) : Prop :=
  match k with
  | .b16 => -0x100 ≤ d ∧ d ≤ 0xff
  | .b32 => -0x1000 ≤ d + 2 * (kback j .b32 : Nat) ∧ d + 2 * (kback j .b32 : Nat) ≤ 0xfff
  | .j16 => -0x800 ≤ d ∧ d ≤ 0x7ff
  | .j32 => -0x100000 ≤ d ∧ d ≤ 0xfffff
  | .seq .rel32 => S32_MIN ≤ d ∧ d ≤ S32_MAX
  | .seq .abs32 => t.toNat ≤ 0x7ffff7ff
  | .seq .abs44 => t.toNat ≤ 0x7fffffff7ff
  | .seq .abs52 => t.toNat ≤ 0x7ffffffffffff
  | .seq .full => True

theorem jumpKind_dec (cfg : Cfg) (j : JInfo) (d : Int) (t : BitVec 64) (h16 : j.br.cond16 = true → cfg.c = true) :
    KindDec j (jumpKind cfg j d t) d t := by
  have e16 : (cfg.c && j.br.cond16) = j.br.cond16 := by
    cases h : j.br.cond16
    · simp
    · simp [h16 h]
  simp only [jumpKind, e16]
  obtain ⟨c, hcd, hc⟩ : ∃ c : Int, (if j.br.cond16 = true then (2 : Int) else 4) = c ∧ c = 2 * (kback j .b32 : Nat) :=
    ⟨_, rfl, by simp only [kback]; split <;> omega⟩
  simp only [hcd]
  split
  · trivial
  · split
    · next h => simp only [Bool.and_eq_true, decide_eq_true_eq] at h; exact ⟨h.1.2, h.2⟩
    · split
      · next h =>
        simp only [Bool.and_eq_true, decide_eq_true_eq, hc] at h; exact ⟨h.1.2, h.2⟩
      · split
        · next h => simp only [compressedJump, Bool.and_eq_true, decide_eq_true_eq] at h; exact ⟨h.2.1.2, h.2.2⟩
        · split
          · next h => exact h
          · split
            · next h => exact h
            · split
              · next h => exact h
              · split
                · next h => exact h
                · split
                  · next h => exact h
                  · trivial

theorem movKind_dec (j : JInfo) (d : Int) (t : BitVec 64) : KindDec j (.seq (movKind d t)) d t := by
  simp only [movKind]
  split
  · next h => exact h
  · split
    · next h => exact h
    · split
      · next h => exact h
      · split
        · next h => exact h
        · trivial

theorem labelEst_zero {cfg : Cfg} {j : JInfo} {D : Int} (h : labelEst cfg j D = 0) (hc : cfg.c = true) (h16 : j.br.cond16 = true) :
    D ≤ 127 := by
  simp only [labelEst, hc, h16, Bool.and_true, Bool.true_and, if_true, Bool.and_eq_true, decide_eq_true_eq] at h
  split at h
  · omega
  · split_ifs at h <;> omega

/-! ## Addresses -/

theorem exec_diff (e : Env) (x y : Nat) (hx : x < 2 ^ 61) (hy : y < 2 ^ 61) :
    (e.exec x - e.exec y).toInt = 2 * ((x : Int) - y) := by
  have h : e.exec x - e.exec y = BitVec.ofInt 64 (2 * ((x : Int) - y)) := by
    apply BitVec.eq_of_toNat_eq
    simp only [Env.exec, BitVec.toNat_sub, BitVec.toNat_add, BitVec.toNat_ofNat, BitVec.toNat_ofInt]
    omega
  rw [h, BitVec.toInt_ofInt, Int.bmod_def]
  omega

theorem exec_even (e : Env) (hb : e.base &&& 1#64 = 0#64) (ho : e.off &&& 1#64 = 0#64) (x : Nat) : e.exec x &&& 1#64 = 0#64 := by
  have f : ∀ v : BitVec 64, v &&& 1#64 = 0#64 ↔ v.toNat % 2 = 0 := by
    intro v
    rw [← BitVec.toNat_inj, BitVec.toNat_and]
    simp [Nat.and_one_is_mod]
  rw [f] at *
  simp only [Env.exec, BitVec.toNat_add, BitVec.toNat_ofNat]
  omega

/-- The executable copy does not wrap around. -/
def Env.NoWrap (e : Env) : Prop := (e.base + e.off).toNat + 2 * e.n < 2 ^ 64

theorem exec_toNat (e : Env) (h : e.NoWrap) {x : Nat} (hx : x ≤ e.n) : (e.exec x).toNat = (e.base + e.off).toNat + 2 * x := by
  have : e.exec x = e.base + e.off + BitVec.ofNat 64 (2 * x) := by rw [Env.exec, BitVec.add_assoc, BitVec.add_comm (BitVec.ofNat 64 _), ← BitVec.add_assoc]
  rw [this, BitVec.toNat_add, BitVec.toNat_ofNat]
  simp only [Env.NoWrap] at h
  omega

theorem kindOk_of_dec (e : Env) (hw : e.NoWrap) (hn : e.n < 2 ^ 60) (j : JInfo) (k : Kind) (cp P Lt : Nat) (x : Int)
    (hcp : cp ≤ e.n) (hP : P ≤ e.n) (hLt : Lt ≤ e.n) (hkb : kback j k ≤ cp) (hdec : KindDec j k (2 * x) (e.exec Lt)) (hPL : P ≤ Lt)
    (hbad : ¬ badWindow (e.exec P))
    (hx : (x = (P : Int) - cp ∧ x ≤ 0) ∨
      (0 ≤ (P : Int) - cp ∧ (P : Int) - cp ≤ x ∧ (k = .b16 → (P : Int) - cp ≤ 126))) :
    KindOk k (e.exec P) (e.exec (cp - kback j k)) := by
  have hd := exec_diff e P (cp - kback j k) (by omega) (by omega)
  have t1 := exec_toNat e hw hP
  have t2 := exec_toNat e hw hLt
  have hc : ((cp - kback j k : Nat) : Int) = (cp : Int) - (kback j k : Nat) := by omega
  rw [hc] at hd
  rcases k with _ | _ | _ | _ | p
  · simp only [KindOk, KindDec, hd, kback] at *; simp at hx; omega
  · simp only [KindOk, KindDec, hd] at *; omega
  · simp only [KindOk, KindDec, hd, kback] at *; simp at hx; omega
  · simp only [KindOk, KindDec, hd, kback] at *; omega
  · clear hkb hw
    simp only [kback] at hd
    cases p <;> simp only [KindOk, KindDec, Patch.fits, badWindow, hd, kback] at hdec hbad ⊢ <;> omega

theorem exec_add (e : Env) (x y : Nat) : e.exec (x + y) = e.exec x + BitVec.ofNat 64 (2 * y) := by
  simp only [Env.exec, Nat.mul_add, BitVec.ofNat_add]
  simp only [BitVec.add_assoc, BitVec.add_comm e.off]

theorem sub_shift (t x c : BitVec 64) : t - x = t - (x + c) + c := by bv_omega

/-- Targets outside of the generated code. -/
theorem kindOk_addr (e : Env) (j : JInfo) (k : Kind) (cp : Nat) (t : BitVec 64)
    (hkb : kback j k ≤ cp) (hdec : KindDec j k (t - e.exec cp).toInt t) (h16 : k ≠ .b16) (hbad : ¬ badWindow t) :
    KindOk k t (e.exec (cp - kback j k)) := by
  match k with
  | .b16 => exact absurd rfl h16
  | .b32 =>
    simp only [KindOk, KindDec] at *
    have hkb2 : kback j .b32 ≤ 2 := by simp only [kback]; split <;> omega
    generalize kback j .b32 = q at *
    have hd : t - e.exec (cp - q) = (t - e.exec cp) + BitVec.ofNat 64 (2 * q) := by
      have : cp = cp - q + q := by omega
      rw [show e.exec cp = e.exec (cp - q + q) from congrArg _ this, exec_add]
      exact sub_shift ..
    rw [hd, BitVec.toInt_add]
    have h2 : (BitVec.ofNat 64 (2 * q)).toInt = 2 * q := by
      rcases Nat.lt_or_ge q 1 with h | h
      · have : q = 0 := by omega
        subst this; rfl
      · rcases Nat.lt_or_ge q 2 with h | h
        · have : q = 1 := by omega
          subst this; rfl
        · have : q = 2 := by omega
          subst this; rfl
    generalize (t - e.exec cp).toInt = v at *
    rw [h2, Int.bmod_def]; omega
  | .j16 => simpa only [KindOk, KindDec, kback, Nat.sub_zero] using hdec
  | .j32 => simpa only [KindOk, KindDec, kback, Nat.sub_zero] using hdec
  | .seq p =>
    cases p <;> simp only [KindOk, KindDec, Patch.fits, badWindow, kback, Nat.sub_zero] at hdec hbad ⊢ <;> omega

end Verif.RV
