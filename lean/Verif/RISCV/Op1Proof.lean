import Verif.RISCV.Op1Spec
import Verif.RISCV.Blk
import Verif.RISCV.EmitOp2Proof

/-!
# One operand operations of emit_single_op (helper lemmas)
-/

namespace Verif.RV

/-- The result of a one operand operation. -/
structure Post1 (R : BitVec 64 → Prop) (d : Reg) (c c' : Core) : Prop where
  res : R (c'.x d)
  kept : Kept d c c'

theorem uimm_lit (d : Nat) (i : BitVec 32) (h : i &&& 0xfff#32 = 0#32) :
    decode32 (LUI ||| RD d ||| i) = some (.lui (regMap d) (i.extractLsb' 12 20)) := by
  have hi : ∀ k, k < 12 → i.getLsbD k = false := by
    intro k hk
    have := congrArg (fun v => v.getLsbD k) h
    simp only [BitVec.getLsbD_and, BitVec.getLsbD_zero] at this
    revert this
    interval_cases k <;> simp
  have h0 := hi 0 (by decide); have h1 := hi 1 (by decide); have h2 := hi 2 (by decide); have h3 := hi 3 (by decide)
  have h4 := hi 4 (by decide); have h5 := hi 5 (by decide); have h6 := hi 6 (by decide); have h7 := hi 7 (by decide)
  have h8 := hi 8 (by decide); have h9 := hi 9 (by decide); have h10 := hi 10 (by decide); have h11 := hi 11 (by decide)
  have e1 : fOpc (LUI ||| RD d ||| i) = 0x37#7 := by
    bits [fOpc, LUI, OPC, RD, h0, h1, h2, h3, h4, h5, h6]
  have e2 : fRd (LUI ||| RD d ||| i) = regMap d := by
    bits [fRd, LUI, OPC, RD, h7, h8, h9, h10, h11]
  have e3 : fImmU (LUI ||| RD d ||| i) = i.extractLsb' 12 20 := by
    bits [fImmU, LUI, OPC, RD]
  simp [decode32, e1, e2, e3]

theorem wp_LUI_s {c : Core} {Q : Core → Prop} (d : Nat) (i : BitVec 32) (h : i &&& 0xfff#32 = 0#32) (r : Emit) :
    wp (w32 (LUI ||| RD d ||| i) ++ r) c Q ↔ wp r (c.wr (regMap d) (uimm (i.extractLsb' 12 20))) Q :=
  wp_step32 (uimm_lit d i h) rfl (by simp [execC, execS])

@[simp] theorem wp_LUI_10000 {c : Core} {Q : Core → Prop} (d : Nat) (r : Emit) :
    wp (w32 (LUI ||| RD d ||| 0x10000#32) ++ r) c Q ↔ wp r (c.wr (regMap d) 0x10000#64) Q := by
  rw [wp_LUI_s _ _ (by decide)]; rfl
@[simp] theorem wp_LUI_ff0000 {c : Core} {Q : Core → Prop} (d : Nat) (r : Emit) :
    wp (w32 (LUI ||| RD d ||| 0xff0000#32) ++ r) c Q ↔ wp r (c.wr (regMap d) 0xff0000#64) Q := by
  rw [wp_LUI_s _ _ (by decide)]; rfl

/-- The steps of emit_rev for 64 bit values. -/
def rev64a (a : BitVec 64) : BitVec 64 := (a <<< 32) ||| (a >>> 32)
def rev64b (a : BitVec 64) : BitVec 64 := ((a &&& 0x0000ffff0000ffff#64) <<< 16) ||| ((a >>> 16) &&& 0x0000ffff0000ffff#64)
def rev64c (a : BitVec 64) : BitVec 64 := ((a &&& 0x00ff00ff00ff00ff#64) <<< 8) ||| ((a >>> 8) &&& 0x00ff00ff00ff00ff#64)

theorem rev64_ok (a : BitVec 64) : rev64c (rev64b (rev64a a)) = bswap64 a := by
  bits [rev64a, rev64b, rev64c, bswap64, put]

theorem bswap_rev (a : BitVec 64) : IsRev 8 a (bswap64 a) := by
  intro i hi
  interval_cases i <;> bits [byte, bswap64, put]

theorem Kept.refl (d : Reg) (c : Core) : Kept d c c := ⟨fun _ _ _ _ _ _ => rfl, rfl, rfl⟩
theorem Kept.wr {d r : Reg} {c c1 : Core} (h : Kept d c c1) (hr : r = d ∨ r = 5#5 ∨ r = 28#5 ∨ r = 6#5 ∨ r = 1#5) (v : BitVec 64) :
    Kept d c (c1.wr r v) := by
  refine ⟨fun q h1 h2 h3 h4 h5 => ?_, h.2.1, h.2.2⟩
  have : q ≠ r := by rintro rfl; tauto
  rw [x_wr, if_neg (fun e => this e.1)]
  exact h.1 q h1 h2 h3 h4 h5

/-- Proves `Kept` of a chain of register writes. -/
macro "kept" : tactic => `(tactic| (repeat (refine Kept.wr ?_ (by simp) _)) <;> exact Kept.refl _ _)

theorem uimm16 : uimm 16#20 = 0x10000#64 := by decide
theorem uimmff0 : uimm 0xff0#20 = 0xff0000#64 := by decide

section
variable {dst src : Nat} {c : Core} {A : BitVec 64} {op : Op}

theorem rev64_wp (ho : op.is32 = false) (hd : DstOk dst) (hs : SrcOk src) (hs6 : regMap src ≠ 6#5) (hA : c.x (regMap src) = A) :
    wp (emitRev op dst src) c (Post1 (fun r => r = bswap64 A) (regMap dst) c) := by
  obtain ⟨-, d0, d5, d28, d6⟩ := hd
  obtain ⟨-, s5, s28⟩ := hs
  rw [← rev64_ok]
  wps [emitRev, ho, ShOp.eval, IOp.eval, ROp.eval]
  constructor
  · simp [*, d5.symm, d28.symm, d6.symm, rev64a, rev64b, rev64c, uimm16]
  · kept

/-- The steps of emit_rev for 32 bit values. -/
def rev32a (a : BitVec 64) : BitVec 64 := sx32 (lo32 a <<< 16) ||| sx32 (lo32 a >>> 16)
def rev32b (w : Bool) (a : BitVec 64) : BitVec 64 :=
  (if w then sx32 (lo32 (a &&& 0xff00ff#64) <<< 8) else (a &&& 0xff00ff#64) <<< 8) ||| (sx32 (lo32 a >>> 8) &&& 0xff00ff#64)

theorem rev32_wp (ho : op.is32 = true) (hd : DstOk dst) (hs : SrcOk src) (hs6 : regMap src ≠ 6#5) (hA : c.x (regMap src) = A) :
    wp (emitRev op dst src) c (Post1 (fun r => r = rev32b (op.code == .revS32) (rev32a A)) (regMap dst) c) := by
  obtain ⟨-, d0, d5, d28, d6⟩ := hd
  obtain ⟨-, s5, s28⟩ := hs
  cases hw : op.code == .revS32
  all_goals
    wps [emitRev, ho, hw, ShOp.eval, ShOp.eval32, IOp.eval, ROp.eval]
    constructor
    · simp [*, d5.symm, d28.symm, d6.symm, rev32a, rev32b, uimmff0]
    · kept

theorem rev32_rev (w : Bool) (a : BitVec 64) : IsRev 4 a (rev32b w (rev32a a)) := by
  intro i hi
  cases w <;> interval_cases i <;> bits [byte, rev32a, rev32b, sx32, lo32, BitVec.getLsbD_signExtend, BitVec.msb_eq_getLsbD_last]

theorem rev32_s (a : BitVec 64) : rev32b true (rev32a a) = ((rev32b true (rev32a a)).setWidth 32).signExtend 64 := by
  bits [rev32a, rev32b, sx32, lo32, BitVec.getLsbD_signExtend, BitVec.msb_eq_getLsbD_last]
theorem rev32_u (a : BitVec 64) : rev32b false (rev32a a) = ((rev32b false (rev32a a)).setWidth 32).setWidth 64 := by
  bits [rev32a, rev32b, sx32, lo32, BitVec.getLsbD_signExtend, BitVec.msb_eq_getLsbD_last]

/-- emit_rev16. -/
def rev16 (w s : Bool) (a : BitVec 64) : BitVec 64 :=
  match w, s with
  | false, false => (a <<< 56) >>> 48 ||| ((a >>> 8) &&& 0xff#64)
  | false, true => (a <<< 56).sshiftRight 48 ||| ((a >>> 8) &&& 0xff#64)
  | true, false => sx32 ((lo32 a <<< 24) >>> 16) ||| (sx32 (lo32 a >>> 8) &&& 0xff#64)
  | true, true => sx32 ((lo32 a <<< 24).sshiftRight 16) ||| (sx32 (lo32 a >>> 8) &&& 0xff#64)

theorem rev16_wp (hc : op.code = .revU16 ∨ op.code = .revS16) (hd : DstOk dst) (hs : SrcOk src) (hs6 : regMap src ≠ 6#5)
    (hA : c.x (regMap src) = A) :
    wp (emitRev16 op dst src) c (Post1 (fun r => r = rev16 op.is32 (op.code == .revS16) A) (regMap dst) c) := by
  obtain ⟨-, d0, d5, d28, d6⟩ := hd
  obtain ⟨-, s5, s28⟩ := hs
  rcases hc with hc | hc <;> cases hw : op.is32
  all_goals
    wps [emitRev16, hc, hw, ShOp.eval, ShOp.eval32, IOp.eval, ROp.eval]
    constructor
    · simp [*, d5.symm, d28.symm, d6.symm, rev16, show (OpC.revU16 == OpC.revS16) = false from rfl]
    · kept

theorem rev16_rev (w s : Bool) (a : BitVec 64) : IsRev 2 a (rev16 w s a) := by
  intro i hi
  cases w <;> cases s <;> interval_cases i <;> bits [byte, rev16, sx32, lo32, BitVec.getLsbD_signExtend, BitVec.msb_eq_getLsbD_last, BitVec.getLsbD_sshiftRight]
theorem rev16_s (w : Bool) (a : BitVec 64) : rev16 w true a = ((rev16 w true a).setWidth 16).signExtend 64 := by
  cases w <;> bits [rev16, sx32, lo32, BitVec.getLsbD_signExtend, BitVec.msb_eq_getLsbD_last, BitVec.getLsbD_sshiftRight]
theorem rev16_u (w : Bool) (a : BitVec 64) : rev16 w false a = ((rev16 w false a).setWidth 16).setWidth 64 := by
  cases w <;> bits [rev16, sx32, lo32, BitVec.getLsbD_signExtend, BitVec.msb_eq_getLsbD_last, BitVec.getLsbD_sshiftRight]

/-! ## Zbb -/

theorem clzN_ok {w : Nat} (hw : 0 < w) (a : BitVec w) : IsClz a (clzN w a.toNat) := by
  unfold clzN
  by_cases h : a.toNat = 0
  · rw [if_pos h]
    have : a = 0#w := BitVec.eq_of_toNat_eq (by simpa using h)
    subst this
    exact ⟨Nat.le_refl _, fun i _ => by simp, fun h => absurd h (Nat.lt_irrefl _)⟩
  · rw [if_neg h]
    have hl : Nat.log2 a.toNat < w := (Nat.log2_lt h).mpr a.isLt
    refine ⟨by omega, ?_, ?_⟩
    · intro i hi
      have : w - 1 - i > Nat.log2 a.toNat := by omega
      have h2 : a.toNat < 2 ^ (w - 1 - i) := (Nat.log2_lt h).mp this
      simp only [BitVec.getMsbD, BitVec.getLsbD, Nat.testBit_lt_two_pow h2, Bool.and_false]
    · intro hi
      have e : w - 1 - (w - 1 - Nat.log2 a.toNat) = Nat.log2 a.toNat := by omega
      simp only [BitVec.getMsbD, e, BitVec.getLsbD]
      simp only [hi, decide_true, Bool.true_and]
      have h1 := Nat.log2_self_le h
      have h2 : a.toNat < 2 ^ (Nat.log2 a.toNat + 1) := Nat.lt_log2_self
      rw [Nat.testBit_eq_decide_div_mod_eq, decide_eq_true_eq]
      have h3 : a.toNat / 2 ^ (Nat.log2 a.toNat) = 1 := by
        apply Nat.div_eq_of_lt_le <;> omega
      rw [h3]

theorem ctzFrom_ok (v : Nat) (n i : Nat) : ctzFrom v i n ≤ n ∧ (∀ j, j < ctzFrom v i n → v.testBit (i + j) = false) ∧
    (ctzFrom v i n < n → v.testBit (i + ctzFrom v i n) = true) := by
  induction n generalizing i with
  | zero => exact ⟨Nat.le_refl _, fun j hj => absurd hj (by simp [ctzFrom]), fun h => absurd h (by simp [ctzFrom])⟩
  | succ n ih =>
    unfold ctzFrom
    cases hb : v.testBit i
    · obtain ⟨h1, h2, h3⟩ := ih (i + 1)
      simp only [Bool.false_eq_true, if_false]
      refine ⟨by omega, ?_, ?_⟩
      · intro j hj
        rcases j with _ | j
        · exact hb
        · have := h2 j (by omega)
          rwa [show i + (j + 1) = i + 1 + j by omega]
      · intro h
        have := h3 (by omega)
        rwa [show i + (ctzFrom v (i + 1) n + 1) = i + 1 + ctzFrom v (i + 1) n by omega]
    · simp only [if_true]
      exact ⟨by omega, fun j hj => absurd hj (by omega), fun _ => hb⟩

theorem ctzN_ok {w : Nat} (a : BitVec w) : IsCtz a (ctzN w a.toNat) := by
  obtain ⟨h1, h2, h3⟩ := ctzFrom_ok a.toNat w 0
  simp only [Nat.zero_add] at h2 h3
  exact ⟨h1, h2, h3⟩

/-- REV8 followed by a shift. -/
theorem bswap_32s (a : BitVec 64) : IsRev 4 a ((bswap64 a).sshiftRight 32) ∧
    (bswap64 a).sshiftRight 32 = (((bswap64 a).sshiftRight 32).setWidth 32).signExtend 64 := by
  constructor
  · intro i hi
    interval_cases i <;> bits [byte, bswap64, put, BitVec.getLsbD_sshiftRight]
  · bits [bswap64, put, BitVec.getLsbD_signExtend, BitVec.msb_eq_getLsbD_last, BitVec.getLsbD_sshiftRight]
theorem bswap_32u (a : BitVec 64) : IsRev 4 a ((bswap64 a) >>> 32) ∧
    (bswap64 a) >>> 32 = (((bswap64 a) >>> 32).setWidth 32).setWidth 64 := by
  constructor
  · intro i hi
    interval_cases i <;> bits [byte, bswap64, put]
  · bits [bswap64, put]
theorem bswap_16s (a : BitVec 64) : IsRev 2 a ((bswap64 a).sshiftRight 48) ∧
    (bswap64 a).sshiftRight 48 = (((bswap64 a).sshiftRight 48).setWidth 16).signExtend 64 := by
  constructor
  · intro i hi
    interval_cases i <;> bits [byte, bswap64, put, BitVec.getLsbD_sshiftRight]
  · bits [bswap64, put, BitVec.getLsbD_signExtend, BitVec.msb_eq_getLsbD_last, BitVec.getLsbD_sshiftRight]
theorem bswap_16u (a : BitVec 64) : IsRev 2 a ((bswap64 a) >>> 48) ∧
    (bswap64 a) >>> 48 = (((bswap64 a) >>> 48).setWidth 16).setWidth 64 := by
  constructor
  · intro i hi
    interval_cases i <;> bits [byte, bswap64, put]
  · bits [bswap64, put]

theorem Post1.mono {R S : BitVec 64 → Prop} {d : Reg} {c c' : Core} (h : Post1 R d c c') (hrs : ∀ r, R r → S r) : Post1 S d c c' :=
  ⟨hrs _ h.res, h.kept⟩

/-- The byte reversals, and CLZ and CTZ with Zbb. -/
theorem single1_un {cfg : Cfg} {fl : SF} {o : OpC} (hc : o = .rev ∨ o = .revU16 ∨ o = .revS16 ∨ o = .revU32 ∨ o = .revS32 ∨
      (cfg.zbb = true ∧ (o = .clz ∨ o = .ctz))) (ho : op.code = o)
    (h32 : o = .revU32 ∨ o = .revS32 → op.is32 = true) (hr : o = .rev → op.is32 = true → cfg.zbb = true)
    (hd : DstOk dst) (hs : SrcOk src) (hs6 : regMap src ≠ 6#5) (hA : c.x (regMap src) = A) :
    wp (emitSingle1 cfg op fl dst src) c (Post1 (UnSpec o op.is32 A) (regMap dst) c) := by
  have d0 := hd.n0
  rcases hc with rfl | rfl | rfl | rfl | rfl | ⟨hz, rfl | rfl⟩
  · simp only [emitSingle1, ho]
    cases hz : cfg.zbb
    · simp only [Bool.false_eq_true, if_false]
      have h3 : op.is32 = false := by
        cases h : op.is32
        · rfl
        · have := hr rfl h; rw [hz] at this; cases this
      refine wp_mono (rev64_wp h3 hd hs hs6 hA) fun c' h => h.mono ?_
      rintro r rfl
      simp only [UnSpec, h3, Bool.false_eq_true, if_false]
      exact bswap_rev A
    · cases h3 : op.is32
      · wps [UnOp.eval, hA]
        exact ⟨by simp only [UnSpec, x_wr]; simpa [d0] using bswap_rev A, by kept⟩
      · wps [UnOp.eval, ShOp.eval, hA]
        exact ⟨by simp only [UnSpec, x_wr]; simpa [d0] using bswap_32s A, by kept⟩
  · simp only [emitSingle1, ho]
    cases hz : cfg.zbb
    · simp only [Bool.false_eq_true, if_false]
      refine wp_mono (rev16_wp (Or.inl ho) hd hs hs6 hA) fun c' h => h.mono ?_
      rintro r rfl
      rw [ho]
      exact ⟨rev16_rev _ _ _, rev16_u _ _⟩
    · wps [UnOp.eval, ShOp.eval, hA]
      exact ⟨by simp only [UnSpec, x_wr]; simpa [d0] using bswap_16u A, by kept⟩
  · simp only [emitSingle1, ho]
    cases hz : cfg.zbb
    · simp only [Bool.false_eq_true, if_false]
      refine wp_mono (rev16_wp (Or.inr ho) hd hs hs6 hA) fun c' h => h.mono ?_
      rintro r rfl
      rw [ho]
      exact ⟨rev16_rev _ _ _, rev16_s _ _⟩
    · wps [UnOp.eval, ShOp.eval, hA]
      exact ⟨by simp only [UnSpec, x_wr]; simpa [d0] using bswap_16s A, by kept⟩
  · simp only [emitSingle1, ho]
    cases hz : cfg.zbb
    · simp only [Bool.false_eq_true, if_false]
      refine wp_mono (rev32_wp (h32 (Or.inl rfl)) hd hs hs6 hA) fun c' h => h.mono ?_
      rintro r rfl
      rw [ho]
      exact ⟨rev32_rev _ _, rev32_u _⟩
    · wps [UnOp.eval, ShOp.eval, hA]
      exact ⟨by simp only [UnSpec, x_wr]; simpa [d0] using bswap_32u A, by kept⟩
  · simp only [emitSingle1, ho]
    cases hz : cfg.zbb
    · simp only [Bool.false_eq_true, if_false]
      refine wp_mono (rev32_wp (h32 (Or.inr rfl)) hd hs hs6 hA) fun c' h => h.mono ?_
      rintro r rfl
      rw [ho]
      exact ⟨rev32_rev _ _, rev32_s _⟩
    · wps [UnOp.eval, ShOp.eval, hA]
      exact ⟨by simp only [UnSpec, x_wr]; simpa [d0] using bswap_32s A, by kept⟩
  · simp only [emitSingle1, ho, hz, if_true]
    cases h3 : op.is32
    · wps [UnOp.eval, hA]
      exact ⟨⟨_, by simp [d0]; rfl, by simpa using clzN_ok (by decide) A⟩, by kept⟩
    · wps [UnOp.eval, hA]
      exact ⟨⟨_, by simp [d0]; rfl, by simpa [lo32] using clzN_ok (by decide) (lo32 A)⟩, by kept⟩
  · simp only [emitSingle1, ho, hz, if_true]
    cases h3 : op.is32
    · wps [UnOp.eval, hA]
      exact ⟨⟨_, by simp [d0]; rfl, by simpa using ctzN_ok A⟩, by kept⟩
    · wps [UnOp.eval, hA]
      exact ⟨⟨_, by simp [d0]; rfl, by simpa [lo32] using ctzN_ok (lo32 A)⟩, by kept⟩
end

end Verif.RV
