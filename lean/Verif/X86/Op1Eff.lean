import Verif.X86.MovEff
import Verif.RISCV.Op1Spec

/-! # Bit scans, conditional moves and byte swaps (helper lemmas) -/

namespace Verif.X86
open Verif.RV (IsClz IsCtz IsRev)

variable {win m32 : Bool} {s : St}

/-! ## Counting -/

theorem bsr_is {w : Nat} {x : BitVec w} (hx : x ≠ 0#w) : bsr x < w ∧ IsClz x (w - 1 - bsr x) := by
  have h0 : x.toNat ≠ 0 := fun h => hx (BitVec.eq_of_toNat_eq h)
  have hl : Nat.log2 x.toNat < w := by rw [Nat.log2_lt h0]; exact x.isLt
  have hlt : x.toNat < 2 ^ (Nat.log2 x.toNat + 1) := Nat.lt_log2_self
  refine ⟨hl, by omega, fun i hi => ?_, fun _ => ?_⟩
  · rw [BitVec.getMsbD_eq_getLsbD, BitVec.getLsbD]
    unfold bsr at hi
    rw [Nat.testBit_lt_two_pow (Nat.lt_of_lt_of_le hlt (Nat.pow_le_pow_right (by decide) (by omega)))]; simp
  · unfold bsr
    rw [BitVec.getMsbD_eq_getLsbD, BitVec.getLsbD, show w - 1 - (w - 1 - Nat.log2 x.toNat) = Nat.log2 x.toNat by omega, Nat.testBit_log2 h0]
    simp; omega

theorem bsf_is {w : Nat} {x : BitVec w} (hx : x ≠ 0#w) : bsf x < w ∧ IsCtz x (bsf x) := by
  have hr : x.reverse ≠ 0#w := by
    intro h
    apply hx
    apply BitVec.eq_of_getLsbD_eq
    intro i _
    have := BitVec.getMsbD_reverse (i := i) (x := x)
    rw [h] at this
    simpa using this.symm
  obtain ⟨h1, h2, h3, h4⟩ := bsr_is hr
  have e : bsf x = w - 1 - bsr x.reverse := rfl
  rw [e]
  refine ⟨by omega, h2, fun i hi => ?_, fun hn => ?_⟩
  · have := h3 i hi; rwa [BitVec.getMsbD_reverse] at this
  · have := h4 hn; rwa [BitVec.getMsbD_reverse] at this

section
variable {pre rex : Byte} {reg : BitVec 4} {l : Loc} {ad : Option (BitVec 64)} {imm : BitVec 64}
theorem xbc {n : Nat} (h : opSize pre rex = n) {c : Bool} (hc : decide (pre = 0xf3#8) = c) : execRM pre rex 1 0xbc#8 reg (some l) ad imm s =
    let r := bitScan true c ((get s n l).setWidth (8 * n)) (bsUndef n s)
    some { put s n r.1 (.reg reg) with f := r.2 } := by subst h hc; rfl
theorem xbd {n : Nat} (h : opSize pre rex = n) {c : Bool} (hc : decide (pre = 0xf3#8) = c) : execRM pre rex 1 0xbd#8 reg (some l) ad imm s =
    let r := bitScan false c ((get s n l).setWidth (8 * n)) (bsUndef n s)
    some { put s n r.1 (.reg reg) with f := r.2 } := by subst h hc; rfl
end

/-- The result of a bit scan. -/
def scan (win m32 up cnt : Bool) (s : St) (b : Opd) : BitVec 64 × Flags := bitScan up cnt (lo m32 (opv win m32 s b)) (bsUndef (NB m32) (clob win s b))

theorem size_nb {rex pre : Byte} (hp : pre ≠ 0x66#8) (h : rex.getLsbD 3 = !m32) : opSize pre rex = NB m32 := by
  unfold opSize NB; cases m32 <;> simp_all

theorem e_scan {up cnt : Bool} {d : Nat} {b : Opd} (hb : Good b) (hi : b.isImm = false) :
    Eff win m32 (ins win m32 { size := 2, pref := if cnt then 0xf3#8 else 0#8 } (.reg d) b [0x0f#8, if up then 0xbc#8 else 0xbd#8]) s (some (.reg d)) (scan win m32 up cnt s b).1 false (long b)
      (scan win m32 up cnt s b).2 := by
  refine ⟨{ put (clob win s b) (NB m32) _ (.reg (num win d)) with f := _ }, ?_, put_dreg win m32 s b d _ _, rfl⟩
  refine ins_step2 (fl := { size := 2, pref := if cnt then 0xf3#8 else 0#8 }) rfl rfl (by cases cnt <;> decide) hb hi (by cases up <;> decide) (imm1 (by cases up <;> decide)) (fun rex h1 _ => ?_)
  have hn : opSize (if cnt then 0xf3#8 else 0#8) rex = NB m32 := size_nb (by cases cnt <;> decide) (by simpa using h1)
  have hp : decide ((if cnt then 0xf3#8 else 0#8 : Byte) = 0xf3#8) = cnt := by cases cnt <;> decide
  have hg := get_target win m32 s b hi
  cases up
  · simp only [Bool.false_eq_true, if_false]
    rw [xbd hn hp, hg]; rfl
  · simp only [if_true]
    rw [xbc hn hp, hg]; rfl

theorem cmov_flds : ∀ op : Byte, fld op 4 4 = 4#4 → (op ≠ 0xb6#8 ∧ op ≠ 0xbe#8 ∧ op ≠ 0xa4#8 ∧ op ≠ 0xac#8 ∧ fld op 4 4 ≠ 9#4) ∧ hasRM 1 op = true ∧ op ≠ 0xaf#8 ∧ op ≠ 0xb7#8 ∧ op ≠ 0xbf#8 ∧
    op ≠ 0xa5#8 ∧ op ≠ 0xad#8 := by decide +kernel

/-- CMOVcc. -/
theorem e_cmov {op : Byte} (ho : fld op 4 4 = 4#4) {c : Bool} (hc : ccF (fld op 0 4) s.f = some c) {d : Nat} {b : Opd} (hb : Good b) (hi : b.isImm = false) (hd : long b = true → num win d ≠ T2 win) :
    Eff win m32 (groupf win m32 op d b) s (some (.reg d)) (if c then opv win m32 s b else s.r (num win d)) false (long b) s.f := by
  obtain ⟨h1, h2, h3, h4, h5, h6, h7⟩ := cmov_flds op ho
  obtain ⟨bs, h⟩ := ins_some (win := win) (m32 := m32) (fl := { size := 2 }) rfl d hi [0x0f#8, op]
  refine ⟨_, ⟨bs, h, groupf_step h (good_ok hb hi) h1 h2 ?_⟩, put_dreg win m32 s b d _ s.f, rfl⟩
  have hn : opSize 0#8 (rexOf m32) = NB m32 := opSize_rex (by cases m32 <;> decide)
  have hr : (clob win s b).r (num win d) = s.r (num win d) := clob_reg fun e => by
    cases hl : long b
    · rfl
    · exact absurd e (hd hl)
  have hf := clob_f win s b
  simp only [execRM, Nat.one_ne_zero, false_and, if_false, Option.bind_some, if_true, h3, h1, h4, h5, h6, h7, or_self, ho, hf, hc, Option.map_some, hn, get_target win m32 s b hi, hr]
  congr 1
  rw [← hf]
  rfl

/-- CMOVE. -/
theorem cmove (f : Flags) : ccF (fld 0x44#8 0 4) f = f.zf := by
  rcases f with ⟨_, zf, _, _⟩
  rcases zf with _ | _ | _ <;> rfl

theorem lo_ofNat {n : Nat} (h : n < 2 ^ 32) : trunc m32 (BitVec.ofNat 64 n) = BitVec.ofNat 64 n := by
  cases m32
  · rfl
  · apply BitVec.eq_of_toNat_eq
    simp only [trunc, if_true, BitVec.toNat_setWidth, BitVec.toNat_ofNat]; omega

theorem xor_tab : (∀ k : Fin 64, up false (lo false (BitVec.ofNat 64 k.val) ^^^ lo false (63#64)) = BitVec.ofNat 64 (63 - k.val)) ∧
    ∀ k : Fin 32, up true (lo true (BitVec.ofNat 64 k.val) ^^^ lo true (31#64)) = BitVec.ofNat 64 (31 - k.val) := by decide +kernel

theorem B_le (m32 : Bool) : B m32 ≤ 64 := by cases m32 <;> decide

/-- The result is counted. -/
def Counts (isClz : Bool) {w : Nat} (x : BitVec w) (n : Nat) : Prop := if isClz then IsClz x n else IsCtz x n

theorem counts_zero (isClz : Bool) {w : Nat} : Counts isClz (0#w) w := by
  cases isClz
  · exact ⟨Nat.le_refl _, fun i _ => by simp, fun h => absurd h (Nat.lt_irrefl _)⟩
  · exact ⟨Nat.le_refl _, fun i _ => by simp, fun h => absurd h (Nat.lt_irrefl _)⟩

theorem scan_nz {upw : Bool} {b : Opd} (hx : lo m32 (opv win m32 s b) ≠ 0#_) :
    scan win m32 upw false s b = (BitVec.ofNat 64 (if upw then bsf (lo m32 (opv win m32 s b)) else bsr (lo m32 (opv win m32 s b))), ⟨none, some false, none, none⟩) := by
  simp only [scan, bitScan, Bool.false_eq_true, if_false, hx]

theorem scan_z {upw : Bool} {b : Opd} (hx : lo m32 (opv win m32 s b) = 0#_) : (scan win m32 upw false s b).2 = ⟨none, some true, none, none⟩ := by
  simp only [scan, bitScan, Bool.false_eq_true, if_false, hx, if_true]

/-- emit_clz_ctz. -/
theorem e_clzCtz {ft : Feat} {isClz : Bool} {dst src : Opd} (hd : Dst dst) (hs : User src) (hi : src.isImm = false) :
    ∃ n f, Counts isClz (lo m32 (opv win m32 s src)) n ∧ Eff win m32 (emitClzCtz ft win m32 isClz dst src) s (some dst) (BitVec.ofNat 64 n) true true f := by
  -- from a result in dst_r
  have fin : ∀ {c : Code} {v : BitVec 64} {f : Flags}, Eff win m32 c s (some (.reg (dstR dst))) v true true f →
      Eff win m32 (c +> if dst.isMem then emitMov win m32 dst (.reg TMP_REG1) else some []) s (some dst) v true true f := by
    intro c v f h
    cases dst with
    | imm _ => exact hd.elim
    | reg d => simp only [Opd.isMem, Bool.false_eq_true, if_false, cat_nil]; exact h
    | mem base offs w => simp only [Opd.isMem, if_true]; exact e_moveTmp hd h
  have dr : Dst (.reg (dstR dst)) := by
    cases dst with
    | imm _ => exact hd.elim
    | reg d => exact hd
    | mem base offs w => simp [Dst, dstR, TMP_REG1]
  have bnd : ∀ x : BitVec (B m32), x ≠ 0#_ → bsr x < B m32 ∧ bsf x < B m32 := fun x hx => ⟨(bsr_is hx).1, (bsf_is hx).1⟩
  unfold emitClzCtz
  by_cases hft : (if isClz then ft.lzcnt else ft.tzcnt) = true
  · rw [if_pos hft]
    have h := e_scan (win := win) (m32 := m32) (s := s) (up := !isClz) (cnt := true) (d := dstR dst) hs.good hi
    refine ⟨if lo m32 (opv win m32 s src) = 0#_ then B m32 else if isClz then B m32 - 1 - bsr (lo m32 (opv win m32 s src)) else bsf (lo m32 (opv win m32 s src)), (scan win m32 (!isClz) true s src).2, ?_, ?_⟩
    · by_cases hx : lo m32 (opv win m32 s src) = 0#_
      · rw [if_pos hx, hx]; exact counts_zero _
      · rw [if_neg hx]
        cases isClz
        · exact (bsf_is hx).2
        · exact (bsr_is hx).2
    · have : (scan win m32 (!isClz) true s src).1 = BitVec.ofNat 64 (if lo m32 (opv win m32 s src) = 0#_ then B m32 else
          if isClz then B m32 - 1 - bsr (lo m32 (opv win m32 s src)) else bsf (lo m32 (opv win m32 s src))) := by
        simp only [scan, bitScan, if_true]
        cases isClz <;> rfl
      rw [← this]
      refine fin (Eff.weaken (a1 := false) (a2 := long src) ?_ (fun h => by cases h) (fun h => by cases h))
      cases isClz <;> exact h
  · rw [if_neg hft]
    have h0 := e_scan (win := win) (m32 := m32) (s := s) (up := !isClz) (cnt := false) (d := dstR dst) hs.good hi
    have h1 : Eff win m32 (groupf win m32 (if isClz then 0xbd#8 else 0xbc#8) (dstR dst) src) s (some (.reg (dstR dst))) (scan win m32 (!isClz) false s src).1 false (long src)
        (scan win m32 (!isClz) false s src).2 := by cases isClz <;> exact h0
    obtain ⟨s1, e1, r1, f1⟩ := h1
    generalize hmax : (if isClz then (if m32 then 32 + 31 else 64 + 63) else if m32 then 32 else 64 : BitVec 64) = mx
    obtain ⟨s2, e2, r2, f2⟩ := e_mov (win := win) (m32 := m32) (s := s1) (dst := .reg TMP_REG2) (src := .imm mx) (by simp [Good, TMP_REG2]) rfl trivial (fun h => by cases h)
    have hn : dstR dst ≠ TMP_REG2 := by
      have := dr.2.1; unfold TMP_REG2; omega
    have hz : s2.f.zf = some (decide (lo m32 (opv win m32 s src) = 0#_)) := by
      rw [f2, f1]
      by_cases hx : lo m32 (opv win m32 s src) = 0#_
      · rw [scan_z hx]; simp [hx]
      · rw [scan_nz hx]; simp [hx]
    obtain ⟨s3, e3, r3, f3⟩ := e_cmov (win := win) (m32 := m32) (s := s2) (op := 0x44#8) (by decide) ((cmove _).trans hz) (d := dstR dst) (b := .reg TMP_REG2) (by simp [Good, TMP_REG2]) rfl (fun h => by cases h)
    have v2 : s2.r (num win (dstR dst)) = trunc m32 (scan win m32 (!isClz) false s src).1 := by
      rw [r2.reg dr.1 (by have := dr.2.1; omega) (fun d e => by cases e; exact ⟨by decide, by decide, hn⟩) (fun _ => rfl) (fun e => absurd e hn)]
      exact r1.val _ rfl
    have v3 : opv win m32 s2 (.reg TMP_REG2) = trunc m32 mx := by
      rw [opv, r2.val _ rfl, opv, trunc_trunc, trunc_trunc]
    have E3 : Eff win m32 (groupf win m32 (if isClz then 0xbd#8 else 0xbc#8) (dstR dst) src +> (emitMov win m32 (.reg TMP_REG2) (.imm mx) +> groupf win m32 0x44#8 (dstR dst) (.reg TMP_REG2))) s
        (some (.reg (dstR dst))) (if lo m32 (opv win m32 s src) = 0#_ then mx else (scan win m32 (!isClz) false s src).1) true true s3.f := by
      refine Eff.congr (v := if decide (lo m32 (opv win m32 s src) = 0#_) = true then opv win m32 s2 (.reg TMP_REG2) else s2.r (num win (dstR dst)))
        ⟨s3, e1.cat (e2.cat e3), (Res.comp r1 (Res.comp r2 r3 (fun d e => by cases e; exact dr.good) (Or.inr (Or.inl rfl))) (fun d e => by cases e; exact dr.good) (Or.inr (Or.inr rfl))).weaken
          (fun h => by cases h) (fun h => by cases h), rfl⟩ ?_
      rw [v2, v3]
      by_cases hx : lo m32 (opv win m32 s src) = 0#_ <;> simp [hx, trunc_trunc]
    cases isClz
    · -- ctz
      refine ⟨if lo m32 (opv win m32 s src) = 0#_ then B m32 else bsf (lo m32 (opv win m32 s src)), s3.f, ?_, ?_⟩
      · by_cases hx : lo m32 (opv win m32 s src) = 0#_
        · rw [if_pos hx, hx]; exact counts_zero _
        · rw [if_neg hx]; exact (bsf_is hx).2
      · simp only [Bool.false_eq_true, if_false] at hmax E3 ⊢
        rw [cat_none, ← cat_assoc, ← cat_assoc]
        have : (if lo m32 (opv win m32 s src) = 0#_ then mx else (scan win m32 (!false) false s src).1) =
            BitVec.ofNat 64 (if lo m32 (opv win m32 s src) = 0#_ then B m32 else bsf (lo m32 (opv win m32 s src))) := by
          by_cases hx : lo m32 (opv win m32 s src) = 0#_
          · rw [if_pos hx, if_pos hx, ← hmax]; cases m32 <;> rfl
          · rw [if_neg hx, if_neg hx, scan_nz hx]; rfl
        rw [← this]
        refine fin ?_
        rw [cat_assoc]
        exact E3
    · -- clz
      refine ⟨if lo m32 (opv win m32 s src) = 0#_ then B m32 else B m32 - 1 - bsr (lo m32 (opv win m32 s src)), ?_⟩
      simp only [if_true] at hmax E3 ⊢
      have ha : ∀ a f, aluN m32 6#3 a (mx >>> 1) f = some (up m32 (lo m32 a ^^^ lo m32 (mx >>> 1)), (logF (lo m32 a ^^^ lo m32 (mx >>> 1))).2) := fun a f => aluN_of rfl
      obtain ⟨s4, e4, r4, f4⟩ := e_gimm (win := win) (m32 := m32) (s := s3) (i := 6#3) (u := mx >>> 1) (b := .reg (dstR dst)) dr.good rfl (fun _ => by rw [← hmax]; cases m32 <;> decide) (ha _ _)
      obtain ⟨s3', e3', r3', f3'⟩ := E3
      obtain ⟨bs3, b3, st3⟩ := e3'
      obtain ⟨bs3', b3', st3'⟩ := e1.cat (e2.cat e3)
      refine ⟨s4.f, ?_, ?_⟩
      · by_cases hx : lo m32 (opv win m32 s src) = 0#_
        · rw [if_pos hx, hx]; exact counts_zero _
        · rw [if_neg hx]; exact (bsr_is hx).2
      · rw [← cat_assoc, ← cat_assoc, ← cat_assoc]
        refine fin ?_
        have r03 : Res win m32 s s3 (some (.reg (dstR dst))) (if lo m32 (opv win m32 s src) = 0#_ then mx else (scan win m32 (!true) false s src).1) true true := by
          have := (Res.comp r1 (Res.comp r2 r3 (fun d e => by cases e; exact dr.good) (Or.inr (Or.inl rfl))) (fun d e => by cases e; exact dr.good) (Or.inr (Or.inr rfl))).weaken
            (b1 := true) (b2 := true) (fun h => by cases h) (fun h => by cases h)
          refine this.congr ?_
          rw [v2, v3]
          by_cases hx : lo m32 (opv win m32 s src) = 0#_ <;> simp [hx, trunc_trunc]
        refine Eff.congr (v := up m32 (lo m32 (opv win m32 s3 (.reg (dstR dst))) ^^^ lo m32 (mx >>> 1)))
          ⟨s4, ?_, (Res.comp r03 r4 (fun d e => by cases e; exact dr.good) (Or.inr (Or.inr rfl))).weaken (fun h => by cases h) (fun h => by cases h), rfl⟩ ?_
        · rw [cat_assoc (groupf _ _ _ _ _)]
          exact (e1.cat (e2.cat e3)).cat e4
        · rw [trunc_upv, opv, r03.val _ rfl, lo_trunc, lo_trunc]
          by_cases hx : lo m32 (opv win m32 s src) = 0#_
          · rw [if_pos hx, if_pos hx, ← hmax]; cases m32 <;> decide
          · rw [if_neg hx, if_neg hx, scan_nz hx]
            have hb := (bsr_is hx).1
            generalize bsr (lo m32 (opv win m32 s src)) = k at hb
            rw [← hmax]
            cases m32
            · exact xor_tab.1 ⟨k, hb⟩
            · exact (xor_tab.2 ⟨k, hb⟩).trans (lo_ofNat (m32 := true) (by omega)).symm

end Verif.X86
