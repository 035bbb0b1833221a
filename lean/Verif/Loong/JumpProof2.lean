import Verif.Loong.JumpProof

/-! # Addresses of labels and rewritable jumps on LoongArch64 (helper lemmas) -/

set_option linter.all false

namespace Verif.LA
open Verif.Imm.Loong (LU12I_W LU32I_D LU52I_D ORI regMap)

theorem step_la {code : Code} {s : St} {w : BitVec 32} {i : Verif.Imm.La.Inst} (hc : code s.pc = w) (hd : Verif.Imm.La.decode w = some i) :
    step code s = some ⟨s.pc + 4#64, exec (.la i) s.core⟩ := by
  unfold step
  have : decode (code s.pc) = some (.la i) := by unfold decode; rw [hc, hd]
  simp only [this]

theorem exec_la {i : Verif.Imm.La.Inst} {c : Core} {r : BitVec 5} {v : BitVec 64} (hr : r ≠ 0#5) (h : Verif.Imm.La.exec i c.x = Verif.Imm.La.put c.x r v) :
    exec (.la i) c = c.wr r v := by
  refine Core.ext' (funext fun q => ?_) rfl rfl
  show Verif.Imm.La.get (Verif.Imm.La.exec i c.x) q = _
  rw [h, x_wr]
  unfold Verif.Imm.La.get Verif.Imm.La.put
  by_cases hq : q = 0#5
  · subst hq; rw [if_pos rfl, if_neg (fun h => hr h.1.symm), x_zero]
  · rw [if_neg hq]
    by_cases hq' : q = r
    · subst hq'; rw [if_pos rfl, if_pos ⟨rfl, hr⟩]
    · rw [if_neg hq', if_neg (fun h => hq' h.1)]

theorem wr_wr (c : Core) (r : BitVec 5) (a b : BitVec 64) : (c.wr r a).wr r b = c.wr r b := by
  refine Core.ext' (funext fun q => ?_) rfl rfl
  simp only [x_wr]
  split <;> rfl

theorem step_ori {code : Code} {pc : BitVec 64} {c : Core} {r : Nat} {v u : BitVec 64} (hr : regMap r ≠ 0#5)
    (hc : code pc = ORI ||| RD r ||| RJ r ||| IMM_I12 v) :
    step code ⟨pc, c.wr (regMap r) u⟩ = some ⟨pc + 4#64, c.wr (regMap r) (u ||| (v.setWidth 12).setWidth 64)⟩ := by
  rw [step_la (s := ⟨pc, c.wr (regMap r) u⟩) hc (Verif.Imm.Loong.dec_ORI (regMap r) (regMap r) v)]
  have hx : (c.wr (regMap r) u).x (regMap r) = u := by rw [x_wr, if_pos ⟨rfl, hr⟩]
  rw [exec_la hr (v := u ||| (v.setWidth 12).setWidth 64) (by simp only [Verif.Imm.La.exec, get_x, hx]), wr_wr]

theorem step_addi {code : Code} {pc : BitVec 64} {c : Core} {r : Nat} {v u : BitVec 64} (hr : regMap r ≠ 0#5)
    (hc : code pc = ADDI_D ||| RD r ||| RJ r ||| IMM_I12 v) :
    step code ⟨pc, c.wr (regMap r) u⟩ = some ⟨pc + 4#64, c.wr (regMap r) (u + (v.setWidth 12).signExtend 64)⟩ := by
  rw [step_la (s := ⟨pc, c.wr (regMap r) u⟩) hc (Verif.Imm.Loong.dec_ADDI (regMap r) (regMap r) v)]
  have hx : (c.wr (regMap r) u).x (regMap r) = u := by rw [x_wr, if_pos ⟨rfl, hr⟩]
  rw [exec_la hr (v := u + (v.setWidth 12).signExtend 64) (by simp only [Verif.Imm.La.exec, get_x, hx]), wr_wr]

theorem low_or (v : BitVec 64) : v &&& ~~~0xfff#64 ||| (v.setWidth 12).setWidth 64 = v := by bits64 []

theorem low_add (v : BitVec 64) : (v &&& ~~~0xfff#64) + (v.setWidth 12).signExtend 64 = if v.getLsbD 11 then v - 0x1000#64 else v := by
  have e1 : (v &&& ~~~0xfff#64) + (v &&& 0x7ff#64) = v &&& ~~~0x800#64 := by
    rw [BitVec.add_eq_or_of_and_eq_zero _ _ (by bits64 [])]; bits64 []
  split
  · next h =>
    have e2 : (v.setWidth 12).signExtend 64 = (v &&& 0x7ff#64) + ~~~0x7ff#64 := by
      rw [BitVec.add_eq_or_of_and_eq_zero _ _ (by bits64 [])]
      bits64 [BitVec.getLsbD_signExtend, BitVec.msb_eq_getLsbD_last, h]
    have e3 : v = (v &&& ~~~0x800#64) + 0x800#64 := by
      rw [BitVec.add_eq_or_of_and_eq_zero _ _ (by bits64 [])]; bits64 [h]
    rw [e2, ← BitVec.add_assoc, e1]
    conv => rhs; rw [e3]
    generalize v &&& ~~~0x800#64 = y
    rw [BitVec.sub_eq_add_neg, BitVec.add_assoc, show (0x800#64 + -0x1000#64 : BitVec 64) = ~~~0x7ff#64 by decide]
  · next h =>
    have e2 : (v.setWidth 12).signExtend 64 = v &&& 0x7ff#64 := by
      bits64 [BitVec.getLsbD_signExtend, BitVec.msb_eq_getLsbD_last, h]
    rw [e2, e1]; bits64 [h]

theorem add_bit11 (d : BitVec 64) : (d + 0x1000#64).getLsbD 11 = d.getLsbD 11 := by
  have e : (d + 0x1000#64).toNat = (d.toNat + 4096) % 18446744073709551616 := by rw [BitVec.toNat_add]; rfl
  rw [← BitVec.testBit_toNat, ← BitVec.testBit_toNat, e]
  simp only [Nat.testBit_eq_decide_div_mod_eq]
  rw [show 2 ^ 11 = 2048 from rfl]
  refine decide_eq_decide.mpr ?_
  omega

theorem bit11_nat {d : BitVec 64} (h : d.getLsbD 11 = true) : d.toNat / 2048 % 2 = 1 := by
  rw [← BitVec.testBit_toNat] at h
  simp only [Nat.testBit_eq_decide_div_mod_eq] at h
  rw [show 2 ^ 11 = 2048 from rfl] at h
  exact of_decide_eq_true h

theorem window {d : BitVec 64} (h : d.getLsbD 11 = true) (h1 : -0x80000000 ≤ d.toInt) (h2 : d.toInt < 0x7ffff800) :
    -0x80000000 ≤ (d + 0x1000#64).toInt ∧ (d + 0x1000#64).toInt ≤ 0x7fffffff := by
  have hn := bit11_nat h
  have hb := d.isLt
  have e : (d + 0x1000#64).toInt = d.toInt + 0x1000 := by
    rw [BitVec.toInt_add, show (0x1000#64 : BitVec 64).toInt = 0x1000 by decide]
    unfold Int.bmod; simp; omega
  have h3 : d.toInt < 0x7ffff000 := by
    by_contra hc
    rw [BitVec.toInt_eq_toNat_cond] at *
    split at hc
    · split at h2
      · omega
      · omega
    · simp at *; omega
  omega

/-- Loading an address. -/
theorem mov_ok {p : Patch} {r : Nat} {a addr : BitVec 64} {e : Emit} {code : Code} {s : Core} (hr : regMap r ≠ 0#5)
    (hp : p = .rel32 ∨ p = .abs32 ∨ p = .abs52 ∨ p = .full)
    (hrel : p = .rel32 → (addr - a).toInt < 0x7ffff800) (h52 : p = .abs52 → addr.toNat ≤ 0x7ffffffffffff)
    (h : movWords p r a addr = some e) (hc : CodeAt code a e) :
    StepsJ code ⟨a, s⟩ ⟨a + BitVec.ofNat 64 (4 * e.length), s.wr (regMap r) addr⟩ := by
  have abs : ∀ p : Patch, AbsOk p addr → e = preWords p r addr ++ [ORI ||| RD r ||| RJ r ||| IMM_I12 addr] →
      StepsJ code ⟨a, s⟩ ⟨a + BitVec.ofNat 64 (4 * e.length), s.wr (regMap r) addr⟩ := by
    intro p ho he
    subst he
    rw [CodeAt_append] at hc
    have r1 := steps_of_run hc.1 (pre_run p hr addr s ho)
    have r2 := step_ori (c := s) (u := addr &&& ~~~0xfff#64) hr hc.2.1
    rw [low_or] at r2
    refine r1.J.trans (.step (stepJ_of r2) ?_)
    have : a + BitVec.ofNat 64 (4 * (preWords p r addr).length) + 4#64 =
        a + BitVec.ofNat 64 (4 * (preWords p r addr ++ [ORI ||| RD r ||| RJ r ||| IMM_I12 addr]).length) := by
      rw [List.length_append]
      simp only [List.length_cons, List.length_nil]
      apply BitVec.eq_of_toNat_eq
      simp; omega
    rw [this]; exact .refl _
  unfold movWords loadAddr at h
  simp only [lu12_eq, lu32_eq, lu52_eq] at h
  rcases hp with rfl | rfl | rfl | rfl
  · simp only at h
    split at h
    · next hb =>
      have hw := hrel rfl
      generalize hd : addr - a = d at *
      have e0 : a + d = addr := by rw [← hd, BitVec.add_comm, BitVec.sub_add_cancel]
      generalize hd' : (if d &&& 0x800#64 ≠ 0#64 then d + 0x1000#64 else d) = d' at *
      cases h
      have s32 : -0x80000000 ≤ d'.toInt ∧ d'.toInt ≤ 0x7fffffff := by
        rw [← hd']
        split
        · next hx => exact window (bit11.mp hx) hb.1 hw
        · exact hb
      have hv : (d' &&& ~~~0xfff#64) + (d'.setWidth 12).signExtend 64 = d := by
        rw [low_add]
        by_cases hb11 : d.getLsbD 11 = true
        · rw [if_pos (bit11.mpr hb11)] at hd'
          rw [← hd', add_bit11, if_pos hb11, BitVec.add_sub_cancel]
        · rw [if_neg (fun h => hb11 (bit11.mp h))] at hd'
          rw [← hd', if_neg hb11]
      have r1 := stepJ_pc (s := ⟨a, s⟩) hc.1
      have r2 := step_addi (c := s) (u := a + ((d'.extractLsb' 12 20).signExtend 64 <<< 12)) hr hc.2.1
      have hadd : a + ((d'.extractLsb' 12 20).signExtend 64 <<< 12) + (d'.setWidth 12).signExtend 64 = addr := by
        rw [hi32s s32.1 s32.2, BitVec.add_assoc, hv, e0]
      rw [hadd] at r2
      refine .step r1 (.step (stepJ_of r2) ?_)
      · have : a + 4#64 + 4#64 = a + BitVec.ofNat 64 (4 * 2) := by rw [BitVec.add_assoc]; rfl
        rw [this]; exact .refl _
    · cases h
  · simp only at h
    split at h
    · next hh => cases h; exact abs .abs32 ⟨fun _ => hh, by simp⟩ rfl
    · cases h
  · cases h; exact abs .abs52 ⟨by simp, h52⟩ rfl
  · cases h; exact abs .full ⟨by simp, by simp⟩ rfl

/-! ## sljit_set_jump_addr -/

/-- JIRL of the full form. -/
def wJirl (call : Bool) (v : BitVec 64) : BitVec 32 := w16 0x13#6 (regMap TMP_REG1) (lnk call) (((v &&& 0xfff#64) >>> 2).setWidth 16)

/-- The words of the full form. -/
def fullWords (call : Bool) (v : BitVec 64) : Emit := preWords .full TMP_REG1 v ++ [wJirl call v]

theorem as_jirl (call : Bool) (v : BitVec 64) : wJirl call v &&& (0x3f#32 <<< 26) = 0x13#32 <<< 26 := by
  unfold wJirl w16
  generalize regMap TMP_REG1 = j
  generalize lnk call = d
  bits64 []
theorem not_ori (call : Bool) (v : BitVec 64) : wJirl call v &&& (0x3ff#32 <<< 22) ≠ ORI := by
  intro h
  have := congrArg (·.getLsbD 30) h
  unfold wJirl w16 at this
  simp [-BitVec.getLsbD_eq_getElem, ORI] at this
theorem set_jirl (call : Bool) (v k : BitVec 64) :
    (wJirl call v &&& (0x3f#32 <<< 26 ||| 0x3ff#32)) ||| IMM_I12 ((k &&& 0xfff#64) >>> 2) = wJirl call k := by
  unfold wJirl w16 IMM_I12
  generalize regMap TMP_REG1 = j
  generalize lnk call = d
  bits64 []

theorem setJump_ok (m : Code) (addr v k : BitVec 64) (call : Bool) (hc : CodeAt m addr (fullWords call v)) :
    ∃ m', setJumpAddr m addr k = some m' ∧ CodeAt m' addr (fullWords call k) ∧
      ∀ a, (∀ i, i < 4 → a ≠ addr + BitVec.ofNat 64 (4 * i)) → m' a = m a := by
  have a4 : addr + 4#64 + 4#64 = addr + 8#64 := by rw [BitVec.add_assoc]; rfl
  have a8 : addr + 8#64 + 4#64 = addr + 12#64 := by rw [BitVec.add_assoc]; rfl
  obtain ⟨h0, h1, h2, h3, -⟩ := hc
  rw [a4] at h2 h3
  rw [a8] at h3
  have n1 : addr + 4#64 ≠ addr := off_ne0 addr (by decide)
  have n2 : addr + 8#64 ≠ addr := off_ne0 addr (by decide)
  have n3 : addr + 12#64 ≠ addr := off_ne0 addr (by decide)
  have n12 : addr + 4#64 ≠ addr + 8#64 := off_ne addr (by decide)
  have n13 : addr + 4#64 ≠ addr + 12#64 := off_ne addr (by decide)
  have n23 : addr + 8#64 ≠ addr + 12#64 := off_ne addr (by decide)
  refine ⟨upd (upd (upd (upd m addr (wLu12 TMP_REG1 k)) (addr + 4#64) (wLu32 TMP_REG1 k)) (addr + 8#64) (wLu52 TMP_REG1 k)) (addr + 12#64) (wJirl call k), ?_, ?_, ?_⟩
  · simp only [setJumpAddr]
    rw [h0, h1, h2, h3, if_pos ⟨as_lu12 _ v, as_lu32 _ v, as_lu52 _ v, Or.inr (as_jirl call v)⟩, if_neg (not_ori call v), set_lu12, set_lu32, set_lu52, set_jirl]
  · refine ⟨?_, ?_, ?_, ?_, trivial⟩
    · rw [upd_ne _ _ n3.symm, upd_ne _ _ n2.symm, upd_ne _ _ n1.symm, upd_same]
    · rw [upd_ne _ _ n13, upd_ne _ _ n12, upd_same]
    · rw [a4, upd_ne _ _ n23, upd_same]
    · rw [a4, a8, upd_same]
  · intro a ha
    have g0 : a ≠ addr := by have := ha 0 (by simp); simpa using this
    have g1 : a ≠ addr + 4#64 := ha 1 (by simp)
    have g2 : a ≠ addr + 8#64 := ha 2 (by simp)
    have g3 : a ≠ addr + 12#64 := ha 3 (by simp)
    rw [upd_ne _ _ g3, upd_ne _ _ g2, upd_ne _ _ g1, upd_ne _ _ g0]

theorem retargets_ok (addr : BitVec 64) (call : Bool) : ∀ (ks : List (BitVec 64)) (v : BitVec 64) (m : Code),
    CodeAt m addr (fullWords call v) → ∃ m', retargets m addr ks = some m' ∧ CodeAt m' addr (fullWords call (ks.getLast?.getD v)) ∧
      ∀ a, (∀ i, i < 4 → a ≠ addr + BitVec.ofNat 64 (4 * i)) → m' a = m a := by
  intro ks
  induction ks with
  | nil => intro v m hc; exact ⟨m, rfl, hc, fun _ _ => rfl⟩
  | cons k ks ih =>
    intro v m hc
    obtain ⟨m1, h1, h2, h3⟩ := setJump_ok m addr v k call hc
    obtain ⟨m2, g1, g2, g3⟩ := ih k m1 h2
    refine ⟨m2, by rw [retargets, h1]; exact g1, ?_, fun a ha => (g3 a ha).trans (h3 a ha)⟩
    have : (k :: ks).getLast?.getD v = ks.getLast?.getD k := by
      cases ks with
      | nil => rfl
      | cons a l => rw [List.getLast?_cons_cons, List.getLast?_cons]; rfl
    rw [this]; exact g2

/-- The full form is four words. -/
theorem load_full (call : Bool) (ja addr : BitVec 64) : loadAddr .full TMP_REG1 (some (jirlW call)) ja addr = some (fullWords call addr) := by
  unfold loadAddr
  simp only [last_is, last_eq, if_true, lu12_eq, lu32_eq, lu52_eq]
  rfl

end Verif.LA
