import Verif.Loong.Const
import Verif.Loong.FlagsOp
import Verif.Loong.Op1Proof
import Verif.Imm.LoongLemmas
import Verif.RISCV.ConstProof

/-! # Rewritable constants on LoongArch64 (helper lemmas) -/

set_option linter.all false

namespace Verif.LA
open Verif.RV (ConstOp u8Field Opd Sz stOp)
open Verif.Imm.Loong (LU12I_W LU32I_D LU52I_D ORI regMap)

/-- The words. -/
def wLu12 (d : Nat) (v : BitVec 64) : BitVec 32 := LU12I_W ||| RD d ||| ((((v &&& 0xffffffff#64).sshiftRight 12) <<< 5).setWidth 32)
def wLu32 (d : Nat) (v : BitVec 64) : BitVec 32 := LU32I_D ||| RD d ||| ((((v.sshiftRight 32) &&& 0xfffff#64) <<< 5).setWidth 32)
def wLu52 (d : Nat) (v : BitVec 64) : BitVec 32 := LU52I_D ||| RD d ||| RJ d ||| IMM_I12 (v.sshiftRight 52)
def wOri (d : Nat) (v : BitVec 64) : BitVec 32 := ORI ||| RD d ||| RJ d ||| IMM_I12 v
def wLu12' (d : Nat) (v : BitVec 64) : BitVec 32 := LU12I_W ||| RD d ||| ((v.sshiftRight 7) &&& 0x1ffffe0#64).setWidth 32
def wAddi (d : Nat) (v : BitVec 64) : BitVec 32 := ADDI_D ||| RD d ||| RJ TMP_ZERO ||| IMM_I12 (u8Field v)

theorem wLu12'_eq (d : Nat) (v : BitVec 64) : wLu12' d v = wLu12 d v := by
  unfold wLu12' wLu12
  congr 1
  bits64 [BitVec.getLsbD_sshiftRight]

theorem set_lu12 (d : Nat) (v k : BitVec 64) : (wLu12 d v &&& (0x7f#32 <<< 25 ||| 0x1f#32)) ||| (((k &&& 0xffffffff#64) >>> 12) <<< 5).setWidth 32 = wLu12 d k := by
  unfold wLu12 RD
  generalize regMap d = r
  bits64 [LU12I_W, BitVec.getLsbD_sshiftRight]
theorem set_lu12' (d : Nat) (v k : BitVec 64) : (wLu12' d v &&& (0xa#32 <<< 25 ||| 0x1f#32)) ||| ((k.sshiftRight 7) &&& 0x1ffffe0#64).setWidth 32 = wLu12' d k := by
  unfold wLu12' RD
  generalize regMap d = r
  bits64 [LU12I_W, BitVec.getLsbD_sshiftRight]
theorem set_lu32 (d : Nat) (v k : BitVec 64) : (wLu32 d v &&& (0x7f#32 <<< 25 ||| 0x1f#32)) ||| (((k >>> 32) &&& 0xfffff#64) <<< 5).setWidth 32 = wLu32 d k := by
  unfold wLu32 RD
  generalize regMap d = r
  bits64 [LU32I_D, BitVec.getLsbD_sshiftRight]
theorem set_lu52 (d : Nat) (v k : BitVec 64) : (wLu52 d v &&& (0x3ff#32 <<< 22 ||| 0x3ff#32)) ||| IMM_I12 (k >>> 52) = wLu52 d k := by
  unfold wLu52 RD RJ
  generalize regMap d = r
  bits64 [LU52I_D, IMM_I12, BitVec.getLsbD_sshiftRight]
theorem set_ori (d : Nat) (v k : BitVec 64) : (wOri d v &&& (0x3ff#32 <<< 22 ||| 0x3ff#32)) ||| IMM_I12 k = wOri d k := by
  unfold wOri RD RJ
  generalize regMap d = r
  bits64 [ORI, IMM_I12]
theorem set_ori' (d : Nat) (v k : BitVec 64) : (wOri d v &&& (0xe#32 <<< 22 ||| 0x3ff#32)) ||| (k &&& 0xfff#64).setWidth 32 <<< 10 = wOri d k := by
  unfold wOri RD RJ
  generalize regMap d = r
  bits64 [ORI, IMM_I12]
theorem set_addi (d : Nat) (v k : BitVec 64) : (wAddi d v &&& 0xffc003ff#32) ||| (u8Field k &&& 0xfff#64).setWidth 32 <<< 10 = wAddi d k := by
  unfold wAddi RD RJ
  generalize regMap d = r
  generalize regMap TMP_ZERO = z
  generalize u8Field v = v
  generalize u8Field k = k
  bits64 [ADDI_D, IMM_I12]

theorem as_lu12 (d : Nat) (v : BitVec 64) : wLu12 d v &&& (0x7f#32 <<< 25) = LU12I_W := by
  unfold wLu12 RD
  generalize regMap d = r
  bits64 [LU12I_W, BitVec.getLsbD_sshiftRight]
theorem as_lu12' (d : Nat) (v : BitVec 64) : wLu12' d v &&& (0xa#32 <<< 25) = LU12I_W := by
  unfold wLu12' RD
  generalize regMap d = r
  bits64 [LU12I_W, BitVec.getLsbD_sshiftRight]
theorem as_lu32 (d : Nat) (v : BitVec 64) : wLu32 d v &&& (0x7f#32 <<< 25) = LU32I_D := by
  unfold wLu32 RD
  generalize regMap d = r
  bits64 [LU32I_D, BitVec.getLsbD_sshiftRight]
theorem as_lu52 (d : Nat) (v : BitVec 64) : wLu52 d v &&& (0x3ff#32 <<< 22) = LU52I_D := by
  unfold wLu52 RD RJ
  generalize regMap d = r
  bits64 [LU52I_D, IMM_I12]
theorem as_ori (d : Nat) (v : BitVec 64) : wOri d v &&& (0x3ff#32 <<< 22) = ORI := by
  unfold wOri RD RJ
  generalize regMap d = r
  bits64 [ORI, IMM_I12]
theorem as_ori' (d : Nat) (v : BitVec 64) : wOri d v &&& (0xe#32 <<< 22) = ORI := by
  unfold wOri RD RJ
  generalize regMap d = r
  bits64 [ORI, IMM_I12]
theorem as_addi (d : Nat) (v : BitVec 64) : wAddi d v &&& (0xb#32 <<< 22) = ADDI_D := by
  unfold wAddi RD RJ
  generalize regMap d = r
  generalize regMap TMP_ZERO = z
  generalize u8Field v = v
  bits64 [ADDI_D, IMM_I12]

/-- The value of a constant. -/
def cval : ConstOp → BitVec 64 → BitVec 64
  | .u8, v => (v.setWidth 9).signExtend 64
  | .mov32, v | .s32, v => (v.setWidth 32).signExtend 64
  | .mov, v => v

/-- The words of a constant. -/
def cwords (op : ConstOp) (d : Nat) (v : BitVec 64) : Emit :=
  match op with
  | .u8 => [wAddi d v]
  | .mov32 | .s32 => [wLu12' d v, wOri d v]
  | .mov => [wLu12 d v, wLu32 d v, wLu52 d v, wOri d v]

theorem emitConstReg_words (op : ConstOp) (d : Nat) (v : BitVec 64) : emitConstReg op d v = cwords op d v := by cases op <;> rfl

open Verif.Imm Verif.Imm.Loong in
theorem constReg_run (op : ConstOp) {d : Nat} (hd : regMap d ≠ 0#5) (v : BitVec 64) (x : La.Regs) :
    La.run (cwords op d v) x = some (La.put x (regMap d) (cval op v)) := by
  have two : ∀ v, La.run [wLu12 d v, wOri d v] x = some (La.put x (regMap d) ((v.setWidth 32).signExtend 64)) := by
    intro v
    have e1 := dec_LU12I (regMap d) v
    have e2 := dec_ORI (regMap d) (regMap d) v
    simp only [La.run, show La.decode (wLu12 d v) = _ from e1, show La.decode (wOri d v) = _ from e2, Option.bind_some, La.exec, get_put hd, put_put]
    congr 2
    bits64 [BitVec.getLsbD_signExtend, BitVec.msb_eq_getLsbD_last]
  cases op with
  | u8 =>
    have e1 := dec_ADDI (regMap d) (regMap TMP_ZERO) (u8Field v)
    have e0 : La.get x (regMap TMP_ZERO) = 0#64 := by simp [La.get, regMap, TMP_ZERO]
    simp only [cwords, cval, La.run, show La.decode (wAddi d v) = _ from e1, Option.bind_some, La.exec]
    rw [show La.get x (regMap 0) = 0#64 from e0, BitVec.zero_add, Verif.RV.u8Field_val]
  | mov32 => simp only [cwords, cval]; rw [wLu12'_eq]; exact two v
  | s32 => simp only [cwords, cval]; rw [wLu12'_eq]; exact two v
  | mov =>
    have e1 := dec_LU12I (regMap d) v
    have e2 := dec_LU32I (regMap d) v
    have e3 := dec_LU52I (regMap d) (regMap d) (v.sshiftRight 52)
    have e4 := dec_ORI (regMap d) (regMap d) v
    simp only [cwords, cval, La.run, show La.decode (wLu12 d v) = _ from e1, show La.decode (wLu32 d v) = _ from e2, show La.decode (wLu52 d v) = _ from e3,
      show La.decode (wOri d v) = _ from e4, Option.bind_some, La.exec, get_put hd, put_put]
    congr 2
    bits64 [BitVec.getLsbD_signExtend, BitVec.msb_eq_getLsbD_last, BitVec.getLsbD_sshiftRight]

theorem wp_const {op : ConstOp} {d : Nat} {v : BitVec 64} {c : Core} {Q : Core → Prop} (hd : regMap d ≠ 0#5) (h : Q (c.wr (regMap d) (cval op v))) :
    wp (emitConstReg op d v) c Q := by
  have hx : ∀ q, Verif.Imm.La.get c.x q = c.x q := by
    intro q; unfold Verif.Imm.La.get; split
    · next hq => rw [hq, x_zero]
    · rfl
  obtain ⟨c', h1, h2, h3, h4⟩ := la_run (constReg_run op hd v c.x) c hx
  refine ⟨c', by rw [emitConstReg_words]; exact h1, ?_⟩
  have : c' = c.wr (regMap d) (cval op v) := by
    refine Core.ext' (funext fun q => ?_) h3 h4
    rw [h2, x_wr]
    unfold Verif.Imm.La.get Verif.Imm.La.put
    by_cases hq : q = 0#5
    · subst hq; rw [if_pos rfl, if_neg (fun h => hd h.1.symm), x_zero]
    · rw [if_neg hq]
      by_cases hr : q = regMap d
      · subst hr; rw [if_pos rfl, if_pos ⟨rfl, hd⟩]
      · rw [if_neg hr, if_neg (fun h => hr h.1)]
  rw [this]; exact h

/-! ## sljit_set_const -/

theorem upd_same (m : Code) (a w) : upd m a w a = w := by simp [upd]
theorem upd_ne (m : Code) {a b : BitVec 64} (w) (h : b ≠ a) : upd m a w b = m b := by simp [upd, h]

theorem off_ne (a : BitVec 64) {i j : BitVec 64} (h : i ≠ j) : a + i ≠ a + j := fun e => h (BitVec.add_right_inj a |>.mp e)
theorem off_ne0 (a : BitVec 64) {i : BitVec 64} (h : i ≠ 0#64) : a + i ≠ a := by
  intro e; apply h
  have : a + i = a + 0#64 := by rw [BitVec.add_zero]; exact e
  exact (BitVec.add_right_inj a).mp this

theorem setConst_ok (m : Code) (op : ConstOp) (addr v k : BitVec 64) (d : Nat) (hc : CodeAt m addr (cwords op d v)) :
    ∃ m', setConst m op addr k = some m' ∧ CodeAt m' addr (cwords op d k) ∧
      ∀ a, (∀ i, i < (cwords op d v).length → a ≠ addr + BitVec.ofNat 64 (4 * i)) → m' a = m a := by
  have a4 : addr + 4#64 + 4#64 = addr + 8#64 := by rw [BitVec.add_assoc]; rfl
  have a8 : addr + 8#64 + 4#64 = addr + 12#64 := by rw [BitVec.add_assoc]; rfl
  have two : ∀ op, op = .mov32 ∨ op = .s32 → CodeAt m addr (cwords op d v) → ∃ m', setConst m op addr k = some m' ∧ CodeAt m' addr (cwords op d k) ∧
      ∀ a, (∀ i, i < (cwords op d v).length → a ≠ addr + BitVec.ofNat 64 (4 * i)) → m' a = m a := by
    intro op ho hc
    have hw : ∀ v, cwords op d v = [wLu12' d v, wOri d v] := by intro v; rcases ho with rfl | rfl <;> rfl
    rw [hw] at hc
    obtain ⟨h0, h1, -⟩ := hc
    have hs : setConst m op addr k = some (upd (upd m addr (wLu12' d k)) (addr + 4#64) (wOri d k)) := by
      have : setConst m op addr k = setConst m .mov32 addr k := by rcases ho with rfl | rfl <;> rfl
      rw [this]
      simp only [setConst]
      rw [h0, h1, if_pos ⟨as_lu12' d v, as_ori' d v⟩, set_lu12', set_ori']
    refine ⟨_, hs, ?_, ?_⟩
    · rw [hw]
      refine ⟨?_, upd_same _ _ _, trivial⟩
      rw [upd_ne _ _ (off_ne0 addr (by decide)).symm, upd_same]
    · intro a ha
      rw [hw] at ha
      have g0 : a ≠ addr := by have := ha 0 (by simp); simpa using this
      have g1 : a ≠ addr + 4#64 := ha 1 (by simp)
      rw [upd_ne _ _ g1, upd_ne _ _ g0]
  cases op with
  | u8 =>
    obtain ⟨h0, -⟩ := hc
    refine ⟨_, ?_, ⟨upd_same m addr (wAddi d k), trivial⟩, ?_⟩
    · simp only [setConst]
      rw [h0, if_pos (as_addi d v), set_addi]
    · intro a ha
      have g0 : a ≠ addr := by have := ha 0 (by simp [cwords]); simpa using this
      rw [upd_ne _ _ g0]
  | mov32 => exact two _ (Or.inl rfl) hc
  | s32 => exact two _ (Or.inr rfl) hc
  | mov =>
    obtain ⟨h0, h1, h2, h3, -⟩ := hc
    rw [a4] at h2 h3
    rw [a8] at h3
    have n1 : addr + 4#64 ≠ addr := off_ne0 addr (by decide)
    have n2 : addr + 8#64 ≠ addr := off_ne0 addr (by decide)
    have n3 : addr + 12#64 ≠ addr := off_ne0 addr (by decide)
    have n12 : addr + 4#64 ≠ addr + 8#64 := off_ne addr (by decide)
    have n13 : addr + 4#64 ≠ addr + 12#64 := off_ne addr (by decide)
    have n23 : addr + 8#64 ≠ addr + 12#64 := off_ne addr (by decide)
    refine ⟨upd (upd (upd (upd m addr (wLu12 d k)) (addr + 4#64) (wLu32 d k)) (addr + 8#64) (wLu52 d k)) (addr + 12#64) (wOri d k), ?_, ?_, ?_⟩
    · simp only [setConst, setJumpAddr]
      rw [h0, h1, h2, h3, if_pos ⟨as_lu12 d v, as_lu32 d v, as_lu52 d v, Or.inl (as_ori d v)⟩, if_pos (as_ori d v), set_lu12, set_lu32, set_lu52, set_ori]
    · refine ⟨?_, ?_, ?_, ?_, trivial⟩
      · rw [upd_ne _ _ n3.symm, upd_ne _ _ n2.symm, upd_ne _ _ n1.symm, upd_same]
      · rw [upd_ne _ _ n13, upd_ne _ _ n12, upd_same]
      · rw [a4, upd_ne _ _ n23, upd_same]
      · rw [a4, a8, upd_same]
    · intro a ha
      have g0 : a ≠ addr := by have := ha 0 (by simp [cwords]); simpa using this
      have g1 : a ≠ addr + 4#64 := ha 1 (by simp [cwords])
      have g2 : a ≠ addr + 8#64 := ha 2 (by simp [cwords])
      have g3 : a ≠ addr + 12#64 := ha 3 (by simp [cwords])
      rw [upd_ne _ _ g3, upd_ne _ _ g2, upd_ne _ _ g1, upd_ne _ _ g0]

theorem cwords_length (op : ConstOp) (d : Nat) (v k : BitVec 64) : (cwords op d v).length = (cwords op d k).length := by
  cases op <;> simp only [cwords, List.length_cons]

theorem rewrites_ok (op : ConstOp) (addr : BitVec 64) (d : Nat) : ∀ (ks : List (BitVec 64)) (v : BitVec 64) (m : Code),
    CodeAt m addr (cwords op d v) → ∃ m', rewrites m op addr ks = some m' ∧ CodeAt m' addr (cwords op d (ks.getLast?.getD v)) ∧
      ∀ a, (∀ i, i < (cwords op d 0#64).length → a ≠ addr + BitVec.ofNat 64 (4 * i)) → m' a = m a := by
  intro ks
  induction ks with
  | nil => intro v m hc; exact ⟨m, rfl, hc, fun _ _ => rfl⟩
  | cons k ks ih =>
    intro v m hc
    obtain ⟨m1, h1, h2, h3⟩ := setConst_ok m op addr v k d hc
    obtain ⟨m2, g1, g2, g3⟩ := ih k m1 h2
    refine ⟨m2, by rw [rewrites, h1]; exact g1, ?_, fun a ha => (g3 a ha).trans (h3 a (by rw [cwords_length op d v 0#64]; exact ha))⟩
    have : (k :: ks).getLast?.getD v = ks.getLast?.getD k := by
      cases ks with
      | nil => rfl
      | cons a l => rw [List.getLast?_cons_cons, List.getLast?_cons]; rfl
    rw [this]; exact g2

theorem CodeAt_congr {m m' : Code} : ∀ {e : Emit} {a : BitVec 64}, (∀ i, i < e.length → m' (a + BitVec.ofNat 64 (4 * i)) = m (a + BitVec.ofNat 64 (4 * i))) →
    CodeAt m a e → CodeAt m' a e
  | [], _, _, _ => trivial
  | w :: e, a, h, hc => by
    refine ⟨?_, CodeAt_congr (e := e) (a := a + 4#64) ?_ hc.2⟩
    · have := h 0 (by simp); simp at this; rw [this]; exact hc.1
    · intro i hi
      have := h (i + 1) (by simp; omega)
      have e : a + 4#64 + BitVec.ofNat 64 (4 * i) = a + BitVec.ofNat 64 (4 * (i + 1)) := by
        apply BitVec.eq_of_toNat_eq
        simp; omega
      rw [e]; exact this

theorem CodeAt_view {m : Code} {off : BitVec 64} : ∀ {e : Emit} {a : BitVec 64}, CodeAt m a e → CodeAt (view m off) (a + off) e
  | [], _, _ => trivial
  | w :: e, a, hc => by
    refine ⟨?_, ?_⟩
    · have : a + off - off = a := by rw [BitVec.add_sub_cancel]
      simp only [view, this]; exact hc.1
    · have : a + off + 4#64 = a + 4#64 + off := by rw [BitVec.add_assoc, BitVec.add_comm off, ← BitVec.add_assoc]
      rw [this]; exact CodeAt_view hc.2

/-- sljit_emit_const. -/
theorem emitConstant_ok {op : ConstOp} {dst : Opd} {v : BitVec 64} {c : Core} (hd : DOk dst) (h0 : dst ≠ .reg 0) :
    wp (emitConstant op dst v) c (MDone (constSz op) dst (cval op v) c) := by
  cases dst with
  | imm u => exact absurd hd (by simp [DOk])
  | reg r =>
    have hr : r ≤ 24 ∨ r = TMP_REG2 := hd
    have hr0 : regMap r ≠ 0#5 := by
      rcases hr with h | h
      · have key : ∀ a : _root_.Fin 25, a.1 ≠ 0 → regMap a.1 ≠ 0#5 := by decide +kernel
        exact key ⟨r, by omega⟩ (by simpa using h0)
      · rw [h]; decide
    refine wp_const hr0 ⟨?_, rfl, ?_, rfl⟩
    · rintro r' ⟨⟩; rw [x_wr, if_pos ⟨rfl, hr0⟩]
    · intro q _ hq; rw [x_wr, if_neg (fun h => hq r rfl h.1)]
  | mem b i w =>
    obtain ⟨hb, hi, hx⟩ : b ≤ 24 ∧ i ≤ 24 ∧ IdxOk i w := hd
    have t2 : regMap TMP_REG2 = 1#5 := by decide
    have hb1 := (user_ne hb).1
    have hi1 := (user_ne hi).1
    show wp (emitConstReg op TMP_REG2 v ++ _) c _
    refine wp_append (wp_const (by decide) ?_)
    refine wp_mono (opMem_store (c := c.wr (regMap TMP_REG2) (cval op v)) (by decide) hb hi hx) ?_
    rintro c' ⟨c1, ⟨k1, k2, k3⟩, rfl⟩
    rw [t2] at *
    refine ⟨fun r e => (by cases e), ?_, ?_, ?_⟩
    · rw [mem_setMem]
      have e1 : ea (c.wr 1#5 (cval op v)) b i w = ea c b i w := by
        have x1 : (c.wr 1#5 (cval op v)).x (regMap b) = c.x (regMap b) := by rw [x_wr, if_neg (fun h => hb1 h.1)]
        have x2 : (c.wr 1#5 (cval op v)).x (regMap i) = c.x (regMap i) := by rw [x_wr, if_neg (fun h => hi1 h.1)]
        simp only [ea, x1, x2]
      rw [e1, x_wr, if_pos ⟨rfl, by decide⟩]
      rfl
    · intro q hq _
      rw [x_setMem, k1 q (by intro h; apply hq; simp at h; rw [h]; decide), x_wr, if_neg]
      rintro ⟨rfl, -⟩; exact hq (by decide)
    · rw [f_setMem, k3]; rfl

end Verif.LA
