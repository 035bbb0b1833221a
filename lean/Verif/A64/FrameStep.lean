import Verif.A64.FrameRun
import Verif.A64.Op1

/-! # What the instructions of ARM64 frames do (helper lemmas) -/

namespace Verif.A64
open Verif.Imm.A64 (fld)
open Verif.Imm.Arm64 (regMap RD RN TMP_ZERO)

/-- The number of a register in an instruction. -/
def hw (vec : Bool) (r : Nat) : BitVec 5 := if vec then fregMap r else regMap r

def MSt.get (m : MSt) (vec : Bool) (r : BitVec 5) : BitVec 64 := if vec then m.v r else m.s.x r
def MSt.put (m : MSt) (vec : Bool) (r : BitVec 5) (x : BitVec 64) : MSt :=
  if vec then ⟨m.s, fun q => if q = r then x else m.v q⟩ else ⟨m.s.setX r x, m.v⟩
def MSt.store (m : MSt) (a x : BitVec 64) : MSt := ⟨{ m.s with m := wr m.s.m a x 8 }, m.v⟩
def MSt.sp (m : MSt) : BitVec 64 := m.s.r 31#5
def MSt.setSp (m : MSt) (a : BitVec 64) : MSt := ⟨m.s.set 31#5 a, m.v⟩

/-- The stack pointer can be used as a base. -/
def Al (a : BitVec 64) : Prop := a &&& 15#64 = 0#64

theorem store_get (m : MSt) (a x vec r) : (m.store a x).get vec r = m.get vec r := rfl
theorem store_sp (m : MSt) (a x) : (m.store a x).sp = m.sp := rfl
theorem put_mem (m : MSt) (vec r x) : (m.put vec r x).s.m = m.s.m := by
  unfold MSt.put St.setX; split <;> [rfl; (split <;> rfl)]
theorem put_sp (m : MSt) (vec r x) : (m.put vec r x).sp = m.sp := by
  unfold MSt.put St.setX MSt.sp St.set
  split
  · rfl
  · split
    · rfl
    · rename_i h; exact if_neg (Ne.symm h)

/-! ## Transfers -/

theorem run_pair {m : MSt} {vec : Bool} {k : Nat} (hk : k < 64) (r1 r2 : BitVec 5) (ha : Al m.sp) {ld : Bool} (hne : ld = true → r2 ≠ r1) :
    Run [pairW ld vec 2#3 (BitVec.ofNat 7 k) r2 31#5 r1] m
      (if ld then (m.put vec r1 (rd m.s.m (m.sp + BitVec.ofNat 64 (8 * k)) 8)).put vec r2 (rd m.s.m (m.sp + BitVec.ofNat 64 (8 * k) + 8#64) 8)
       else (m.store (m.sp + BitVec.ofNat 64 (8 * k)) (m.get vec r1)).store (m.sp + BitVec.ofNat 64 (8 * k) + 8#64) (m.get vec r2)) := by
  have he : ((BitVec.ofNat 7 k) ++ 0#3 : BitVec 10).signExtend 64 = BitVec.ofNat 64 (8 * k) :=
    (by decide +kernel : ∀ k : _root_.Fin 64, ((BitVec.ofNat 7 k.val) ++ 0#3 : BitVec 10).signExtend 64 = BitVec.ofNat 64 (8 * k.val)) ⟨k, hk⟩
  obtain ⟨h1, h2⟩ := xfer_pairW ld vec (k := 2#3) (d := .offset) rfl (BitVec.ofNat 7 k) r2 31#5 r1
  refine Run.of_xfer h1 h2 fun a => ?_
  rw [he]
  have ha : m.s.r 31#5 &&& 15#64 = 0#64 := ha
  cases ld
  · simp [xferExec, ha, MSt.store, PSt.get, MSt.get, MSt.sp]
  · have := hne rfl
    cases vec <;> simp [xferExec, ha, PSt.put, MSt.put, MSt.sp, this]

theorem run_vec {m : MSt} {k : Nat} (hk : k < 4096) (r : BitVec 5) (ha : Al m.sp) {ld : Bool} :
    Run [vecW ld (BitVec.ofNat 12 k) 31#5 r] m
      (if ld then m.put true r (rd m.s.m (m.sp + BitVec.ofNat 64 (8 * k)) 8) else m.store (m.sp + BitVec.ofNat 64 (8 * k)) (m.get true r)) := by
  have he : ((BitVec.ofNat 12 k) ++ 0#3 : BitVec 15).setWidth 64 = BitVec.ofNat 64 (8 * k) := by
    apply BitVec.eq_of_toNat_eq
    rw [BitVec.toNat_setWidth, BitVec.toNat_append, BitVec.toNat_ofNat, BitVec.toNat_ofNat, BitVec.toNat_ofNat, Nat.shiftLeft_eq]
    simp; omega
  obtain ⟨h1, h2⟩ := xfer_vecW ld (BitVec.ofNat 12 k) 31#5 r
  refine Run.of_xfer h1 h2 fun a => ?_
  rw [he]
  have ha : m.s.r 31#5 &&& 15#64 = 0#64 := ha
  cases ld <;> simp [xferExec, ha, MSt.store, PSt.get, MSt.get, MSt.sp, PSt.put, MSt.put]

theorem run_gen {m : MSt} {k : Nat} (hk : k < 4096) (r : Nat) {ld : Bool} :
    Run [(if ld then LDRI else STRI) ||| fT false r ||| RN SP ||| (BitVec.ofNat 32 k <<< 10)] m
      (if ld then m.put false (regMap r) (rd m.s.m (m.sp + BitVec.ofNat 64 (8 * k)) 8) else m.store (m.sp + BitVec.ofNat 64 (8 * k)) (m.get false (regMap r))) := by
  have e1 : BitVec.ofNat 32 k = (BitVec.ofNat 12 k).setWidth 32 := by
    apply BitVec.eq_of_toNat_eq; simp; omega
  have e2 : (BitVec.ofNat 12 k).setWidth 64 <<< 3 = BitVec.ofNat 64 (8 * k) := by
    apply BitVec.eq_of_toNat_eq; simp [Nat.shiftLeft_eq]; omega
  have e3 : (if ld then LDRI else STRI) = STRBI ||| Ty.bits ⟨3, false, !ld⟩ := by cases ld <;> decide
  have h := s_memI (s := m.s) (r := r) (n := SP) ⟨3, false, !ld⟩ (by show 3 < 4; omega) (BitVec.ofNat 12 k)
  rw [exec_mem ⟨3, false, !ld⟩ (by show 3 < 4; omega) (fun _ => rfl) _ _ _ _ rfl] at h
  rw [e1, e3]
  have := Run.of_step (m := m) h
  simp only [Mode.off, e2] at this
  cases ld
  · exact this
  · exact this

theorem run_stpPre {m : MSt} {n : Nat} (hn : n ≤ 512) (h8 : n % 8 = 0) (ha : Al m.sp) :
    Run [stpPre n] m (((m.store (m.sp - BitVec.ofNat 64 n) (m.s.r 29#5)).store (m.sp - BitVec.ofNat 64 n + 8#64) (m.s.r 30#5)).setSp (m.sp - BitVec.ofNat 64 n)) := by
  obtain ⟨k, rfl⟩ : ∃ k, n = 8 * k := ⟨n / 8, by omega⟩
  have hk : k < 65 := by omega
  have e : stpPre (8 * k) = pairW false false 3#3 (-(BitVec.ofNat 7 k)) 30#5 31#5 29#5 :=
    (by decide +kernel : ∀ k : _root_.Fin 65, stpPre (8 * k.val) = pairW false false 3#3 (-(BitVec.ofNat 7 k.val)) 30#5 31#5 29#5) ⟨k, hk⟩
  have he : ((-(BitVec.ofNat 7 k)) ++ 0#3 : BitVec 10).signExtend 64 = -BitVec.ofNat 64 (8 * k) :=
    (by decide +kernel : ∀ k : _root_.Fin 65, ((-(BitVec.ofNat 7 k.val)) ++ 0#3 : BitVec 10).signExtend 64 = -BitVec.ofNat 64 (8 * k.val)) ⟨k, hk⟩
  obtain ⟨h1, h2⟩ := xfer_pairW false false (k := 3#3) (d := .pre) rfl (-(BitVec.ofNat 7 k)) 30#5 31#5 29#5
  rw [e]
  refine Run.of_xfer h1 h2 fun a => ?_
  rw [he]
  have ha : m.s.r 31#5 &&& 15#64 = 0#64 := ha
  simp [xferExec, ha, MSt.store, PSt.get, MSt.setSp, MSt.sp, St.x, St.set, BitVec.sub_eq_add_neg]

theorem run_ldpPost {m : MSt} {n : Nat} (hn : n ≤ 496) (h8 : n % 8 = 0) (ha : Al m.sp) :
    Run [LDP_POST ||| RT TMP_FP ||| RT2 TMP_LR ||| RN SP ||| (BitVec.ofNat 32 n <<< 12)] m
      ((((m.put false 29#5 (rd m.s.m m.sp 8)).put false 30#5 (rd m.s.m (m.sp + 8#64) 8))).setSp (m.sp + BitVec.ofNat 64 n)) := by
  obtain ⟨k, rfl⟩ : ∃ k, n = 8 * k := ⟨n / 8, by omega⟩
  have hk : k < 63 := by omega
  have e : LDP_POST ||| RT TMP_FP ||| RT2 TMP_LR ||| RN SP ||| (BitVec.ofNat 32 (8 * k) <<< 12) = pairW true false 1#3 (BitVec.ofNat 7 k) 30#5 31#5 29#5 :=
    (by decide +kernel : ∀ k : _root_.Fin 63, LDP_POST ||| RT TMP_FP ||| RT2 TMP_LR ||| RN SP ||| (BitVec.ofNat 32 (8 * k.val) <<< 12) = pairW true false 1#3 (BitVec.ofNat 7 k.val) 30#5 31#5 29#5) ⟨k, hk⟩
  have he : ((BitVec.ofNat 7 k) ++ 0#3 : BitVec 10).signExtend 64 = BitVec.ofNat 64 (8 * k) :=
    (by decide +kernel : ∀ k : _root_.Fin 64, ((BitVec.ofNat 7 k.val) ++ 0#3 : BitVec 10).signExtend 64 = BitVec.ofNat 64 (8 * k.val)) ⟨k, by omega⟩
  obtain ⟨h1, h2⟩ := xfer_pairW true false (k := 1#3) (d := .post) rfl (BitVec.ofNat 7 k) 30#5 31#5 29#5
  rw [e]
  refine Run.of_xfer h1 h2 fun a => ?_
  rw [he]
  have ha : m.s.r 31#5 &&& 15#64 = 0#64 := ha
  simp [xferExec, ha, PSt.put, MSt.put, MSt.setSp, MSt.sp, St.setX]

theorem run_ldrPost {m : MSt} {n : Nat} (hn : n ≤ 248) (ha : Al m.sp) :
    Run [LDRI_POST ||| RT TMP_FP ||| RN SP ||| (BitVec.ofNat 32 n <<< 12)] m ((m.put false 29#5 (rd m.s.m m.sp 8)).setSp (m.sp + BitVec.ofNat 64 n)) := by
  have e : LDRI_POST ||| RT TMP_FP ||| RN SP ||| (BitVec.ofNat 32 n <<< 12) = postW (BitVec.ofNat 9 n) 31#5 29#5 :=
    (by decide +kernel : ∀ k : _root_.Fin 249, LDRI_POST ||| RT TMP_FP ||| RN SP ||| (BitVec.ofNat 32 k.val <<< 12) = postW (BitVec.ofNat 9 k.val) 31#5 29#5) ⟨n, by omega⟩
  have he : (BitVec.ofNat 9 n).signExtend 64 = BitVec.ofNat 64 n :=
    (by decide +kernel : ∀ k : _root_.Fin 249, (BitVec.ofNat 9 k.val).signExtend 64 = BitVec.ofNat 64 k.val) ⟨n, by omega⟩
  obtain ⟨h1, h2⟩ := xfer_postW (BitVec.ofNat 9 n) 31#5 29#5
  rw [e]
  refine Run.of_xfer h1 h2 fun a => ?_
  rw [he]
  have ha : m.s.r 31#5 &&& 15#64 = 0#64 := ha
  simp [xferExec, ha, PSt.put, MSt.put, MSt.setSp, MSt.sp, St.setX]

/-- LDP or STP of the frame record. -/
theorem run_record {m : MSt} (ha : Al m.sp) :
    Run [STP ||| RT TMP_FP ||| RT2 TMP_LR ||| RN SP] m ((m.store m.sp (m.s.r 29#5)).store (m.sp + 8#64) (m.s.r 30#5)) ∧
    Run [LDP ||| RT TMP_FP ||| RT2 TMP_LR ||| RN SP] m ((m.put false 29#5 (rd m.s.m m.sp 8)).put false 30#5 (rd m.s.m (m.sp + 8#64) 8)) ∧
    Run [LDRI ||| RT TMP_FP ||| RN SP] m (m.put false 29#5 (rd m.s.m m.sp 8)) := by
  have h1 := run_pair (m := m) (vec := false) (k := 0) (by omega) 29#5 30#5 ha (ld := false) (fun _ => by decide)
  have h2 := run_pair (m := m) (vec := false) (k := 0) (by omega) 29#5 30#5 ha (ld := true) (fun _ => by decide)
  have h3 := run_gen (m := m) (k := 0) (by omega) TMP_FP (ld := true)
  simp only [if_true, if_false, Bool.false_eq_true, Nat.mul_zero, BitVec.add_zero] at h1 h2 h3
  exact ⟨h1, h2, h3⟩

/-! ## Arithmetic -/

theorem run_spImm {m : MSt} (sub : Bool) {n : Nat} (hn : n < 4096) :
    Run [spImm sub n] m (m.setSp (if sub then m.sp - BitVec.ofNat 64 n else m.sp + BitVec.ofNat 64 n)) := by
  have e1 : BitVec.ofNat 32 n = (BitVec.ofNat 12 n).setWidth 32 := by apply BitVec.eq_of_toNat_eq; simp; omega
  have e2 : (BitVec.ofNat 12 n).setWidth 64 = BitVec.ofNat 64 n := by apply BitVec.eq_of_toNat_eq; simp; omega
  have h := s_addi (s := m.s) (d := SP) (n := SP) ⟨false, false, false⟩ sub (BitVec.ofNat 12 n)
  rw [show (⟨false, false, false⟩ : Fl).chk (1#32 <<< 29) = 0#32 by decide, BitVec.xor_zero] at h
  apply Run.of_step
  rw [spImm, e1]
  refine h.trans ?_
  rw [e2, exec]
  cases sub
  · show some (m.s.set 31#5 (up (w := W true) (awc (lo true (m.s.r 31#5)) (lo true (BitVec.ofNat 64 n)) false).1)) = _
    rw [awc_add]; rfl
  · show some (m.s.set 31#5 (up (w := W true) (awc (lo true (m.s.r 31#5)) (~~~ lo true (BitVec.ofNat 64 n)) true).1)) = _
    rw [awc_sub64]; rfl

theorem run_spImm12 {m : MSt} (sub : Bool) {n : Nat} (hn : n < 4096) :
    Run [spImm sub n ||| (1#32 <<< 22)] m (m.setSp (if sub then m.sp - BitVec.ofNat 64 (4096 * n) else m.sp + BitVec.ofNat 64 (4096 * n))) := by
  have e1 : BitVec.ofNat 32 n = (BitVec.ofNat 12 n).setWidth 32 := by apply BitVec.eq_of_toNat_eq; simp; omega
  have e2 : (BitVec.ofNat 12 n).setWidth 64 <<< 12 = BitVec.ofNat 64 (4096 * n) := by
    apply BitVec.eq_of_toNat_eq; simp [Nat.shiftLeft_eq]; omega
  have h := s_addi12 (s := m.s) (d := SP) (n := SP) ⟨false, false, false⟩ sub (BitVec.ofNat 12 n)
  rw [show (⟨false, false, false⟩ : Fl).chk (1#32 <<< 29) = 0#32 by decide, BitVec.xor_zero] at h
  apply Run.of_step
  rw [spImm, e1]
  refine h.trans ?_
  rw [e2, exec]
  cases sub
  · show some (m.s.set 31#5 (up (w := W true) (awc (lo true (m.s.r 31#5)) (lo true (BitVec.ofNat 64 (4096 * n))) false).1)) = _
    rw [awc_add]; rfl
  · show some (m.s.set 31#5 (up (w := W true) (awc (lo true (m.s.r 31#5)) (~~~ lo true (BitVec.ofNat 64 (4096 * n))) true).1)) = _
    rw [awc_sub64]; rfl

theorem run_fp (m : MSt) : Run [ADDI ||| RD TMP_FP ||| RN SP] m ⟨m.s.set 29#5 m.sp, m.v⟩ := by
  have h := s_addi0 (s := m.s) (d := TMP_FP) (n := SP) ⟨false, false, false⟩ false
  rw [show (⟨false, false, false⟩ : Fl).chk (1#32 <<< 29) = 0#32 by decide, BitVec.xor_zero] at h
  apply Run.of_step
  refine h.trans ?_
  rw [exec]
  show some (m.s.set 29#5 (up (w := W true) (awc (lo true (m.s.r 31#5)) (lo true 0#64) false).1)) = _
  rw [awc_add, BitVec.add_zero]; rfl

theorem run_mov (m : MSt) {d r : Nat} (hd : regMap d ≠ 31#5) : Run [MOV ||| RD d ||| RM r] m ⟨m.s.set (regMap d) (m.s.x (regMap r)), m.v⟩ := by
  have h := s_mov (s := m.s) (d := d) (m := r) false
  rw [show iv false = 0#32 from rfl, BitVec.xor_zero, setX_ne _ _ hd, show up (lo (!false) (m.s.x (regMap r))) = m.s.x (regMap r) from BitVec.setWidth_eq _] at h
  exact Run.of_step h

end Verif.A64
