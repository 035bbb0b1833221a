import Verif.A64.FrameStep

/-! # sljit_emit_mem with a register pair on ARM64 -/

namespace Verif.A64
open Verif.Imm.A64 (fld Regs)
open Verif.Imm.Arm64 (regMap RD RN TMP_ZERO W_OP loadImmediate)

/-- The assertion before the last instruction (sljitNativeARM_64.c:2750). -/
def PairFit (w : BitVec 64) : Prop := w &&& 7#64 = 0#64 ∧ w.toInt ≤ 0x1f8 ∧ -0x200 ≤ w.toInt
instance (w : BitVec 64) : Decidable (PairFit w) := inferInstanceAs (Decidable (_ ∧ _ ∧ _))

/-- The last instruction (sljitNativeARM_64.c:2750-2751); `none` is a failed assertion. -/
def pairLast (store : Bool) (r1 r2 base : Nat) (w : BitVec 64) : Code :=
  if PairFit w then some [(if store then STP else LDP) ||| RT r1 ||| RT2 r2 ||| RN base ||| ((w.setWidth 32 &&& 0x3f8#32) <<< 12)] else none

/-- sljit_emit_mem (sljitNativeARM_64.c:2683-2752) for SLJIT_REG_PAIR(r1, r2) and [base + w] or [base + (offs << w)]; a single register is a move
(sljit_emit_mem_unaligned, sljitLir.c:3382-3394).  The displacement of SLJIT_SP is adjusted before (ADJUST_LOCAL_OFFSET, sljitLir.c:341-343).  The negation of the smallest
sljit_sw wraps here. -/
def emitMemPair (store : Bool) (r1 r2 base offs : Nat) (w : BitVec 64) : Code :=
  if base = 0 then loadImmediate TMP_REG1 (w &&& ~~~ 0x1f8#64) +> pairLast store r1 r2 TMP_REG1 (w &&& 0x1f8#64)
  else if offs ≠ 0 then
    some [ADD ||| RD TMP_REG1 ||| RN base ||| RM offs ||| ((w &&& 3#64).setWidth 32 <<< 10)] +> pairLast store r1 r2 TMP_REG1 0#64
  else if w &&& 7#64 ≠ 0#64 ∨ 0x1f8 < w.toInt ∨ w.toInt < -0x200 then
    if 0 ≤ w.toInt ∧ w &&& 7#64 = 0#64 ∧ w.toInt ≤ 0x7ff0 then
      if store = false ∧ base = r1 then
        some [LDRI ||| RD r2 ||| RN base ||| (w.setWidth 32 <<< 7), LDRI ||| RD r1 ||| RN base ||| ((w + 8#64).setWidth 32 <<< 7)]
      else
        let inst := if store then STRI else LDRI
        some [inst ||| RD r1 ||| RN base ||| (w.setWidth 32 <<< 7), inst ||| RD r2 ||| RN base ||| ((w + 8#64).setWidth 32 <<< 7)]
    else
      let sub := decide (w.toInt < 0)
      let a := if sub then -w else w
      let inst := if sub then SUBI else ADDI
      let i := a.setWidth 32
      let last := fun v : BitVec 64 => pairLast store r1 r2 TMP_REG1 (if sub then -v else v)
      if a.toNat ≤ 0xfff then some [inst ||| RD TMP_REG1 ||| RN base ||| (i <<< 10)] +> last 0#64
      else if a.toNat ≤ 0xffffff then
        some [inst ||| (1#32 <<< 22) ||| RD TMP_REG1 ||| RN base ||| ((i >>> 12) <<< 10)] +>
          if a &&& 0xe07#64 ≠ 0#64 then some [inst ||| RD TMP_REG1 ||| RN TMP_REG1 ||| ((i &&& 0xfff#32) <<< 10)] +> last 0#64 else last (a &&& 0xfff#64)
      else
        loadImmediate TMP_REG1 a +> (some [(if sub then SUB else ADD) ||| RD TMP_REG1 ||| RN base ||| RM TMP_REG1] +> last 0#64)
  else pairLast store r1 r2 base w

/-! ## Proofs -/

/-- What the code does for the address `A`; X9 (TMP_REG1) may change. -/
structure PairDone (store : Bool) (r1 r2 : Nat) (A : BitVec 64) (m m' : MSt) : Prop where
  v : m'.v = m.v
  f : m'.s.f = m.s.f
  keep : ∀ q, q ≠ 9#5 → (store = false → q ≠ regMap r1 ∧ q ≠ regMap r2) → m'.s.r q = m.s.r q
  ld : store = false → m'.s.r (regMap r1) = rd m.s.m A 8 ∧ m'.s.r (regMap r2) = rd m.s.m (A + 8#64) 8 ∧ m'.s.m = m.s.m
  st : store = true → m'.s.m = wr (wr m.s.m A (m.s.r (regMap r1)) 8) (A + 8#64) (m.s.r (regMap r2)) 8

/-- Registers of a pair. -/
structure PairRegs (r1 r2 : Nat) : Prop where
  ne : regMap r1 ≠ regMap r2
  a : regMap r1 ≠ 31#5 ∧ regMap r1 ≠ 9#5
  b : regMap r2 ≠ 31#5 ∧ regMap r2 ≠ 9#5

theorem pair_word' (ld : Bool) (r1 r2 n : Nat) (i : BitVec 7) :
    (if ld then LDP else STP) ||| RT r1 ||| RT2 r2 ||| RN n ||| (i.setWidth 32 <<< 15) = pairW ld false 2#3 i (regMap r2) (regMap n) (regMap r1) := by
  rw [RT, RT2, RN]
  generalize regMap r1 = x
  generalize regMap r2 = y
  generalize regMap n = z
  apply BitVec.eq_of_getLsbD_eq
  intro n hn
  rw [pairW_bit _ _ _ _ _ _ _ _ hn]
  cases ld <;> interval_cases n <;> simp [-BitVec.getLsbD_eq_getElem, -BitVec.setWidth_eq, LDP, STP]

theorem pairFit_num {w : BitVec 64} (h : PairFit w) : ∃ i : BitVec 7, (w.setWidth 32 &&& 0x3f8#32) <<< 12 = i.setWidth 32 <<< 15 ∧ (i ++ 0#3 : BitVec 10).signExtend 64 = w := by
  obtain ⟨h1, h2, h3⟩ := h
  have h8 : w.toNat % 8 = 0 := (align w (z := 3) (by omega)).1 h1
  have key : ∀ k : _root_.Fin 128, ((BitVec.ofInt 64 (8 * (k.val : Int) - 512)).setWidth 32 &&& 0x3f8#32) <<< 12 = (BitVec.ofInt 7 ((k.val : Int) - 64)).setWidth 32 <<< 15 ∧
      (BitVec.ofInt 7 ((k.val : Int) - 64) ++ 0#3 : BitVec 10).signExtend 64 = BitVec.ofInt 64 (8 * (k.val : Int) - 512) := by decide +kernel
  have hn := int_nat w
  obtain ⟨k, hk, e⟩ : ∃ k : Nat, k < 128 ∧ w.toInt = 8 * (k : Int) - 512 := ⟨((w.toInt + 512) / 8).toNat, by omega, by omega⟩
  have ew : w = BitVec.ofInt 64 (8 * (k : Int) - 512) := by rw [← e, BitVec.ofInt_toInt]
  obtain ⟨a, b⟩ := key ⟨k, hk⟩
  exact ⟨BitVec.ofInt 7 ((k : Int) - 64), by rw [ew]; exact a, by rw [ew]; exact b⟩

theorem pairLast_run {store : Bool} {r1 r2 n : Nat} {w A : BitVec 64} (hr : PairRegs r1 r2) (hw : PairFit w) {m m1 : MSt} (hv : m1.v = m.v) (hu : Upto 9#5 m.s m1.s)
    (ha : regMap n = 31#5 → Al (m1.s.r 31#5)) (hA : m1.s.r (regMap n) + w = A) :
    ∃ ws m', pairLast store r1 r2 n w = some ws ∧ Run ws m1 m' ∧ PairDone store r1 r2 A m m' := by
  obtain ⟨i, e1, e2⟩ := pairFit_num hw
  have ew := pair_word' (!store) r1 r2 n i
  obtain ⟨h1, h2⟩ := xfer_pairW (!store) false (k := 2#3) (d := .offset) rfl i (regMap r2) (regMap n) (regMap r1)
  have hm : m1.s.m = m.s.m ∧ m1.s.f = m.s.f ∧ ∀ q, q ≠ 9#5 → m1.s.r q = m.s.r q := by
    rcases hu with h | ⟨v, h⟩ <;> rw [h]
    · exact ⟨rfl, rfl, fun _ _ => rfl⟩
    · exact ⟨rfl, rfl, fun q hq => set_ne _ _ hq⟩
  have ha' : ¬ (regMap n = 31#5 ∧ m1.s.r (regMap n) &&& 15#64 ≠ 0#64) := by
    rintro ⟨a, b⟩; rw [a] at b; exact b (ha a)
  cases store
  · refine ⟨_, ⟨(m1.s.set (regMap r1) (rd m1.s.m A 8)).set (regMap r2) (rd m1.s.m (A + 8#64) 8), m1.v⟩, by rw [pairLast, if_pos hw], ?_, ?_⟩
    · rw [e1]
      simp only [Bool.not_false, if_true] at ew
      simp only [Bool.false_eq_true, if_false]
      rw [ew]
      refine Run.of_xfer h1 h2 fun a => ?_
      rw [e2]
      simp only [xferExec, Bool.not_false, if_true, ne_eq, not_true_eq_false, false_and, if_false, reduceCtorEq]
      rw [if_neg ha', if_neg (Ne.symm hr.ne), hA]
      simp [PSt.put, St.setX, hr.a.1, hr.b.1, St.set]
    · refine ⟨hv, hm.2.1, fun q h9 hq => ?_, fun _ => ⟨?_, ?_, hm.1⟩, (fun h => by cases h)⟩
      · obtain ⟨q1, q2⟩ := hq rfl
        rw [set_ne _ _ q2, set_ne _ _ q1, hm.2.2 q h9]
      · rw [set_ne _ _ hr.ne, set_self, hm.1]
      · rw [set_self, hm.1]
  · refine ⟨_, ⟨{ m1.s with m := wr (wr m1.s.m A (m1.s.r (regMap r1)) 8) (A + 8#64) (m1.s.r (regMap r2)) 8 }, m1.v⟩, by rw [pairLast, if_pos hw], ?_, ?_⟩
    · rw [e1]
      simp only [Bool.not_true, Bool.false_eq_true, if_false] at ew
      simp only [if_true]
      rw [ew]
      refine Run.of_xfer h1 h2 fun a => ?_
      rw [e2]
      simp only [xferExec, Bool.not_true, Bool.false_eq_true, ne_eq, not_true_eq_false, false_and, if_false, reduceCtorEq]
      rw [if_neg ha', hA]
      simp [PSt.get, St.x, hr.a.1, hr.b.1]
    · refine ⟨hv, hm.2.1, fun q h9 _ => hm.2.2 q h9, (fun h => by cases h), fun _ => ?_⟩
      show wr (wr m1.s.m A (m1.s.r (regMap r1)) 8) (A + 8#64) (m1.s.r (regMap r2)) 8 = _
      rw [hm.1, hm.2.2 _ hr.a.2, hm.2.2 _ hr.b.2]

/-- ADD or SUB of a small number. -/
theorem s_addiS {sub : Bool} {base : Nat} (i : BitVec 12) (s : St) : step ((if sub then SUBI else ADDI) ||| RD TMP_REG1 ||| RN base ||| (i.setWidth 32 <<< 10)) s =
    some (s.set 9#5 (if sub then s.r (regMap base) - i.setWidth 64 else s.r (regMap base) + i.setWidth 64)) := by
  have h := s_addi (s := s) (d := TMP_REG1) (n := base) ⟨false, false, false⟩ sub i
  rw [show (⟨false, false, false⟩ : Fl).chk (1#32 <<< 29) = 0#32 by decide, BitVec.xor_zero] at h
  rw [h, exec]
  cases sub
  · show some (s.set 9#5 (up (w := W true) (awc (lo true (s.r (regMap base))) (lo true (i.setWidth 64)) false).1)) = _
    rw [awc_add]; rfl
  · show some (s.set 9#5 (up (w := W true) (awc (lo true (s.r (regMap base))) (~~~ lo true (i.setWidth 64)) true).1)) = _
    rw [awc_sub64]; rfl

theorem s_addsub {sub : Bool} {base : Nat} (hb : regMap base ≠ 31#5) (s : St) : step ((if sub then SUB else ADD) ||| RD TMP_REG1 ||| RN base ||| RM TMP_REG1) s =
    some (s.set 9#5 (if sub then s.r (regMap base) - s.r 9#5 else s.r (regMap base) + s.r 9#5)) := by
  cases sub
  · have h := s_add (s := s) (d := TMP_REG1) (n := base) (m := TMP_REG1) ⟨false, false, false⟩
    rw [show (⟨false, false, false⟩ : Fl).chk (1#32 <<< 29) = 0#32 by decide, BitVec.xor_zero] at h
    simp only [Bool.false_eq_true, if_false]
    rw [h, exec]
    show some (s.setX 9#5 (up (w := W true) (awc (lo true (s.x (regMap base))) ((lo true (s.x 9#5)) <<< 0) false).1)) = _
    rw [BitVec.shiftLeft_zero, awc_add, setX_ne _ _ (by decide), x_ne hb, x_ne (by decide)]
  · have h := s_sub (s := s) (d := TMP_REG1) (n := base) (m := TMP_REG1) ⟨false, false, false⟩
    rw [show (⟨false, false, false⟩ : Fl).chk (1#32 <<< 29) = 0#32 by decide, BitVec.xor_zero] at h
    simp only [if_true]
    rw [h, exec]
    show some (s.setX 9#5 (up (w := W true) (awc (lo true (s.x (regMap base))) (~~~ ((lo true (s.x 9#5)) <<< 0)) true).1)) = _
    rw [BitVec.shiftLeft_zero, awc_sub64, setX_ne _ _ (by decide), x_ne hb, x_ne (by decide)]

theorem fit_1f8 (w : BitVec 64) : PairFit (w &&& 0x1f8#64) ∧ PairFit (-(w &&& 0x1f8#64)) := by
  have e : w &&& 0x1f8#64 = (w.extractLsb' 3 6 ++ 0#3 : BitVec 9).setWidth 64 := by
    apply BitVec.eq_of_getLsbD_eq
    intro i hi
    simp only [BitVec.getLsbD_and, BitVec.getLsbD_setWidth, BitVec.getLsbD_append, BitVec.getLsbD_extractLsb']
    interval_cases i <;> simp [-BitVec.getLsbD_eq_getElem]
  rw [e]
  generalize w.extractLsb' 3 6 = x
  revert x
  decide +kernel

theorem split_1f8 (w : BitVec 64) : (w &&& ~~~ 0x1f8#64) + (w &&& 0x1f8#64) = w := by
  rw [BitVec.add_eq_or_of_and_eq_zero _ _ (by apply BitVec.eq_of_getLsbD_eq; intro i hi; simp only [BitVec.getLsbD_and, BitVec.getLsbD_not, hi, decide_true, Bool.true_and, BitVec.getLsbD_zero]; cases w.getLsbD i <;> cases (0x1f8#64).getLsbD i <;> rfl)]
  apply BitVec.eq_of_getLsbD_eq
  intro i hi
  simp only [BitVec.getLsbD_or, BitVec.getLsbD_and, BitVec.getLsbD_not, hi, decide_true, Bool.true_and]
  cases w.getLsbD i <;> cases (0x1f8#64).getLsbD i <;> rfl

theorem fit_zero : PairFit 0#64 := by decide

theorem s_mem64 {store : Bool} {r n k : Nat} (hk : k < 4096) (s : St) : step ((if store then STRI else LDRI) ||| RD r ||| RN n ||| ((BitVec.ofNat 64 (8 * k)).setWidth 32 <<< 7)) s =
    some (if store then { s with m := wr s.m (s.r (regMap n) + BitVec.ofNat 64 (8 * k)) (s.x (regMap r)) 8 } else s.setX (regMap r) (rd s.m (s.r (regMap n) + BitVec.ofNat 64 (8 * k)) 8)) := by
  have e1 : (BitVec.ofNat 64 (8 * k)).setWidth 32 <<< 7 = (BitVec.ofNat 12 k).setWidth 32 <<< 10 := by
    apply BitVec.eq_of_toNat_eq; simp [Nat.shiftLeft_eq]; omega
  have e2 : (BitVec.ofNat 12 k).setWidth 64 <<< 3 = BitVec.ofNat 64 (8 * k) := by
    apply BitVec.eq_of_toNat_eq; simp [Nat.shiftLeft_eq]; omega
  have e3 : (if store then STRI else LDRI) = STRBI ||| Ty.bits ⟨3, false, store⟩ := by cases store <;> decide
  have h := s_memI (s := s) (r := r) (n := n) ⟨3, false, store⟩ (by show 3 < 4; omega) (BitVec.ofNat 12 k)
  rw [exec_mem ⟨3, false, store⟩ (by show 3 < 4; omega) (fun _ => rfl) _ _ _ _ rfl] at h
  rw [e1, e3]
  refine h.trans ?_
  simp only [Mode.off, e2]
  cases store <;> rfl

/-- The displacements for which two loads are emitted. -/
def Mid (w : BitVec 64) : Prop := w &&& 7#64 = 0#64 ∧ 0x1f8 < w.toInt ∧ w.toInt ≤ 0x7ff0
instance (w : BitVec 64) : Decidable (Mid w) := inferInstanceAs (Decidable (_ ∧ _ ∧ _))

theorem mid_num {w : BitVec 64} (h : Mid w) : ∃ k, k + 1 < 4096 ∧ w = BitVec.ofNat 64 (8 * k) ∧ w + 8#64 = BitVec.ofNat 64 (8 * (k + 1)) := by
  obtain ⟨h1, h2, h3⟩ := h
  have h8 : w.toNat % 8 = 0 := (align w (z := 3) (by omega)).1 h1
  have hn := int_nat w
  refine ⟨w.toNat / 8, by omega, ?_, ?_⟩ <;> apply BitVec.eq_of_toNat_eq
  · simp; omega
  · simp [BitVec.toNat_add]; omega

/-- Which memory operands are allowed. -/
structure PairMem (base offs : Nat) (w : BitVec 64) : Prop where
  b : base ≠ 0 → regMap base ≠ 9#5
  o : offs ≠ 0 → base ≠ 0 ∧ w.toNat < 4 ∧ regMap base ≠ 31#5 ∧ regMap offs ≠ 31#5
  sp : base ≠ 0 → offs = 0 → regMap base = 31#5 → w.toNat ≤ 0xffffff

set_option maxHeartbeats 1000000 in
theorem pair_run {store : Bool} {r1 r2 base offs : Nat} {w : BitVec 64} (hr : PairRegs r1 r2) (hm : PairMem base offs w) (m : MSt) (ha : Al (m.s.r 31#5))
    (hx : ¬ (store = false ∧ base = r1 ∧ base ≠ 0 ∧ offs = 0 ∧ Mid w)) (hi : base ≠ r1 → regMap base ≠ regMap r1 ∨ base = 0) :
    ∃ ws m', emitMemPair store r1 r2 base offs w = some ws ∧ Run ws m m' ∧ PairDone store r1 r2 (ea m.s base offs w) m m' := by
  have cat : ∀ {pre : List (BitVec 32)} {x : BitVec 64} {v A : BitVec 64}, runs pre m.s = some (m.s.set 9#5 x) → PairFit v → x + v = A →
      ∃ ws m', (some pre +> pairLast store r1 r2 TMP_REG1 v) = some ws ∧ Run ws m m' ∧ PairDone store r1 r2 A m m' := by
    intro pre x v A h1 h2 h3
    obtain ⟨ws, m', e1, e2, e3⟩ := pairLast_run (store := store) (n := TMP_REG1) (A := A) hr h2 (m := m) (m1 := ⟨m.s.set 9#5 x, m.v⟩) rfl (.inr ⟨x, rfl⟩) (fun h => absurd h (by decide))
      (by rw [show regMap TMP_REG1 = 9#5 from rfl, set_self]; exact h3)
    exact ⟨pre ++ ws, m', by rw [e1]; rfl, (Run.of_runs h1).cat e2, e3⟩
  have hlt := w.isLt
  have hn := int_nat w
  unfold emitMemPair
  by_cases hb : base = 0
  · rw [if_pos hb]
    have ho : offs = 0 := by by_contra h; exact (hm.o h).1 hb
    obtain ⟨ws, e, h⟩ := li_run TMP_REG1 (by decide) (w &&& ~~~ 0x1f8#64) m.s
    rw [e]
    exact cat h (fit_1f8 w).1 (by rw [split_1f8, ea, if_pos hb, if_pos ho, BitVec.zero_add])
  rw [if_neg hb]
  by_cases ho : offs ≠ 0
  · rw [if_pos ho]
    obtain ⟨-, hw, hb31, ho31⟩ := hm.o ho
    have hk : w &&& 3#64 = w := by apply BitVec.eq_of_toNat_eq; rw [and_3]; omega
    refine cat (x := m.s.r (regMap base) + m.s.r (regMap offs) <<< w.toNat) (runs_one ?_) fit_zero (by rw [BitVec.add_zero, ea, if_neg hb, if_neg ho])
    rw [hk, show w.setWidth 32 = (w.setWidth 6).setWidth 32 by apply BitVec.eq_of_toNat_eq; simp; omega, s_addLsl, exec]
    show some (m.s.setX 9#5 (up (w := W true) (awc (lo true (m.s.x (regMap base))) ((lo true (m.s.x (regMap offs))) <<< (w.setWidth 6).toNat) false).1)) = _
    rw [show (w.setWidth 6).toNat = w.toNat by simp; omega, show (lo true (m.s.x (regMap offs))) <<< w.toNat = lo true (m.s.x (regMap offs) <<< w.toNat) by
      show (m.s.x (regMap offs)).setWidth 64 <<< w.toNat = (m.s.x (regMap offs) <<< w.toNat).setWidth 64
      simp, awc_add, setX_ne _ _ (by decide), x_ne hb31, x_ne ho31]
  rw [if_neg ho]
  have ho : offs = 0 := by simpa using ho
  have hA : ea m.s base offs w = m.s.r (regMap base) + w := by rw [ea, if_neg hb, if_pos ho]
  rw [hA]
  by_cases hc : w &&& 7#64 ≠ 0#64 ∨ 0x1f8 < w.toInt ∨ w.toInt < -0x200
  swap
  · rw [if_neg hc]
    exact pairLast_run hr (by refine ⟨by by_contra h; exact hc (.inl h), ?_, ?_⟩ <;> omega) rfl (.inl rfl) (fun _ => ha) rfl
  rw [if_pos hc]
  by_cases hd : 0 ≤ w.toInt ∧ w &&& 7#64 = 0#64 ∧ w.toInt ≤ 0x7ff0
  · rw [if_pos hd]
    have hmid : Mid w := ⟨hd.2.1, by rcases hc with h | h | h <;> [exact absurd hd.2.1 h; exact h; omega], hd.2.2⟩
    have hne : ¬ (store = false ∧ base = r1) := fun h => hx ⟨h.1, h.2, hb, ho, hmid⟩
    rw [if_neg hne]
    obtain ⟨k, hk, ew, ew8⟩ := mid_num hmid
    have eA : m.s.r (regMap base) + w + 8#64 = m.s.r (regMap base) + BitVec.ofNat 64 (8 * (k + 1)) := by rw [BitVec.add_assoc, ew8]
    rw [ew8]
    cases store
    · have hbr : regMap base ≠ regMap r1 := by
        rcases hi (fun h => hne ⟨rfl, h⟩) with h | h
        · exact h
        · exact absurd h hb
      have g1 := s_mem64 (store := false) (r := r1) (n := base) (k := k) (by omega) m.s
      simp only [Bool.false_eq_true, if_false] at g1 ⊢
      rw [setX_ne _ _ hr.a.1] at g1
      have g2 := s_mem64 (store := false) (r := r2) (n := base) (k := k + 1) (by omega) (m.s.set (regMap r1) (rd m.s.m (m.s.r (regMap base) + BitVec.ofNat 64 (8 * k)) 8))
      simp only [Bool.false_eq_true, if_false] at g2
      rw [setX_ne _ _ hr.b.1, set_ne _ _ hbr] at g2
      rw [← ew] at g1 g2
      refine ⟨_, ⟨_, m.v⟩, rfl, Run.of_runs (runs_two g1 g2), rfl, rfl, fun q _ hq => ?_, fun _ => ⟨?_, ?_, rfl⟩, (fun h => by cases h)⟩
      · obtain ⟨q1, q2⟩ := hq rfl
        rw [set_ne _ _ q2, set_ne _ _ q1]
      · rw [set_ne _ _ hr.ne, set_self]
      · rw [set_self, eA]; rfl
    · have g1 := s_mem64 (store := true) (r := r1) (n := base) (k := k) (by omega) m.s
      simp only [if_true] at g1 ⊢
      have g2 := s_mem64 (store := true) (r := r2) (n := base) (k := k + 1) (by omega) { m.s with m := wr m.s.m (m.s.r (regMap base) + BitVec.ofNat 64 (8 * k)) (m.s.x (regMap r1)) 8 }
      simp only [if_true] at g2
      rw [← ew] at g1 g2
      refine ⟨_, ⟨_, m.v⟩, rfl, Run.of_runs (runs_two g1 g2), rfl, rfl, fun q _ hq => rfl, (fun h => by cases h), fun _ => ?_⟩
      rw [eA]
      show wr (wr _ _ (m.s.x _) 8) _ (m.s.x _) 8 = _
      rw [x_ne hr.a.1, x_ne hr.b.1]
  rw [if_neg hd]
  simp only
  -- the sign and the absolute value
  generalize hsub : decide (w.toInt < 0) = sub
  obtain ⟨a, ea', hs⟩ : ∃ a, (if sub then -w else w) = a ∧ ∀ x : BitVec 64, (if sub then x - a else x + a) = x + w := by
    refine ⟨_, rfl, fun x => ?_⟩
    cases sub
    · rfl
    · simp only [if_true]; rw [BitVec.sub_eq_add_neg, BitVec.neg_neg]
  rw [ea']
  have hz : (if sub then -(0#64) else 0#64) = 0#64 := by cases sub <;> rfl
  have halt := a.isLt
  by_cases c1 : a.toNat ≤ 0xfff
  · rw [if_pos c1, hz]
    refine cat (runs_one ?_) fit_zero (BitVec.add_zero _)
    rw [show a.setWidth 32 = (a.setWidth 12).setWidth 32 by apply BitVec.eq_of_toNat_eq; simp; omega, s_addiS,
      show (a.setWidth 12).setWidth 64 = a by apply BitVec.eq_of_toNat_eq; simp; omega, hs]
  rw [if_neg c1]
  by_cases c2 : a.toNat ≤ 0xffffff
  · rw [if_pos c2]
    obtain ⟨hi12, eh⟩ : ∃ h : BitVec 12, h = BitVec.ofNat 12 (a.toNat / 4096) := ⟨_, rfl⟩
    obtain ⟨lo12, el⟩ : ∃ h : BitVec 12, h = BitVec.ofNat 12 (a.toNat % 4096) := ⟨_, rfl⟩
    have e1 : (a.setWidth 32 >>> 12) = hi12.setWidth 32 := by
      apply BitVec.eq_of_toNat_eq; rw [eh]; simp [Nat.shiftRight_eq_div_pow]; omega
    have e2 : (a.setWidth 32 &&& 0xfff#32) = lo12.setWidth 32 := by
      apply BitVec.eq_of_toNat_eq; rw [and_fff, el]; simp; try omega
    have e3 : a &&& 0xfff#64 = lo12.setWidth 64 := by
      apply BitVec.eq_of_toNat_eq; rw [and_fff64, el]; simp; try omega
    have e4 : (hi12.setWidth 64 <<< 12) + lo12.setWidth 64 = a := by
      apply BitVec.eq_of_toNat_eq; rw [BitVec.toNat_add, eh, el]; simp [Nat.shiftLeft_eq]; omega
    have hs2 : ∀ x : BitVec 64, (if sub then (if sub then x - (hi12.setWidth 64 <<< 12) else x + (hi12.setWidth 64 <<< 12)) - lo12.setWidth 64
        else (if sub then x - (hi12.setWidth 64 <<< 12) else x + (hi12.setWidth 64 <<< 12)) + lo12.setWidth 64) = x + w := by
      intro x
      rw [← hs x, ← e4]
      cases sub
      · simp only [Bool.false_eq_true, if_false]; rw [BitVec.add_assoc]
      · simp only [if_true]; rw [BitVec.sub_sub]
    have t1 := s_addiT (sub := sub) (tmp := TMP_REG1) (base := base) (by decide) hi12 m.s
    rw [show regMap TMP_REG1 = 9#5 from rfl] at t1
    by_cases c3 : a &&& 0xe07#64 ≠ 0#64
    · rw [if_pos c3, hz, e1, e2]
      have t2 := s_addiS (sub := sub) (base := TMP_REG1) lo12 (m.s.set 9#5 (if sub then m.s.r (regMap base) - (hi12.setWidth 64 <<< 12) else m.s.r (regMap base) + (hi12.setWidth 64 <<< 12)))
      rw [show regMap TMP_REG1 = 9#5 from rfl, set_self, hs2] at t2
      have := cat (pre := [_, _]) (x := m.s.r (regMap base) + w) (by
        refine (runs_two t1 t2).trans ?_
        congr 1
        simp only [St.set]
        congr 1
        funext q
        by_cases hq : q = 9#5 <;> simp [hq]) fit_zero (BitVec.add_zero _)
      obtain ⟨ws, m', k1, k2, k3⟩ := this
      refine ⟨ws, m', ?_, k2, k3⟩
      rw [← k1]
      simp only [Code.cat]
      cases pairLast store r1 r2 TMP_REG1 0#64 <;> rfl
    · rw [if_neg c3, e1]
      have c3 : a &&& 0xe07#64 = 0#64 := by simpa using c3
      have e5 : a &&& 0xfff#64 = a &&& 0x1f8#64 := by
        have : a &&& 0xfff#64 = (a &&& 0xe07#64) ||| (a &&& 0x1f8#64) := by rw [← BitVec.and_or_distrib_left]; rfl
        rw [this, c3, BitVec.zero_or]
      refine cat (runs_one t1) (by rw [e5]; cases sub; exacts [(fit_1f8 a).1, (fit_1f8 a).2]) ?_
      rw [e3, ← hs2]
      cases sub
      · rfl
      · simp only [if_true]; rw [BitVec.sub_eq_add_neg _ (lo12.setWidth 64)]
  · rw [if_neg c2, hz]
    have hb31 : regMap base ≠ 31#5 := by
      intro h
      have := hm.sp hb ho h
      cases sub
      · simp only [Bool.false_eq_true, if_false] at ea'; subst ea'; omega
      · simp only [decide_eq_true_eq] at hsub; omega
    obtain ⟨ws, e, h⟩ := li_run TMP_REG1 (by decide) a m.s
    rw [e]
    have t2 := s_addsub (sub := sub) hb31 (m.s.set 9#5 a)
    rw [set_self, set_ne _ _ (hm.b hb), hs] at t2
    obtain ⟨ws', m', k1, k2, k3⟩ := cat (pre := ws ++ [_]) (x := m.s.r (regMap base) + w) (by
      refine (runs_app (show runs ws m.s = some (m.s.set 9#5 a) from h)).trans ((runs_one t2).trans ?_)
      congr 1
      simp only [St.set]
      congr 1
      funext q
      by_cases hq : q = 9#5 <;> simp [hq]) fit_zero (BitVec.add_zero _)
    refine ⟨ws', m', ?_, k2, k3⟩
    rw [← k1]
    simp only [Code.cat]
    cases pairLast store r1 r2 TMP_REG1 0#64 <;> simp

/-- The two loads when the base register is the first one of the pair (sljitNativeARM_64.c:2715-2718). -/
theorem pair_swapped {r1 r2 : Nat} {w : BitVec 64} (hr : PairRegs r1 r2) (hb : r1 ≠ 0) (hw : Mid w) :
    ∃ ws, emitMemPair false r1 r2 r1 0 w = some ws ∧ ∀ m, Run ws m ⟨(m.s.set (regMap r2) (rd m.s.m (m.s.r (regMap r1) + w) 8)).set (regMap r1) (rd m.s.m (m.s.r (regMap r1) + w + 8#64) 8), m.v⟩ := by
  obtain ⟨k, hk, ew, ew8⟩ := mid_num hw
  obtain ⟨h1, h2, h3⟩ := hw
  refine ⟨_, by rw [emitMemPair, if_neg hb, if_neg (by simp), if_pos (.inr (.inl h2)), if_pos ⟨by omega, h1, h3⟩, if_pos ⟨rfl, rfl⟩], fun m => ?_⟩
  have g1 := s_mem64 (store := false) (r := r2) (n := r1) (k := k) (by omega) m.s
  simp only [Bool.false_eq_true, if_false] at g1
  rw [setX_ne _ _ hr.b.1] at g1
  have g2 := s_mem64 (store := false) (r := r1) (n := r1) (k := k + 1) (by omega) (m.s.set (regMap r2) (rd m.s.m (m.s.r (regMap r1) + BitVec.ofNat 64 (8 * k)) 8))
  simp only [Bool.false_eq_true, if_false] at g2
  rw [setX_ne _ _ hr.a.1, set_ne _ _ hr.ne] at g2
  rw [← ew] at g1 g2
  rw [BitVec.add_assoc, ew8]
  exact Run.of_runs (runs_two g1 g2)

end Verif.A64
