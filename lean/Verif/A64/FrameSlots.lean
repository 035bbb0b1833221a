import Verif.A64.FrameStep

/-! # Saving and restoring registers on ARM64 (helper lemmas) -/

namespace Verif.A64
open Verif.Imm.A64 (fld)
open Verif.Imm.Arm64 (regMap RD RN TMP_ZERO)

/-- A saved register: vector or not, the register, the distance of its place from the top of the frame. -/
structure Slot where
  vec : Bool
  reg : Nat
  dist : Nat

/-- The places of pairs. -/
def pairSlots (vec : Bool) : List Nat → Option Nat → Nat → List Slot
  | [], _, _ => []
  | i :: is, none, D => pairSlots vec is (some i) D
  | i :: is, some r, D => ⟨vec, r, D + 16⟩ :: ⟨vec, i, D + 8⟩ :: pairSlots vec is none (D + 16)

/-- The register left over. -/
def left : List Nat → Option Nat → Option Nat
  | [], p => p
  | i :: is, none => left is (some i)
  | _ :: is, some _ => left is none

/-- The distance reached. -/
def endD : List Nat → Option Nat → Nat → Nat
  | [], _, D => D
  | _ :: is, none, D => endD is (some 0) D
  | _ :: is, some _, D => endD is none (D + 16)

def pcnt (p : Option Nat) : Nat := if p.isSome then 1 else 0

theorem endD_some : ∀ (l : List Nat) (a b D : Nat), endD l (some a) D = endD l (some b) D
  | [], _, _, _ => rfl
  | _ :: _, _, _, _ => rfl

theorem endD_len : ∀ (l : List Nat) (p : Option Nat) (D : Nat), endD l p D + 8 * pcnt (left l p) = D + 8 * (l.length + pcnt p)
  | [], p, D => by simp [endD, left]
  | i :: is, none, D => by
    rw [endD, left, endD_some _ 0 i, endD_len is (some i) D]; simp [pcnt]
    
  | i :: is, some r, D => by
    rw [endD, left, endD_len is none (D + 16)]; simp [pcnt]; omega

theorem endD_16 : ∀ (l : List Nat) (p : Option Nat) (D : Nat), ∃ j, endD l p D = D + 16 * j
  | [], _, _ => ⟨0, rfl⟩
  | i :: is, none, D => by rw [endD]; exact endD_16 is _ D
  | i :: is, some r, D => by
    rw [endD]
    obtain ⟨j, h⟩ := endD_16 is none (D + 16)
    exact ⟨j + 1, by omega⟩

/-- The offset field. -/
def offK (k : Nat) : BitVec 32 := (BitVec.ofNat 32 k - 2#32) <<< 15

theorem offK_two (k : Nat) : offK (k + 2) = BitVec.ofNat 32 k <<< 15 := by
  rw [offK, BitVec.ofNat_add, BitVec.add_sub_cancel]

theorem offK_next (k : Nat) : offK (k + 2) - (2#32 <<< 15) = offK k := by
  rw [offK_two, offK]
  apply BitVec.eq_of_toNat_eq
  simp only [BitVec.toNat_sub, BitVec.toNat_shiftLeft, BitVec.toNat_ofNat, Nat.shiftLeft_eq]
  omega

theorem offsOf_k {T : Nat} (h : T % 8 = 0) : offsOf T = offK (T / 8) := by
  obtain ⟨k, rfl⟩ : ∃ k, T = 8 * k := ⟨T / 8, by omega⟩
  rw [Nat.mul_div_cancel_left _ (by omega), offsOf, offK]
  apply BitVec.eq_of_toNat_eq
  simp only [BitVec.toNat_sub, BitVec.toNat_shiftLeft, BitVec.toNat_ofNat, Nat.shiftLeft_eq]
  omega

/-- The words of pairs. -/
theorem pair_word (ld vec : Bool) (r i : Nat) {k : Nat} (hk : k < 64) :
    (if vec then (if ld then LDP_F64 else STP_F64) else (if ld then LDP else STP)) ||| fT vec r ||| fT2 vec i ||| RN SP ||| (BitVec.ofNat 32 k <<< 15) =
      pairW ld vec 2#3 (BitVec.ofNat 7 k) (hw vec i) 31#5 (hw vec r) := by
  have e1 : BitVec.ofNat 32 k = (BitVec.ofNat 7 k).setWidth 32 := by apply BitVec.eq_of_toNat_eq; simp; omega
  rw [e1, fT, fT2, ← hw, ← hw]
  generalize BitVec.ofNat 7 k = x
  generalize hw vec i = y
  generalize hw vec r = z
  rw [show RN SP = (31#5).setWidth 32 <<< 5 from rfl]
  apply BitVec.eq_of_getLsbD_eq
  intro n hn
  rw [pairW_bit _ _ _ _ _ _ _ _ hn]
  cases ld <;> cases vec <;> interval_cases n <;> simp [-BitVec.getLsbD_eq_getElem, -BitVec.setWidth_eq, LDP_F64, STP_F64, LDP, STP]

theorem vec_word (ld : Bool) (r : Nat) {k : Nat} (hk : k < 4096) :
    (if ld then LDRI_F64 else STRI_F64) ||| fT true r ||| RN SP ||| (BitVec.ofNat 32 k <<< 10) = vecW ld (BitVec.ofNat 12 k) 31#5 (fregMap r) := by
  have e1 : BitVec.ofNat 32 k = (BitVec.ofNat 12 k).setWidth 32 := by apply BitVec.eq_of_toNat_eq; simp; omega
  rw [e1, fT, if_pos rfl]
  generalize BitVec.ofNat 12 k = x
  generalize fregMap r = z
  rw [show RN SP = (31#5).setWidth 32 <<< 5 from rfl]
  apply BitVec.eq_of_getLsbD_eq
  intro n hn
  rw [vecW_bit _ _ _ _ _ hn]
  cases ld <;> interval_cases n <;> simp [-BitVec.getLsbD_eq_getElem, -BitVec.setWidth_eq, LDRI_F64, STRI_F64]

/-- The effect of saving or restoring one register. -/
def doSlot (ld : Bool) (top : BitVec 64) (m : MSt) (x : Slot) : MSt :=
  if ld then m.put x.vec (hw x.vec x.reg) (rd m.s.m (top - BitVec.ofNat 64 x.dist) 8)
  else m.store (top - BitVec.ofNat 64 x.dist) (m.get x.vec (hw x.vec x.reg))

theorem doSlot_sp (ld : Bool) (top : BitVec 64) (m : MSt) (x : Slot) : (doSlot ld top m x).sp = m.sp := by
  cases ld
  · rfl
  · exact put_sp _ _ _ _

theorem doSlots_sp (ld : Bool) (top : BitVec 64) : ∀ (l : List Slot) (m : MSt), (l.foldl (doSlot ld top) m).sp = m.sp
  | [], _ => rfl
  | x :: l, m => by rw [List.foldl_cons, doSlots_sp ld top l, doSlot_sp]

theorem addr_pair {b top : BitVec 64} {k D : Nat} (h : b + BitVec.ofNat 64 (8 * (k + 2)) = top - BitVec.ofNat 64 D) :
    b + BitVec.ofNat 64 (8 * k) = top - BitVec.ofNat 64 (D + 16) ∧ b + BitVec.ofNat 64 (8 * k) + 8#64 = top - BitVec.ofNat 64 (D + 8) := by
  rw [show 8 * (k + 2) = 8 * k + 16 by omega, BitVec.ofNat_add, ← BitVec.add_assoc] at h
  generalize b + BitVec.ofNat 64 (8 * k) = z at *
  have hz : z = top - BitVec.ofNat 64 D - 16#64 := by rw [← h, BitVec.add_sub_cancel]
  rw [hz, BitVec.ofNat_add, BitVec.ofNat_add]
  generalize BitVec.ofNat 64 D = d
  constructor
  · simp only [BitVec.sub_eq_add_neg, BitVec.neg_add]; ac_rfl
  · simp only [BitVec.sub_eq_add_neg, BitVec.neg_add]
    rw [show -16#64 = -8#64 + -8#64 by decide, show top + -d + (-8#64 + -8#64) + 8#64 = top + (-d + -8#64) + (-8#64 + 8#64) by ac_rfl, show -8#64 + 8#64 = 0#64 by decide, BitVec.add_zero]

/-- The words of a loop. -/
theorem pairLoop_run (ld vec : Bool) (top : BitVec 64) : ∀ (l : List Nat) (p : Option Nat) (k D : Nat) (m : MSt), k ≤ 64 → l.length + pcnt p ≤ k →
    (p.toList ++ l).Pairwise (fun a b => hw vec b ≠ hw vec a) → Al m.sp → m.sp + BitVec.ofNat 64 (8 * k) = top - BitVec.ofNat 64 D → k % 2 = 0 →
    ∃ k', (pairLoop (if vec then (if ld then LDP_F64 else STP_F64) else (if ld then LDP else STP)) vec l p (offK k)).2 = (left l p, offK k') ∧
      Run (pairLoop (if vec then (if ld then LDP_F64 else STP_F64) else (if ld then LDP else STP)) vec l p (offK k)).1 m ((pairSlots vec l p D).foldl (doSlot ld top) m) ∧
      m.sp + BitVec.ofNat 64 (8 * k') = top - BitVec.ofNat 64 (endD l p D) ∧ k' % 2 = 0 ∧ k' ≤ k ∧ 8 * k' + endD l p D = 8 * k + D
  | [], p, k, D, m, h1, h2, h3, h4, h5, h6 => ⟨k, rfl, Run.nil m, h5, h6, Nat.le_refl _, rfl⟩
  | i :: is, none, k, D, m, h1, h2, h3, h4, h5, h6 => by
    rw [pairLoop, left, pairSlots, endD, endD_some _ 0 i]
    exact pairLoop_run ld vec top is (some i) k D m h1 (by simp [pcnt] at *; omega) h3 h4 h5 h6
  | i :: is, some r, k, D, m, h1, h2, h3, h4, h5, h6 => by
    obtain ⟨k, rfl⟩ : ∃ j, k = j + 2 := ⟨k - 2, by simp [pcnt] at h2; omega⟩
    obtain ⟨a1, a2⟩ := addr_pair h5
    have hne : hw vec i ≠ hw vec r := by
      simp only [Option.toList_some, List.singleton_append, List.pairwise_cons] at h3
      exact h3.1 i (by simp)
    have hp := run_pair (m := m) (vec := vec) (k := k) (by omega) (hw vec r) (hw vec i) h4 (ld := ld) (fun _ => hne)
    rw [a1, show top - BitVec.ofNat 64 (D + 16) + 8#64 = top - BitVec.ofNat 64 (D + 8) by rw [← a1, a2]] at hp
    set m1 := doSlot ld top (doSlot ld top m ⟨vec, r, D + 16⟩) ⟨vec, i, D + 8⟩ with hm1
    have hp : Run [pairW ld vec 2#3 (BitVec.ofNat 7 k) (hw vec i) 31#5 (hw vec r)] m m1 := by
      rw [hm1]
      clear_value m1
      cases ld
      · simp only [doSlot, Bool.false_eq_true, if_false, store_get] at hp ⊢; exact hp
      · simp only [doSlot, if_true, put_mem] at hp ⊢; exact hp
    have hsp : m1.sp = m.sp := by rw [hm1, doSlot_sp, doSlot_sp]
    have h5' : m1.sp + BitVec.ofNat 64 (8 * k) = top - BitVec.ofNat 64 (D + 16) := by rw [hsp]; exact a1
    obtain ⟨k', e, h, g⟩ := pairLoop_run ld vec top is none k (D + 16) m1 (by omega) (by simp [pcnt] at *; omega)
      (by simp only [Option.toList_some, List.singleton_append, List.pairwise_cons] at h3; exact h3.2.2) (by rw [hsp]; exact h4) h5' (by omega)
    refine ⟨k', ?_, ?_, ?_⟩
    · simp only [pairLoop, offK_next, e, left]
    · simp only [pairLoop, offK_next, pairSlots, List.foldl_cons]
      rw [offK_two, pair_word _ _ _ _ (by omega)]
      exact hp.cons h
    · rw [hsp] at g
      rw [endD]
      refine ⟨g.1, g.2.1, by omega, by omega⟩

/-- The place of the vector register left over. -/
def fSlot (l : Option Nat) (D : Nat) : List Slot :=
  match l with
  | some r => [⟨true, r, D + 8⟩]
  | none => []

/-- The place of the register left over. -/
def rSlot (l f : Option Nat) (D : Nat) : List Slot :=
  match l with
  | some r => [⟨false, r, D + if f = none then 8 else 16⟩]
  | none => []

/-- The places of all registers. -/
def Frame.slots (p : Frame) : List Slot :=
  pairSlots false p.regs none 0 ++ pairSlots true p.fregs none (endD p.regs none 0) ++
  fSlot (left p.fregs none) (endD p.fregs none (endD p.regs none 0)) ++ rSlot (left p.regs none) (left p.fregs none) (endD p.fregs none (endD p.regs none 0))

theorem off_shift {k : Nat} (h : k < 4096) : (BitVec.ofNat 32 k <<< 15) >>> 5 = BitVec.ofNat 32 k <<< 10 := by
  apply BitVec.eq_of_toNat_eq
  simp only [BitVec.toNat_ushiftRight, BitVec.toNat_shiftLeft, BitVec.toNat_ofNat, Nat.shiftLeft_eq, Nat.shiftRight_eq_div_pow]
  omega

theorem or_one {k : Nat} (h : k < 4096) (h2 : k % 2 = 0) : (BitVec.ofNat 32 k <<< 10) ||| (1#32 <<< 10) = BitVec.ofNat 32 (k + 1) <<< 10 := by
  obtain ⟨j, rfl⟩ : ∃ j, k = 2 * j := ⟨k / 2, by omega⟩
  have e : BitVec.ofNat 32 (2 * j + 1) = BitVec.ofNat 32 (2 * j) ||| 1#32 := by
    apply BitVec.eq_of_toNat_eq
    rw [BitVec.toNat_or, BitVec.toNat_ofNat, BitVec.toNat_ofNat, Nat.mod_eq_of_lt (by omega), Nat.mod_eq_of_lt (by omega)]
    have := Nat.two_pow_add_eq_or_of_lt (i := 1) (b := 1) (by omega) j
    simpa using this
  rw [e, ← BitVec.shiftLeft_or_distrib]

theorem saveWords_run (ld : Bool) {p : Frame} {T : Nat} (top : BitVec 64) (m : MSt) (hT : T ≤ 512) (h16 : T % 16 = 0) (hl : 8 * (p.regs.length + p.fregs.length) ≤ T)
    (hr : p.regs.Pairwise (fun a b => hw false b ≠ hw false a)) (hf : p.fregs.Pairwise (fun a b => hw true b ≠ hw true a)) (ha : Al m.sp)
    (ht : m.sp + BitVec.ofNat 64 T = top) : Run (saveWords ld p (offsOf T)) m (p.slots.foldl (doSlot ld top) m) := by
  obtain ⟨k, rfl⟩ : ∃ k, T = 8 * k := ⟨T / 8, by omega⟩
  rw [offsOf_k (by omega), Nat.mul_div_cancel_left _ (by omega)]
  have l1 := endD_len p.regs none 0
  have l2 := endD_len p.fregs none (endD p.regs none 0)
  have c1 : pcnt (left p.regs none) ≤ 1 := by unfold pcnt; split <;> omega
  have c2 : pcnt (left p.fregs none) ≤ 1 := by unfold pcnt; split <;> omega
  have c0 : pcnt none = 0 := rfl
  rw [c0] at l1 l2
  obtain ⟨k1, e1, r1, s1, v1, b1, d1⟩ := pairLoop_run ld false top p.regs none k 0 m (by omega) (by rw [c0]; omega) hr ha (by rw [ht]; simp) (by omega)
  simp only [Bool.false_eq_true, if_false] at e1 r1
  have hs1 := doSlots_sp ld top (pairSlots false p.regs none 0) m
  obtain ⟨k2, e2, r2, s2, v2, b2, d2⟩ := pairLoop_run ld true top p.fregs none k1 (endD p.regs none 0) _ (by omega) (by rw [c0]; omega) hf (by rw [hs1]; exact ha) (by rw [hs1]; exact s1) v1
  simp only [if_true] at e2 r2
  have hs2 := doSlots_sp ld top (pairSlots true p.fregs none (endD p.regs none 0)) ((pairSlots false p.regs none 0).foldl (doSlot ld top) m)
  rw [hs1] at hs2 s2
  rw [saveWords, Frame.slots, e1, e2]
  simp only [List.foldl_append]
  refine Run.cat (m1 := (fSlot (left p.fregs none) (endD p.fregs none (endD p.regs none 0))).foldl (doSlot ld top) ((pairSlots true p.fregs none (endD p.regs none 0)).foldl (doSlot ld top) ((pairSlots false p.regs none 0).foldl (doSlot ld top) m))) ((r1.cat r2).cat ?_) ?_
  · rcases hq : left p.fregs none with _ | r
    · exact Run.nil _
    · rw [hq] at l2
      obtain ⟨k2, rfl⟩ : ∃ j, k2 = j + 2 := ⟨k2 - 2, by simp [pcnt] at l2 c1; omega⟩
      simp only [fSlot, rSlot, List.foldl_cons, List.foldl_nil]
      rw [offK_two, off_shift (by omega), BitVec.or_assoc, or_one (by omega) (by omega), vec_word _ _ (by omega)]
      have := run_vec (m := (pairSlots true p.fregs none (endD p.regs none 0)).foldl (doSlot ld top) ((pairSlots false p.regs none 0).foldl (doSlot ld top) m)) (k := k2 + 1) (by omega) (fregMap r)
        (by rw [hs2]; exact ha) (ld := ld)
      rw [hs2, show m.sp + BitVec.ofNat 64 (8 * (k2 + 1)) = m.sp + BitVec.ofNat 64 (8 * k2) + 8#64 by rw [Nat.mul_add, BitVec.ofNat_add, ← BitVec.add_assoc], (addr_pair s2).2] at this
      exact this
  · rcases hq : left p.regs none with _ | r
    · exact Run.nil _
    · rw [hq] at l1
      obtain ⟨k2, rfl⟩ : ∃ j, k2 = j + 2 := ⟨k2 - 2, by simp [pcnt] at l1 c2; omega⟩
      rw [offK_two, off_shift (by omega)]
      rcases hq2 : left p.fregs none with _ | q
      · simp only [fSlot, rSlot, List.foldl_cons, List.foldl_nil, if_true]
        rw [BitVec.or_assoc, or_one (by omega) (by omega)]
        have := run_gen (m := (pairSlots true p.fregs none (endD p.regs none 0)).foldl (doSlot ld top) ((pairSlots false p.regs none 0).foldl (doSlot ld top) m)) (k := k2 + 1) (by omega) r (ld := ld)
        rw [hs2, show m.sp + BitVec.ofNat 64 (8 * (k2 + 1)) = m.sp + BitVec.ofNat 64 (8 * k2) + 8#64 by rw [Nat.mul_add, BitVec.ofNat_add, ← BitVec.add_assoc], (addr_pair s2).2] at this
        exact this
      · simp only [fSlot, rSlot, List.foldl_cons, List.foldl_nil, reduceCtorEq, if_false, BitVec.or_zero]
        have := run_gen (m := doSlot ld top ((pairSlots true p.fregs none (endD p.regs none 0)).foldl (doSlot ld top) ((pairSlots false p.regs none 0).foldl (doSlot ld top) m)) ⟨true, q, endD p.fregs none (endD p.regs none 0) + 8⟩)
          (k := k2) (by omega) r (ld := ld)
        rw [doSlot_sp, hs2, (addr_pair s2).1] at this
        exact this

end Verif.A64
