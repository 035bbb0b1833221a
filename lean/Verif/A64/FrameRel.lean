import Verif.A64.FrameEff

/-! # Building and releasing frames on ARM64 (helper lemmas) -/

namespace Verif.A64
open Verif.Imm.A64 (fld)
open Verif.Imm.Arm64 (regMap RD RN TMP_ZERO)

/-- A legal frame. -/
structure Frame.Ok (p : Frame) : Prop where
  kept : p.kept ≤ p.sav
  sav : p.sav ≤ 10
  scr : p.scr + p.sav ≤ 26
  fsav : p.fsav ≤ 8
  fscr : p.fscr + p.fsav ≤ 30
  locals : p.locals ≤ 1048576

theorem mem_down (hi lo r : Nat) : r ∈ down hi lo ↔ lo ≤ r ∧ r ≤ hi := by
  simp only [down, List.mem_map, List.mem_range]
  constructor
  · rintro ⟨i, h, rfl⟩; omega
  · rintro ⟨h1, h2⟩; exact ⟨hi - r, by omega, by omega⟩

theorem down_lt (hi lo : Nat) : (down hi lo).Pairwise (fun a b => b < a) := by
  unfold down
  rw [List.pairwise_map]
  refine List.Pairwise.imp_of_mem ?_ (List.pairwise_lt_range (n := hi + 1 - lo))
  intro a b ha hb h
  rw [List.mem_range] at ha hb
  omega

theorem down_len (hi lo : Nat) : (down hi lo).length = hi + 1 - lo := by simp [down]

theorem mem_regs {p : Frame} (r : Nat) : r ∈ p.regs ↔ (26 - p.sav + 1 ≤ r ∧ r ≤ 26 - p.kept) ∨ (17 ≤ r ∧ r ≤ p.scr) := by
  rw [Frame.regs, List.mem_append, mem_down, mem_down]; rfl

theorem mem_fregs {p : Frame} (r : Nat) : r ∈ p.fregs ↔ (30 - p.fsav + 1 ≤ r ∧ r ≤ 30) ∨ (23 ≤ r ∧ r ≤ p.fscr) := by
  rw [Frame.fregs, List.mem_append, mem_down, mem_down]; rfl

theorem regs_lt {p : Frame} (h : p.Ok) : p.regs.Pairwise (fun a b => b < a) := by
  rw [Frame.regs, List.pairwise_append]
  refine ⟨down_lt _ _, down_lt _ _, fun a ha b hb => ?_⟩
  rw [mem_down] at ha hb
  have := h.scr; have := h.sav
  simp only [S0, firstSaved, nSaved] at *
  omega

theorem fregs_lt {p : Frame} (h : p.Ok) : p.fregs.Pairwise (fun a b => b < a) := by
  rw [Frame.fregs, List.pairwise_append]
  refine ⟨down_lt _ _, down_lt _ _, fun a ha b hb => ?_⟩
  rw [mem_down] at ha hb
  have := h.fscr; have := h.fsav
  simp only [FS0, firstFSaved, nFSaved] at *
  omega

theorem regs_range {p : Frame} (h : p.Ok) {r : Nat} (hr : r ∈ p.regs) : 17 ≤ r ∧ r ≤ 26 := by
  rw [mem_regs] at hr
  have := h.sav; have := h.scr
  omega

theorem fregs_range {p : Frame} (h : p.Ok) {r : Nat} (hr : r ∈ p.fregs) : 23 ≤ r ∧ r ≤ 30 := by
  rw [mem_fregs] at hr
  have := h.fsav; have := h.fscr
  omega

/-- The machine registers of the saved ones. -/
theorem hw_tab : ∀ r : _root_.Fin 31, (17 ≤ r.val ∧ r.val ≤ 26 → regMap r.val = BitVec.ofNat 5 (45 - r.val)) ∧ (23 ≤ r.val → fregMap r.val = BitVec.ofNat 5 (38 - r.val)) := by decide

theorem regMap_saved {r : Nat} (h1 : 17 ≤ r) (h2 : r ≤ 26) : regMap r = BitVec.ofNat 5 (45 - r) := (hw_tab ⟨r, by omega⟩).1 ⟨h1, h2⟩
theorem fregMap_saved {r : Nat} (h1 : 23 ≤ r) (h2 : r ≤ 30) : fregMap r = BitVec.ofNat 5 (38 - r) := (hw_tab ⟨r, by omega⟩).2 h1

theorem ofNat5_ne {a b : Nat} (ha : a < 32) (hb : b < 32) (h : a ≠ b) : BitVec.ofNat 5 a ≠ BitVec.ofNat 5 b := by
  intro e
  have := congrArg BitVec.toNat e
  simp only [BitVec.toNat_ofNat] at this
  omega

theorem regs_ne {p : Frame} (h : p.Ok) : p.regs.Pairwise (fun a b => hw false b ≠ hw false a) := by
  refine List.Pairwise.imp_of_mem ?_ (regs_lt h)
  intro a b ha hb hlt
  have := regs_range h ha; have := regs_range h hb
  show regMap b ≠ regMap a
  rw [regMap_saved (by omega) (by omega), regMap_saved (by omega) (by omega)]
  exact ofNat5_ne (by omega) (by omega) (by omega)

theorem fregs_ne {p : Frame} (h : p.Ok) : p.fregs.Pairwise (fun a b => hw true b ≠ hw true a) := by
  refine List.Pairwise.imp_of_mem ?_ (fregs_lt h)
  intro a b ha hb hlt
  have := fregs_range h ha; have := fregs_range h hb
  show fregMap b ≠ fregMap a
  rw [fregMap_saved (by omega) (by omega), fregMap_saved (by omega) (by omega)]
  exact ofNat5_ne (by omega) (by omega) (by omega)

/-- Bytes of saved registers. -/
def Frame.bytes (p : Frame) : Nat := 8 * (p.regs.length + p.fregs.length)

theorem sizes {p : Frame} (h : p.Ok) : p.savedSize = p.bytes + 16 ∧ p.bytes ≤ 144 ∧ p.total % 16 = 0 ∧ p.locals + p.bytes + 16 ≤ p.total ∧ p.total < 2 ^ 21 ∧
    p.saved16 % 16 = 0 ∧ p.bytes ≤ p.saved16 ∧ p.saved16 ≤ 144 := by
  have h1 := h.kept; have h2 := h.sav; have h3 := h.scr; have h4 := h.fsav; have h5 := h.fscr; have h6 := h.locals
  have e1 : p.savedSize = p.bytes + 16 := by
    simp only [Frame.savedSize, Frame.bytes, Frame.regs, Frame.fregs, List.length_append, down_len, S0, FS0, nSaved, nFSaved, firstSaved, firstFSaved]
    split <;> split <;> omega
  have e2 : p.bytes ≤ 144 := by
    simp only [Frame.bytes, Frame.regs, Frame.fregs, List.length_append, down_len, S0, FS0, nSaved, nFSaved, firstSaved, firstFSaved]
    omega
  simp only [Frame.total, Frame.saved16, e1]
  refine ⟨trivial, e2, ?_⟩
  omega

theorem slot_hw {p : Frame} (h : p.Ok) {x : Slot} (hx : x ∈ p.slots) : (x.vec = false → ∃ j, 19 ≤ j ∧ j ≤ 28 ∧ x.hw = BitVec.ofNat 5 j) := by
  intro hv
  have := ((slots_ok p).2.1 x hx).2.2
  rw [hv] at this
  have hr := regs_range h this
  refine ⟨45 - x.reg, by omega, by omega, ?_⟩
  rw [Slot.hw, hv, ← regMap_saved hr.1 hr.2]; rfl

/-! ## Addresses -/

theorem off_two (x : BitVec 64) {a b : Nat} : x - BitVec.ofNat 64 a - BitVec.ofNat 64 b = x - BitVec.ofNat 64 (a + b) := by
  rw [BitVec.ofNat_add]; simp only [BitVec.sub_eq_add_neg, BitVec.neg_add, BitVec.add_assoc]

theorem off_back (x : BitVec 64) {a b c : Nat} (h : a = b + c) : x - BitVec.ofNat 64 a + BitVec.ofNat 64 b = x - BitVec.ofNat 64 c := by
  rw [h, BitVec.ofNat_add]
  generalize BitVec.ofNat 64 b = y
  generalize BitVec.ofNat 64 c = z
  simp only [BitVec.sub_eq_add_neg, BitVec.neg_add]
  rw [show x + (-y + -z) + y = x + -z + (y + -y) by ac_rfl, BitVec.add_right_neg, BitVec.add_zero]

theorem off_cases (q sp : BitVec 64) {a b : Nat} (hb : a + b < 2 ^ 32) (h : (q - (sp - BitVec.ofNat 64 (a + b))).toNat < b ∨ a + b ≤ (q - (sp - BitVec.ofNat 64 (a + b))).toNat) :
    a ≤ (q - (sp - BitVec.ofNat 64 a)).toNat := by
  have e : q - (sp - BitVec.ofNat 64 a) = (q - (sp - BitVec.ofNat 64 (a + b))) - BitVec.ofNat 64 b := by
    rw [← off_two]
    generalize BitVec.ofNat 64 a = x
    generalize BitVec.ofNat 64 b = y
    simp only [BitVec.sub_eq_add_neg, BitVec.neg_add, BitVec.neg_neg]
    rw [show q + (-sp + x + y) + -y = q + (-sp + x) + (y + -y) by ac_rfl, BitVec.add_right_neg, BitVec.add_zero]
  rw [e]
  generalize q - (sp - BitVec.ofNat 64 (a + b)) = z at *
  have hz := z.isLt
  rw [BitVec.toNat_sub, BitVec.toNat_ofNat]
  omega

theorem al_sub {x : BitVec 64} {n : Nat} (h : Al x) (hn : n % 16 = 0) : Al (x - BitVec.ofNat 64 n) := by
  unfold Al at *
  have key : ∀ y : BitVec 64, y &&& 15#64 = 0#64 ↔ y.toNat % 16 = 0 := fun y => by
    have e : (y &&& 15#64).toNat = y.toNat % 16 := by
      rw [BitVec.toNat_and, show (15#64).toNat = 2 ^ 4 - 1 from rfl, Nat.and_two_pow_sub_one_eq_mod]
    rw [← e]
    constructor
    · intro h; rw [h]; rfl
    · intro h; exact BitVec.eq_of_toNat_eq h
  rw [key] at *
  have := x.isLt
  rw [BitVec.toNat_sub, BitVec.toNat_ofNat]
  omega

theorem rec_out {q a : BitVec 64} (h : 16 ≤ (q - a).toNat) : 8 ≤ (q - a).toNat ∧ 8 ≤ (q - (a + 8#64)).toNat := by
  refine ⟨by omega, ?_⟩
  rw [show q - (a + 8#64) = (q - a) - 8#64 by simp only [BitVec.sub_eq_add_neg, BitVec.neg_add]; ac_rfl]
  generalize q - a = z at *
  have := z.isLt
  rw [BitVec.toNat_sub]
  show 8 ≤ (2 ^ 64 - 8 + z.toNat) % 2 ^ 64
  omega

/-! ## Arguments -/

theorem argMoves_ok : ∀ (args : List Bool) (k n : Nat) (m : MSt), k + args.length ≤ 4 → n + args.count false ≤ 10 →
    ∃ m', Run (argMoves k n args) m m' ∧ m'.s.m = m.s.m ∧ m'.v = m.v ∧
      (∀ q, (∀ j, n ≤ j → j < n + args.count false → q ≠ regMap (26 - j)) → m'.s.r q = m.s.r q) ∧
      ∀ i, args[i]? = some false → m'.s.r (regMap (26 - (n + (args.take i).count false))) = m.s.r (BitVec.ofNat 5 (k + i))
  | [], k, n, m, _, _ => ⟨m, Run.nil m, rfl, rfl, fun _ _ => rfl, fun i h => by simp at h⟩
  | true :: as, k, n, m, h1, h2 => by
    simp only [List.length_cons, List.count_cons] at h1 h2
    obtain ⟨m', r, e1, e2, e3, e4⟩ := argMoves_ok as (k + 1) n m (by omega) (by simpa using h2)
    refine ⟨m', r, e1, e2, fun q hq => e3 q fun j a b => hq j a (by simpa using b), fun i hi => ?_⟩
    cases i with
    | zero => simp at hi
    | succ i =>
      have := e4 i (by simpa using hi)
      rw [List.take_succ_cons, List.count_cons]
      simpa [Nat.add_comm, Nat.add_left_comm] using this
  | false :: as, k, n, m, h1, h2 => by
    simp only [List.length_cons, List.count_cons_self] at h1 h2
    have hs := regMap_saved (r := 26 - n) (by omega) (by omega)
    have h31 : regMap (26 - n) ≠ 31#5 := by rw [hs]; exact ofNat5_ne (by omega) (by omega) (by omega)
    have hsrc : regMap (R0 + k) = BitVec.ofNat 5 k := (by decide : ∀ k : _root_.Fin 4, regMap (R0 + k.val) = BitVec.ofNat 5 k.val) ⟨k, by omega⟩
    have hm := run_mov m (d := 26 - n) (r := R0 + k) h31
    rw [hsrc, x_ne (ofNat5_ne (by omega) (by omega) (by omega))] at hm
    obtain ⟨m', r, e1, e2, e3, e4⟩ := argMoves_ok as (k + 1) (n + 1) ⟨m.s.set (regMap (26 - n)) (m.s.r (BitVec.ofNat 5 k)), m.v⟩ (by omega) (by omega)
    refine ⟨m', hm.cons r, e1, e2, fun q hq => ?_, fun i hi => ?_⟩
    · rw [e3 q fun j a b => hq j (by omega) (by rw [List.count_cons_self]; omega)]
      exact set_ne _ _ (hq n (by omega) (by rw [List.count_cons_self]; omega))
    · cases i with
      | zero =>
        simp only [List.take_zero, List.count_nil, Nat.add_zero]
        rw [e3 _ fun j a b => ?_]
        · exact set_self _ _ _
        · rw [regMap_saved (by omega) (by omega), regMap_saved (by omega) (by omega)]
          exact ofNat5_ne (by omega) (by omega) (by omega)
      | succ i =>
        have hi' : as[i]? = some false := by simpa using hi
        have := e4 i hi'
        have hil : i < as.length := by
          by_contra hc
          rw [List.getElem?_eq_none (by omega)] at hi'
          cases hi'
        rw [List.take_succ_cons, List.count_cons_self, show n + ((as.take i).count false + 1) = n + 1 + (as.take i).count false by omega, this, show k + (i + 1) = k + 1 + i by omega]
        refine set_ne _ _ ?_
        rw [hs]
        exact ofNat5_ne (by omega) (by omega) (by omega)

/-! ## Entry -/

/-- What building the frame does, apart from the arguments. -/
structure Built (p : Frame) (m m' : MSt) : Prop where
  sp : m'.sp = m.sp - BitVec.ofNat 64 p.total
  slots : ∀ x ∈ p.slots, rd m'.s.m (m.sp - BitVec.ofNat 64 x.dist) 8 = m.get x.vec x.hw
  fp : rd m'.s.m (m.sp - BitVec.ofNat 64 p.total) 8 = m.s.r 29#5
  lr : rd m'.s.m (m.sp - BitVec.ofNat 64 p.total + 8#64) 8 = m.s.r 30#5
  mem : ∀ q, let d := (q - (m.sp - BitVec.ofNat 64 p.total)).toNat
    (16 ≤ d ∧ d < p.total - p.bytes ∨ p.total ≤ d) → m'.s.m q = m.s.m q
  v : m'.v = m.v

/-- The part of the frame for the registers, before the arguments. -/
theorem build_small {p : Frame} (h : p.Ok) (hs : p.total ≤ 512) (m : MSt) (ha : Al m.sp) :
    ∃ m', Run (stpPre p.total :: saveWords false p (offsOf p.total)) m m' ∧ Built p m m' ∧ ∀ q, q ≠ 31#5 → m'.s.r q = m.s.r q := by
  obtain ⟨z1, z2, z3, z4, z5, z6, z7, z8⟩ := sizes h
  obtain ⟨o1, o2, o3, o4⟩ := slots_ok p
  have r1 := run_stpPre (m := m) hs (by omega) ha
  set m1 := ((m.store (m.sp - BitVec.ofNat 64 p.total) (m.s.r 29#5)).store (m.sp - BitVec.ofNat 64 p.total + 8#64) (m.s.r 30#5)).setSp (m.sp - BitVec.ofNat 64 p.total) with hm1
  have hsp1 : m1.sp = m.sp - BitVec.ofNat 64 p.total := set_self _ _ _
  have hr1 : ∀ q, q ≠ 31#5 → m1.s.r q = m.s.r q := fun q hq => set_ne _ _ hq
  have hmem1 : m1.s.m = wr (wr m.s.m (m.sp - BitVec.ofNat 64 p.total) (m.s.r 29#5) 8) (m.sp - BitVec.ofNat 64 p.total + 8#64) (m.s.r 30#5) 8 := rfl
  have hv1 : m1.v = m.v := rfl
  have r2 := saveWords_run false (T := p.total) m.sp m1 hs z3 (by unfold Frame.bytes at *; omega) (regs_ne h) (fregs_ne h) (by rw [hsp1]; exact al_sub ha z3)
    (by rw [hsp1, BitVec.sub_add_cancel])
  obtain ⟨s1, s2, s3, s4, s5⟩ := stores_ok m.sp (N := p.bytes) (by omega) p.slots m1 o1 (fun x hx => ⟨(o2 x hx).1, (o2 x hx).2.1⟩)
  set m2 := p.slots.foldl (doSlot false m.sp) m1
  have hfar : ∀ d, p.total - 8 ≤ d → d ≤ p.total → ∀ x ∈ p.slots, 8 ≤ (m.sp - BitVec.ofNat 64 d - (m.sp - BitVec.ofNat 64 x.dist)).toNat ∧ 8 ≤ (m.sp - BitVec.ofNat 64 x.dist - (m.sp - BitVec.ofNat 64 d)).toNat := by
    intro d hd1 hd2 x hx
    have := o2 x hx
    unfold Frame.bytes at *
    exact ⟨apart_addr (N := p.total) _ (by omega) (by omega) (by omega) (by omega), apart_addr (N := p.total) _ (by omega) (by omega) (by omega) (by omega)⟩
  have e8 : m.sp - BitVec.ofNat 64 p.total + 8#64 = m.sp - BitVec.ofNat 64 (p.total - 8) := off_back _ (b := 8) (by omega)
  refine ⟨m2, r1.cons r2, ⟨?_, fun x hx => ?_, ?_, ?_, fun q hq => ?_, s2.trans hv1⟩, fun q hq => by rw [s1, hr1 q hq]⟩
  · show m2.s.r 31#5 = _
    rw [s1]; exact hsp1
  · rw [s3 x hx]
    show m1.get x.vec x.hw = _
    unfold MSt.get
    rw [hv1]
    cases hv : x.vec
    · obtain ⟨j, j1, j2, e⟩ := slot_hw h hx hv
      have h31 : x.hw ≠ 31#5 := by rw [e]; exact ofNat5_ne (by omega) (by omega) (by omega)
      simp only [Bool.false_eq_true, if_false]
      rw [x_ne h31, x_ne h31, hr1 _ h31]
    · rfl
  · rw [s4 _ (hfar p.total (by omega) (by omega)), hmem1, rd_wr_ne, rd_wr]
    · rw [e8]; exact apart_addr (N := p.total) _ (by omega) (by omega) (by omega) (by omega)
    · rw [e8]; exact apart_addr (N := p.total) _ (by omega) (by omega) (by omega) (by omega)
  · rw [e8, s4 _ (hfar (p.total - 8) (by omega) (by omega)), hmem1, ← e8, rd_wr]
  · rw [s5 q (off_cases q m.sp (b := p.total - p.bytes) (by omega) (by rw [show p.bytes + (p.total - p.bytes) = p.total by omega]; omega)), hmem1]
    obtain ⟨w1, w2⟩ := rec_out (q := q) (a := m.sp - BitVec.ofNat 64 p.total) (by omega)
    rw [wr_out w2, wr_out w1]

/-- Lowering the stack pointer and storing the frame record. -/
theorem allocRest_ok {n : Nat} (hn : 0 < n) (h16 : n % 16 = 0) (h21 : n < 2 ^ 21) (m : MSt) (ha : Al m.sp) :
    Run (allocRest n) m (((m.store (m.sp - BitVec.ofNat 64 n) (m.s.r 29#5)).store (m.sp - BitVec.ofNat 64 n + 8#64) (m.s.r 30#5)).setSp (m.sp - BitVec.ofNat 64 n)) := by
  have tail : ∀ (k : Nat) (m : MSt), Al m.sp → k % 16 = 0 → k < 4096 →
      Run (if k > 512 ∨ k = 0 then (if k ≠ 0 then [spImm true k] else []) ++ [STP ||| RT TMP_FP ||| RT2 TMP_LR ||| RN SP] else [stpPre k]) m
        (((m.store (m.sp - BitVec.ofNat 64 k) (m.s.r 29#5)).store (m.sp - BitVec.ofNat 64 k + 8#64) (m.s.r 30#5)).setSp (m.sp - BitVec.ofNat 64 k)) := by
    intro k m ha hk hlt
    by_cases hc : k > 512 ∨ k = 0
    · rw [if_pos hc]
      by_cases h0 : k = 0
      · subst h0
        simp only [ne_eq, not_true, if_false, List.nil_append, BitVec.sub_zero]
        have := (run_record ha).1
        have e : ((m.store m.sp (m.s.r 29#5)).store (m.sp + 8#64) (m.s.r 30#5)).setSp m.sp = (m.store m.sp (m.s.r 29#5)).store (m.sp + 8#64) (m.s.r 30#5) := by
          unfold MSt.setSp MSt.store MSt.sp St.set
          simp only [MSt.mk.injEq, St.mk.injEq, and_true, true_and]
          funext q
          split
          · rename_i h; rw [h]
          · rfl
        rw [e]; exact this
      · rw [if_pos h0]
        have r1 := run_spImm (m := m) true (n := k) hlt
        simp only [if_true] at r1
        have hsp : (m.setSp (m.sp - BitVec.ofNat 64 k)).sp = m.sp - BitVec.ofNat 64 k := set_self _ _ _
        have r2 := (run_record (m := m.setSp (m.sp - BitVec.ofNat 64 k)) (by rw [hsp]; exact al_sub ha hk)).1
        rw [hsp, show (m.setSp (m.sp - BitVec.ofNat 64 k)).s.r 29#5 = m.s.r 29#5 from set_ne _ _ (by decide),
          show (m.setSp (m.sp - BitVec.ofNat 64 k)).s.r 30#5 = m.s.r 30#5 from set_ne _ _ (by decide)] at r2
        exact r1.cat r2
    · rw [if_neg hc]
      exact run_stpPre (by omega) (by omega) ha
  unfold allocRest
  rw [if_neg (by omega)]
  by_cases hb : n > 0xfff
  · simp only [if_pos hb]
    have r1 := run_spImm12 (m := m) true (n := n / 4096) (by omega)
    simp only [if_true] at r1
    have hsp : (m.setSp (m.sp - BitVec.ofNat 64 (4096 * (n / 4096)))).sp = m.sp - BitVec.ofNat 64 (4096 * (n / 4096)) := set_self _ _ _
    have r2 := tail (n % 4096) (m.setSp (m.sp - BitVec.ofNat 64 (4096 * (n / 4096)))) (by rw [hsp]; exact al_sub ha (by omega)) (by omega) (by omega)
    rw [hsp, show (m.setSp (m.sp - BitVec.ofNat 64 (4096 * (n / 4096)))).s.r 29#5 = m.s.r 29#5 from set_ne _ _ (by decide),
      show (m.setSp (m.sp - BitVec.ofNat 64 (4096 * (n / 4096)))).s.r 30#5 = m.s.r 30#5 from set_ne _ _ (by decide), off_two,
      show 4096 * (n / 4096) + n % 4096 = n by omega] at r2
    refine r1.cat ?_
    convert r2 using 1
    unfold MSt.setSp MSt.store
    simp only [MSt.mk.injEq, and_true]
    exact (wset_set _ _ _ _).symm
  · simp only [if_neg hb, List.nil_append]
    exact tail n m ha h16 (by omega)

theorem build_large {p : Frame} (h : p.Ok) (hs : 512 < p.total) (m : MSt) (ha : Al m.sp) :
    ∃ m1, Run (spImm true p.saved16 :: saveWords false p (offsOf p.saved16)) m m1 ∧ (∀ q, q ≠ 31#5 → m1.s.r q = m.s.r q) ∧
      ∀ m2 : MSt, m2.s.m = m1.s.m → m2.v = m1.v → (∀ q, q = 29#5 ∨ q = 30#5 ∨ q = 31#5 → m2.s.r q = m1.s.r q) →
        ∃ m3, Run (allocRest (p.total - p.saved16)) m2 m3 ∧ Built p m m3 ∧ ∀ q, q ≠ 31#5 → m3.s.r q = m2.s.r q := by
  obtain ⟨z1, z2, z3, z4, z5, z6, z7, z8⟩ := sizes h
  obtain ⟨o1, o2, o3, o4⟩ := slots_ok p
  have r1 := run_spImm (m := m) true (n := p.saved16) (by omega)
  simp only [if_true] at r1
  set m1 := m.setSp (m.sp - BitVec.ofNat 64 p.saved16) with hm1
  have hsp1 : m1.sp = m.sp - BitVec.ofNat 64 p.saved16 := set_self _ _ _
  have hr1 : ∀ q, q ≠ 31#5 → m1.s.r q = m.s.r q := fun q hq => set_ne _ _ hq
  have hv1 : m1.v = m.v := rfl
  have r2 := saveWords_run false (T := p.saved16) m.sp m1 (by omega) z6 (by unfold Frame.bytes at *; omega) (regs_ne h) (fregs_ne h) (by rw [hsp1]; exact al_sub ha z6)
    (by rw [hsp1, BitVec.sub_add_cancel])
  obtain ⟨s1, s2, s3, s4, s5⟩ := stores_ok m.sp (N := p.bytes) (by omega) p.slots m1 o1 (fun x hx => ⟨(o2 x hx).1, (o2 x hx).2.1⟩)
  set m1' := p.slots.foldl (doSlot false m.sp) m1
  refine ⟨m1', r1.cons r2, fun q hq => by rw [s1, hr1 q hq], fun m2 g1 g2 g3 => ?_⟩
  have hsp2 : m2.sp = m.sp - BitVec.ofNat 64 p.saved16 := by
    show m2.s.r 31#5 = _
    rw [g3 _ (by simp), s1]; exact hsp1
  have r3 := allocRest_ok (n := p.total - p.saved16) (by omega) (by omega) (by omega) m2 (by rw [hsp2]; exact al_sub ha z6)
  rw [hsp2, off_two, show p.saved16 + (p.total - p.saved16) = p.total by omega, g3 29#5 (by simp), g3 30#5 (by simp), s1, hr1 _ (by decide), hr1 _ (by decide)] at r3
  have e8 : m.sp - BitVec.ofNat 64 p.total + 8#64 = m.sp - BitVec.ofNat 64 (p.total - 8) := off_back _ (b := 8) (by omega)
  refine ⟨_, r3, ⟨set_self _ _ _, fun x hx => ?_, ?_, ?_, fun q hq => ?_, ?_⟩, fun q hq => set_ne _ _ hq⟩
  · have ho := o2 x hx
    show rd (wr (wr m2.s.m _ _ 8) _ _ 8) _ 8 = _
    unfold Frame.bytes at *
    rw [rd_wr_ne, rd_wr_ne, g1, s3 x hx]
    · show m1.get x.vec x.hw = _
      unfold MSt.get
      rw [hv1]
      cases hv : x.vec
      · obtain ⟨j, j1, j2, e⟩ := slot_hw h hx hv
        have h31 : x.hw ≠ 31#5 := by rw [e]; exact ofNat5_ne (by omega) (by omega) (by omega)
        simp only [Bool.false_eq_true, if_false]
        rw [x_ne h31, x_ne h31, hr1 _ h31]
      · rfl
    · exact apart_addr (N := p.total) _ (by omega) (by omega) (by omega) (by omega)
    · exact apart_addr (N := p.total) _ (by omega) (by omega) (by omega) (by omega)
    · rw [e8]; exact apart_addr (N := p.total) _ (by omega) (by omega) (by omega) (by omega)
    · rw [e8]; exact apart_addr (N := p.total) _ (by omega) (by omega) (by omega) (by omega)
  · show rd (wr (wr m2.s.m _ _ 8) _ _ 8) _ 8 = _
    rw [rd_wr_ne, rd_wr]
    · rw [e8]; exact apart_addr (N := p.total) _ (by omega) (by omega) (by omega) (by omega)
    · rw [e8]; exact apart_addr (N := p.total) _ (by omega) (by omega) (by omega) (by omega)
  · exact rd_wr _ _ _
  · show wr (wr m2.s.m _ _ 8) _ _ 8 q = _
    obtain ⟨w1, w2⟩ := rec_out (q := q) (a := m.sp - BitVec.ofNat 64 p.total) (by omega)
    rw [wr_out w2, wr_out w1, g1, s5 q (off_cases q m.sp (b := p.total - p.bytes) (by omega) (by rw [show p.bytes + (p.total - p.bytes) = p.total by omega]; omega))]
    rfl
  · exact g2.trans (s2.trans hv1)

/-! ## Release -/

/-- What releasing the frame does. -/
structure Released (p : Frame) (rt : Bool) (top fp lr : BitVec 64) (G : Bool → BitVec 5 → BitVec 64) (m m' : MSt) : Prop where
  sp : m'.sp = top
  mem : m'.s.m = m.s.m
  slots : ∀ x ∈ p.slots, m'.get x.vec x.hw = G x.vec x.hw
  fp : m'.s.r 29#5 = fp
  lr : m'.s.r 30#5 = if rt then m.s.r 30#5 else lr
  other : ∀ vec q, (vec = false → q ≠ 29#5 ∧ q ≠ 30#5) → (∀ x ∈ p.slots, x.vec = vec → x.hw ≠ q) → m'.get vec q = m.get vec q

theorem setSp_get (m : MSt) (a : BitVec 64) (vec : Bool) (q : BitVec 5) : (m.setSp a).get vec q = m.get vec q := by
  unfold MSt.get MSt.setSp St.x St.set
  cases vec
  · simp only [Bool.false_eq_true, if_false]; split <;> rfl
  · rfl

theorem release_ok {p : Frame} (h : p.Ok) (rt : Bool) {top fp lr : BitVec 64} (ha : Al top) {G : Bool → BitVec 5 → BitVec 64} {m : MSt}
    (hsp : m.sp = top - BitVec.ofNat 64 p.total) (hG : ∀ x ∈ p.slots, rd m.s.m (top - BitVec.ofNat 64 x.dist) 8 = G x.vec x.hw)
    (hfp : rd m.s.m m.sp 8 = fp) (hlr : rd m.s.m (m.sp + 8#64) 8 = lr) :
    ∃ m', Run (emitRelease p rt) m m' ∧ Released p rt top fp lr G m m' := by
  obtain ⟨z1, z2, z3, z4, z5, z6, z7, z8⟩ := sizes h
  obtain ⟨o1, o2, o3, o4⟩ := slots_ok p
  have hal : Al m.sp := by rw [hsp]; exact al_sub ha z3
  unfold emitRelease
  set short : Prop := p.total > 512 ∧ p.total ≤ 512 + (if rt then 248 else 496) with hshort
  have hb : short → p.total ≤ 1008 := by rintro ⟨_, h⟩; split at h <;> omega
  set n := if short then 512 else p.total with hn
  have n16 : n % 16 = 0 := by rw [hn]; split <;> omega
  have nle : n ≤ p.total := by rw [hn]; split <;> [(rename_i hc; have := hc.1; omega); omega]
  -- the frame record
  obtain ⟨m1, r1, sp1, mem1, fp1, lr1, ot1⟩ : ∃ m1, Run (if rt then
        (if short then [LDRI_POST ||| RT TMP_FP ||| RN SP ||| (BitVec.ofNat 32 (p.total - 512) <<< 12)] else [LDRI ||| RT TMP_FP ||| RN SP])
      else
        (if short then [LDP_POST ||| RT TMP_FP ||| RT2 TMP_LR ||| RN SP ||| (BitVec.ofNat 32 (p.total - 512) <<< 12)]
         else [LDP ||| RT TMP_FP ||| RT2 TMP_LR ||| RN SP])) m m1 ∧ m1.sp = top - BitVec.ofNat 64 n ∧ m1.s.m = m.s.m ∧ m1.s.r 29#5 = fp ∧
      m1.s.r 30#5 = (if rt then m.s.r 30#5 else lr) ∧ ∀ vec q, (vec = false → q ≠ 29#5 ∧ q ≠ 30#5) → m1.get vec q = m.get vec q := by
    have x_get : ∀ (m : MSt) {q : BitVec 5}, q ≠ 31#5 → m.s.r q = m.get false q := fun m q hq => (x_ne hq).symm
    have gp := fun (m : MSt) (r : BitVec 5) (hr : r ≠ 31#5) x vec q => put_get m false vec r q x (fun _ => hr)
    by_cases hc : short
    · have hn' : n = 512 := by rw [hn, if_pos hc]
      have hspn : m.sp + BitVec.ofNat 64 (p.total - 512) = top - BitVec.ofNat 64 n := by rw [hsp]; exact off_back _ (by have := hc.1; omega)
      cases rt
      · have r := run_ldpPost (m := m) (n := p.total - 512) (by have := hb hc; omega) (by omega) hal
        rw [hspn, hfp, hlr] at r
        simp only [Bool.false_eq_true, if_false, if_pos hc]
        refine ⟨_, r, set_self _ _ _, ?_, ?_, ?_, fun vec q hq => ?_⟩
        · exact (put_mem _ _ _ _).trans (put_mem _ _ _ _)
        · rw [x_get _ (by decide), setSp_get, gp _ _ (by decide), gp _ _ (by decide)]; simp
        · rw [x_get _ (by decide), setSp_get, gp _ _ (by decide)]; simp
        · rw [setSp_get, gp _ _ (by decide), if_neg, gp _ _ (by decide), if_neg]
          · rintro ⟨e, rfl⟩; exact (hq e.symm).1 rfl
          · rintro ⟨e, rfl⟩; exact (hq e.symm).2 rfl
      · have r := run_ldrPost (m := m) (n := p.total - 512) (by have := hc.2; simp only [if_true] at this; omega) hal
        rw [hspn, hfp] at r
        simp only [if_true, if_pos hc]
        refine ⟨_, r, set_self _ _ _, put_mem _ _ _ _, ?_, ?_, fun vec q hq => ?_⟩
        · rw [x_get _ (by decide), setSp_get, gp _ _ (by decide)]; simp
        · rw [x_get _ (by decide), setSp_get, gp _ _ (by decide), x_get _ (by decide)]; simp
        · rw [setSp_get, gp _ _ (by decide), if_neg]
          rintro ⟨e, rfl⟩; exact (hq e.symm).1 rfl
    · have hn' : n = p.total := by rw [hn, if_neg hc]
      obtain ⟨-, r, r'⟩ := run_record hal
      rw [hfp] at r r'
      rw [hlr] at r
      cases rt
      · simp only [Bool.false_eq_true, if_false, if_neg hc]
        refine ⟨_, r, ?_, ?_, ?_, ?_, fun vec q hq => ?_⟩
        · rw [put_sp, put_sp, hsp, hn']
        · exact (put_mem _ _ _ _).trans (put_mem _ _ _ _)
        · rw [x_get _ (by decide), gp _ _ (by decide), gp _ _ (by decide)]; simp
        · rw [x_get _ (by decide), gp _ _ (by decide)]; simp
        · rw [gp _ _ (by decide), if_neg, gp _ _ (by decide), if_neg]
          · rintro ⟨e, rfl⟩; exact (hq e.symm).1 rfl
          · rintro ⟨e, rfl⟩; exact (hq e.symm).2 rfl
      · simp only [if_true, if_neg hc]
        refine ⟨_, r', ?_, put_mem _ _ _ _, ?_, ?_, fun vec q hq => ?_⟩
        · rw [put_sp, hsp, hn']
        · rw [x_get _ (by decide), gp _ _ (by decide)]; simp
        · rw [x_get _ (by decide), gp _ _ (by decide), x_get _ (by decide)]; simp
        · rw [gp _ _ (by decide), if_neg]
          rintro ⟨e, rfl⟩; exact (hq e.symm).1 rfl
  -- the rest of a large frame
  set k := if n > 512 then 512 else n with hk
  have k16 : k % 16 = 0 := by rw [hk]; split <;> omega
  have kle : k ≤ 512 := by rw [hk]; split <;> omega
  have kb : p.bytes ≤ k := by
    rw [hk]
    split
    · omega
    · rw [hn]; split <;> omega
  obtain ⟨m2, r2, sp2, mem2, ot2⟩ : ∃ m2, Run (if n > 512 then
        (if n - 512 > 0xfff then [spImm false ((n - 512) / 4096) ||| (1#32 <<< 22)] else []) ++
        [spImm false (if n - 512 > 0xfff then (n - 512) % 4096 else n - 512)]
      else []) m1 m2 ∧ m2.sp = top - BitVec.ofNat 64 k ∧ m2.s.m = m1.s.m ∧ ∀ vec q, m2.get vec q = m1.get vec q := by
    by_cases hc : n > 512
    · have hk' : k = 512 := by rw [hk, if_pos hc]
      simp only [if_pos hc]
      by_cases hd : n - 512 > 0xfff
      · simp only [if_pos hd]
        have a1 := run_spImm12 (m := m1) false (n := (n - 512) / 4096) (by omega)
        simp only [Bool.false_eq_true, if_false] at a1
        have a2 := run_spImm (m := m1.setSp (m1.sp + BitVec.ofNat 64 (4096 * ((n - 512) / 4096)))) false (n := (n - 512) % 4096) (by omega)
        simp only [Bool.false_eq_true, if_false] at a2
        refine ⟨_, a1.cat a2, ?_, rfl, fun vec q => by rw [setSp_get, setSp_get]⟩
        refine (set_self _ _ _).trans ?_
        rw [show (m1.setSp (m1.sp + BitVec.ofNat 64 (4096 * ((n - 512) / 4096)))).sp = m1.sp + BitVec.ofNat 64 (4096 * ((n - 512) / 4096)) from set_self _ _ _, BitVec.add_assoc,
          ← BitVec.ofNat_add, show 4096 * ((n - 512) / 4096) + (n - 512) % 4096 = n - 512 by omega, sp1]
        exact off_back _ (by omega)
      · simp only [if_neg hd, List.nil_append]
        have a2 := run_spImm (m := m1) false (n := n - 512) (by omega)
        simp only [Bool.false_eq_true, if_false] at a2
        refine ⟨_, a2, (set_self _ _ _).trans ?_, rfl, fun vec q => setSp_get _ _ _ _⟩
        rw [sp1]
        exact off_back _ (by omega)
    · rw [if_neg hc]
      exact ⟨m1, Run.nil _, by rw [sp1, hk, if_neg hc], rfl, fun _ _ => rfl⟩
  have r3 := saveWords_run true (T := k) top m2 kle k16 (by unfold Frame.bytes at *; omega) (regs_ne h) (fregs_ne h) (by rw [sp2]; exact al_sub ha k16) (by rw [sp2, BitVec.sub_add_cancel])
  obtain ⟨l1, l2, l3⟩ := loads_ok top G p.slots m2 (fun x hx hv => by
      obtain ⟨j, j1, j2, e⟩ := slot_hw h hx hv
      rw [e]; exact ofNat5_ne (by omega) (by omega) (by omega))
    (fun x hx => by rw [mem2, mem1]; exact hG x hx)
  have sp3 := doSlots_sp true top p.slots m2
  set m3 := p.slots.foldl (doSlot true top) m2
  have r4 := run_spImm (m := m3) false (n := k) (by omega)
  simp only [Bool.false_eq_true, if_false] at r4
  rw [sp3, sp2, BitVec.sub_add_cancel] at r4
  have x_get : ∀ (m : MSt) {q : BitVec 5}, q ≠ 31#5 → m.s.r q = m.get false q := fun m q hq => (x_ne hq).symm
  have far : ∀ q : BitVec 5, q = 29#5 ∨ q = 30#5 → ∀ x ∈ p.slots, x.vec = false → x.hw ≠ q := by
    rintro q hq x hx hv
    obtain ⟨j, j1, j2, e⟩ := slot_hw h hx hv
    rw [e]
    rcases hq with rfl | rfl <;> exact ofNat5_ne (by omega) (by omega) (by omega)
  refine ⟨_, (r1.cat r2).cat (r3.cat r4), ⟨set_self _ _ _, ?_, fun x hx => by rw [setSp_get]; exact l2 x hx, ?_, ?_, fun vec q hq hx => ?_⟩⟩
  · exact l1.trans (mem2.trans mem1)
  · rw [x_get _ (by decide), setSp_get, l3 false 29#5 (far _ (by simp)), ot2, ← x_get _ (by decide), fp1]
  · rw [x_get _ (by decide), setSp_get, l3 false 30#5 (far _ (by simp)), ot2, ← x_get _ (by decide), lr1]
  · rw [setSp_get, l3 vec q hx, ot2, ot1 vec q hq]

end Verif.A64
