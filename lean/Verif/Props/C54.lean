import Verif.A64.FrameRel
import Verif.Props.C47

/-!
# C54: function entry and return of the ARM64 backend

Frames are described by the arguments of sljit_emit_enter, machine states (`MSt`: the integer state and the low halves of the vector registers)
by the registers of the calling convention (AAPCS64): x0-x3 for the word arguments, x19-x28 and d8-d15 preserved by functions, x29 the frame
pointer, x30 the link register, 31 the stack pointer.
-/

namespace Verif.Props.C54
open Verif.A64 hiding cond moved
open Verif.Imm.Arm64 (regMap RD RN)
open Verif.Props.C47 (IsMove Written1 moved source resultWidth width Src Dest addr value c47_mov src_usr)

/-! ## Specification -/

/-- A legal call of sljit_emit_enter (checks of check_sljit_emit_enter, sljitLir.c:1413): `args` has an element for each word argument, which is true for an
argument that stays in a scratch register. -/
structure Legal (p : Frame) (regArg : Bool) (args : List Bool) : Prop where
  scr : p.scr + p.sav ≤ 26
  sav : p.sav ≤ 10
  fscr : p.fscr + p.fsav ≤ 30
  fsav : p.fsav ≤ 8
  locals : p.locals ≤ 1048576
  keptSav : p.kept ≤ p.sav
  kept : regArg = false → p.kept = 0
  count : args.length ≤ 4
  args : args.count false ≤ if regArg then 0 else p.sav

/-- The register which gets an argument: SLJIT_R0 + its index, or the next one of SLJIT_S0, SLJIT_S1, ... -/
def argDest (args : List Bool) (i : Nat) : Nat := if args[i]?.getD false then 1 + i else 26 - (args.take i).count false

/-- F is a possible frame size: the frame record, the locals above it (SLJIT_LOCALS_OFFSET is 16), and the stack pointer stays a multiple of 16. -/
def FrameSize (p : Frame) (F : Nat) : Prop := 16 + p.locals ≤ F ∧ F < 2 ^ 31 ∧ F % 16 = 0

/-- What sljit_emit_enter does. -/
structure Entered (p : Frame) (regArg : Bool) (args : List Bool) (F : Nat) (m m1 : MSt) : Prop where
  sp : m1.s.r 31#5 = m.s.r 31#5 - BitVec.ofNat 64 F
  /-- The frame record of the calling convention. -/
  fp : m1.s.r 29#5 = m1.s.r 31#5
  record : rd m1.s.m (m1.s.r 29#5) 8 = m.s.r 29#5 ∧ rd m1.s.m (m1.s.r 29#5 + 8#64) 8 = m.s.r 30#5
  /-- The locals and the memory outside the frame are not written. -/
  mem : ∀ q, let d := (q - m1.s.r 31#5).toNat
    (16 ≤ d ∧ d < 16 + p.locals) ∨ F ≤ d → m1.s.m q = m.s.m q
  argv : regArg = false → ∀ i, i < args.length → m1.s.r (regMap (argDest args i)) = m.s.r (BitVec.ofNat 5 i)
  /-- Registers which get no argument keep their values. -/
  other : ∀ r, 1 ≤ r → r ≤ 26 → (∀ i, i < args.length → regArg = false → r ≠ argDest args i) → m1.s.r (regMap r) = m.s.r (regMap r)
  vec : m1.v = m.v

/-- What a function body may do between entry (`m1`) and return (`m2`): anything to declared registers, to the registers the calling convention does not
preserve, to x29 and x30, and to all memory but the part of its frame which does not belong to the locals. -/
structure Body (p : Frame) (F : Nat) (m1 m2 : MSt) : Prop where
  sp : m2.s.r 31#5 = m1.s.r 31#5
  regs : ∀ r, 17 ≤ r → p.scr < r → r + p.sav ≤ 26 → m2.s.r (regMap r) = m1.s.r (regMap r)
  vregs : ∀ r, 23 ≤ r → p.fscr < r → r + p.fsav ≤ 30 → m2.v (fregMap r) = m1.v (fregMap r)
  mem : ∀ q, let d := (q - m1.s.r 31#5).toNat
    d < F → ¬ (16 ≤ d ∧ d < 16 + p.locals) → m2.s.m q = m1.s.m q

/-- After the function: the stack pointer and the registers its caller relies on have their values at entry (`m`), kept registers and memory are as the body left
them (`m2`). -/
structure Restored (p : Frame) (m m2 m3 : MSt) : Prop where
  sp : m3.s.r 31#5 = m.s.r 31#5
  fp : m3.s.r 29#5 = m.s.r 29#5
  saved : ∀ j, 19 ≤ j → j ≤ 28 → (∀ k < p.kept, BitVec.ofNat 5 j ≠ regMap (26 - k)) → m3.s.r (BitVec.ofNat 5 j) = m.s.r (BitVec.ofNat 5 j)
  vsaved : ∀ j, 8 ≤ j → j ≤ 15 → m3.v (BitVec.ofNat 5 j) = m.v (BitVec.ofNat 5 j)
  kept : ∀ k < p.kept, m3.s.r (regMap (26 - k)) = m2.s.r (regMap (26 - k))
  mem : m3.s.m = m2.s.m

/-- The scratch registers from SLJIT_R0 + `n` on which are not callee saved are as the body left them, and so are the floating point ones. -/
def Results (n : Nat) (m2 m3 : MSt) : Prop :=
  (∀ r, 1 + n ≤ r → r ≤ 16 → m3.s.r (regMap r) = m2.s.r (regMap r)) ∧ ∀ r, 1 ≤ r → r ≤ 22 → m3.v (fregMap r) = m2.v (fregMap r)

/-- The instructions, wherever they are, lead from m to m' and the address `pc`. -/
def Exits (code : Code) (m m' : MSt) (pc : BitVec 64) : Prop := ∃ ws, code = some ws ∧ ∀ c a, WordsAt c a ws → PSteps c ⟨m.s, m.v, a⟩ ⟨m'.s, m'.v, pc⟩

/-- The instructions, wherever they are, lead from m to m' and the address after them. -/
def Passes (ws : List (BitVec 32)) (m m' : MSt) : Prop := ∀ c a, WordsAt c a ws → PSteps c ⟨m.s, m.v, a⟩ ⟨m'.s, m'.v, a + BitVec.ofNat 64 (4 * ws.length)⟩

/-- The stack pointer is a multiple of 16, as the calling convention and the hardware require. -/
def Aligned (m : MSt) : Prop := (m.s.r 31#5).toNat % 16 = 0

/-! ## Connection with the helper lemmas -/

variable {p : Frame} {regArg : Bool} {args : List Bool}

theorem Legal.ok (h : Legal p regArg args) : p.Ok := ⟨h.keptSav, h.sav, h.scr, h.fsav, h.fscr, h.locals⟩

theorem Aligned.al {m : MSt} (h : Aligned m) : Al m.sp := by
  apply BitVec.eq_of_toNat_eq
  rw [BitVec.toNat_and, show (15#64).toNat = 2 ^ 4 - 1 from rfl, Nat.and_two_pow_sub_one_eq_mod]
  exact h

theorem frameSize (h : Legal p regArg args) : FrameSize p p.total := by
  obtain ⟨z1, z2, z3, z4, z5, z6, z7, z8⟩ := sizes h.ok
  exact ⟨by omega, by omega, z3⟩

theorem moves (h : Legal p regArg args) (m : MSt) : ∃ m', Run (if regArg then [] else argMoves 0 0 args) m m' ∧ m'.s.m = m.s.m ∧ m'.v = m.v ∧
    (∀ q, (regArg = false → ∀ j < args.count false, q ≠ regMap (26 - j)) → m'.s.r q = m.s.r q) ∧
    (regArg = false → ∀ i, args[i]? = some false → m'.s.r (regMap (26 - (args.take i).count false)) = m.s.r (BitVec.ofNat 5 i)) := by
  cases hr : regArg with
  | true => exact ⟨m, Run.nil m, rfl, rfl, fun _ _ => rfl, fun h => by cases h⟩
  | false =>
    have h1 := h.args
    have h2 := h.sav
    rw [hr] at h1
    simp only [Bool.false_eq_true, if_false] at h1
    obtain ⟨m', r, e1, e2, e3, e4⟩ := argMoves_ok args 0 0 m (by have := h.count; omega) (by omega)
    refine ⟨m', r, e1, e2, fun q hq => e3 q fun j _ b => hq rfl j (by omega), fun _ i hi => ?_⟩
    have := e4 i hi
    rwa [Nat.zero_add, Nat.zero_add] at this

/-- The machine registers of the saved arguments. -/
theorem argReg (h : Legal p regArg args) (hr : regArg = false) {j : Nat} (hj : j < args.count false) : ∃ k, 19 ≤ k ∧ k ≤ 28 ∧ regMap (26 - j) = BitVec.ofNat 5 k := by
  have h1 := h.args
  have h2 := h.sav
  rw [hr] at h1
  simp only [Bool.false_eq_true, if_false] at h1
  exact ⟨45 - (26 - j), by omega, by omega, regMap_saved (by omega) (by omega)⟩

theorem count_take : ∀ (l : List Bool) (i : Nat), l[i]? = some false → (l.take i).count false < l.count false
  | [], i, h => by simp at h
  | b :: l, 0, h => by simp at h; subst h; simp
  | b :: l, i + 1, h => by
    have := count_take l i (by simpa using h)
    rw [List.take_succ_cons, List.count_cons, List.count_cons]; omega

theorem take_count : ∀ (l : List Bool) (j : Nat), j < l.count false → ∃ i, l[i]? = some false ∧ (l.take i).count false = j
  | [], j, h => by simp at h
  | true :: l, j, h => by
    obtain ⟨i, e1, e2⟩ := take_count l j (by simpa using h)
    exact ⟨i + 1, by simpa using e1, by simpa using e2⟩
  | false :: l, 0, _ => ⟨0, by simp⟩
  | false :: l, j + 1, h => by
    obtain ⟨i, e1, e2⟩ := take_count l j (by simpa using h)
    exact ⟨i + 1, by simpa using e1, by simpa using e2⟩

/-- The whole entry. -/
theorem entered (h : Legal p regArg args) (m : MSt) (ha : Aligned m) : ∃ m1, Passes (emitEnter p regArg args) m m1 ∧ Entered p regArg args p.total m m1 ∧
    ∀ x ∈ p.slots, rd m1.s.m (m.sp - BitVec.ofNat 64 x.dist) 8 = m.get x.vec x.hw := by
  have hok := h.ok
  obtain ⟨z1, z2, z3, z4, z5, z6, z7, z8⟩ := sizes hok
  have hal := ha.al
  have nsp : ∀ q, q = 29#5 ∨ q = 30#5 ∨ q = 31#5 → regArg = false → ∀ j < args.count false, q ≠ regMap (26 - j) := by
    intro q hq hr j hj
    obtain ⟨k, k1, k2, e⟩ := argReg h hr hj
    rw [e]
    rcases hq with rfl | rfl | rfl <;> exact ofNat5_ne (by omega) (by omega) (by omega)
  obtain ⟨m3, r3, b3, g3, a3⟩ : ∃ m3, Run ((if p.total ≤ 512 then stpPre p.total :: saveWords false p (offsOf p.total)
        else spImm true p.saved16 :: saveWords false p (offsOf p.saved16)) ++
        (if regArg then [] else argMoves 0 0 args) ++ allocRest (if p.total ≤ 512 then 0 else p.total - p.saved16)) m m3 ∧ Built p m m3 ∧
      (∀ q, q ≠ 31#5 → (regArg = false → ∀ j < args.count false, q ≠ regMap (26 - j)) → m3.s.r q = m.s.r q) ∧
      (regArg = false → ∀ i, args[i]? = some false → m3.s.r (regMap (26 - (args.take i).count false)) = m.s.r (BitVec.ofNat 5 i)) := by
    have srcne : ∀ i, args[i]? = some false → BitVec.ofNat 5 i ≠ 31#5 := by
      intro i hi
      have hil : i < args.length := by
        by_contra hc
        rw [List.getElem?_eq_none (by omega)] at hi
        cases hi
      have := h.count
      exact ofNat5_ne (by omega) (by omega) (by omega)
    have dstne : regArg = false → ∀ i, args[i]? = some false → regMap (26 - (args.take i).count false) ≠ 31#5 := by
      intro hr i hi
      exact fun e => nsp 31#5 (by simp) hr _ (count_take args i hi) e.symm
    by_cases hs : p.total ≤ 512
    · simp only [if_pos hs]
      obtain ⟨m1, r1, b1, g1⟩ := build_small hok hs m hal
      obtain ⟨m2, r2, e1, e2, e3, e4⟩ := moves h m1
      refine ⟨m2, ?_, ⟨?_, fun x hx => by rw [e1]; exact b1.slots x hx, by rw [e1]; exact b1.fp, by rw [e1]; exact b1.lr, fun q hq => by rw [e1]; exact b1.mem q hq, e2.trans b1.v⟩, fun q hq hd => ?_, fun hr i hi => ?_⟩
      · exact (r1.cat r2).cat (Run.nil _)
      · show m2.s.r 31#5 = _
        rw [e3 _ (nsp _ (by simp))]; exact b1.sp
      · rw [e3 q hd, g1 q hq]
      · rw [e4 hr i hi, g1 _ (srcne i hi)]
    · simp only [if_neg hs]
      obtain ⟨m1, r1, g1, k⟩ := build_large hok (by omega) m hal
      obtain ⟨m2, r2, e1, e2, e3, e4⟩ := moves h m1
      obtain ⟨m3, r3, b3, g3⟩ := k m2 e1 e2 (fun q hq => e3 q (nsp q hq))
      refine ⟨m3, (r1.cat r2).cat r3, b3, fun q hq hd => ?_, fun hr i hi => ?_⟩
      · rw [g3 q hq, e3 q hd, g1 q hq]
      · rw [g3 _ (dstne hr i hi), e4 hr i hi, g1 _ (srcne i hi)]
  have r4 := run_fp m3
  have sp3 : m3.s.r 31#5 = m.s.r 31#5 - BitVec.ofNat 64 p.total := b3.sp
  have sp4 : (m3.s.set 29#5 m3.sp).r 31#5 = m.s.r 31#5 - BitVec.ofNat 64 p.total := (set_ne _ _ (by decide)).trans sp3
  have fp4 : (m3.s.set 29#5 m3.sp).r 29#5 = m.s.r 31#5 - BitVec.ofNat 64 p.total := (set_self _ _ _).trans sp3
  have r29 : ∀ r, 1 ≤ r → r ≤ 26 → regMap r ≠ 29#5 ∧ regMap r ≠ 31#5 := fun r h1 h2 =>
    (by decide : ∀ r : _root_.Fin 27, 1 ≤ r.val → regMap r.val ≠ 29#5 ∧ regMap r.val ≠ 31#5) ⟨r, by omega⟩ h1
  have hc := h.count
  have hinj : ∀ {q r : Nat}, 1 ≤ q → q ≤ 26 → 1 ≤ r → r ≤ 26 → q ≠ r → regMap q ≠ regMap r := fun a b c d e => map_inj ⟨a, by omega⟩ ⟨c, by omega⟩ e
  refine ⟨⟨m3.s.set 29#5 m3.sp, m3.v⟩, r3.cat r4, ⟨sp4, fp4.trans sp4.symm, ?_, fun q hq => ?_, fun hr i hi => ?_, fun r h1 h2 hd => ?_, b3.v⟩, b3.slots⟩
  · show rd m3.s.m ((m3.s.set 29#5 m3.sp).r 29#5) 8 = _ ∧ rd m3.s.m ((m3.s.set 29#5 m3.sp).r 29#5 + 8#64) 8 = _
    rw [fp4]
    exact ⟨b3.fp, b3.lr⟩
  · refine b3.mem q ?_
    have : (⟨m3.s.set 29#5 m3.sp, m3.v⟩ : MSt).s.r 31#5 = m.s.r 31#5 - BitVec.ofNat 64 p.total := sp4
    rw [this] at hq
    show (16 ≤ (q - (m.s.r 31#5 - BitVec.ofNat 64 p.total)).toNat ∧ (q - (m.s.r 31#5 - BitVec.ofNat 64 p.total)).toNat < p.total - p.bytes) ∨ p.total ≤ (q - (m.s.r 31#5 - BitVec.ofNat 64 p.total)).toNat
    omega
  · have hg : args[i]? = some args[i] := List.getElem?_eq_getElem hi
    rw [argDest, hg]
    cases hb : args[i]
    · rw [hb] at hg
      simp only [Option.getD_some, Bool.false_eq_true, if_false]
      obtain ⟨k, k1, k2, e⟩ := argReg h hr (count_take args i hg)
      rw [set_ne _ _ (by rw [e]; exact ofNat5_ne (by omega) (by omega) (by omega))]
      exact a3 hr i hg
    · simp only [Option.getD_some, if_true]
      have e : regMap (1 + i) = BitVec.ofNat 5 i := (by decide : ∀ k : _root_.Fin 4, regMap (1 + k.val) = BitVec.ofNat 5 k.val) ⟨i, by omega⟩
      rw [set_ne _ _ (r29 _ (by omega) (by omega)).1, e]
      refine g3 _ (ofNat5_ne (by omega) (by omega) (by omega)) fun _ j hj => ?_
      obtain ⟨k, k1, k2, e⟩ := argReg h hr hj
      rw [e]; exact ofNat5_ne (by omega) (by omega) (by omega)
  · rw [set_ne _ _ (r29 r h1 h2).1]
    refine g3 _ (r29 r h1 h2).2 fun hr j hj => ?_
    obtain ⟨i, e1, e2⟩ := take_count args j hj
    have hil : i < args.length := by
      by_contra hc
      rw [List.getElem?_eq_none (by omega)] at e1
      cases e1
    have hne := hd i hil hr
    rw [argDest, e1, e2] at hne
    have h1' := h.args
    have h2' := h.sav
    rw [hr] at h1'
    simp only [Bool.false_eq_true, if_false] at h1'
    exact hinj h1 h2 (by omega) (by omega) (by simpa using hne)

/-- Bytes of the frame are as at entry. -/
theorem frame_rd (h : Legal p regArg args) {m m1 m2 : MSt} (he : Entered p regArg args p.total m m1) (hb : Body p p.total m1 m2) {d : Nat}
    (hd : 8 ≤ d) (hd' : d ≤ p.bytes ∨ (p.total ≤ d + 8 ∧ d ≤ p.total)) : rd m2.s.m (m.sp - BitVec.ofNat 64 d) 8 = rd m1.s.m (m.sp - BitVec.ofNat 64 d) 8 := by
  obtain ⟨z1, z2, z3, z4, z5, z6, z7, z8⟩ := sizes h.ok
  refine rd_congr fun k hk => hb.mem _ ?_ ?_ <;>
  · have e : (m.sp - BitVec.ofNat 64 d + BitVec.ofNat 64 k - m1.s.r 31#5).toNat = p.total - d + k := by
      rw [he.sp, show m.s.r 31#5 = m.sp from rfl]
      have : m.sp - BitVec.ofNat 64 d + BitVec.ofNat 64 k - (m.sp - BitVec.ofNat 64 p.total) = BitVec.ofNat 64 (p.total - d + k) := by
        rw [← off_back m.sp (a := p.total) (b := p.total - d) (c := d) (by omega), BitVec.ofNat_add]
        generalize m.sp - BitVec.ofNat 64 p.total = x
        generalize BitVec.ofNat 64 (p.total - d) = y
        rw [show x + y + BitVec.ofNat 64 k = y + BitVec.ofNat 64 k + x by ac_rfl, BitVec.add_sub_cancel]
      rw [this, BitVec.toNat_ofNat]; omega
    simp only [e]
    omega

/-- Releasing the frame after a body. -/
theorem released (h : Legal p regArg args) {m m1 m2 : MSt} (ha : Aligned m) (he : Entered p regArg args p.total m m1)
    (hs : ∀ x ∈ p.slots, rd m1.s.m (m.sp - BitVec.ofNat 64 x.dist) 8 = m.get x.vec x.hw) (hb : Body p p.total m1 m2) (rt : Bool) :
    ∃ m3, Run (emitRelease p rt) m2 m3 ∧ Restored p m m2 m3 ∧ Results 0 m2 m3 ∧ m3.s.r 30#5 = (if rt then m2.s.r 30#5 else m.s.r 30#5) ∧
      (∀ r, 1 ≤ r → r ≤ 28 → r ≠ 27 → ¬ (17 ≤ r ∧ r ≤ 26 - p.kept) → m3.s.r (regMap r) = m2.s.r (regMap r)) := by
  have hok := h.ok
  obtain ⟨z1, z2, z3, z4, z5, z6, z7, z8⟩ := sizes hok
  obtain ⟨o1, o2, o3, o4⟩ := slots_ok p
  have hsp : m2.sp = m.sp - BitVec.ofNat 64 p.total := hb.sp.trans he.sp
  have e8 : m.sp - BitVec.ofNat 64 p.total + 8#64 = m.sp - BitVec.ofNat 64 (p.total - 8) := off_back _ (b := 8) (by omega)
  have fp1 : m1.s.r 29#5 = m.sp - BitVec.ofNat 64 p.total := he.fp.trans he.sp
  have hrec := he.record
  rw [fp1] at hrec
  obtain ⟨m3, r3, q3⟩ := release_ok (top := m.sp) (fp := m.s.r 29#5) (lr := m.s.r 30#5) (G := m.get) (m := m2) hok rt ha.al hsp
    (fun x hx => by
      have := o2 x hx
      rw [frame_rd h he hb this.1 (Or.inl this.2.1)]; exact hs x hx)
    (by rw [hsp, frame_rd h he hb (by omega) (Or.inr ⟨by omega, by omega⟩)]; exact hrec.1)
    (by rw [hsp, e8, frame_rd h he hb (by omega) (Or.inr ⟨by omega, by omega⟩), ← e8]; exact hrec.2)
  have x_get : ∀ (m : MSt) {q : BitVec 5}, q ≠ 31#5 → m.s.r q = m.get false q := fun m q hq => (x_ne hq).symm
  have hk := h.keptSav; have hsv := h.sav; have hsc := h.scr; have hfs := h.fsav; have hfc := h.fscr
  have slot_reg : ∀ x ∈ p.slots, x.vec = false → x.hw = regMap x.reg ∧ x.reg ∈ p.regs := by
    intro x hx hv
    have := (o2 x hx).2.2
    rw [hv] at this
    exact ⟨by rw [Slot.hw, hv]; rfl, this⟩
  have slot_vreg : ∀ x ∈ p.slots, x.vec = true → x.hw = fregMap x.reg ∧ x.reg ∈ p.fregs := by
    intro x hx hv
    have := (o2 x hx).2.2
    rw [hv] at this
    exact ⟨by rw [Slot.hw, hv]; rfl, this⟩
  -- registers which are not restored
  have oth : ∀ r, 1 ≤ r → r ≤ 28 → r ≠ 27 → r ∉ p.regs → m3.s.r (regMap r) = m2.s.r (regMap r) := by
    intro r h1 h2 h3 hn
    have ht := (by decide : ∀ r : _root_.Fin 29, 1 ≤ r.val → r.val ≠ 27 → regMap r.val ≠ 29#5 ∧ regMap r.val ≠ 30#5 ∧ regMap r.val ≠ 31#5 ∧
      ∀ q : _root_.Fin 27, 17 ≤ q.val → q ≠ r.val → regMap q.val ≠ regMap r.val) ⟨r, by omega⟩ h1 h3
    rw [x_get _ ht.2.2.1, x_get _ ht.2.2.1]
    refine q3.other false _ (fun _ => ⟨ht.1, ht.2.1⟩) fun x hx hv => ?_
    obtain ⟨a1, a2⟩ := slot_reg x hx hv
    have := regs_range hok a2
    rw [a1]
    exact ht.2.2.2 ⟨x.reg, by omega⟩ (by simp only; omega) (fun e => hn (by have e : x.reg = r := e; rw [← e]; exact a2))
  have voth : ∀ r, 1 ≤ r → r ≤ 30 → r ∉ p.fregs → m3.v (fregMap r) = m2.v (fregMap r) := by
    intro r h1 h2 hn
    have ht := (by decide : ∀ r : _root_.Fin 31, 1 ≤ r.val → ∀ q : _root_.Fin 31, 23 ≤ q.val → q ≠ r.val → fregMap q.val ≠ fregMap r.val) ⟨r, by omega⟩ h1
    refine q3.other true _ (fun e => by cases e) fun x hx hv => ?_
    obtain ⟨a1, a2⟩ := slot_vreg x hx hv
    have := fregs_range hok a2
    rw [a1]
    exact ht ⟨x.reg, by omega⟩ (by simp only; omega) (fun e => hn (by have e : x.reg = r := e; rw [← e]; exact a2))
  refine ⟨m3, r3, ⟨q3.sp, q3.fp, fun j j1 j2 hj => ?_, fun j j1 j2 => ?_, fun k hk' => ?_, q3.mem⟩, ⟨fun r h1 h2 => ?_, fun r h1 h2 => ?_⟩, q3.lr, fun r h1 h2 h3 h4 => ?_⟩
  · have e : BitVec.ofNat 5 j = regMap (45 - j) := by rw [regMap_saved (by omega) (by omega), show 45 - (45 - j) = j by omega]
    have h31 : BitVec.ofNat 5 j ≠ 31#5 := ofNat5_ne (by omega) (by omega) (by omega)
    by_cases hm : 45 - j ∈ p.regs
    · obtain ⟨x, hx, x1, x2⟩ := o3 _ hm
      have ex : x.hw = BitVec.ofNat 5 j := by rw [(slot_reg x hx x1).1, x2, e]
      have := q3.slots x hx
      rw [x1, ex] at this
      rw [x_get _ h31, this, x_get _ h31]
    · have hm' := hm
      rw [mem_regs] at hm
      have hkk : 45 - j + p.kept ≤ 26 := by
        by_contra hc
        exact hj (26 - (45 - j)) (by omega) (by rw [e]; congr 1; omega)
      rw [e, oth _ (by omega) (by omega) (by omega) hm', hb.regs _ (by omega) (by omega) (by omega), he.other _ (by omega) (by omega) fun i hi hr hc => ?_]
      have h1' := h.args
      have hl := h.count
      rw [hr] at h1'
      simp only [Bool.false_eq_true, if_false] at h1'
      rw [argDest, List.getElem?_eq_getElem hi] at hc
      cases hb' : args[i]
      · rw [hb'] at hc
        simp only [Option.getD_some, Bool.false_eq_true, if_false] at hc
        have := count_take args i (by rw [List.getElem?_eq_getElem hi, hb'])
        omega
      · rw [hb'] at hc
        simp only [Option.getD_some, if_true] at hc
        omega
  · have e : BitVec.ofNat 5 j = fregMap (38 - j) := by rw [fregMap_saved (by omega) (by omega), show 38 - (38 - j) = j by omega]
    by_cases hm : 38 - j ∈ p.fregs
    · obtain ⟨x, hx, x1, x2⟩ := o4 _ hm
      have ex : x.hw = BitVec.ofNat 5 j := by rw [(slot_vreg x hx x1).1, x2, e]
      have := q3.slots x hx
      rw [x1, ex] at this
      exact this
    · have hm' := hm
      rw [mem_fregs] at hm
      rw [e, voth _ (by omega) (by omega) hm', hb.vregs _ (by omega) (by omega) (by omega), he.vec]
  · exact oth _ (by omega) (by omega) (by omega) (by rw [mem_regs]; omega)
  · exact oth _ (by omega) (by omega) (by omega) (fun hm => by have := regs_range hok hm; omega)
  · exact voth _ (by omega) (by omega) (fun hm => by have := fregs_range hok hm; omega)
  · refine oth r h1 h2 h3 fun hm => ?_
    rw [mem_regs] at hm
    omega

theorem Exits.of_run {ws : List (BitVec 32)} {d : Code} {m m1 m2 : MSt} {pc : BitVec 64} (h1 : Run ws m m1) (h2 : Exits d m1 m2 pc) : Exits (some ws +> d) m m2 pc := by
  obtain ⟨b2, e2, g2⟩ := h2
  refine ⟨ws ++ b2, by rw [e2]; rfl, fun c a hb => ?_⟩
  rw [WordsAt.append] at hb
  exact (h1 c a hb.1).trans (g2 c _ hb.2)

theorem ret_ctl : ctl (RET ||| RN TMP_LR) = some (.br false 30#5) := by decide +kernel

theorem br_ctl {r : Nat} (hr : r ≤ 31) : ctl (0xd61f0000#32 ||| RN r) = some (.br false (regMap r)) :=
  (by decide +kernel : ∀ r : _root_.Fin 32, ctl (0xd61f0000#32 ||| RN r.val) = some (.br false (regMap r.val))) ⟨r, by omega⟩

theorem exits_br {w : BitVec 32} {q : BitVec 5} (h : ctl w = some (.br false q)) (hq : q ≠ 31#5) (m : MSt) : Exits (some [w]) m m (m.s.r q) :=
  ⟨_, rfl, fun c a hb => PSteps.one (by
    rw [pstep_ctl (p := ⟨m.s, m.v, a⟩) hb.1 h, ← x_ne hq]; rfl)⟩

theorem return_void (h : Legal p regArg args) {m m1 m2 : MSt} (ha : Aligned m) (he : Entered p regArg args p.total m m1)
    (hs : ∀ x ∈ p.slots, rd m1.s.m (m.sp - BitVec.ofNat 64 x.dist) 8 = m.get x.vec x.hw) (hb : Body p p.total m1 m2) :
    ∃ m3, Exits (some (emitReturnVoid p)) m2 m3 (m.s.r 30#5) ∧ Restored p m m2 m3 ∧ Results 0 m2 m3 := by
  obtain ⟨m3, r, re, rs, lr, -⟩ := released h ha he hs hb false
  have hx := exits_br ret_ctl (by decide) m3
  rw [lr, if_neg (by decide)] at hx
  exact ⟨m3, Exits.of_run r hx, re, rs⟩

theorem return_value (h : Legal p regArg args) {o : RV.Op1C} (ho : IsMove o) (is32 : Bool) {src : Opd} (hsrc : Src src) {m m1 m2 : MSt} (ha : Aligned m)
    (he : Entered p regArg args p.total m m1) (hs : ∀ x ∈ p.slots, rd m1.s.m (m.sp - BitVec.ofNat 64 x.dist) 8 = m.get x.vec x.hw) (hb : Body p p.total m1 m2) :
    ∃ m3, Exits (emitReturn p o is32 src) m2 m3 (m.s.r 30#5) ∧ Restored p m m2 m3 ∧ Results 1 m2 m3 ∧
      (m3.s.r 0#5).setWidth (resultWidth o is32) = (moved o (source (width o is32) m2.s src)).setWidth (resultWidth o is32) := by
  obtain ⟨is, t, et, st, wt⟩ : ∃ is t, (if src = .reg R0 ∧ (o = .mov ∨ o = .movP) ∧ is32 = false then some [] else emitOp1 o is32 (.reg R0) src) = some is ∧
      runs is m2.s = some t ∧ Written1 o is32 m2.s t (.reg 1) (moved o (source (width o is32) m2.s src)) := by
    by_cases hc : src = .reg R0 ∧ (o = .mov ∨ o = .movP) ∧ is32 = false
    · rw [if_pos hc]
      refine ⟨[], m2.s, rfl, rfl, fun _ _ _ _ => rfl, fun d hd => ?_, (fun _ _ _ e => by cases e), fun _ => rfl, rfl⟩
      cases hd
      rw [hc.1]
      rcases hc.2.1 with rfl | rfl <;> rfl
    · rw [if_neg hc]
      exact c47_mov ho is32 (dst := .reg R0) ⟨by decide, by decide⟩ hsrc m2.s
  have hm : t.m = m2.s.m := wt.same (fun _ _ _ e => by cases e)
  have hk := h.keptSav; have hsv := h.sav
  have hb' : Body p p.total m1 ⟨t, m2.v⟩ := by
    refine ⟨?_, fun r a b c => ?_, hb.vregs, fun q a b => by rw [show (⟨t, m2.v⟩ : MSt).s.m = m2.s.m from hm]; exact hb.mem q a b⟩
    · have := wt.keep 27 (by omega) (by omega) (fun e => by cases e)
      exact this.trans hb.sp
    · exact (wt.keep r (by omega) (by omega) (fun e => by cases e; omega)).trans (hb.regs r a b c)
  obtain ⟨m3, x, re, rs⟩ := return_void h ha he hs hb'
  have rr : Run is m2 ⟨t, m2.v⟩ := Run.of_runs st
  refine ⟨m3, ?_, ⟨re.sp, re.fp, re.saved, re.vsaved, fun k hk => ?_, re.mem.trans hm⟩, ⟨fun r a b => ?_, rs.2⟩, ?_⟩
  · rw [emitReturn, et]; exact Exits.of_run rr x
  · rw [re.kept k hk]
    exact wt.keep _ (by omega) (by omega) (fun e => by injection e; omega)
  · rw [rs.1 r (by omega) b]
    exact wt.keep r (by omega) (by omega) (fun e => by cases e; omega)
  · have := rs.1 1 (by omega) (by omega)
    rw [show regMap 1 = 0#5 from rfl] at this
    rw [this]
    exact wt.reg 1 rfl

/-! ## C54 -/

/-- **C54.**  Every legal sljit_emit_enter builds a frame that is aligned and large enough, stores the frame record, moves the arguments of the calling
convention to their registers, and whatever a body does within its rights, sljit_emit_return_void then reaches the return address with the stack pointer,
the frame pointer and the callee saved registers (integer and floating point) as at entry. -/
theorem c54_return (h : Legal p regArg args) : ∃ F, FrameSize p F ∧ ∀ m, Aligned m → ∃ m1, Passes (emitEnter p regArg args) m m1 ∧ Entered p regArg args F m m1 ∧
    ∀ m2, Body p F m1 m2 → ∃ m3, Exits (some (emitReturnVoid p)) m2 m3 (m.s.r 30#5) ∧ Restored p m m2 m3 ∧ Results 0 m2 m3 := by
  refine ⟨p.total, frameSize h, fun m ha => ?_⟩
  obtain ⟨m1, h1, he, hs⟩ := entered h m ha
  exact ⟨m1, h1, he, fun m2 hb => return_void h ha he hs hb⟩

/-- **C54, sljit_emit_return.**  As above, with the value of the source moved to x0. -/
theorem c54_return_value (h : Legal p regArg args) {o : RV.Op1C} (ho : IsMove o) (is32 : Bool) {src : Opd} (hsrc : Src src) :
    ∃ F, FrameSize p F ∧ ∀ m, Aligned m → ∃ m1, Passes (emitEnter p regArg args) m m1 ∧ Entered p regArg args F m m1 ∧
    ∀ m2, Body p F m1 m2 → ∃ m3, Exits (emitReturn p o is32 src) m2 m3 (m.s.r 30#5) ∧ Restored p m m2 m3 ∧ Results 1 m2 m3 ∧
      (m3.s.r 0#5).setWidth (resultWidth o is32) = (moved o (source (width o is32) m2.s src)).setWidth (resultWidth o is32) := by
  refine ⟨p.total, frameSize h, fun m ha => ?_⟩
  obtain ⟨m1, h1, he, hs⟩ := entered h m ha
  exact ⟨m1, h1, he, fun m2 hb => return_value h ho is32 hsrc ha he hs hb⟩

/-- **C54, sljit_emit_return_to.**  As above; execution continues at the address in the source operand, and the link register is as the body left it. -/
theorem c54_return_to (h : Legal p regArg args) {src : Opd} (hsrc : Dest src) :
    ∃ F, FrameSize p F ∧ ∀ m, Aligned m → ∃ m1, Passes (emitEnter p regArg args) m m1 ∧ Entered p regArg args F m m1 ∧
    ∀ m2, Body p F m1 m2 → ∃ m3, Exits (emitReturnTo p src) m2 m3 (value 64 m2.s src) ∧ Restored p m m2 m3 ∧ Results 0 m2 m3 ∧ m3.s.r 30#5 = m2.s.r 30#5 := by
  refine ⟨p.total, frameSize h, fun m ha => ?_⟩
  obtain ⟨m1, h1, he, hs⟩ := entered h m ha
  refine ⟨m1, h1, he, fun m2 hb => ?_⟩
  have hk := h.keptSav; have hsv := h.sav
  have h9 : ∀ r, 1 ≤ r → r ≤ 27 → regMap r ≠ 9#5 := fun r h1 h2 => (by decide : ∀ r : _root_.Fin 28, 1 ≤ r.val → regMap r.val ≠ 9#5) ⟨r, by omega⟩ h1
  -- through the temporary register
  have tmp : ∀ (ws : List (BitVec 32)) (t : MSt), Run ws m2 t → t.s.m = m2.s.m → t.v = m2.v → (∀ q, q ≠ 9#5 → t.s.r q = m2.s.r q) → t.s.r 9#5 = value 64 m2.s src →
      ∃ m3, Exits (some ws +> some (emitRelease p true ++ emitJumpReg TMP_REG1)) m2 m3 (value 64 m2.s src) ∧ Restored p m m2 m3 ∧ Results 0 m2 m3 ∧ m3.s.r 30#5 = m2.s.r 30#5 := by
    intro ws t rt tm tv tr tx
    have hb' : Body p p.total m1 t := by
      refine ⟨(tr _ (by decide)).trans hb.sp, fun r a b c => ?_, fun r a b c => by rw [tv]; exact hb.vregs r a b c, fun q a b => by rw [tm]; exact hb.mem q a b⟩
      rw [tr _ (h9 r (by omega) (by omega))]; exact hb.regs r a b c
    obtain ⟨m3, r, re, rs, lr, ot⟩ := released h ha he hs hb' true
    have hx := exits_br (br_ctl (r := TMP_REG1) (by decide)) (by decide) m3
    rw [ot TMP_REG1 (by decide) (by decide) (by decide) (by unfold TMP_REG1; omega), show regMap TMP_REG1 = 9#5 from rfl, tx] at hx
    refine ⟨m3, Exits.of_run rt (Exits.of_run r hx), ⟨re.sp, re.fp, re.saved, re.vsaved, fun k hk' => ?_, re.mem.trans tm⟩, ⟨fun r a b => ?_, fun r a b => by rw [rs.2 r a b, tv]⟩, ?_⟩
    · rw [re.kept k hk', tr _ (h9 _ (by omega) (by omega))]
    · rw [rs.1 r a b, tr _ (h9 _ (by omega) (by omega))]
    · rw [lr, if_pos rfl, tr _ (by decide)]
  cases src with
  | imm v => cases hsrc
  | mem b o d =>
    have hu := src_usr (b := .mem b o d) hsrc
    obtain ⟨is, s1, e1, e2, e3⟩ := opMem_run (t := ⟨3, false, false⟩) (by show 3 < 4; omega) (fun _ => rfl) (r := TMP_REG1) (usr_mem hu (.inl rfl) : MemOk b o d TMP_REG1) m2.s
    have eff : Ty.eff ⟨3, false, false⟩ s1 (regMap TMP_REG1) (ea m2.s b o d) = s1.set 9#5 (rd m2.s.m (ea m2.s b o d) 8) := by
      have em : s1.m = m2.s.m := by rcases e2 with rfl | ⟨v, rfl⟩ <;> rfl
      simp only [Ty.eff, Ty.load, Bool.false_eq_true, if_false, false_and]
      rw [setX_ne _ _ (by decide), em]; rfl
    rw [eff] at e3
    have hr : Run is m2 ⟨s1.set 9#5 (rd m2.s.m (ea m2.s b o d) 8), m2.v⟩ := Run.of_runs e3
    obtain ⟨m3, x, y⟩ := tmp is _ hr (by rcases e2 with rfl | ⟨v, rfl⟩ <;> rfl) rfl
      (fun q hq => by
        refine (set_ne _ _ hq).trans ?_
        rcases e2 with rfl | ⟨v, rfl⟩
        · rfl
        · exact set_ne _ _ hq)
      (by
        refine (set_self _ _ _).trans ?_
        simp [value, addr, ea])
    exact ⟨m3, by rw [emitReturnTo, e1]; exact x, y⟩
  | reg r =>
    have hr : 1 ≤ r ∧ r ≤ 26 := hsrc
    simp only [emitReturnTo]
    have h31 : ∀ r, 1 ≤ r → r ≤ 26 → regMap r ≠ 31#5 := fun r h1 h2 => (by decide : ∀ r : _root_.Fin 27, 1 ≤ r.val → regMap r.val ≠ 31#5) ⟨r, by omega⟩ h1
    by_cases hc : firstSaved ≤ r ∧ r ≤ S0 - p.kept
    · rw [if_pos hc]
      have hmv := run_mov m2 (d := TMP_REG1) (r := r) (by decide)
      rw [x_ne (h31 r hr.1 hr.2)] at hmv
      exact tmp _ _ hmv rfl rfl (fun q hq => set_ne _ _ hq) ((set_self _ _ _).trans (by simp [value]))
    · rw [if_neg hc]
      obtain ⟨m3, e, re, rs, lr, ot⟩ := released h ha he hs hb true
      have hx := exits_br (br_ctl (r := r) (by omega)) (h31 r hr.1 hr.2) m3
      rw [ot r hr.1 (by omega) (by omega) hc] at hx
      have hx' := Exits.of_run e hx
      refine ⟨m3, ?_, re, rs, lr⟩
      rw [show value 64 m2.s (.reg r) = m2.s.r (regMap r) by simp [value]]
      exact hx'

/-! ## Instances -/

/-- A function with two saved arguments and one in a scratch register, four saved registers, floating point registers and 100 bytes of locals. -/
example : Legal ⟨0, 3, 4, 3, 1, 100⟩ false [false, true, false] :=
  ⟨by decide, by decide, by decide, by decide, by decide, by decide, fun _ => rfl, by decide, by decide⟩

/-- A large frame with an odd number of registers of both kinds. -/
example : Legal ⟨0, 5, 9, 25, 4, 70000⟩ false [false, true, true, false] :=
  ⟨by decide, by decide, by decide, by decide, by decide, by decide, fun _ => rfl, by decide, by decide⟩

/-- Scratch registers in callee saved registers; two kept registers. -/
example : Legal ⟨2, 20, 4, 0, 0, 0⟩ true [true, true] := ⟨by decide, by decide, by decide, by decide, by decide, by decide, (by cases ·), by decide, by decide⟩

/-- A body which changes declared registers, the link register and a local. -/
example (F : Nat) (m1 : MSt) : Body ⟨0, 3, 4, 3, 1, 100⟩ F m1
    ⟨{ ((m1.s.set 19#5 77#64).set 30#5 5#64) with m := fun q => if q = m1.s.r 31#5 + 24#64 then 1#8 else m1.s.m q }, fun q => if q = 8#5 then 1#64 else m1.v q⟩ := by
  refine ⟨rfl, fun r h1 h2 h3 => ?_, fun r h1 h2 h3 => ?_, fun q h1 h2 => ?_⟩
  · have h3 : r + 4 ≤ 26 := h3
    have h2 : 3 < r := h2
    have e := regMap_saved (r := r) (by omega) (by omega)
    show ((m1.s.set 19#5 77#64).set 30#5 5#64).r (regMap r) = _
    rw [e, set_ne _ _ (ofNat5_ne (by omega) (by omega) (by omega)), set_ne _ _ (ofNat5_ne (by omega) (by omega) (by omega))]
  · have h3 : r + 1 ≤ 30 := h3
    have e := fregMap_saved (r := r) (by omega) (by omega)
    refine if_neg ?_
    rw [e]; exact ofNat5_ne (by omega) (by omega) (by omega)
  · refine if_neg fun e => ?_
    subst e
    rw [show m1.s.r 31#5 + 24#64 - m1.s.r 31#5 = 24#64 by rw [BitVec.add_comm, BitVec.add_sub_cancel]] at h2
    exact h2 (by decide)

end Verif.Props.C54
