import Verif.X86.FrameRel
import Verif.Props.C50

/-!
# C51: function entry and return of the x86-64 backend

Frames are described by the arguments of sljit_emit_enter, machine states by the registers of the calling conventions (rax = 0, rcx = 1, rdx = 2,
rbx = 3, rsp = 4, rbp = 5, rsi = 6, rdi = 7, r8-r15); `win` selects the Microsoft convention, otherwise System V.
-/

namespace Verif.Props.C51
open Verif.X86 Verif.Props.C46
open Verif.Props.C50 (IsMove Written1 moved source resultWidth width c50_mov)

/-! ## Specification -/

/-- The callee saved registers of the calling convention. -/
def calleeSaved (win : Bool) : List (BitVec 4) := [3#4, 5#4, 12#4, 13#4, 14#4, 15#4] ++ if win then [6#4, 7#4] else []

/-- The registers of the first four word arguments: rdi, rsi, rdx, rcx, or rcx, rdx, r8, r9. -/
def argReg (win : Bool) (k : Nat) : BitVec 4 := ((if win then [1#4, 2#4, 8#4, 9#4] else [7#4, 6#4, 2#4, 1#4])[k]?).getD 0#4

/-- Bytes a function on Windows reserves for the functions it calls. -/
def shadow (win : Bool) : Nat := if win then 32 else 0

/-- SLJIT_S0 - SLJIT_S7 are the registers 13 - 6; the last of them, on Windows and on other systems. -/
def lastSaved (win : Bool) : Nat := if win then 6 else 8

/-- A legal call of sljit_emit_enter (checks of check_sljit_emit_enter, sljitLir.c:1413): `args` has an element for each word argument, which is true for an
argument that stays in a scratch register. -/
structure Legal (win : Bool) (p : Frame) (regArg : Bool) (args : List Bool) : Prop where
  scr : p.scr + p.sav ≤ 13
  sav : p.sav + lastSaved win ≤ 14
  locals : p.locals ≤ 1048576
  keptSav : p.kept ≤ p.sav
  kept : regArg = false → p.kept = 0
  count : args.length ≤ 4
  args : args.count false ≤ if regArg then 0 else p.sav

/-- The register which gets an argument: SLJIT_R0 + its index, or the next one of SLJIT_S0, SLJIT_S1, ... -/
def argDest (args : List Bool) (i : Nat) : Nat := if args[i]?.getD false then 1 + i else 13 - (args.take i).count false

/-- The frame has `F` bytes: enough for the locals, and the stack is aligned to 16 bytes below it (the caller pushed a return address). -/
def FrameSize (win : Bool) (p : Frame) (F : Nat) : Prop := p.locals + shadow win ≤ F ∧ F < 2 ^ 31 ∧ (F + 8) % 16 = 0

/-- What sljit_emit_enter does. -/
structure Entered (win : Bool) (p : Frame) (regArg : Bool) (args : List Bool) (F : Nat) (s s1 : St) : Prop where
  sp : s1.r 4#4 = s.r 4#4 - BitVec.ofNat 64 F
  /-- Only the part of the frame above the locals is written. -/
  mem : ∀ q, ((q - s1.r 4#4).toNat < p.locals + shadow win ∨ F ≤ (q - s1.r 4#4).toNat) → s1.m q = s.m q
  argv : regArg = false → ∀ i, i < args.length → s1.r (mreg win (argDest args i)) = s.r (argReg win i)
  /-- Registers which get no argument keep their values (except the two temporary registers on Windows). -/
  other : ∀ r, 1 ≤ r → r ≤ (if win then 13 else 16) → r ≠ 14 → (∀ i, i < args.length → regArg = false → r ≠ argDest args i) → s1.r (mreg win r) = s.r (mreg win r)

/-- What a function body may do between entry (`s1`) and return (`s2`): anything to declared registers, to the registers the calling convention does not
preserve and to all memory but the part of its frame above the locals and the return address. -/
structure Body (win : Bool) (p : Frame) (F : Nat) (s1 s2 : St) : Prop where
  sp : s2.r 4#4 = s1.r 4#4
  regs : ∀ r, lastSaved win ≤ r → p.scr < r → r + p.sav ≤ 13 → s2.r (mreg win r) = s1.r (mreg win r)
  mem : ∀ q, p.locals + shadow win ≤ (q - s1.r 4#4).toNat → (q - s1.r 4#4).toNat < F + 8 → s2.m q = s1.m q

/-- After the function: the stack pointer and the registers its caller relies on have their values at entry (`s`), kept registers and memory are as the body left
them (`s2`). -/
structure Restored (win : Bool) (p : Frame) (s s2 s3 : St) : Prop where
  sp : s3.r 4#4 = s.r 4#4 + 8#64
  saved : ∀ q ∈ calleeSaved win, (∀ k < p.kept, q ≠ mreg win (13 - k)) → s3.r q = s.r q
  kept : ∀ k < p.kept, s3.r (mreg win (13 - k)) = s2.r (mreg win (13 - k))
  mem : s3.m = s2.m

/-- The scratch registers from SLJIT_R0 + `n` on which are not callee saved are as the body left them. -/
def Results (win : Bool) (n : Nat) (s2 s3 : St) : Prop := ∀ r, 1 + n ≤ r → r < lastSaved win → s3.r (mreg win r) = s2.r (mreg win r)

/-- The instructions of `code`, wherever they are, lead from s to s' and the address `pc`. -/
def Exits (code : Code) (s s' : St) (pc : BitVec 64) : Prop := ∃ bs, code = some bs ∧ ∀ c a, BytesAt c a bs → PSteps c ⟨s, a⟩ ⟨s', pc⟩

/-- The instructions of `code`, wherever they are, lead from s to s' and the address after them. -/
def Passes (code : Code) (s s' : St) : Prop := ∃ bs, code = some bs ∧ ∀ c a, BytesAt c a bs → PSteps c ⟨s, a⟩ ⟨s', a + BitVec.ofNat 64 bs.length⟩

/-! ## Connection with the helper lemmas -/

variable {win : Bool} {p : Frame} {regArg : Bool} {args : List Bool}

theorem first_eq (win : Bool) : firstSaved win = lastSaved win := by cases win <;> rfl
theorem shadow_eq (win : Bool) : localsOffset win = shadow win := rfl
theorem mreg_num (r : Nat) : mreg win r = num win r := rfl

theorem Legal.ok (h : Legal win p regArg args) : p.Ok win := by
  refine ⟨h.keptSav, ?_, h.scr, h.locals⟩
  have := h.sav
  cases win <;> simp only [lastSaved, nSaved] at * <;> simp at * <;> omega

theorem saved_tab : ∀ win : Bool, ∀ q ∈ calleeSaved win, q ≠ 4#4 ∧ ∃ r : Fin 14, firstSaved win ≤ r.val ∧ num win r.val = q := by decide

theorem argReg_tab : ∀ win : Bool, ∀ k : Fin 4, num win (argSrc win k.val) = argReg win k.val := by decide

theorem argDst_get : ∀ (as : List Bool) (k n i : Nat) (h : i < (argDst k n as).length), (argDst k n as)[i] = if as[i]?.getD false then 1 + (k + i) else 13 - (n + (as.take i).count false)
  | [], _, _, _, h => by simp [argDst] at h
  | true :: as, k, n, 0, _ => by simp [argDst, R0]
  | false :: as, k, n, 0, _ => by simp [argDst, S0]
  | true :: as, k, n, i + 1, h => by
    have := argDst_get as (k + 1) n i (by simpa [argDst] using h)
    simp only [argDst, List.getElem_cons_succ, this, List.getElem?_cons_succ, List.take_succ_cons, List.count_cons]
    simp [show k + 1 + i = k + (i + 1) by omega]
  | false :: as, k, n, i + 1, h => by
    have := argDst_get as (k + 1) (n + 1) i (by simpa [argDst] using h)
    simp only [argDst, List.getElem_cons_succ, this, List.getElem?_cons_succ, List.take_succ_cons, List.count_cons]
    simp [show k + 1 + i = k + (i + 1) by omega, show n + 1 + (as.take i).count false = n + ((as.take i).count false + 1) by omega]

theorem argDest_get {i : Nat} (h : i < (argDst 0 0 args).length) : (argDst 0 0 args)[i] = argDest args i := by
  rw [argDst_get, argDest]; simp

theorem off_two (x : BitVec 64) {a b : Nat} : x - BitVec.ofNat 64 a - BitVec.ofNat 64 b = x - BitVec.ofNat 64 (a + b) := by
  rw [BitVec.ofNat_add]; simp only [BitVec.sub_eq_add_neg, BitVec.neg_add, BitVec.add_assoc]

theorem off_cases (q sp : BitVec 64) {a b : Nat} (hb : a + b < 2 ^ 32) (h : (q - (sp - BitVec.ofNat 64 (a + b))).toNat < b ∨ a + b ≤ (q - (sp - BitVec.ofNat 64 (a + b))).toNat) :
    a ≤ (q - (sp - BitVec.ofNat 64 a)).toNat := by
  have e : q - (sp - BitVec.ofNat 64 a) = (q - (sp - BitVec.ofNat 64 (a + b))) - BitVec.ofNat 64 b := by
    rw [← off_two]
    generalize BitVec.ofNat 64 a = x
    generalize BitVec.ofNat 64 b = y
    simp only [BitVec.sub_eq_add_neg, BitVec.neg_add, BitVec.neg_neg]
    rw [show q + (-sp + x + y) + -y = q + (-sp + x) + (y + -y) by ac_rfl, BitVec.add_right_neg, BitVec.add_zero]
  rw [e]
  generalize q - (sp - BitVec.ofNat 64 (a + b)) = z at *
  have hz := z.isLt
  rw [BitVec.toNat_sub, BitVec.toNat_ofNat]
  omega

theorem off_cases' (q sp : BitVec 64) {a b : Nat} (hb : a + b < 2 ^ 32) (h : (q - (sp - BitVec.ofNat 64 a)).toNat < a) : (q - (sp - BitVec.ofNat 64 (a + b))).toNat = (q - (sp - BitVec.ofNat 64 a)).toNat + b := by
  have e : q - (sp - BitVec.ofNat 64 (a + b)) = (q - (sp - BitVec.ofNat 64 a)) + BitVec.ofNat 64 b := by
    rw [← off_two]
    simp only [BitVec.sub_eq_add_neg, BitVec.neg_add, BitVec.neg_neg]; ac_rfl
  rw [e, BitVec.toNat_add, BitVec.toNat_ofNat]
  omega

/-- The slots in the frame. -/
theorem entered (h : Legal win p regArg args) (s : St) : ∃ s1, Passes (emitEnter win p regArg args) s s1 ∧ Entered win p regArg args (p.total win) s s1 ∧
    Slots win s.r s1.m (s.r 4#4) (p.regs win) ∧ ∀ q, (p.total win ≤ (q - s1.r 4#4).toNat) → s1.m q = s.m q := by
  have hok := h.ok
  obtain ⟨t1, t2, t3, t4, t5⟩ := total_ok hok
  obtain ⟨sa, e1, p1, r1, -, sl, m1⟩ := pushes (win := win) s.r (p.regs win) s (fun r hr => regs_range hok hr) (by omega) (fun _ _ => rfl)
  have hcnt : args.count false ≤ 8 := by
    have := h.args
    have := hok.sav
    have := nSaved_le win
    split at * <;> omega
  obtain ⟨sb, e2, m2, g2, a2⟩ : ∃ sb, Emits (if regArg then some [] else argMoves win 0 p.kept args) sa sb ∧ sb.m = sa.m ∧
      (∀ q, (regArg = false → ∀ d ∈ argDst 0 0 args, q ≠ num win d) → sb.r q = sa.r q) ∧
      (regArg = false → ∀ i (h : i < (argDst 0 0 args).length), sb.r (num win ((argDst 0 0 args)[i])) = sa.r (num win (argSrc win (0 + i)))) := by
    cases hr : regArg with
    | true => exact ⟨sa, Emits.nil sa, rfl, fun _ _ => rfl, fun h => by cases h⟩
    | false =>
      rw [h.kept hr]
      obtain ⟨sb, e, m, g, a⟩ := argMoves_ok (win := win) args 0 0 sa (by have := h.count; omega) (by omega)
      exact ⟨sb, e, m, fun q hq => g q (hq rfl), fun _ => a⟩
  obtain ⟨s1, e3, al⟩ := alloc_ok (win := win) (n := p.localSize win) (by omega) (s := sb)
  have hdst : ∀ d ∈ argDst 0 0 args, 1 ≤ d ∧ d ≤ 13 := by
    intro d hd
    have := h.count
    rcases argDst_mem (by omega) hd with h | h <;> omega
  have hsp : sb.r 4#4 = s.r 4#4 - BitVec.ofNat 64 (8 * (p.regs win).length) := by
    rw [g2 4#4 (fun _ d hd => (num_ne_sp win (hdst d hd).1 (hdst d hd).2).symm), p1]
  have hsp1 : s1.r 4#4 = s.r 4#4 - BitVec.ofNat 64 (p.total win) := by rw [al.sp, hsp, off_two, Frame.total]
  have hT : ∀ r, 1 ≤ r → r ≤ 13 → num win r ≠ T1 win ∧ num win r ≠ T2 win := fun r h1 h2 =>
    ⟨num_ne h1 (by omega) (by decide) (by decide) (by unfold TMP_REG1; omega), num_ne h1 (by omega) (by decide) (by decide) (by unfold TMP_REG2; omega)⟩
  have hmem : ∀ q, ((q - s1.r 4#4).toNat < p.localSize win ∨ p.total win ≤ (q - s1.r 4#4).toNat) → s1.m q = s.m q := by
    intro q hq
    rw [al.mem, m2]
    refine m1 q (off_cases q (s.r 4#4) (b := p.localSize win) (by rw [Frame.total] at t4; omega) ?_)
    rwa [hsp1, Frame.total] at hq
  refine ⟨s1, Runs.cat (Emits.runs ⟨_, rfl, e1⟩) (Runs.cat e2.runs e3), ⟨hsp1, fun q hq => hmem q ?_, fun hr i hi => ?_, fun r h1 h2 h3 h4 => ?_⟩, by rw [al.mem, m2]; exact sl, fun q hq => hmem q (Or.inr hq)⟩
  · rw [shadow_eq] at *
    omega
  · have hi' : i < (argDst 0 0 args).length := by rw [argDst_length]; exact hi
    have := a2 hr i hi'
    rw [argDest_get hi'] at this
    have hd := hdst _ (List.getElem_mem hi')
    rw [argDest_get hi'] at hd
    rw [mreg_num, al.regs _ (num_ne_sp win hd.1 hd.2) (fun _ => hT _ hd.1 hd.2), this, Nat.zero_add]
    have h4 := h.count
    have hsrc : num win (argSrc win i) ≠ 4#4 := (by decide : ∀ win : Bool, ∀ k : Fin 4, num win (argSrc win k.val) ≠ 4#4) win ⟨i, by omega⟩
    rw [r1 _ hsrc]
    exact congrArg s.r (argReg_tab win ⟨i, by omega⟩)
  · have h2' : r ≤ 16 := by split at h2 <;> omega
    have hne : num win r ≠ 4#4 := by
      have := num_ne (win := win) h1 h2' (show 1 ≤ 14 by omega) (by omega) h3
      rwa [show num win 14 = 4#4 by cases win <;> decide] at this
    rw [mreg_num, al.regs _ hne (fun hw => hT r h1 (by rw [if_pos hw] at h2; exact h2)), g2 _ (fun hr d hd => ?_), r1 _ hne]
    obtain ⟨i, hi, e⟩ := List.getElem_of_mem hd
    have hd' := hdst d hd
    refine num_ne h1 h2' hd'.1 (by omega) ?_
    rw [← e, argDest_get hi]
    exact h4 i (by rw [argDst_length] at hi; exact hi) hr

/-- Releasing the frame after a body. -/
theorem released (h : Legal win p regArg args) {s s1 s2 : St} (he : Entered win p regArg args (p.total win) s s1) (hs : Slots win s.r s1.m (s.r 4#4) (p.regs win))
    (hu : ∀ q, (p.total win ≤ (q - s1.r 4#4).toNat) → s1.m q = s.m q) (hb : Body win p (p.total win) s1 s2) (rt : Bool) :
    ∃ s3, Emits (emitRelease win p rt) s2 s3 ∧ s3.r 4#4 = (if rt then s.r 4#4 + 8#64 else s.r 4#4) ∧ s3.m = s2.m ∧ rd s2.m (s.r 4#4) 8 = rd s.m (s.r 4#4) 8 ∧
      (∀ q ∈ calleeSaved win, (∀ k < p.kept, q ≠ mreg win (13 - k)) → s3.r q = s.r q) ∧
      ∀ r, 1 ≤ r → r ≤ 16 → r ≠ 14 → ¬ (lastSaved win ≤ r ∧ r ≤ 13 - p.kept) → s3.r (mreg win r) = s2.r (mreg win r) := by
  have hok := h.ok
  obtain ⟨t1, t2, t3, t4, t5⟩ := total_ok hok
  have hreg : ∀ {r}, 1 ≤ r → r ≤ 16 → r ∉ p.regs win → num win r ∉ (p.regs win).map (num win) := by
    intro r h1 h2 hn hm
    obtain ⟨a, ha, e⟩ := List.mem_map.mp hm
    have := regs_range hok ha
    exact hn (num_inj (by omega) (by omega) h1 h2 e ▸ ha)
  have hsl : Slots win s.r s2.m (s.r 4#4) (p.regs win) := by
    refine hs.congr (by omega) fun q hq => hb.mem q ?_ ?_
    · rw [he.sp, Frame.total, off_cases' q (s.r 4#4) (by rw [Frame.total] at t4; omega) hq, ← shadow_eq]; omega
    · rw [he.sp, Frame.total, off_cases' q (s.r 4#4) (by rw [Frame.total] at t4; omega) hq]; omega
  have hret : rd s2.m (s.r 4#4) 8 = rd s.m (s.r 4#4) 8 := by
    refine rd_congr fun k hk => ?_
    have e : (s.r 4#4 + BitVec.ofNat 64 k - s1.r 4#4).toNat = p.total win + k := by
      rw [he.sp]
      have : s.r 4#4 + BitVec.ofNat 64 k - (s.r 4#4 - BitVec.ofNat 64 (p.total win)) = BitVec.ofNat 64 (p.total win + k) := by
        rw [BitVec.ofNat_add]
        simp only [BitVec.sub_eq_add_neg, BitVec.neg_add, BitVec.neg_neg]
        generalize BitVec.ofNat 64 (p.total win) = x
        generalize s.r 4#4 = y
        rw [show y + BitVec.ofNat 64 k + (-y + x) = y + -y + (x + BitVec.ofNat 64 k) by ac_rfl, BitVec.add_right_neg, BitVec.zero_add]
      rw [this, BitVec.toNat_ofNat]; omega
    rw [hb.mem _ (by rw [e, ← shadow_eq]; rw [Frame.total]; omega) (by rw [e]; omega), hu _ (by rw [e]; omega)]
  obtain ⟨s3, e1, sp3, m3, r3⟩ := release_ok (win := win) hok rt (hb.sp.trans he.sp) hsl
  refine ⟨s3, e1, sp3, m3, hret, fun q hq hk => ?_, fun r h1 h2 h3 h4 => ?_⟩
  · obtain ⟨hq4, ⟨r, hr⟩, hr1, rfl⟩ := saved_tab win q hq
    have hf := nSaved_le win
    simp only at hr1 hk hq4 ⊢
    rw [r3 _ hq4]
    by_cases hm : r ∈ p.regs win
    · rw [if_pos (List.mem_map_of_mem hm)]
    · rw [if_neg (hreg (by omega) (by omega) hm)]
      rw [mem_regs hok] at hm
      have hkk : r + p.kept ≤ 13 := by
        by_contra hc
        exact hk (13 - r) (by omega) (by rw [mreg_num, show 13 - (13 - r) = r by omega])
      rw [← mreg_num, hb.regs r (by rw [← first_eq]; exact hr1) (by omega) (by omega), he.other r (by omega) (by split <;> omega) (by omega) fun i hi hra e => ?_]
      have hc := h.count
      have ha := h.args
      simp only [hra, Bool.false_eq_true, if_false] at ha
      have hi' : i < (argDst 0 0 args).length := by rw [argDst_length]; exact hi
      have hmem := List.getElem_mem hi'
      rw [argDest_get hi', ← e] at hmem
      have hsav := hok.sav
      rcases argDst_mem (by omega) hmem with h | h <;> omega
  · have hne : num win r ≠ 4#4 := by
      have := num_ne (win := win) h1 h2 (show 1 ≤ 14 by omega) (by omega) h3
      rwa [show num win 14 = 4#4 by cases win <;> decide] at this
    have hs := h.scr
    have hk := h.keptSav
    rw [mreg_num, r3 _ hne, if_neg (hreg h1 h2 _)]
    rw [mem_regs hok, first_eq]
    have := h.sav
    omega

theorem restored (h : Legal win p regArg args) {s s2 s3 s4 : St} (hm : s3.m = s2.m) (hs : ∀ q ∈ calleeSaved win, (∀ k < p.kept, q ≠ mreg win (13 - k)) → s3.r q = s.r q)
    (hr : ∀ r, 1 ≤ r → r ≤ 16 → r ≠ 14 → ¬ (lastSaved win ≤ r ∧ r ≤ 13 - p.kept) → s3.r (mreg win r) = s2.r (mreg win r))
    (e4 : s4.r 4#4 = s.r 4#4 + 8#64) (m4 : s4.m = s3.m) (r4 : ∀ q, q ≠ 4#4 → s4.r q = s3.r q) : Restored win p s s2 s4 ∧ Results win 0 s2 s4 := by
  have hk := h.keptSav
  have hc := h.sav
  have hc' := h.scr
  have hl : lastSaved win ≤ 8 ∧ 6 ≤ lastSaved win := by cases win <;> decide
  refine ⟨⟨e4, fun q hq hk => by rw [r4 q (saved_tab win q hq).1]; exact hs q hq hk, fun k hk' => ?_, m4.trans hm⟩, fun r h1 h2 => ?_⟩
  · rw [mreg_num, r4 _ (num_ne_sp win (by omega) (by omega))]
    exact hr _ (by omega) (by omega) (by omega) (by omega)
  · rw [mreg_num, r4 _ (num_ne_sp win (by omega) (by omega))]
    exact hr _ (by omega) (by omega) (by omega) (by omega)

theorem Exits.of_runs {c d : Code} {s t u : St} {pc : BitVec 64} (h1 : Runs c s t) (h2 : Exits d t u pc) : Exits (c +> d) s u pc := by
  obtain ⟨b1, e1, g1⟩ := h1
  obtain ⟨b2, e2, g2⟩ := h2
  refine ⟨b1 ++ b2, by rw [e1, e2]; rfl, fun c a hb => ?_⟩
  rw [BytesAt.append] at hb
  exact (g1 c a hb.1).trans (g2 c _ hb.2)

theorem exits_ret (t : St) : Exits (some [0xc3#8]) t (t.set 4#4 (t.r 4#4 + 8#64)) (rd t.m (t.r 4#4) 8) :=
  ⟨_, rfl, fun _ a hb => PSteps.one (ret_step (q := ⟨t, a⟩) hb)⟩

theorem exits_jump (t : St) {r : Nat} (hr : r ≤ 16) : Exits (emitJumpReg win r) t t (t.r (num win r)) := by
  obtain ⟨bs, e, g⟩ := jumpReg_step (win := win) hr
  exact ⟨bs, e, fun c a hb => PSteps.one (g c ⟨t, a⟩ hb)⟩

theorem frameSize (h : Legal win p regArg args) : FrameSize win p (p.total win) := by
  obtain ⟨t1, t2, t3, t4, t5⟩ := total_ok h.ok
  exact ⟨by rw [← shadow_eq, Frame.total]; omega, t4, t1⟩

theorem return_void (h : Legal win p regArg args) {s s1 s2 : St} (he : Entered win p regArg args (p.total win) s s1) (hs : Slots win s.r s1.m (s.r 4#4) (p.regs win))
    (hu : ∀ q, (p.total win ≤ (q - s1.r 4#4).toNat) → s1.m q = s.m q) (hb : Body win p (p.total win) s1 s2) :
    ∃ s3, Exits (emitReturnVoid win p) s2 s3 (rd s.m (s.r 4#4) 8) ∧ Restored win p s s2 s3 ∧ Results win 0 s2 s3 := by
  obtain ⟨s3, e, sp, m, ret, sv, ot⟩ := released h he hs hu hb false
  have hx := exits_ret s3
  rw [sp, if_neg (by decide), m, ret] at hx
  exact ⟨_, Exits.of_runs e.runs hx, restored h m sv ot (by simp [St.set]) rfl (fun q hq => by simp [St.set, hq])⟩

theorem return_value (ft : Feat) (h : Legal win p regArg args) {o : RV.Op1C} (ho : IsMove o) (is32 : Bool) {src : Opd} (hsrc : Src src) {s s1 s2 : St}
    (he : Entered win p regArg args (p.total win) s s1) (hs : Slots win s.r s1.m (s.r 4#4) (p.regs win))
    (hu : ∀ q, (p.total win ≤ (q - s1.r 4#4).toNat) → s1.m q = s.m q) (hb : Body win p (p.total win) s1 s2) :
    ∃ s3, Exits (emitReturn ft win p o is32 src) s2 s3 (rd s.m (s.r 4#4) 8) ∧ Restored win p s s2 s3 ∧ Results win 1 s2 s3 ∧
      (s3.r 0#4).setWidth (resultWidth o is32) = (moved o (source win (width o is32) s2 src)).setWidth (resultWidth o is32) := by
  have hl : lastSaved win ≤ 8 ∧ 6 ≤ lastSaved win := by cases win <;> decide
  have h0 : mreg win 1 = 0#4 := by cases win <;> decide
  obtain ⟨t, et, wt⟩ : ∃ t, Emits (if src = .reg R0 ∧ (o = .mov ∨ o = .movP) ∧ is32 = false then some [] else emitOp1 ft win o is32 (.reg R0) src) s2 t ∧
      Written1 win o is32 s2 t (.reg 1) (moved o (source win (width o is32) s2 src)) := by
    by_cases hc : src = .reg R0 ∧ (o = .mov ∨ o = .movP) ∧ is32 = false
    · rw [if_pos hc]
      refine ⟨s2, Emits.nil s2, fun _ _ _ _ => rfl, fun d hd => ?_, (fun _ _ _ e => by cases e), fun _ => rfl⟩
      cases hd
      rw [hc.1]
      rcases hc.2.1 with rfl | rfl <;> rfl
    · rw [if_neg hc]
      obtain ⟨bs, t, e, st, w, -⟩ := c50_mov (win := win) ft ho is32 (dst := .reg R0) ⟨by decide, by decide⟩ hsrc s2
      exact ⟨t, ⟨bs, e, st⟩, w⟩
  have hm : t.m = s2.m := wt.same (fun _ _ _ e => by cases e)
  have hb' : Body win p (p.total win) s1 t := by
    refine ⟨?_, fun r a b c => ?_, fun q a b => by rw [hm]; exact hb.mem q a b⟩
    · have := wt.keep 14 (by omega) (by omega) (fun e => by cases e)
      rw [show mreg win 14 = 4#4 by cases win <;> decide] at this
      rw [this, hb.sp]
    · rw [wt.keep r (by omega) (by omega) (fun e => by cases e; omega)]
      exact hb.regs r a b c
  obtain ⟨s3, x, re, rs⟩ := return_void h he hs hu hb'
  refine ⟨s3, Exits.of_runs et.runs x, ⟨re.sp, re.saved, fun k hk => ?_, re.mem.trans hm⟩, fun r a b => ?_, ?_⟩
  · have := h.keptSav
    have := h.sav
    rw [re.kept k hk, wt.keep _ (by omega) (by omega) (fun e => by injection e; omega)]
  · rw [rs r (by omega) b, wt.keep r (by omega) (by omega) (fun e => by cases e; omega)]
  · have := rs 1 (by omega) (by omega)
    rw [h0] at this
    rw [this, ← h0]
    exact wt.reg 1 rfl

/-! ## C51 -/

/-- **C51.**  Every legal sljit_emit_enter builds a frame that is aligned and large enough, moves the arguments of the calling convention to their registers, and
whatever a body does within its rights, sljit_emit_return_void then reaches the return address with the stack pointer and the callee saved registers as at entry. -/
theorem c51_return (h : Legal win p regArg args) : ∃ F, FrameSize win p F ∧ ∀ s, ∃ s1, Passes (emitEnter win p regArg args) s s1 ∧ Entered win p regArg args F s s1 ∧
    ∀ s2, Body win p F s1 s2 → ∃ s3, Exits (emitReturnVoid win p) s2 s3 (rd s.m (s.r 4#4) 8) ∧ Restored win p s s2 s3 ∧ Results win 0 s2 s3 := by
  refine ⟨p.total win, frameSize h, fun s => ?_⟩
  obtain ⟨s1, h1, he, hs, hu⟩ := entered h s
  exact ⟨s1, h1, he, fun s2 hb => return_void h he hs hu hb⟩

/-- **C51, sljit_emit_return.**  As above, with the value of the source moved to rax. -/
theorem c51_return_value (ft : Feat) (h : Legal win p regArg args) {o : RV.Op1C} (ho : IsMove o) (is32 : Bool) {src : Opd} (hsrc : Src src) :
    ∃ F, FrameSize win p F ∧ ∀ s, ∃ s1, Passes (emitEnter win p regArg args) s s1 ∧ Entered win p regArg args F s s1 ∧
    ∀ s2, Body win p F s1 s2 → ∃ s3, Exits (emitReturn ft win p o is32 src) s2 s3 (rd s.m (s.r 4#4) 8) ∧ Restored win p s s2 s3 ∧ Results win 1 s2 s3 ∧
      (s3.r 0#4).setWidth (resultWidth o is32) = (moved o (source win (width o is32) s2 src)).setWidth (resultWidth o is32) := by
  refine ⟨p.total win, frameSize h, fun s => ?_⟩
  obtain ⟨s1, h1, he, hs, hu⟩ := entered h s
  exact ⟨s1, h1, he, fun s2 hb => return_value ft h ho is32 hsrc he hs hu hb⟩

/-- **C51, sljit_emit_return_to.**  As above; execution continues at the address in the source operand, and the return address is removed from the stack. -/
theorem c51_return_to (h : Legal win p regArg args) {src : Opd} (hsrc : Dest src) :
    ∃ F, FrameSize win p F ∧ ∀ s, ∃ s1, Passes (emitEnter win p regArg args) s s1 ∧ Entered win p regArg args F s s1 ∧
    ∀ s2, Body win p F s1 s2 → ∃ s3, Exits (emitReturnTo win p src) s2 s3 (value win s2 64 src) ∧ Restored win p s s2 s3 ∧ Results win 0 s2 s3 := by
  refine ⟨p.total win, frameSize h, fun s => ?_⟩
  obtain ⟨s1, h1, he, hs, hu⟩ := entered h s
  refine ⟨s1, h1, he, fun s2 hb => ?_⟩
  have hl : lastSaved win ≤ 8 ∧ 6 ≤ lastSaved win := by cases win <;> decide
  have ht2 : ∀ r, 1 ≤ r → r ≤ 14 → num win r ≠ T2 win := fun r h1 h2 => num_ne h1 (by omega) (by decide) (by decide) (by unfold TMP_REG2; omega)
  have hgood : Good src := by
    cases src with
    | reg r => exact ⟨hsrc.1, by have := hsrc.2; omega, by have := hsrc.2; omega⟩
    | imm v => exact trivial
    | mem b o w => exact hsrc
  -- through the temporary register
  have tmp : ∃ s3, Exits (emitMov win false (.reg TMP_REG2) src +> (emitRelease win p true +> emitJumpReg win TMP_REG2)) s2 s3 (value win s2 64 src) ∧ Restored win p s s2 s3 ∧ Results win 0 s2 s3 := by
    obtain ⟨t, et, w, -⟩ := e_mov (win := win) (m32 := false) (s := s2) (dst := .reg TMP_REG2) ⟨by decide, by decide, by decide⟩ rfl hgood (fun e => by cases e)
    have hv : t.r (num win TMP_REG2) = value win s2 64 src := by
      have := w.val TMP_REG2 rfl
      cases src with
      | reg r => simpa [opv, trunc, value, mreg_num] using this
      | imm v => cases hsrc
      | mem b o d => simpa [opv, trunc, value, addr_ea, NB] using this
    have hm : t.m = s2.m := w.mem
    have keep : ∀ r, 1 ≤ r → r ≤ 14 → t.r (num win r) = s2.r (num win r) := fun r h1 h2 =>
      w.regs _ (fun d e => by cases e; exact ht2 r h1 h2) (fun _ => by simp [Opd.isMem]) (fun e => absurd e (ht2 r h1 h2))
    have hb' : Body win p (p.total win) s1 t := by
      refine ⟨?_, fun r a b c => ?_, fun q a b => by rw [hm]; exact hb.mem q a b⟩
      · have := keep 14 (by omega) (by omega)
        rw [show num win 14 = 4#4 by cases win <;> decide] at this
        rw [this, hb.sp]
      · rw [mreg_num, keep r (by omega) (by omega)]
        exact hb.regs r a b c
    obtain ⟨s3, e, sp, m, ret, sv, ot⟩ := released h he hs hu hb' true
    have hx := exits_jump (win := win) s3 (r := TMP_REG2) (by decide)
    have h16 := ot TMP_REG2 (by decide) (by decide) (by decide) (by unfold TMP_REG2; omega)
    rw [mreg_num] at h16
    rw [h16, hv] at hx
    obtain ⟨g1, g2⟩ := restored h m sv ot (s4 := s3) sp rfl (fun _ _ => rfl)
    have := h.keptSav
    have := h.sav
    exact ⟨s3, Exits.of_runs et.runs (Exits.of_runs e.runs hx), ⟨g1.sp, g1.saved, fun k hk => by rw [g1.kept k hk, mreg_num, keep _ (by omega) (by omega)], g1.mem.trans hm⟩,
      fun r a b => by rw [g2 r a b, mreg_num, keep r (by omega) (by omega)]⟩
  cases src with
  | imm v => cases hsrc
  | mem b o d => exact tmp
  | reg r =>
    simp only [emitReturnTo]
    by_cases hc : firstSaved win ≤ r ∧ r ≤ S0 - p.kept
    · rw [if_pos hc]; exact tmp
    · rw [if_neg hc]
      obtain ⟨s3, e, sp, m, ret, sv, ot⟩ := released h he hs hu hb true
      have hr : 1 ≤ r ∧ r ≤ 13 := hsrc
      have hx := exits_jump (win := win) s3 (r := r) (by omega)
      have hrr := ot r (by omega) (by omega) (by omega) (by rw [← first_eq]; exact hc)
      rw [mreg_num] at hrr
      rw [hrr] at hx
      obtain ⟨g1, g2⟩ := restored h m sv ot (s4 := s3) sp rfl (fun _ _ => rfl)
      refine ⟨s3, Exits.of_runs e.runs ?_, g1, g2⟩
      simpa [value, mreg_num] using hx

/-! ## Instances -/

/-- A function with two saved arguments and one in a scratch register, three scratch registers, four saved registers and 100 bytes of locals. -/
example : Legal false ⟨0, 3, 4, 100⟩ false [false, true, false] := ⟨by decide, by decide, by decide, by decide, fun _ => rfl, by decide, by decide⟩

/-- A large frame on Windows: the stack is touched in a loop. -/
example : Legal true ⟨0, 5, 8, 70000⟩ false [false, true, true, false] := ⟨by decide, by decide, by decide, by decide, fun _ => rfl, by decide, by decide⟩

/-- Scratch registers in callee saved registers; two kept registers. -/
example : Legal false ⟨2, 9, 4, 0⟩ true [true, true] := ⟨by decide, by decide, by decide, by decide, (by cases ·), by decide, by decide⟩

/-- A body which changes declared registers and a local. -/
example (F : Nat) (s1 : St) : Body false ⟨0, 3, 4, 100⟩ F s1 { s1.set 3#4 77#64 with m := fun q => if q = s1.r 4#4 + 16#64 then 1#8 else s1.m q } := by
  refine ⟨rfl, fun r h1 h2 h3 => ?_, fun q h1 _ => ?_⟩
  · have h1 : 8 ≤ r := h1
    have h3 : r + 4 ≤ 13 := h3
    have hr : r = 8 ∨ r = 9 := by omega
    rcases hr with rfl | rfl <;> rfl
  · refine if_neg fun e => ?_
    subst e
    rw [show s1.r 4#4 + 16#64 - s1.r 4#4 = 16#64 by rw [BitVec.add_comm, BitVec.add_sub_cancel]] at h1
    exact absurd h1 (by decide)

end Verif.Props.C51
