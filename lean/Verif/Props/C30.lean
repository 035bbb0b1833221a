import Verif.RISCV.FrameProof
import Verif.Props.C24

/-!
# C30, C31, C32: function entry and return of the RV64 backend

Frames are described by the arguments of sljit_emit_enter, machine states by the registers of the RISC-V calling
convention (sp = x2, ra = x1, a0-a7 = x10-x17, s0-s11 = x8, x9, x18-x27, fa0-fa7 = f10-f17, fs0-fs11 = f8, f9, f18-f27).
-/

namespace Verif.Props.C30
open Verif.RV Verif.Props.Rv

/-! ## Specification -/

/-- An argument of a function: a word (W, 32, P), kept in a scratch register or not, or a float (sljitLir.h:394-410). -/
inductive Arg where
  | w (scratch : Bool)
  | w32 (scratch : Bool)
  | p (scratch : Bool)
  | f64
  | f32
  deriving DecidableEq, Repr

namespace Arg
def code : Arg → Nat
  | w s => if s then 9 else 1
  | w32 s => if s then 10 else 2
  | p s => if s then 11 else 3
  | f64 => 4
  | f32 => 5
def word : Arg → Bool
  | f64 | f32 => false
  | _ => true
/-- A word that is copied to a saved register. -/
def saved : Arg → Bool
  | w s | w32 s | p s => !s
  | _ => false
def float (a : Arg) : Bool := !a.word
end Arg

/-- SLJIT_ARG_RETURN(ret) | SLJIT_ARG_VALUE(arg1, 1) | … (sljitLir.h:414-437). -/
def descr (ret : Nat) : List Arg → Nat
  | [] => ret
  | a :: as => ret + 16 * descr a.code as

/-- s0-s11, numbered as the callee saved registers of the calling convention. -/
def calleeSaved : List Reg := [8#5, 9#5, 18#5, 19#5, 20#5, 21#5, 22#5, 23#5, 24#5, 25#5, 26#5, 27#5]

/-- The registers SLJIT_ENTER_KEEP(k) exempts: S0, S1, S2. -/
def keptRegs (k : Nat) : List Reg := [8#5, 9#5, 18#5].take k

/-- A legal call of sljit_emit_enter. -/
structure Legal (p : Frame) (regArg : Bool) (args : List Arg) : Prop where
  frame : p.Ok
  kept : regArg = false → p.kept = 0
  count : args.length ≤ 4
  sav : args.countP Arg.saved ≤ if regArg then 0 else p.sav

/-- What a function body may do between entry (`s1`) and return (`s2`): anything to declared registers, to the registers
the calling convention does not preserve (R0-R10 are not callee saved, R11 and above are, also FR18 and above) and to all memory but the part of its frame above the locals. -/
structure Body (p : Frame) (s1 s2 : St) : Prop where
  sp : s2.rd 2#5 = s1.rd 2#5
  regs : ∀ r, 12 ≤ r → p.scr < r → r ≤ 23 - p.sav → s2.rd (regMap r) = s1.rd (regMap r)
  fregs : ∀ r, 19 ≤ r → p.fscr < r → r ≤ 30 - p.fsav → s2.f (fregMap r) = s1.f (fregMap r)
  mem : ∀ q, p.locals ≤ (q - s1.rd 2#5).toNat → (q - s1.rd 2#5).toNat < p.total → s2.mem q = s1.mem q

/-- After the function: the registers its caller relies on have their values at entry (`s`), kept registers, the registers for
results and memory are as the body left them (`s2`). -/
structure Restored (p : Frame) (s s2 s3 : St) : Prop where
  sp : s3.rd 2#5 = s.rd 2#5
  saved : ∀ q ∈ calleeSaved, q ∉ keptRegs p.kept → s3.rd q = s.rd q
  fsaved : ∀ q ∈ calleeSaved, s3.f q = s.f q
  kept : ∀ q ∈ keptRegs p.kept, s3.rd q = s2.rd q
  res : ∀ q, 10 ≤ q.toNat → q.toNat ≤ 17 → s3.rd q = s2.rd q ∧ s3.f q = s2.f q
  fixed : s3.rd 3#5 = s2.rd 3#5 ∧ s3.rd 4#5 = s2.rd 4#5
  mem : s3.mem = s2.mem

/-! ## Connection with the helper lemmas -/

theorem descr_div (ret : Nat) (h : ret < 16) (args : List Arg) : descr ret args / 16 = packArgs (args.map Arg.code) := by
  induction args generalizing ret with
  | nil => simp only [descr, List.map_nil, packArgs]; omega
  | cons a as ih =>
    have ha : a.code < 16 := by cases a <;> simp [Arg.code] <;> split <;> omega
    have hd := ih a.code ha
    have hm : descr a.code as % 16 = a.code := by
      cases as with
      | nil => simp only [descr]; omega
      | cons b bs => simp only [descr]; omega
    simp only [descr, List.map_cons, packArgs]
    omega

theorem code_ok (a : Arg) : (0 < a.code ∧ a.code < 16) ∧ isWordT a.code = a.word ∧ isSavedT a.code = a.saved := by
  rcases a with (_ | _) | (_ | _) | (_ | _) | _ | _ <;> decide

theorem countP_code {f : Nat → Bool} {g : Arg → Bool} (h : ∀ a, f a.code = g a) (l : List Arg) : (l.map Arg.code).countP f = l.countP g := by
  rw [List.countP_map]
  exact List.countP_congr fun a _ => by simp [h]

/-- What sljit_emit_enter does. -/
structure Entered (p : Frame) (args : List Arg) (s s1 : St) : Prop where
  sp : s1.rd 2#5 = s.rd 2#5 - BitVec.ofNat 64 p.total
  mem : s1.mem = saveTo s.mem (s.rd 2#5) (p.saved s.core)
  f : s1.f = s.f
  other : ∀ q, q ≠ 2#5 → q ≠ 6#5 → q ≠ 7#5 → (∀ k < args.countP Arg.saved, q ≠ regMap (23 - k)) → s1.rd q = s.rd q
  args : ∀ n (hn : n < args.length), args[n].saved = true →
    s1.rd (regMap (23 - (args.take n).countP Arg.saved)) = s.rd (regMap (1 + (args.take n).countP Arg.word))

theorem entered {cfg : Cfg} {p : Frame} {regArg : Bool} {ret : Nat} {args : List Arg} (hr : ret < 16) (h : Legal p regArg args) (s : St) :
    ∃ s1, run (emitEnter cfg p regArg (descr ret args)) s = some s1 ∧ Entered p args s s1 := by
  have hw : args.countP Arg.word ≤ 4 := (List.countP_le_length).trans h.count
  have hs4 : args.countP Arg.saved ≤ 4 := (List.countP_le_length).trans h.count
  have hwp : wp (emitEnter cfg p regArg (descr ret args)) s.core fun c1 =>
      c1.x 2#5 = s.rd 2#5 - BitVec.ofNat 64 p.total ∧ c1.mem = saveTo s.mem (s.rd 2#5) (p.saved s.core) ∧ c1.f = s.f ∧
      (∀ q, q ≠ 2#5 → q ≠ 6#5 → q ≠ 7#5 → (∀ k < args.countP Arg.saved, q ≠ regMap (23 - k)) → c1.x q = s.rd q) ∧
      ∀ n (hn : n < args.length), args[n].saved = true →
        c1.x (regMap (23 - (args.take n).countP Arg.saved)) = s.rd (regMap (1 + (args.take n).countP Arg.word)) := by
    have e : emitEnter cfg p regArg (descr ret args) = (enterSp cfg p.total ++
        (slots (stackStore cfg) (TMP_REG2 :: p.regs) (enterTop p.total) ++
        (slots (stackFStore cfg) p.fregs (enterTop p.total - 8 * (p.regs.length + 1)) ++ enterSp2 p.total))) ++
        (if regArg then [] else argMoves cfg (descr ret args / 16) R0 0) := by
      simp only [emitEnter, List.append_assoc]
    rw [e]
    refine wp_append (wp_mono (wp_enterSave h.frame) fun c1 g => ?_)
    obtain ⟨g1, g2, g3, g4⟩ := g
    cases hra : regArg with
    | true =>
      rw [if_pos rfl, wp_nil]
      have hz : args.countP Arg.saved = 0 := by have := h.sav; rw [hra] at this; simpa using this
      refine ⟨g1, g2, g3, fun q a b c _ => g4 q a b c, fun n hn hs => ?_⟩
      have := List.countP_eq_zero.1 hz args[n] (List.getElem_mem hn)
      exact absurd hs this
    | false =>
      rw [if_neg (by decide), descr_div ret hr]
      have ew : (args.map Arg.code).countP isWordT = args.countP Arg.word := countP_code (fun a => (code_ok a).2.1) _
      have es : (args.map Arg.code).countP isSavedT = args.countP Arg.saved := countP_code (fun a => (code_ok a).2.2) _
      refine wp_mono (wp_argMoves (args.map Arg.code) ?_ 0 0 (by omega) (by omega)) fun c2 k => ?_
      · simp only [List.mem_map]
        rintro t ⟨a, -, rfl⟩
        exact (code_ok a).1
      obtain ⟨k1, k2, k3, k4⟩ := k
      have ne2 : ∀ k < args.countP Arg.saved, (2#5 : Reg) ≠ regMap (23 - k) := by
        have : ∀ k, k < 4 → (2#5 : Reg) ≠ regMap (23 - k) := by decide +kernel
        exact fun k hk => this k (by omega)
      refine ⟨?_, k1.trans g2, k2.trans g3, fun q a b c d => ?_, fun n hn hs => ?_⟩
      · rw [k3 2#5 fun k _ hk => ne2 k (by omega), g1]; rfl
      · rw [k3 q fun k _ hk => d k (by omega), g4 q a b c]; rfl
      · have := k4 n (by simpa using hn) (by simpa [(code_ok _).2.2] using hs)
        rw [← List.map_take, countP_code (fun a => (code_ok a).2.1), countP_code (fun a => (code_ok a).2.2)] at this
        simp only [Nat.zero_add] at this
        rw [this, g4]
        · rfl
        all_goals
          have hl : (args.take n).countP Arg.word ≤ 4 := ((List.take_sublist n args).countP_le).trans hw
          have : ∀ k, k ≤ 4 → regMap (1 + k) ≠ 2#5 ∧ regMap (1 + k) ≠ 6#5 ∧ regMap (1 + k) ≠ 7#5 := by decide +kernel
          simp [this _ hl]
  obtain ⟨s1, h1, h2⟩ := hwp s rfl
  exact ⟨s1, h1, h2.1, h2.2.1, h2.2.2.1, h2.2.2.2.1, h2.2.2.2.2⟩

theorem saved_list : calleeSaved = (List.range 12).map fun k => regMap (23 - k) := by decide
theorem fsaved_list : calleeSaved = (List.range 12).map fun k => fregMap (30 - k) := by decide
theorem kept_list : ∀ k ≤ 3, keptRegs k = (List.range k).map fun k => regMap (23 - k) := by decide

theorem slot {p : Frame} (h : p.Ok) {args : List Arg} {s s1 s2 : St} (he : Entered p args s s1) (hb : Body p s1 s2) (k : Nat)
    (hk : k < (p.saved s.core).length) :
    ld64 s2.mem (s.rd 2#5 - BitVec.ofNat 64 (8 * (k + 1))) = (p.saved s.core)[k] := by
  have hl := Frame.length_saved (p := p) s.core
  have tge := Frame.total_ge h
  have tlt := Frame.total_lt h
  have hs := Frame.size_le h
  have hloc := h.locals
  rw [← ld_saveTo s.mem (s.rd 2#5) (p.saved s.core) (by omega) k hk, ← he.mem]
  refine ld64_congr fun j hj => hb.mem _ ?_ ?_
  all_goals
    rw [he.sp]
    simp only [BitVec.toNat_sub, BitVec.toNat_add, BitVec.toNat_ofNat]
    omega

/-- The release of the frame. -/
theorem released {cfg : Cfg} {p : Frame} {regArg rt : Bool} {args : List Arg} (h : Legal p regArg args) {s s1 s2 : St}
    (he : Entered p args s s1) (hb : Body p s1 s2) :
    ∃ s3, run (emitRelease cfg p rt) s2 = some s3 ∧ Restored p s s2 s3 ∧ (rt = false → s3.rd 1#5 = s.rd 1#5) ∧ s3.rd 6#5 = s2.rd 6#5 ∧
      ∀ r, r ≤ 23 → p.restored r = false → s3.rd (regMap r) = s2.rd (regMap r) := by
  have hf := h.frame
  have hs := Frame.size_le hf
  have hsz := Frame.length_saved (p := p) s.core
  have hk3 := hf.kept
  have hks := hf.keptSav
  have hsv := hf.sav
  have hrg := hf.regs
  have hfs := hf.fsav
  have hfr := hf.fregs
  have hsp : s2.core.x 2#5 = s.rd 2#5 - BitVec.ofNat 64 p.total := by
    rw [core_x, hb.sp, he.sp]
  obtain ⟨s3, h1, g1, g2, g3, g4, g5, g6, g7⟩ := wp_release (cfg := cfg) hf rt (s.rd 2#5) hsp s2 rfl
  have hnr : ∀ r, r ≤ 24 → r ∉ p.regs → regMap r ∉ p.regs.map regMap := by
    intro r hr hn hm
    obtain ⟨a, ha, e⟩ := List.mem_map.1 hm
    have := Frame.regs_range hf ha
    exact hn (rm_inj _ (by omega) _ (by omega) e ▸ ha)
  have hne : ∀ r, 1 ≤ r → r ≤ 23 → regMap r ≠ 1#5 ∧ regMap r ≠ 2#5 ∧ regMap r ≠ 7#5 ∧ regMap r ≠ 6#5 := by decide +kernel
  have h10 : ∀ q : Reg, 10 ≤ q.toNat → q.toNat ≤ 17 → q ≠ 1#5 ∧ q ≠ 2#5 ∧ q ≠ 7#5 ∧ ∃ r : Fin 9, 1 ≤ r.1 ∧ r.1 ≤ 8 ∧ q = regMap r.1 ∧ q = fregMap r.1 := by
    decide +kernel
  refine ⟨s3, h1, ⟨g1, fun q hq hnk => ?_, fun q hq => ?_, fun q hq => ?_, fun q q1 q2 => ?_, ⟨?_, ?_⟩, g2⟩, fun e => ?_, ?_, fun r hr hn => ?_⟩
  · rw [saved_list] at hq
    obtain ⟨k, hk, rfl⟩ := List.mem_map.1 hq
    rw [List.mem_range] at hk
    have hkk : p.kept ≤ k := by
      by_contra hlt
      exact hnk (by rw [kept_list _ hk3]; exact List.mem_map.2 ⟨k, by rw [List.mem_range]; omega, rfl⟩)
    by_cases hm : 23 - k ∈ p.regs
    · obtain ⟨j, hj, e⟩ := List.getElem_of_mem hm
      have := g4 j hj
      rw [e] at this
      refine this.trans ?_
      have sl := slot hf he hb (j + 1) (by omega)
      refine sl.trans ?_
      simp only [Frame.saved, List.getElem_cons_succ]
      rw [List.getElem_append_left (by simpa using hj), List.getElem_map, e]
      rfl
    · have hm' := hm
      rw [Frame.mem_regs hf] at hm'
      have hn := hne (23 - k) (by omega) (by omega)
      refine (g6 _ hn.1 hn.2.1 hn.2.2.1 (hnr _ (by omega) hm)).trans ?_
      refine (hb.regs (23 - k) (by omega) (by omega) (by omega)).trans ?_
      refine he.other _ hn.2.1 hn.2.2.2 hn.2.2.1 fun i hi e => ?_
      have hsav := h.sav
      have : args.countP Arg.saved ≤ p.sav := by split at hsav <;> omega
      have := rm_inj _ (by omega) _ (by omega) e
      omega
  · rw [fsaved_list] at hq
    obtain ⟨k, hk, rfl⟩ := List.mem_map.1 hq
    rw [List.mem_range] at hk
    by_cases hm : 30 - k ∈ p.fregs
    · obtain ⟨j, hj, e⟩ := List.getElem_of_mem hm
      have := g5 j hj
      rw [e] at this
      refine this.trans ?_
      have sl := slot hf he hb (p.regs.length + j + 1) (by omega)
      refine sl.trans ?_
      simp only [Frame.saved, List.getElem_cons_succ]
      rw [List.getElem_append_right (by simp only [List.length_map]; omega), List.getElem_map]
      have e2 : p.regs.length + j - (p.regs.map fun r => s.core.x (regMap r)).length = j := by simp only [List.length_map]; omega
      simp only [e2, e]
      rfl
    · have hm' := hm
      rw [Frame.mem_fregs hf] at hm'
      have hn : fregMap (30 - k) ∉ p.fregs.map fregMap := by
        intro hmm
        obtain ⟨a, ha, e⟩ := List.mem_map.1 hmm
        have := Frame.fregs_range hf ha
        exact hm (Frame.frm_inj _ (by omega) (by omega) _ (by omega) (by omega) e ▸ ha)
      refine (g7 _ hn).trans ((hb.fregs (30 - k) (by omega) (by omega) (by omega)).trans ?_)
      rw [he.f]
  · rw [kept_list _ hk3] at hq
    obtain ⟨k, hk, rfl⟩ := List.mem_map.1 hq
    rw [List.mem_range] at hk
    have hn := hne (23 - k) (by omega) (by omega)
    exact g6 _ hn.1 hn.2.1 hn.2.2.1 (hnr _ (by omega) (by rw [Frame.mem_regs hf]; omega))
  · obtain ⟨n1, n2, n7, r, r1, r8, e, ef⟩ := h10 q q1 q2
    refine ⟨g6 q n1 n2 n7 ?_, g7 q ?_⟩
    · rw [e]
      exact hnr _ (by omega) (by rw [Frame.mem_regs hf]; omega)
    · rw [ef]
      intro hmm
      obtain ⟨a, ha, e⟩ := List.mem_map.1 hmm
      have := Frame.fregs_range hf ha
      have := Frame.frm_inj _ (by omega) (by omega) _ (by omega) (by omega) e
      omega
  · refine g6 3#5 (by decide) (by decide) (by decide) ?_
    intro hmm
    obtain ⟨a, ha, e⟩ := List.mem_map.1 hmm
    have h12 := Frame.regs_range hf ha
    exact (user_34 a ⟨by omega, by omega⟩).1 e
  · refine g6 4#5 (by decide) (by decide) (by decide) ?_
    intro hmm
    obtain ⟨a, ha, e⟩ := List.mem_map.1 hmm
    have h12 := Frame.regs_range hf ha
    exact (user_34 a ⟨by omega, by omega⟩).2 e
  · refine (g3 e).trans ?_
    exact slot hf he hb 0 (by omega)
  · refine g6 6#5 (by decide) (by decide) (by decide) ?_
    intro hmm
    obtain ⟨a, ha, e⟩ := List.mem_map.1 hmm
    have h12 := Frame.regs_range hf ha
    exact (hne a (by omega) (by omega)).2.2.2 e
  · by_cases h0 : r = 0
    · subst h0; rfl
    · have hn' := hne r (by omega) hr
      refine g6 _ hn'.1 hn'.2.1 hn'.2.2.1 (hnr _ (by omega) ?_)
      intro hmm
      have h12 := Frame.regs_range hf hmm
      rw [Frame.mem_regs hf] at hmm
      simp only [Frame.restored, decide_eq_false_iff_not, FIRST_SAVED_REG] at hn
      have : SLJIT_S0 = 23 := rfl
      omega

/-- The state after the jump instruction differs from the state before it in `pc` and possibly in ra. -/
theorem Restored.jump {p : Frame} {s s2 s3 : St} (h : Restored p s s2 s3) (v pc : BitVec 64) :
    Restored p s s2 { s3.wr 0#5 v with pc := pc } := by
  have e : ∀ q, St.rd { s3.wr 0#5 v with pc := pc } q = s3.rd q := by
    intro q
    change (s3.wr 0#5 v).rd q = _
    rw [rd_wr]
    by_cases hq : q = 0#5
    · simp [hq, St.rd]
    · simp [hq]
  exact ⟨(e _).trans h.sp, fun q a b => (e _).trans (h.saved q a b), h.fsaved, fun q a => (e _).trans (h.kept q a),
    fun q a b => ⟨(e _).trans (h.res q a b).1, (h.res q a b).2⟩, ⟨(e _).trans h.fixed.1, (e _).trans h.fixed.2⟩, h.mem⟩

/-! ## C30 -/

/-- **C30.**  Every legal sljit_emit_enter, followed by any body that keeps to its declared registers and does not write to its frame
above the locals, followed by sljit_emit_return_void: execution reaches the return address with the stack pointer, all callee saved
integer registers but the kept ones and all callee saved float registers as they were at entry. -/
theorem c30_return (cfg : Cfg) (p : Frame) (regArg : Bool) (ret : Nat) (args : List Arg) (hr : ret < 16) (h : Legal p regArg args) (s : St) :
    ∃ s1, run (emitEnter cfg p regArg (descr ret args)) s = some s1 ∧
      ∀ s2 code, Body p s1 s2 → CodeAt code s2.pc (emitReturnVoid cfg p) →
        ∃ s3, Steps code s2 s3 ∧ s3.pc = s.rd 1#5 &&& ~~~1#64 ∧ s3.rd 1#5 = s.rd 1#5 ∧ Restored p s s2 s3 := by
  obtain ⟨s1, h1, he⟩ := entered (cfg := cfg) hr h s
  refine ⟨s1, h1, fun s2 code hb hc => ?_⟩
  obtain ⟨s3, k1, k2, k3, -, -⟩ := released (cfg := cfg) (rt := false) h he hb
  rw [emitReturnVoid, CodeAt_append, ← run_pc k1] at hc
  have hst := step_jalr hc.2
  refine ⟨_, (steps_of_run hc.1 k1).trans (.step hst (.refl _)), ?_, ?_, k2.jump (s3.pc + 4#64) (s3.rd (regMap TMP_REG2) &&& ~~~1#64)⟩
  · change s3.rd (regMap TMP_REG2) &&& _ = _
    rw [rm26, k3 rfl]
  · change (s3.wr 0#5 (s3.pc + 4#64)).rd 1#5 = _
    rw [rd_wr]
    exact k3 rfl

/-- **C30, with a result.**  sljit_emit_return delivers the value of its operand, converted by the move, in SLJIT_R0 (a0). -/
theorem c30_return_value (cfg : Cfg) (p : Frame) (regArg : Bool) (ret : Nat) (args : List Arg) (hr : ret < 16) (h : Legal p regArg args)
    (o : Op1C) (is32 : Bool) (src : Opd) (ho : C24.IsMove o) (hs : Src src) (s : St) :
    ∃ s1, run (emitEnter cfg p regArg (descr ret args)) s = some s1 ∧
      ∀ s2 code, Body p s1 s2 → CodeAt code s2.pc (emitReturn cfg p o is32 src) →
        ∃ s3, Steps code s2 s3 ∧ s3.pc = s.rd 1#5 &&& ~~~1#64 ∧
          s3.rd 10#5 = C24.moved o (C24.value1 (C24.width o is32) false s2 src) ∧
          s3.rd 2#5 = s.rd 2#5 ∧ (∀ q ∈ calleeSaved, q ∉ keptRegs p.kept → s3.rd q = s.rd q) ∧ (∀ q ∈ calleeSaved, s3.f q = s.f q) ∧
          (∀ q ∈ keptRegs p.kept, s3.rd q = s2.rd q) ∧ s3.mem = s2.mem := by
  obtain ⟨s1, h1, h2⟩ := c30_return cfg p regArg ret args hr h s
  refine ⟨s1, h1, fun s2 code hb hc => ?_⟩
  rw [emitReturn, CodeAt_append] at hc
  have key : ∃ s2', Steps code s2 s2' ∧ CodeAt code s2'.pc (emitReturnVoid cfg p) ∧
      s2'.rd 10#5 = C24.moved o (C24.value1 (C24.width o is32) false s2 src) ∧ s2'.mem = s2.mem ∧ s2'.f = s2.f ∧
      ∀ r, 2 ≤ r → r ≤ 24 → s2'.rd (regMap r) = s2.rd (regMap r) := by
    by_cases hsk : src = .reg R0 ∧ ((o = .mov ∧ is32 = false) ∨ o = .movP)
    · rw [if_pos hsk] at hc
      refine ⟨s2, .refl _, ?_, ?_, rfl, rfl, fun _ _ _ => rfl⟩
      · simpa using hc.2
      · obtain ⟨e, ⟨e1, e2⟩ | e1⟩ := hsk
        · subst e; subst e1; subst e2; rfl
        · subst e; subst e1; rfl
    · rw [if_neg hsk] at hc
      obtain ⟨s2', g1, g2, -⟩ := C24.c25_move_partial cfg o is32 (.reg R0) src s2 ho (by simp [Dst, UserReg, R0]) (by simp [R0]) hs
        (by rintro ⟨-, -, -, b, i, w, e⟩; cases e)
      refine ⟨s2', steps_of_run hc.1 g1, ?_, g2.reg R0 rfl, g2.mem, g2.fregs, fun r r2 r24 => g2.user r ⟨by omega, r24⟩ ?_⟩
      · rw [run_pc g1]; exact hc.2
      · simp only [R0, ne_eq, Opd.reg.injEq]; omega
  obtain ⟨s2', g1, g2, g3, g4, g5, g6⟩ := key
  have hb' : Body p s1 s2' := by
    refine ⟨(g6 24 (by omega) (by omega)).trans hb.sp, fun r a b c => ?_, fun r a b c => by rw [g5]; exact hb.fregs r a b c, fun q a b => by
      rw [g4]; exact hb.mem q a b⟩
    rw [g6 r (by omega) (by omega)]; exact hb.regs r a b c
  obtain ⟨s3, k1, k2, -, k3⟩ := h2 s2' code hb' g2
  refine ⟨s3, g1.trans k1, k2, ((k3.res 10#5 (by decide) (by decide)).1).trans g3, k3.sp, k3.saved, k3.fsaved, fun q hq => ?_, k3.mem.trans g4⟩
  rw [k3.kept q hq]
  rw [kept_list _ h.frame.kept] at hq
  obtain ⟨k, hk, rfl⟩ := List.mem_map.1 hq
  rw [List.mem_range] at hk
  have := h.frame.kept
  exact g6 _ (by omega) (by omega)

/-- A jump target in a register or in memory. -/
def Target : Opd → Prop
  | .reg r => 1 ≤ r ∧ r ≤ 23
  | .imm _ => False
  | .mem b i _ => b ≤ 24 ∧ i ≤ 24

/-- The target is loaded or moved away in front of the release. -/
theorem target {cfg : Cfg} {p : Frame} {src : Opd} (ht : Target src) (s : St) :
    ∃ s', run (targetReg cfg p src).1 s = some s' ∧ s'.mem = s.mem ∧ s'.f = s.f ∧ (∀ q, q ≠ 6#5 → q ≠ 7#5 → s'.rd q = s.rd q) ∧
      s'.rd (regMap (targetReg cfg p src).2) = value false s src ∧
      ((targetReg cfg p src).2 = TMP_REG1 ∨ (1 ≤ (targetReg cfg p src).2 ∧ (targetReg cfg p src).2 ≤ 23 ∧ p.restored (targetReg cfg p src).2 = false)) := by
  cases src with
  | imm => exact absurd ht (by simp [Target])
  | mem b i w =>
    obtain ⟨hb, hi⟩ := ht
    have hu := user_ne hb
    obtain ⟨s', h1, h2, h3⟩ := opMem_load (cfg := cfg) (sz := .word) (sg := false) (reg := TMP_REG1) (b := b) (i := i) (w := w) (c := s.core)
      (by decide) (by decide) (by decide) hu.2.2.2.1 (Or.inr (Or.inl (by rw [rm25]; exact hu.2.2.1))) s rfl
    refine ⟨s', h1, h3.2.1, h3.2.2, fun q a b => h3.1 q (by simp [rm25, a, b]), ?_, Or.inl rfl⟩
    change s'.core.x (regMap TMP_REG1) = _
    rw [h2, addr_eq]
    rfl
  | reg r =>
    simp only [targetReg]
    cases hr : p.restored r with
    | true =>
      simp only [if_true]
      obtain ⟨s', h1, h2⟩ := (wp_ADDI TMP_REG1 r 0#64 (c := s.core) (Q := fun c => c = s.core.wr 6#5 (s.rd (regMap r)))).2
        (by simp [IOp.eval, rm25]) s rfl
      refine ⟨s', h1, congrArg Core.mem h2, congrArg Core.f h2, fun q a b => ?_, ?_, Or.inl (by trivial)⟩
      · have := congrArg (fun c => Core.x c q) h2
        simpa [a] using this
      · have := congrArg (fun c => Core.x c 6#5) h2
        simpa [rm25, value] using this
    | false =>
      simp only [Bool.false_eq_true, if_false]
      refine ⟨s, rfl, rfl, rfl, fun _ _ _ => rfl, rfl, Or.inr ⟨ht.1, ht.2, hr⟩⟩

/-- Common part of the exits that jump to a computed target. -/
theorem exit_to {cfg : Cfg} {p : Frame} {regArg rt : Bool} {args : List Arg} (h : Legal p regArg args) {s s1 s2 : St} (he : Entered p args s s1)
    (hb : Body p s1 s2) {src : Opd} (ht : Target src) {code : Code}
    (hc : CodeAt code s2.pc ((targetReg cfg p src).1 ++ (emitRelease cfg p rt ++ ijumpReg cfg false (targetReg cfg p src).2))) :
    ∃ s3, Steps code s2 s3 ∧ s3.pc = value false s2 src &&& ~~~1#64 ∧ (rt = false → s3.rd 1#5 = s.rd 1#5) ∧ Restored p s s2 s3 := by
  obtain ⟨s', g1, g2, g3, g4, g5, g6⟩ := target (cfg := cfg) (p := p) ht s2
  have hne : ∀ r, 1 ≤ r → r ≤ 24 → regMap r ≠ 6#5 ∧ regMap r ≠ 7#5 := fun r _ h => ⟨(user_ne h).2.2.1, (user_ne h).2.2.2.1⟩
  have hb' : Body p s1 s' := by
    refine ⟨(g4 2#5 (by decide) (by decide)).trans hb.sp, fun r a b c => ?_, fun r a b c => by rw [g3]; exact hb.fregs r a b c, fun q a b => by
      rw [g2]; exact hb.mem q a b⟩
    have := hne r (by omega) (by omega)
    rw [g4 _ this.1 this.2]; exact hb.regs r a b c
  obtain ⟨s3, k1, k2, k3, k4, k5⟩ := released (cfg := cfg) (rt := rt) h he hb'
  rw [CodeAt_append, CodeAt_append, ← run_pc g1, ← run_pc k1] at hc
  have hz : regMap (targetReg cfg p src).2 ≠ 0#5 ∧ s3.rd (regMap (targetReg cfg p src).2) = value false s2 src := by
    rcases g6 with e | ⟨a, b, c⟩
    · rw [e] at g5 ⊢
      exact ⟨by decide, k4.trans g5⟩
    · refine ⟨?_, (k5 _ b c).trans g5⟩
      have : ∀ r, 1 ≤ r → r ≤ 23 → regMap r ≠ 0#5 := by decide +kernel
      exact this _ a b
  have hst := step_ijump hz.1 hc.2.2
  refine ⟨_, (steps_of_run hc.1 g1).trans ((steps_of_run hc.2.1 k1).trans (.step hst (.refl _))), ?_, fun e => ?_, ?_⟩
  · change s3.rd _ &&& _ = _
    rw [hz.2]
  · change (s3.wr 0#5 (s3.pc + BitVec.ofNat 64 (2 * (ijumpReg cfg false (targetReg cfg p src).2).length))).rd 1#5 = _
    rw [rd_wr]
    exact k3 e
  · have r2 : Restored p s s2 s3 := by
      have hk := h.frame.kept
      refine ⟨k2.sp, k2.saved, k2.fsaved, fun q hq => ?_, fun q a b => ?_, ⟨?_, ?_⟩, k2.mem.trans g2⟩
      · rw [k2.kept q hq]
        rw [kept_list _ hk] at hq
        obtain ⟨k, hk, rfl⟩ := List.mem_map.1 hq
        rw [List.mem_range] at hk
        have := hne (23 - k) (by omega) (by omega)
        exact g4 _ this.1 this.2
      · have n : ∀ q : Reg, 10 ≤ q.toNat → q ≠ 6#5 ∧ q ≠ 7#5 := by decide +kernel
        rw [(k2.res q a b).1, (k2.res q a b).2, g3]
        exact ⟨g4 q (n q a).1 (n q a).2, rfl⟩
      · rw [k2.fixed.1]; exact g4 _ (by decide) (by decide)
      · rw [k2.fixed.2]; exact g4 _ (by decide) (by decide)
    exact r2.jump _ _

/-- **C30 for sljit_emit_return_to.**  The saved registers are restored and execution continues at the target, evaluated before
the frame is released. -/
theorem c30_return_to (cfg : Cfg) (p : Frame) (regArg : Bool) (ret : Nat) (args : List Arg) (hr : ret < 16) (h : Legal p regArg args) (s : St) :
    ∃ s1, run (emitEnter cfg p regArg (descr ret args)) s = some s1 ∧
      ∀ s2 code src, Body p s1 s2 → Target src → CodeAt code s2.pc (emitReturnTo cfg p src) →
        ∃ s3, Steps code s2 s3 ∧ s3.pc = value false s2 src &&& ~~~1#64 ∧ Restored p s s2 s3 := by
  obtain ⟨s1, h1, he⟩ := entered (cfg := cfg) hr h s
  refine ⟨s1, h1, fun s2 code src hb ht hc => ?_⟩
  obtain ⟨s3, a, b, -, d⟩ := exit_to h he hb ht hc
  exact ⟨s3, a, b, d⟩

/-- **C30 for sljit_emit_icall with SLJIT_CALL_RETURN.**  The callee is entered as if the caller had called it: return address,
stack pointer and callee saved registers are those at entry, the argument registers are those of the call. -/
theorem c30_tail_call (cfg : Cfg) (p : Frame) (regArg : Bool) (ret : Nat) (args : List Arg) (hr : ret < 16) (h : Legal p regArg args) (s : St) :
    ∃ s1, run (emitEnter cfg p regArg (descr ret args)) s = some s1 ∧
      ∀ s2 code src, Body p s1 s2 → Target src → CodeAt code s2.pc (emitICall cfg p true src) →
        ∃ s3, Steps code s2 s3 ∧ s3.pc = value false s2 src &&& ~~~1#64 ∧ s3.rd 1#5 = s.rd 1#5 ∧ Restored p s s2 s3 := by
  obtain ⟨s1, h1, he⟩ := entered (cfg := cfg) hr h s
  refine ⟨s1, h1, fun s2 code src hb ht hc => ?_⟩
  obtain ⟨s3, a, b, c, d⟩ := exit_to (rt := false) h he hb ht hc
  exact ⟨s3, a, b, c rfl, d⟩

/-- **Indirect jumps and calls.**  sljit_emit_ijump (and sljit_emit_icall without SLJIT_CALL_RETURN) reaches the target with all
registers of the application, the argument registers among them, and memory unchanged; a call leaves the address behind its own code
in ra. -/
theorem c30_ijump (cfg : Cfg) (link : Bool) (src : Opd) (s : St) (code : Code) (ht : Target src) (hc : CodeAt code s.pc (emitIJump cfg link src)) :
    ∃ s', Steps code s s' ∧ s'.pc = value false s src &&& ~~~1#64 ∧ s'.mem = s.mem ∧ s'.f = s.f ∧
      (∀ q, q ≠ 1#5 → q ≠ 6#5 → q ≠ 7#5 → s'.rd q = s.rd q) ∧
      s'.rd 1#5 = if link then s.pc + BitVec.ofNat 64 (2 * (emitIJump cfg link src).length) else s.rd 1#5 := by
  cases src with
  | imm => exact absurd ht (by simp [Target])
  | reg r =>
    have hz : ∀ r, 1 ≤ r → r ≤ 23 → regMap r ≠ 0#5 := by decide +kernel
    refine ⟨_, .step (step_ijump (hz r ht.1 ht.2) hc) (.refl _), rfl, rfl, rfl, fun q a b c => ?_, ?_⟩
    · change (s.wr _ _).rd q = _
      rw [rd_wr]
      cases link <;> by_cases hq : q = 0#5 <;> simp [a, hq, St.rd]
    · change (s.wr _ _).rd 1#5 = _
      rw [rd_wr]
      cases link <;> simp [emitIJump]
  | mem b i w =>
    obtain ⟨s1, g1, g2, g3, g4, g5, -⟩ := target (cfg := cfg) (p := ⟨0, 0, 0, 0, 0, 0⟩) (src := .mem b i w) ht s
    rw [emitIJump, CodeAt_append, ← run_pc (show run (emitOpMem cfg (.g .word false) true TMP_REG1 b i w) s = some s1 from g1)] at hc
    have hst := step_ijump (by decide) hc.2
    refine ⟨_, (steps_of_run hc.1 g1).trans (.step hst (.refl _)), ?_, g2, g3, fun q a b c => ?_, ?_⟩
    · change s1.rd _ &&& _ = _
      rw [show s1.rd (regMap TMP_REG1) = _ from g5]
    · change (s1.wr _ _).rd q = _
      rw [rd_wr, ← g4 q b c]
      cases link <;> by_cases hq : q = 0#5 <;> simp [a, hq, St.rd]
    · change (s1.wr _ (s1.pc + _)).rd 1#5 = _
      rw [rd_wr, ← g4 1#5 (by decide) (by decide)]
      cases link with
      | false => simp
      | true =>
        simp only [if_true, if_neg (show ¬ (1#5 = 0#5) by decide)]
        rw [run_pc (show run (emitOpMem cfg (.g .word false) true TMP_REG1 b i w) s = some s1 from g1), emitIJump, List.length_append]
        apply BitVec.eq_of_toNat_eq
        simp only [BitVec.toNat_add, BitVec.toNat_ofNat]
        omega

/-! ## C31 -/

/-- **C31.**  The frame is `total` bytes below the stack pointer of the caller, a multiple of 16; `locals` bytes at its lower end
belong to the function: the save area above holds nothing of them (`c30_return` lets the body write any value there), and nothing at or above
the stack pointer of the caller and nothing below the frame is written at entry. -/
theorem c31 (cfg : Cfg) (p : Frame) (regArg : Bool) (ret : Nat) (args : List Arg) (hr : ret < 16) (h : Legal p regArg args) (s : St) :
    ∃ s1, run (emitEnter cfg p regArg (descr ret args)) s = some s1 ∧
      s1.rd 2#5 = s.rd 2#5 - BitVec.ofNat 64 p.total ∧ p.total % 16 = 0 ∧
      (∀ off, off < p.locals → (s.rd 2#5 - (s1.rd 2#5 + BitVec.ofNat 64 off)).toNat ≤ p.total ∧
        8 * (1 + (p.sav - p.kept) + (p.scr - 11) + p.fsav + (p.fscr - 18)) < (s.rd 2#5 - (s1.rd 2#5 + BitVec.ofNat 64 off)).toNat) ∧
      ∀ q, 8 * (1 + (p.sav - p.kept) + (p.scr - 11) + p.fsav + (p.fscr - 18)) ≤ (s.rd 2#5 - 1#64 - q).toNat → s1.mem q = s.mem q := by
  obtain ⟨s1, h1, he⟩ := entered (cfg := cfg) hr h s
  have tge := Frame.total_ge h.frame
  have tlt := Frame.total_lt h.frame
  have hs := Frame.size_le h.frame
  have hloc := h.frame.locals
  rw [Frame.length_regs h.frame, Frame.length_fregs h.frame] at *
  refine ⟨s1, h1, he.sp, Frame.total_16, fun off ho => ?_, fun q hq => ?_⟩
  · rw [he.sp]
    simp only [BitVec.toNat_sub, BitVec.toNat_add, BitVec.toNat_ofNat]
    omega
  · rw [he.mem]
    refine saveTo_out _ _ _ ?_ _ ?_ <;> rw [Frame.length_saved, Frame.length_regs h.frame, Frame.length_fregs h.frame] <;> omega

/-! ## C32 -/

/-- **C32.**  After sljit_emit_enter every argument is where sljitLir.h:345-392 says.  The `i`-th word argument arrives in `a(i)`; it is
in R(i) if it has the `_R` suffix, otherwise in S(j) where `j` counts the earlier words without the suffix.  The `i`-th float
argument arrives in `fa(i)` and is in FR(i). -/
theorem c32 (cfg : Cfg) (p : Frame) (regArg : Bool) (ret : Nat) (args : List Arg) (hr : ret < 16) (h : Legal p regArg args) (s : St) :
    ∃ s1, run (emitEnter cfg p regArg (descr ret args)) s = some s1 ∧
      ∀ n (hn : n < args.length),
        (args[n].word = true → args[n].saved = false →
          s1.rd (regMap (1 + (args.take n).countP Arg.word)) = s.rd (BitVec.ofNat 5 (10 + (args.take n).countP Arg.word))) ∧
        (args[n].saved = true →
          s1.rd (regMap (23 - (args.take n).countP Arg.saved)) = s.rd (BitVec.ofNat 5 (10 + (args.take n).countP Arg.word))) ∧
        (args[n].float = true →
          s1.f (fregMap (1 + (args.take n).countP Arg.float)) = s.f (BitVec.ofNat 5 (10 + (args.take n).countP Arg.float))) := by
  obtain ⟨s1, h1, he⟩ := entered (cfg := cfg) hr h s
  have hw : ∀ k, k ≤ 4 → regMap (1 + k) = BitVec.ofNat 5 (10 + k) ∧ fregMap (1 + k) = BitVec.ofNat 5 (10 + k) := by decide +kernel
  have hl : ∀ (f : Arg → Bool) n, (args.take n).countP f ≤ 4 := fun f n =>
    ((List.take_sublist n args).countP_le).trans ((List.countP_le_length).trans h.count)
  refine ⟨s1, h1, fun n hn => ⟨fun _ _ => ?_, fun a => ?_, fun _ => ?_⟩⟩
  · rw [← (hw _ (hl _ n)).1]
    have n1 : ∀ k, k ≤ 4 → regMap (1 + k) ≠ 2#5 ∧ regMap (1 + k) ≠ 6#5 ∧ regMap (1 + k) ≠ 7#5 := by decide +kernel
    have n2 : ∀ k, k ≤ 4 → ∀ j, j ≤ 4 → regMap (1 + k) ≠ regMap (23 - j) := by decide +kernel
    have := n1 _ (hl Arg.word n)
    have hc : args.countP Arg.saved ≤ 4 := (List.countP_le_length).trans h.count
    exact he.other _ this.1 this.2.1 this.2.2 fun k hk => n2 _ (hl _ n) k (by omega)
  · rw [← (hw _ (hl _ n)).1]
    exact he.args n hn a
  · rw [he.f, (hw _ (hl _ n)).2]

/-! ## Argument checks -/

/-- The checks of sljit_emit_enter accept only frames covered above, if the kept registers are declared saved registers. -/
theorem c30_checked (kept scratches saveds locals : Nat) (h : checkCounts kept scratches saveds locals = true)
    (hk : kept ≤ saveds % 256) : (frameOf kept scratches saveds locals).Ok ∧
      (frameOf kept scratches saveds locals).totalC = (frameOf kept scratches saveds locals).total := by
  simp only [checkCounts, decide_eq_true_eq] at h
  refine ⟨⟨h.1, hk, ?_, ?_, ?_, ?_, ?_⟩, ?_⟩
  all_goals simp only [frameOf]
  any_goals omega
  simp only [Frame.totalC, Frame.total]
  split <;> split <;> omega

/-- The condition is needed: check_sljit_emit_enter compares the number of kept registers with `saveds` including its float and vector
counts (sljitLir.c:1433), so three kept registers with no saved register and one saved float register pass.  The frame then gets a
size of 0 although the return address and the float register are stored: they end up below the stack pointer. -/
theorem c30_kept_false : checkCounts 3 0 0x100 0 = true ∧ ¬ (frameOf 3 0 0x100 0).Ok ∧ (frameOf 3 0 0x100 0).totalC = 0 :=
  ⟨by decide, fun h => absurd h.keptSav (by decide), by decide⟩

/-! ## The hypotheses can be met -/

/-- Five scratch registers above the callee saved limit, kept registers, a frame beyond the reach of one displacement. -/
example : Legal ⟨0, 13, 4, 20, 3, 5000⟩ false [.w false, .f64, .p true, .w32 false] :=
  ⟨⟨by decide, by decide, by decide, by decide, by decide, by decide, by decide⟩, by decide, by decide, by decide⟩
example : Legal ⟨2, 3, 4, 0, 0, 0⟩ true [.w true, .f32] :=
  ⟨⟨by decide, by decide, by decide, by decide, by decide, by decide, by decide⟩, by decide, by decide, by decide⟩
/-- A body that changes declared registers and locals. -/
example (s1 : St) : Body ⟨0, 13, 4, 20, 3, 5000⟩ s1
    { (s1.wr 8#5 1#64).wr 27#5 2#64 with mem := fun q => if q = s1.rd 2#5 + 100#64 then 7#8 else s1.mem q } := by
  have e : ∀ q : Reg, q ≠ 8#5 → q ≠ 27#5 → ((s1.wr 8#5 1#64).wr 27#5 2#64).rd q = s1.rd q := by
    intro q a b
    by_cases h : q = 0#5
    · simp [h, St.rd]
    · simp [rd_wr, a, b, h]
  refine ⟨e 2#5 (by decide) (by decide), fun r a b c => e _ ?_ ?_, fun r _ _ _ => rfl, fun q a b => ?_⟩
  · have : ∀ r, 12 ≤ r → r ≤ 19 → regMap r ≠ 8#5 := by decide +kernel
    exact this r a c
  · have : ∀ r, 14 ≤ r → r ≤ 19 → regMap r ≠ 27#5 := by decide +kernel
    exact this r b c
  · change (if q = s1.rd 2#5 + 100#64 then 7#8 else s1.mem q) = _
    rw [if_neg]
    rintro rfl
    rw [BitVec.add_comm, BitVec.add_sub_cancel] at a
    exact absurd a (by decide)
example : C24.IsMove .movU8 ∧ Src (.mem 23 0 8#64) ∧ Target (.reg 23) ∧ Target (.mem 24 0 16#64) := by
  refine ⟨by simp [C24.IsMove], by simp [Src], by simp [Target], by simp [Target]⟩

end Verif.Props.C30
