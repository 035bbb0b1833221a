import Verif.Calls.Tables
/-
C33: argument passing of sljit_emit_call and sljit_emit_icall on machines where the argument registers of the C calling convention are
not SLJIT_R0, R1, ... / SLJIT_FR0, FR1, ... (MIPS64, PPC64, x86-64 System V and Windows, 32 bit ARM with VFP registers).
The specification is in Verif/Calls/Spec.lean.
-/

namespace Verif.Props.C33
open Verif.Calls

/-- C33, MIPS64: the code executed between the caller and the callee puts every argument where the n64 convention wants it, and changes
nothing but argument registers. -/
theorem c33_mips64 (ret : Nat) (hr : ret < 16) (args : List Ty) (h : args.length ≤ 4) (j : Loc → BitVec 32) (r : Regs) :
    ∃ r', execCode mipsStep j (Mips.emitCall false (descr ret args)) r = some r' ∧ Passed args (home mipsR mipsF) n64 r r' ∧
      Kept [4, 5, 6, 7] [12, 13, 14, 15] r r' := by
  obtain ⟨r', h1, h2, h3, _⟩ := checkCode_sound (of_shapes mips_table args h) j r
  refine ⟨r', ?_, passed_norm (home_u _ _) n64_u h2, h3⟩
  rw [← h1]; simp only [Mips.emitCall, mips_norm ret hr args]

/-- C33, MIPS64, indirect: moreover the jump goes through a register which holds the target, whatever register the caller named. -/
theorem c33_mips64_icall (ret : Nat) (hr : ret < 16) (args : List Ty) (h : args.length ≤ 4) (src : Nat) (hs : 1 ≤ src ∧ src ≤ 21)
    (j : Loc → BitVec 32) (r : Regs) :
    ∃ r', execCode mipsStep j (Mips.emitICall false (descr ret args) src).1 r = some r' ∧ Passed args (home mipsR mipsF) n64 r r' ∧
      Kept [4, 5, 6, 7, 25] [12, 13, 14, 15] r r' ∧ val r' (mipsR (Mips.emitICall false (descr ret args) src).2) = val r (mipsR src) := by
  obtain ⟨r', h1, h2, h3, h4⟩ := checkCode_sound (of_shapes_src (P := mipsI) mips_itable args h src hs.1 hs.2) j r
  refine ⟨r', ?_, passed_norm (home_u _ _) n64_u h2, h3, h4⟩
  rw [← h1]; simp only [Mips.emitICall, mips_norm ret hr args]

/-- C33, PPC64. -/
theorem c33_ppc64 (ret : Nat) (hr : ret < 16) (args : List Ty) (h : args.length ≤ 4) (j : Loc → BitVec 32) (r : Regs) :
    ∃ r', execCode ppcStep j (Ppc.emitCall false (descr ret args)) r = some r' ∧ Passed args (home ppcR Ppc.fregMap) elf64 r r' ∧
      Kept [3, 4, 5, 6] [] r r' := by
  obtain ⟨r', h1, h2, h3, _⟩ := checkCode_sound (of_shapes ppc_table args h) j r
  refine ⟨r', ?_, passed_norm (home_u _ _) elf64_u h2, h3⟩
  rw [← h1]; simp only [Ppc.emitCall, ppc_norm ret hr args]

/-- C33, PPC64, indirect, tail calls included. -/
theorem c33_ppc64_icall (ret : Nat) (hr : ret < 16) (args : List Ty) (h : args.length ≤ 4) (tail : Bool) (src : Nat) (hs : 1 ≤ src ∧ src ≤ 23)
    (j : Loc → BitVec 32) (r : Regs) :
    ∃ r', execCode ppcStep j (Ppc.emitICall false tail (descr ret args) src).1 r = some r' ∧
      Passed args (home ppcR Ppc.fregMap) elf64 r r' ∧ Kept [3, 4, 5, 6, 12] [] r r' ∧
      val r' (ppcR (Ppc.emitICall false tail (descr ret args) src).2) = val r (ppcR src) := by
  have e : Ppc.emitICall false tail (descr ret args) src = Ppc.callWithArgs (descr 0 (args.map (norm false))) src := by
    rw [← ppc_norm ret hr args]; cases tail <;> rfl
  rw [e]
  obtain ⟨r', h1, h2, h3, h4⟩ := checkCode_sound (of_shapes_src (P := ppcI) ppc_itable args h src hs.1 hs.2) j r
  exact ⟨r', h1, passed_norm (home_u _ _) elf64_u h2, h3, h4⟩

/-- C33, x86-64 System V: calls and indirect calls (`src = 0` stands for sljit_emit_call). -/
theorem c33_sysv (ret : Nat) (hr : ret < 16) (args : List Ty) (h : args.length ≤ 4) (src : Nat) (hs : src ≤ 13)
    (j : Loc → BitVec 32) (r : Regs) :
    ∃ r', execCode x86Step j (X86.emitCall false false (descr ret args) src).1 r = some r' ∧
      Passed args (home (X86.regMap false) X86.fregMap) sysv r r' ∧ Kept [7, 6, 2, 1] [] r r' ∧
      (1 ≤ src → val r' (X86.regMap false (X86.emitCall false false (descr ret args) src).2) = val r (X86.regMap false src)) := by
  rw [x86_norm false ret hr args]
  by_cases h0 : src = 0
  · subst h0
    obtain ⟨r', h1, h2, h3, _⟩ := checkCode_sound (of_shapes sysv_table args h) j r
    exact ⟨r', h1, passed_norm (home_u _ _) sysv_u h2, h3, fun h => absurd h (by decide)⟩
  · obtain ⟨r', h1, h2, h3, h4⟩ := checkCode_sound (of_shapes_src (P := sysvI) sysv_itable args h src (by omega) hs) j r
    exact ⟨r', h1, passed_norm (home_u _ _) sysv_u h2, h3, fun _ => h4⟩

/-- C33, x86-64 Windows. -/
theorem c33_win64 (ret : Nat) (hr : ret < 16) (args : List Ty) (h : args.length ≤ 4) (src : Nat) (hs : src ≤ 13)
    (j : Loc → BitVec 32) (r : Regs) :
    ∃ r', execCode x86Step j (X86.emitCall true false (descr ret args) src).1 r = some r' ∧
      Passed args (home (X86.regMap true) X86.fregMap) win64 r r' ∧ Kept [1, 2, 8, 9, 10] [0, 1, 2, 3] r r' ∧
      (1 ≤ src → val r' (X86.regMap true (X86.emitCall true false (descr ret args) src).2) = val r (X86.regMap true src)) := by
  rw [x86_norm true ret hr args]
  by_cases h0 : src = 0
  · subst h0
    obtain ⟨r', h1, h2, h3, _⟩ := checkCode_sound (of_shapes win_table args h) j r
    refine ⟨r', h1, passed_norm (home_u _ _) win64_u h2, ⟨fun n hi hn => h3.1 n hi fun hm => hn ?_, h3.2⟩, fun h => absurd h (by decide)⟩
    simp only [List.mem_cons, List.not_mem_nil, or_false] at hm ⊢; omega
  · obtain ⟨r', h1, h2, h3, h4⟩ := checkCode_sound (of_shapes_src (P := winI) win_itable args h src (by omega) hs) j r
    exact ⟨r', h1, passed_norm (home_u _ _) win64_u h2, h3, fun _ => h4⟩

/-- C33, 32 bit ARM (not Thumb-2) with VFP argument registers, calls, indirect calls and tail calls. -/
theorem c33_arm32 (ret : Nat) (hr : ret < 16) (args : List Ty) (h : args.length ≤ 4) (tail : Bool) (j : Loc → BitVec 32) (r : Regs) :
    ∃ r', execCode armStep j (Arm.emitCall false false tail (descr ret args)) r = some r' ∧ Passed args (home32 armR armF) aapcs r r' ∧
      Kept [] [0, 1, 2, 3] r r' := by
  have e : Arm.emitCall false false tail (descr ret args) = Arm.callWithArgs false (descr 0 (args.map (norm false))) := by
    rw [← arm_norm false ret hr args]; cases tail <;> rfl
  rw [e]
  obtain ⟨r', h1, h2, h3, _⟩ := checkCode_sound (of_shapes arm_table args h) j r
  exact ⟨r', h1, passed_norm (home32_u _ _) aapcs_u h2, h3⟩

/-- The registers after a code sequence. -/
def after {α : Type} (dec : α → Option (List Step)) (c : List α) (r : Regs) : Option Regs := execCode dec (fun _ => 0#32) c r

/-- C33 does not hold for Thumb-2: with three F32 arguments the third is moved to the odd half (s3) of the register in whose even half (s2)
the convention wants it (sljitNativeARM_T2_32.c:2996 has 0x400000 where sljitNativeARM_32.c:3440 has 0). -/
theorem c33_thumb_false : ¬ ∀ (args : List Ty) (r : Regs), args.length ≤ 4 →
    ∃ r', execCode armStep (fun _ => 0#32) (Arm.emitCall true false false (descr 0 args)) r = some r' ∧
      Passed args (home32 armR armF) aapcs r r' := by
  intro h
  let r : Regs := fun l => match l with
    | .f n _ => BitVec.ofNat 32 n
    | _ => 0#32
  obtain ⟨r', h1, h2⟩ := h [.f32, .f32, .f32] r (by decide)
  have h3 := h2 2 .f32 rfl
  have e : aapcs [.f32, .f32, .f32] 2 .f32 = [.f 1 false] := by decide
  have e' : home32 armR armF [.f32, .f32, .f32] 2 .f32 = [.f 2 false] := by decide
  rw [e, e'] at h3
  have h4 : (execCode armStep (fun _ => 0#32) (Arm.emitCall true false false (descr 0 [.f32, .f32, .f32])) r).map (fun q => q (.f 1 false)) =
      some 1#32 := by decide +kernel
  rw [h1] at h4
  simp only [List.map_cons, List.map_nil, List.cons.injEq, and_true] at h3
  simp only [Option.map_some, h3, Option.some.injEq] at h4
  exact absurd h4 (by decide)

/-- What holds for Thumb-2: up to two F32 arguments.  Missing: three or four of them (see c33_thumb_false). -/
theorem c33_thumb_partial (ret : Nat) (hr : ret < 16) (args : List Ty) (h : args.length ≤ 4) (h2 : args.countP (· == .f32) ≤ 2) (tail : Bool)
    (j : Loc → BitVec 32) (r : Regs) :
    ∃ r', execCode armStep j (Arm.emitCall true false tail (descr ret args)) r = some r' ∧ Passed args (home32 armR armF) aapcs r r' ∧
      Kept [] [0, 1, 2, 3] r r' := by
  have e : Arm.emitCall true false tail (descr ret args) = Arm.callWithArgs true (descr 0 (args.map (norm false))) := by
    rw [← arm_norm true ret hr args]; cases tail <;> rfl
  rw [e]
  have ht := of_shapes thumb_table args h
  rw [f32s_norm] at ht
  simp only [Bool.or_eq_true, decide_eq_true_eq] at ht
  obtain ⟨r', h1, h2, h3, _⟩ := checkCode_sound (ht.resolve_left (by omega)) j r
  exact ⟨r', h1, passed_norm (home32_u _ _) aapcs_u h2, h3⟩

/-- C33, SLJIT_CALL_REG_ARG: nothing is moved, except by the tail calls of c33_regarg_tail_false. -/
theorem c33_regarg (args : Nat) (src : Nat) (j : Loc → BitVec 32) (r : Regs) (win thumb : Bool) :
    execCode mipsStep j (Mips.emitCall true args) r = some r ∧ execCode mipsStep j (Mips.emitICall true args src).1 r = some r ∧
    execCode ppcStep j (Ppc.emitCall true args) r = some r ∧ execCode ppcStep j (Ppc.emitICall true false args src).1 r = some r ∧
    execCode x86Step j (X86.emitCall win true args src).1 r = some r ∧ execCode armStep j (Arm.emitCall thumb true false args) r = some r ∧
    (Mips.emitICall true args src).2 = src ∧ (Ppc.emitICall true false args src).2 = src ∧ (X86.emitCall win true args src).2 = src :=
  ⟨rfl, rfl, rfl, rfl, rfl, rfl, rfl, rfl, rfl⟩

/-- It is not so for tail calls on PPC64 (sljit_emit_icall, sljitNativePPC_common.c:2730-2744) and on ARM with VFP registers (sljit_emit_call and
sljit_emit_icall, sljitNativeARM_32.c:3497-3505, 3603-3611; sljitNativeARM_T2_32.c:3047-3057): `type` is replaced by SLJIT_JUMP before it is
compared to SLJIT_CALL_REG_ARG, so the arguments of the callee, which expects them in sljit's registers, are shuffled as for a C function.
PPC64: with (F64, W, W) R1 receives R0.  ARM: with (F32, F32, F64) FR1 receives FR2. -/
theorem c33_regarg_tail_false :
    (¬ ∀ (args : List Ty) (src : Nat) (r : Regs), args.length ≤ 4 → 1 ≤ src → src ≤ 23 →
      ∃ r', execCode ppcStep (fun _ => 0#32) (Ppc.emitICall true true (descr 0 args) src).1 r = some r' ∧
        Passed args (home ppcR Ppc.fregMap) (home ppcR Ppc.fregMap) r r') ∧
    ∀ thumb, ¬ ∀ (args : List Ty) (r : Regs), args.length ≤ 4 →
      ∃ r', execCode armStep (fun _ => 0#32) (Arm.emitCall thumb true true (descr 0 args)) r = some r' ∧
        Passed args (home32 armR armF) (home32 armR armF) r r' := by
  refine ⟨fun h => ?_, fun thumb h => ?_⟩
  · let r : Regs := fun l => match l with
      | .g n _ => BitVec.ofNat 32 n
      | _ => 0#32
    obtain ⟨r', h1, h2⟩ := h [.f64, .w true, .w true] 10 r (by decide) (by decide) (by decide)
    have h3 := h2 2 (.w true) rfl
    have e : home ppcR Ppc.fregMap [.f64, .w true, .w true] 2 (.w true) = [.g 4 false, .g 4 true] := by decide
    rw [e] at h3
    have h4 : (execCode ppcStep (fun _ => 0#32) (Ppc.emitICall true true (descr 0 [.f64, .w true, .w true]) 10).1 r).map
        (fun q => q (.g 4 false)) = some 3#32 := by decide +kernel
    rw [h1] at h4
    simp only [List.map_cons, List.map_nil, List.cons.injEq, and_true] at h3
    simp only [Option.map_some, h3.1, Option.some.injEq] at h4
    exact absurd h4 (by decide)
  · let r : Regs := fun l => match l with
      | .f n _ => BitVec.ofNat 32 n
      | _ => 0#32
    obtain ⟨r', h1, h2⟩ := h [.f32, .f32, .f64] r (by decide)
    have h3 := h2 1 .f32 rfl
    have e : home32 armR armF [.f32, .f32, .f64] 1 .f32 = [.f 1 false] := by decide
    rw [e] at h3
    have h4 : (execCode armStep (fun _ => 0#32) (Arm.emitCall thumb true true (descr 0 [.f32, .f32, .f64])) r).map
        (fun q => q (.f 1 false)) = some 2#32 := by cases thumb <;> decide +kernel
    rw [h1] at h4
    simp only [List.map_cons, List.map_nil, List.cons.injEq, and_true] at h3
    simp only [Option.map_some, h3, Option.some.injEq] at h4
    exact absurd h4 (by decide)

/-- C32 on 32 bit ARM with VFP registers: sljit_emit_enter finds every argument where the convention has put it and leaves it in the register
sljit promises; only saved registers (already stored in the frame) and argument registers are written. -/
theorem c32_arm32 (ret : Nat) (hr : ret < 16) (args : List Ty) (h : args.length ≤ 4) (j : Loc → BitVec 32) (r : Regs) :
    ∃ r', execCode armStep j (Arm.enterArgs (descr ret args)) r = some r' ∧ Passed args aapcs (entered32 armR armF armS) r r' ∧
      Kept [4, 5, 6, 7] [0, 1, 2, 3] r r' := by
  rw [arm_enter_norm ret hr args]
  obtain ⟨r', h1, h2, h3, _⟩ := checkCode_sound (of_shapes arm_enter_table args h) j r
  refine ⟨r', h1, fun n t hn => ?_, h3⟩
  have := h2 n (norm true t) (by rw [List.getElem?_map, hn]; rfl)
  rwa [aapcs_u, entered_norm] at this

/-! ## Non-vacuity -/

/-- A double, a word and a float on MIPS64: $f12, $5, $f14 receive FR0, R0, FR1. -/
example : ((after mipsStep (Mips.emitCall false (descr 0 [.f64, .w false, .f32])) fun l => match l with
    | .g n _ => BitVec.ofNat 32 (100 + n)
    | .f n _ => BitVec.ofNat 32 n).map fun r => (r (.f 12 true), r (.g 5 false), r (.f 14 false))) = some (0#32, 102#32, 13#32) := by
  decide +kernel

/-- Four words on System V: rdi, rsi, rdx, rcx receive rax, rsi, rdi, rcx; a target in R2 = rdi is called through rdx. -/
example : ((after x86Step (X86.emitCall false false (descr 0 [.w false, .w false, .w32 true, .p false]) 3).1 fun l => match l with
    | .g n _ => BitVec.ofNat 32 n
    | _ => 0#32).map fun r => (r (.g 7 false), r (.g 6 false), r (.g 2 false), r (.g 1 false))) = some (0#32, 6#32, 7#32, 1#32) ∧
    (X86.emitCall false false (descr 0 [.w false, .w false, .w32 true, .p false]) 3).2 = X86.TMP_REG1 := by decide +kernel

/-- (F32, F64, F32) on ARM: s0, d1, s1. -/
example : aapcs [.f32, .f64, .f32] 2 .f32 = [.f 0 true] ∧ Arm.emitCall false false false (descr 0 [.f32, .f64, .f32]) ≠ [] := by decide +kernel

end Verif.Props.C33
