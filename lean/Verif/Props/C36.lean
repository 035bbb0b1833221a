import Verif.Imm.Arm64Load
import Verif.Imm.ThumbLoad
import Verif.Imm.LoongLemmas
import Verif.Imm.S390xLemmas
import Verif.Imm.PpcLemmas
import Verif.Imm.MipsLemmas
import Verif.X86.Eff
/-
C36: the instruction words emitted for a constant, decoded and executed by the rules of the architecture (A64, A32, La, Z, Pp, Mi),
put exactly this constant into the destination and change no other register.  The register numbers are those of sljit: 1 is SLJIT_R0.
-/

namespace Verif.Props.C36
open Verif.Imm

/-- C36, ARM64 (every register but the zero register, temporaries included). -/
theorem c36_arm64 {dst : Nat} (h1 : 1 ≤ dst) (h2 : dst ≠ 27) (h3 : dst ≤ 31) (c : BitVec 64) (x : A64.Regs) :
    ∃ ws, Arm64.loadImmediate dst c = some ws ∧ ∃ x', A64.run ws x = some x' ∧ x' (Arm64.regMap dst) = c ∧
      ∀ q, q ≠ Arm64.regMap dst → x' q = x q := by
  have hr : Arm64.regMap dst ≠ 31#5 := by
    have : ∀ d : Fin 32, 1 ≤ d.val → d.val ≠ 27 → Arm64.regMap d.val ≠ 31#5 := by decide
    exact this ⟨dst, by omega⟩ h1 h2
  obtain ⟨ws, e1, e2⟩ := Arm64.loadImmediate_run hr x dst rfl c
  exact ⟨ws, e1, _, e2, by simp [Arm64.set], fun q hq => by simp [Arm64.set, hq]⟩

/-- C36, ARM32, for ARMv7 and the versions without MOVW; the literal pool holds the constant it was given. -/
theorem c36_arm32 (v6 : Bool) {dst : Nat} (h : dst ≤ 15) (c : BitVec 32) (s : A32.St) :
    ∃ s', Arm32.runItems (Arm32.loadImmediate v6 dst c) s = some s' ∧ s'.r (Arm32.regMap dst) = c ∧ (∀ q, q ≠ Arm32.regMap dst → s'.r q = s.r q) ∧
      s'.c = s.c := by
  have hr : Arm32.regMap dst ≠ 15#4 := by
    have : ∀ d : Fin 16, Arm32.regMap d.val ≠ 15#4 := by decide
    exact this ⟨dst, by omega⟩
  exact ⟨_, Arm32.loadImmediate_run v6 hr c s, by simp [A32.St.set], fun q hq => by simp [A32.St.set, hq], rfl⟩

/-- C36, Thumb-2. -/
theorem c36_thumb {dst : Nat} (h : dst ≤ 15) (c : BitVec 32) (s : A32.St) :
    ∃ s', Thumb.runWords (Thumb.loadImmediate dst c) s = some s' ∧ s'.r (Thumb.regMap dst) = c ∧ (∀ q, q ≠ Thumb.regMap dst → s'.r q = s.r q) ∧
      s'.c = s.c := by
  have hr : Thumb.regMap dst ≠ 15#4 := by
    have : ∀ d : Fin 16, Thumb.regMap d.val ≠ 15#4 := by decide
    exact this ⟨dst, by omega⟩
  exact ⟨_, Thumb.loadImmediate_run hr c s, by simp [A32.St.set], fun q hq => by simp [A32.St.set, hq], rfl⟩

/-- C36, LoongArch64. -/
theorem c36_loong {dst : Nat} (h1 : 1 ≤ dst) (h2 : dst ≤ 29) (c : BitVec 64) (x : La.Regs) :
    ∃ x', La.run (Loong.loadImmediate dst c) x = some x' ∧ x' (Loong.regMap dst) = c ∧ ∀ q, q ≠ Loong.regMap dst → x' q = x q := by
  have hr : Loong.regMap dst ≠ 0#5 := by
    have : ∀ d : Fin 30, 1 ≤ d.val → Loong.regMap d.val ≠ 0#5 := by decide
    exact this ⟨dst, by omega⟩ h1
  exact ⟨_, Loong.loadImmediate_run hr c x, by simp [La.put], fun q hq => by simp [La.put, hq]⟩

/-- C36, S390X: the stream of halfwords, at most two instructions. -/
theorem c36_s390x (r : BitVec 4) (c : BitVec 64) (x : Z.Regs) :
    ∃ x', Z.run 2 ((S390x.pushLoadImm r c).flatMap S390x.halves) x = some x' ∧ x' r = c ∧ ∀ q, q ≠ r → x' q = x q :=
  ⟨_, S390x.pushLoadImm_run r c x, by simp [Z.put], fun q hq => by simp [Z.put, hq]⟩

/-- C36, PPC64; the zero register holds zero (it is set on entry and never written, sljitNativePPC_common.c). -/
theorem c36_ppc64 (dst : Nat) (c : BitVec 64) (x : Pp.Regs) (hx : x (Ppc.regMap Ppc.TMP_ZERO) = 0#64) :
    ∃ ws, Ppc.loadImmediate dst c = some ws ∧ ∃ x', Pp.run ws x = some x' ∧ x' (Ppc.regMap dst) = c ∧ ∀ q, q ≠ Ppc.regMap dst → x' q = x q := by
  obtain ⟨ws, e1, e2⟩ := Ppc.loadImmediate_run (reg := dst) c x hx
  exact ⟨ws, e1, _, e2, by simp [Pp.put], fun q hq => by simp [Pp.put, hq]⟩

/-- C36, MIPS64: the loops of load_immediate end, its assertions hold, and the constant is loaded. -/
theorem c36_mips64 {d : BitVec 5} (hd : d ≠ 0#5) (c : BitVec 64) (x : Mi.Regs) :
    ∃ ws, Mips.loadImmediate d c = some ws ∧ ∃ x', Mi.run ws x = some x' ∧ x' d = c ∧ ∀ q, q ≠ d → x' q = x q := by
  obtain ⟨ws, e1, e2⟩ := Mips.loadImmediate_run hd c x
  exact ⟨ws, e1, _, e2, by simp [Mi.put], fun q hq => by simp [Mi.put, hq]⟩

/-- C36, x86-64: emit_mov (sljitNativeX86_common.c:1328) of a constant to a register, with emit_load_imm64 and emit_do_imm32.  The bytes run to
their end, the register holds the constant (its lowest 32 bits in 32 bit mode), and nothing else changes, not even the flags. -/
theorem c36_x86_64 (win m32 : Bool) {dst : Nat} (h1 : 1 ≤ dst) (h2 : dst ≤ 16) (h3 : dst ≠ 14) (c : BitVec 64) (s : X86.St) :
    ∃ bs, X86.emitMov win m32 (.reg dst) (.imm c) = some bs ∧ ∃ n s', X86.run n bs s = some ([], s') ∧
      s'.r (X86.num win dst) = (if m32 then (c.setWidth 32).setWidth 64 else c) ∧ (∀ q, q ≠ X86.num win dst → s'.r q = s.r q) ∧ s'.m = s.m ∧ s'.f = s.f := by
  obtain ⟨s', ⟨bs, e, hs⟩, hr, hf⟩ := X86.e_mov (win := win) (m32 := m32) (s := s) (dst := .reg dst) (src := .imm c) ⟨h1, h2, h3⟩ rfl trivial (fun h => by cases h)
  obtain ⟨n, hn⟩ := hs.run
  refine ⟨bs, e, n, s', hn, ?_, fun q hq => hr.regs q (fun d hd => by cases hd; exact hq) (fun _ => rfl) (fun _ => rfl), hr.mem, hf⟩
  rw [hr.val dst rfl]
  exact X86.trunc_trunc m32 c

/-- The sequences are not trivial: six instructions on MIPS64, five on PPC64, four on ARM64 and LoongArch64. -/
example : (Mips.loadImmediate 2#5 0x123456789abcdef1#64).map List.length = some 6 := by decide +kernel
example : (Ppc.loadImmediate 1 0x123456789abcdef1#64).map List.length = some 5 := by decide +kernel
example : (Arm64.loadImmediate 1 0x123456789abcdef1#64).map List.length = some 4 := by decide +kernel
example : (Loong.loadImmediate 1 0x123456789abcdef1#64).length = 4 := by decide +kernel
example : (S390x.pushLoadImm 2#4 0x123456789abcdef1#64).length = 2 := by decide +kernel
example : (Arm32.loadImmediate true 1 0x00ff00ff#32).length = 2 ∧ (Arm32.loadImmediate true 1 0x12345678#32).length = 1 := by decide +kernel

example : (X86.emitMov false false (.reg 5) (.imm 0x123456789abcdef1#64)).map List.length = some 10 := by decide +kernel

end Verif.Props.C36
