import Verif.A64.FrameRun
import Verif.RISCV.Api

/-! # sljit_emit_mem_update on ARM64 -/

namespace Verif.A64
open Verif.Imm.A64 (fld)
open Verif.Imm.Arm64 (regMap RN)

/-! ## The instructions

Loads and stores of general registers with write-back (Arm ARM C6.2: LDR, LDRB, LDRH, LDRSB, LDRSH, LDRSW, STR, STRB, STRH, immediate, post-index and pre-index): bits 29-27
are 111, bits 26-24 and 21 are clear, bits 11-10 are 01 (post) or 11 (pre).  `Mach.xfer` has their 64 bit forms only. -/

/-- One load or store with write-back; CONSTRAINED UNPREDICTABLE cases (the base is the transferred register) and a stack pointer as the base are refused. -/
def updStep (w : BitVec 32) (s : St) : Option St :=
  if fld w 27 3 = 7#3 ∧ fld w 24 3 = 0#3 ∧ bit w 21 = false ∧ bit w 10 = true then
    let off := (fld w 12 9).signExtend 64
    let rn := fld w 5 5
    if rn = 31#5 ∨ rn = fld w 0 5 then none
    else (exec (.mem (fld w 30 2) (fld w 22 2) (.imm (if bit w 11 then off else 0#64)) rn (fld w 0 5)) s).map fun t => t.set rn (s.r rn + off)
  else none

/-! ## The model -/

/-- MEM_SIZE_SHIFT of the type (sljitNativeARM_64.c:1161-1166, 2768-2797; the default branch is unreachable). -/
def updSize : RV.Op1C → BitVec 32
  | .movS8 | .movU8 => 0#32
  | .movS16 | .movU16 => 1#32
  | .movS32 | .movU32 | .mov32 => 2#32
  | _ => 3#32

/-- `sign` of sljit_emit_mem_update. -/
def updSign : RV.Op1C → Bool
  | .movS8 | .movS16 | .movS32 => true
  | _ => false

/-- sljit_emit_mem_update (sljitNativeARM_64.c:2753-2803); `none` is SLJIT_ERR_UNSUPPORTED, `store`, `post` and `supp` are SLJIT_MEM_STORE, SLJIT_MEM_POST and
SLJIT_MEM_SUPP. -/
def emitMemUpdate (o : RV.Op1C) (store post supp : Bool) (r base offs : Nat) (w : BitVec 64) : Option (List (BitVec 32)) :=
  if offs ≠ 0 ∨ 255 < w.toInt ∨ w.toInt < -256 then none
  else if supp then some []
  else
    let inst := STURBI ||| (updSize o <<< 30) ||| 0x400#32
    let inst := if store then inst else inst ||| (if updSign o then 0x00800000#32 else 0x00400000#32)
    let inst := if post then inst else inst ||| 0x800#32
    some [inst ||| RT r ||| RN base ||| ((w &&& 0x1ff#64).setWidth 32 <<< 12)]

/-! ## The word -/

/-- The word from its fields. -/
def updW (size opc : BitVec 2) (i : BitVec 9) (pre : Bool) (rn rt : BitVec 5) : BitVec 32 :=
  size ++ 0b111000#6 ++ opc ++ 0#1 ++ i ++ BitVec.ofBool pre ++ 1#1 ++ rn ++ rt

theorem updW_bit (size opc : BitVec 2) (i : BitVec 9) (pre : Bool) (rn rt : BitVec 5) (n : Nat) (hn : n < 32) : (updW size opc i pre rn rt).getLsbD n =
    if n < 5 then rt.getLsbD n else if n < 10 then rn.getLsbD (n - 5) else if n < 11 then true else if n < 12 then pre else if n < 21 then i.getLsbD (n - 12) else if n < 22 then false
    else if n < 24 then opc.getLsbD (n - 22) else if n < 30 then (0b111000#6).getLsbD (n - 24) else size.getLsbD (n - 30) := by
  simp only [updW, BitVec.getLsbD_append]
  interval_cases n <;> simp [-BitVec.getLsbD_eq_getElem]

theorem updStep_W (size opc : BitVec 2) (i : BitVec 9) (pre : Bool) (rn rt : BitVec 5) (h1 : rn ≠ 31#5) (h2 : rn ≠ rt) (s : St) :
    updStep (updW size opc i pre rn rt) s =
      (exec (.mem size opc (.imm (if pre then i.signExtend 64 else 0#64)) rn rt) s).map fun t => t.set rn (s.r rn + i.signExtend 64) := by
  have bb := updW_bit size opc i pre rn rt
  generalize updW size opc i pre rn rt = w at *
  have e1 : fld w 27 3 = 7#3 := fld_of fun j hj => by rw [bb _ (by omega)]; interval_cases j <;> simp
  have e2 : fld w 24 3 = 0#3 := fld_of fun j hj => by rw [bb _ (by omega)]; interval_cases j <;> simp
  have e3 : bit w 21 = false := by rw [bit, bb _ (by omega)]; simp
  have e4 : bit w 10 = true := by rw [bit, bb _ (by omega)]; simp
  have e5 : bit w 11 = pre := by rw [bit, bb _ (by omega)]; simp
  have e6 : fld w 12 9 = i := fld_of fun j hj => by rw [bb _ (by omega)]; interval_cases j <;> simp [-BitVec.getLsbD_eq_getElem]
  have e7 : fld w 5 5 = rn := fld_of fun j hj => by rw [bb _ (by omega)]; interval_cases j <;> simp [-BitVec.getLsbD_eq_getElem]
  have e8 : fld w 0 5 = rt := fld_of fun j hj => by rw [bb _ (by omega)]; interval_cases j <;> simp [-BitVec.getLsbD_eq_getElem]
  have e9 : fld w 30 2 = size := fld_of fun j hj => by rw [bb _ (by omega)]; interval_cases j <;> simp [-BitVec.getLsbD_eq_getElem]
  have e10 : fld w 22 2 = opc := fld_of fun j hj => by rw [bb _ (by omega)]; interval_cases j <;> simp [-BitVec.getLsbD_eq_getElem]
  simp only [updStep, e1, e2, e3, e4, e5, e6, e7, e8, e9, e10, h1, h2, and_self, if_true, or_self, if_false]

/-- The 64 bit forms are those of the machine with a program counter. -/
theorem updStep_mach (ld : Bool) (i : BitVec 9) (pre : Bool) (rn rt : BitVec 5) (h1 : rn ≠ 31#5) (h2 : rn ≠ rt) (p : PSt) :
    ∃ x, xfer (updW 3#2 (if ld then 1#2 else 0#2) i pre rn rt) = some x ∧ (xferExec x p).map PSt.s = updStep (updW 3#2 (if ld then 1#2 else 0#2) i pre rn rt) p.s := by
  refine ⟨⟨ld, false, if pre then .pre else .post, i.signExtend 64, rn, rt, none⟩, ?_, ?_⟩
  · have bb := updW_bit 3#2 (if ld then 1#2 else 0#2) i pre rn rt
    generalize updW 3#2 (if ld then 1#2 else 0#2) i pre rn rt = w at *
    have g1 : fld w 27 3 = 7#3 := fld_of fun j hj => by rw [bb _ (by omega)]; interval_cases j <;> simp
    have g4 : fld w 23 9 = 0x1f0#9 := fld_of fun j hj => by rw [bb _ (by omega)]; cases ld <;> interval_cases j <;> simp
    have g5 : bit w 22 = ld := by rw [bit, bb _ (by omega)]; cases ld <;> simp
    have g51 : bit w 21 = false := by rw [bit, bb _ (by omega)]; simp
    have g52 : bit w 10 = true := by rw [bit, bb _ (by omega)]; simp
    have g53 : bit w 11 = pre := by rw [bit, bb _ (by omega)]; simp
    have g6 : fld w 12 9 = i := fld_of fun j hj => by rw [bb _ (by omega)]; interval_cases j <;> simp [-BitVec.getLsbD_eq_getElem]
    have g7 : fld w 5 5 = rn := fld_of fun j hj => by rw [bb _ (by omega)]; interval_cases j <;> simp [-BitVec.getLsbD_eq_getElem]
    have g8 : fld w 0 5 = rt := fld_of fun j hj => by rw [bb _ (by omega)]; interval_cases j <;> simp [-BitVec.getLsbD_eq_getElem]
    rw [xfer, if_neg (by rw [g1]; exact fun e => absurd e.1 (by decide)), if_neg (by rw [g4]; decide), if_pos ⟨g4, g51, g52⟩, g5, g6, g7, g8, g53]
  · rw [updStep_W _ _ _ _ _ _ h1 h2]
    cases ld <;> cases pre <;> simp [xferExec, exec, h1, h2.symm, Mode.off, PSt.put, PSt.get, bytes]

/-- opc of the type. -/
def updOpc (o : RV.Op1C) (store : Bool) : BitVec 2 := if store then 0#2 else if updSign o then 2#2 else 1#2

theorem upd_word (o : RV.Op1C) (store post : Bool) (r base : Nat) (w : BitVec 64) :
    (let inst := STURBI ||| (updSize o <<< 30) ||| 0x400#32
     let inst := if store then inst else inst ||| (if updSign o then 0x00800000#32 else 0x00400000#32)
     let inst := if post then inst else inst ||| 0x800#32
     inst ||| RT r ||| RN base ||| ((w &&& 0x1ff#64).setWidth 32 <<< 12)) =
    updW ((updSize o).setWidth 2) (updOpc o store) (w.setWidth 9) (!post) (regMap base) (regMap r) := by
  rw [RT, RN]
  generalize regMap r = x
  generalize regMap base = z
  obtain ⟨k, g, e1, e2⟩ : ∃ (k : BitVec 2) (g : Bool), updSize o = k.setWidth 32 ∧ updSign o = g := by
    cases o <;> first | exact ⟨0#2, _, rfl, rfl⟩ | exact ⟨1#2, _, rfl, rfl⟩ | exact ⟨2#2, _, rfl, rfl⟩ | exact ⟨3#2, _, rfl, rfl⟩
  simp only [updOpc, e1, e2]
  apply BitVec.eq_of_getLsbD_eq
  intro n hn
  rw [updW_bit _ _ _ _ _ _ _ hn]
  cases store <;> cases post <;> cases g <;> interval_cases n <;> simp [-BitVec.getLsbD_eq_getElem, -BitVec.setWidth_eq, STURBI]

theorem upd_sext {w : BitVec 64} (h : ¬ (255 < w.toInt ∨ w.toInt < -256)) : (w.setWidth 9).signExtend 64 = w := by
  apply BitVec.eq_of_toInt_eq
  rw [BitVec.toInt_signExtend, BitVec.toInt_setWidth]
  have h1 : (w.toNat : Int).bmod (2 ^ 9) = w.toInt := by
    have := BitVec.toInt_eq_toNat_bmod w
    have e : ((w.toNat : Int)).bmod (2 ^ 9) = w.toInt.bmod (2 ^ 9) := by
      rw [this, Int.bmod_bmod_of_dvd (by decide)]
    rw [e]
    exact Int.bmod_eq_of_le (by omega) (by omega)
  rw [h1]
  exact Int.bmod_eq_of_le (by simp; omega) (by simp; omega)

end Verif.A64
