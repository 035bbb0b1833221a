import Verif.A64.MemUpd

/-! # sljit_emit_fmem_update on ARM64 -/

namespace Verif.A64
open Verif.Imm.A64 (fld)
open Verif.Imm.Arm64 (regMap RN)

/-! ## The instructions -/

/-- A state with floating point registers: the low 64 bits of each vector register. -/
structure FSt where
  s : St
  v : BitVec 5 → BitVec 64

/-- Loads and stores of S and D registers with write-back (Arm ARM C7.2: LDR, STR, immediate, SIMD&FP, post-index and pre-index): bits 29-27 are 111, bits 26-24 are 100, bit
23 and 21 are clear, bits 11-10 are 01 (post) or 11 (pre); the size is 2 (S) or 3 (D).  A load clears the rest of the vector register.  A stack pointer as the base is refused. -/
def fupdStep (w : BitVec 32) (t : FSt) : Option FSt :=
  if fld w 27 3 = 7#3 ∧ fld w 23 4 = 8#4 ∧ bit w 21 = false ∧ bit w 10 = true ∧ bit w 31 = true ∧ fld w 5 5 ≠ 31#5 then
    let off := (fld w 12 9).signExtend 64
    let rn := fld w 5 5
    let a := if bit w 11 then t.s.r rn + off else t.s.r rn
    let k := if bit w 30 then 8 else 4
    if bit w 22 then some ⟨t.s.set rn (t.s.r rn + off), fun q => if q = fld w 0 5 then rd t.s.m a k else t.v q⟩
    else some ⟨{ t.s with m := wr t.s.m a (t.v (fld w 0 5)) k }.set rn (t.s.r rn + off), t.v⟩
  else none

/-! ## The model -/

/-- VT, sljitNativeARM_64.c:61. -/
def VT (r : Nat) : BitVec 32 := (fregMap r).setWidth 32

/-- STUR_FI, sljitNativeARM_64.c:166. -/
def STUR_FI : BitVec 32 := 0x3c000000#32

/-- sljit_emit_fmem_update (sljitNativeARM_64.c:2808-2835); `none` is SLJIT_ERR_UNSUPPORTED, `f32`, `store`, `post` and `supp` are SLJIT_32, SLJIT_MEM_STORE, SLJIT_MEM_POST
and SLJIT_MEM_SUPP. -/
def emitFmemUpdate (f32 store post supp : Bool) (freg base offs : Nat) (w : BitVec 64) : Option (List (BitVec 32)) :=
  if offs ≠ 0 ∨ 255 < w.toInt ∨ w.toInt < -256 then none
  else if supp then some []
  else
    let inst := STUR_FI ||| 0x80000400#32
    let inst := if f32 then inst else inst ||| 0x40000000#32
    let inst := if store then inst else inst ||| 0x00400000#32
    let inst := if post then inst else inst ||| 0x800#32
    some [inst ||| VT freg ||| RN base ||| ((w &&& 0x1ff#64).setWidth 32 <<< 12)]

/-! ## The word -/

/-- The bits of the word. -/
theorem fupd_bit (f32 store post : Bool) (freg base : Nat) (w : BitVec 64) (n : Nat) (hn : n < 32) :
    (let inst := STUR_FI ||| 0x80000400#32
     let inst := if f32 then inst else inst ||| 0x40000000#32
     let inst := if store then inst else inst ||| 0x00400000#32
     let inst := if post then inst else inst ||| 0x800#32
     inst ||| VT freg ||| RN base ||| ((w &&& 0x1ff#64).setWidth 32 <<< 12)).getLsbD n =
    if n < 5 then (fregMap freg).getLsbD n else if n < 10 then (regMap base).getLsbD (n - 5) else if n < 11 then true else if n < 12 then !post
    else if n < 21 then (w.setWidth 9).getLsbD (n - 12) else if n < 22 then false else if n < 23 then !store else if n < 30 then (0b1111000#7).getLsbD (n - 23)
    else if n < 31 then !f32 else true := by
  rw [VT, RN]
  generalize fregMap freg = x
  generalize regMap base = z
  cases f32 <;> cases store <;> cases post <;> interval_cases n <;> simp [-BitVec.getLsbD_eq_getElem, -BitVec.setWidth_eq, STUR_FI]

theorem fupd_run {f32 store post : Bool} {freg base offs : Nat} {w : BitVec 64} (hb : regMap base ≠ 31#5) {ws : List (BitVec 32)}
    (h : emitFmemUpdate f32 store post false freg base offs w = some ws) :
    ∃ i, ws = [i] ∧ ∀ t, fupdStep i t = some (
      let a := if post then t.s.r (regMap base) else t.s.r (regMap base) + w
      let k := if f32 then 4 else 8
      if store then ⟨{ t.s with m := wr t.s.m a (t.v (fregMap freg)) k }.set (regMap base) (t.s.r (regMap base) + w), t.v⟩
      else ⟨t.s.set (regMap base) (t.s.r (regMap base) + w), fun q => if q = fregMap freg then rd t.s.m a k else t.v q⟩) := by
  unfold emitFmemUpdate at h
  split at h
  · cases h
  rename_i hx
  rw [if_neg (by decide)] at h
  have hw : (w.setWidth 9).signExtend 64 = w := upd_sext fun hc => hx (Or.inr hc)
  have bb := fupd_bit f32 store post freg base w
  simp only [Option.some.injEq] at h bb
  refine ⟨_, h.symm, fun t => ?_⟩
  generalize ((if post = true then _ else _) ||| VT freg ||| RN base ||| _) = i at bb ⊢
  have e1 : fld i 27 3 = 7#3 := fld_of fun j hj => by rw [bb _ (by omega)]; interval_cases j <;> simp
  have e2 : fld i 23 4 = 8#4 := fld_of fun j hj => by rw [bb _ (by omega)]; interval_cases j <;> simp
  have e3 : bit i 21 = false := by rw [bit, bb _ (by omega)]; simp
  have e4 : bit i 10 = true := by rw [bit, bb _ (by omega)]; simp
  have e5 : bit i 11 = !post := by rw [bit, bb _ (by omega)]; simp
  have e6 : fld i 12 9 = w.setWidth 9 := fld_of fun j hj => by rw [bb _ (by omega)]; interval_cases j <;> simp [-BitVec.getLsbD_eq_getElem]
  have e7 : fld i 5 5 = regMap base := fld_of fun j hj => by rw [bb _ (by omega)]; interval_cases j <;> simp [-BitVec.getLsbD_eq_getElem]
  have e8 : fld i 0 5 = fregMap freg := fld_of fun j hj => by rw [bb _ (by omega)]; interval_cases j <;> simp [-BitVec.getLsbD_eq_getElem]
  have e9 : bit i 31 = true := by rw [bit, bb _ (by omega)]; simp
  have e10 : bit i 30 = !f32 := by rw [bit, bb _ (by omega)]; simp
  have e11 : bit i 22 = !store := by rw [bit, bb _ (by omega)]; simp
  rw [fupdStep, if_pos ⟨e1, e2, e3, e4, e9, by rw [e7]; exact hb⟩]
  simp only [e5, e6, e7, e8, e10, e11, hw]
  cases f32 <;> cases store <;> cases post <;> rfl

end Verif.A64
