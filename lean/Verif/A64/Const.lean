import Verif.A64.JumpSeq

/-!
# Rewritable constants on ARM64 (model of sljitNativeARM_64.c:3576-3625, 3686-3724)

Only the words which load the constant; a store into a memory operand follows them (emit_op_mem).
-/

namespace Verif.A64
open Verif.Imm.Arm64 (regMap RD MOVK MOVZ MOVN)
open Verif.Imm.A64 (fld)

/-- The opcodes of sljit_emit_const: SLJIT_MOV_U8, SLJIT_MOV32, SLJIT_MOV_S32, and the default SLJIT_MOV. -/
inductive COp | u8 | w32 | s32 | word deriving DecidableEq, Repr

/-- SLJIT_EMIT_CONST_U8 (sljitNativeARM_64.c:3576-3577). -/
def constU8 (c : BitVec 64) : BitVec 32 :=
  if c &&& 0x100#64 ≠ 0#64 then MOVN ||| ((~~~ c &&& 0xff#64) <<< 5).setWidth 32 else MOVZ ||| ((c &&& 0xff#64) <<< 5).setWidth 32

/-- SLJIT_EMIT_CONST_S32 (sljitNativeARM_64.c:3578-3579). -/
def constS32 (c : BitVec 64) : BitVec 32 :=
  if c.slt 0#64 then MOVN ||| ((~~~ c &&& 0xffff#64) <<< 5).setWidth 32 else MOVZ ||| ((c &&& 0xffff#64) <<< 5).setWidth 32

/-- The casts of init_value and new_constant (sljitNativeARM_64.c:3604-3608, 3705-3708). -/
def constCast (op : COp) (v : BitVec 64) : BitVec 64 :=
  if op = .w32 then (v.setWidth 32).setWidth 64 else (v.setWidth 32).signExtend 64

/-- sljit_emit_const: the words which load the constant (sljitNativeARM_64.c:3597-3618; emit_imm64_const 201-207). -/
def emitConst (op : COp) (reg : Nat) (v : BitVec 64) : List (BitVec 32) :=
  match op with
  | .u8 => [constU8 v ||| RD reg]
  | .word => movzk (RD reg) v 4
  | op => [constS32 (constCast op v) ||| RD reg, MOVK ||| (1#32 <<< 21) ||| ((constCast op v).sshiftRight 11 &&& 0x1fffe0#64).setWidth 32 ||| RD reg]

/-- sljit_set_const: the words stored over `ws` (sljitNativeARM_64.c:3690-3724); with fewer words the reads are outside the constant. -/
def setConst (op : COp) (ws : List (BitVec 32)) (v : BitVec 64) : Option (List (BitVec 32)) :=
  match op, ws with
  | .u8, [w] => some [constU8 v ||| (w &&& 0x1f#32)]
  | .word, [w, _, _, _] => some (setJumpAddr w v)
  | .w32, [w, w'] => some [constS32 (constCast .w32 v) ||| (w &&& 0x1f#32), MOVK ||| (1#32 <<< 21) ||| ((constCast .w32 v).sshiftRight 11 &&& 0x1fffe0#64).setWidth 32 ||| (w' &&& 0x1f#32)]
  | .s32, [w, w'] => some [constS32 (constCast .s32 v) ||| (w &&& 0x1f#32), MOVK ||| (1#32 <<< 21) ||| ((constCast .s32 v).sshiftRight 11 &&& 0x1fffe0#64).setWidth 32 ||| (w' &&& 0x1f#32)]
  | _, _ => none

/-! ## Lemmas -/

def movnW (imm : BitVec 16) (r : BitVec 5) : BitVec 32 := 0b100100101#9 ++ 0#2 ++ imm ++ r

theorem s_movn (imm : BitVec 16) (r : BitVec 5) (s : St) : step (movnW imm r) s = exec (.wide true 0#2 0#2 imm r) s := by
  generalize e : movnW imm r = w
  have bb : ∀ i, i < 32 → w.getLsbD i = if i < 5 then r.getLsbD i else if i < 21 then imm.getLsbD (i - 5) else (0b10010010100#11 : BitVec 11).getLsbD (i - 21) := by
    intro i hi
    subst e
    simp only [movnW, BitVec.getLsbD_append]
    interval_cases i <;> simp [-BitVec.getLsbD_eq_getElem, -BitVec.setWidth_eq]
  have h1 : fld w 23 3 = 5#3 := by
    apply BitVec.eq_of_getLsbD_eq; intro i hi; rw [fld_bit _ _ _ _ hi, bb _ (by omega)]; interval_cases i <;> simp [-BitVec.getLsbD_eq_getElem]
  have h2 : fld w 26 3 = 4#3 := by
    apply BitVec.eq_of_getLsbD_eq; intro i hi; rw [fld_bit _ _ _ _ hi, bb _ (by omega)]; interval_cases i <;> simp [-BitVec.getLsbD_eq_getElem]
  have h3 : fld w 29 2 = 0#2 := by
    apply BitVec.eq_of_getLsbD_eq; intro i hi; rw [fld_bit _ _ _ _ hi, bb _ (by omega)]; interval_cases i <;> simp [-BitVec.getLsbD_eq_getElem]
  have h4 : bit w 31 = true := by rw [bit, bb _ (by omega)]; rfl
  have h5 : fld w 21 2 = 0#2 := by
    apply BitVec.eq_of_getLsbD_eq; intro i hi; rw [fld_bit _ _ _ _ hi, bb _ (by omega)]; interval_cases i <;> simp [-BitVec.getLsbD_eq_getElem]
  have h6 : fld w 5 16 = imm := by
    apply BitVec.eq_of_getLsbD_eq; intro i hi; rw [fld_bit _ _ _ _ hi, bb _ (by omega)]; interval_cases i <;> simp [-BitVec.getLsbD_eq_getElem]
  have h7 : fld w 0 5 = r := by
    apply BitVec.eq_of_getLsbD_eq; intro i hi; rw [fld_bit _ _ _ _ hi, bb _ (by omega)]; interval_cases i <;> simp [-BitVec.getLsbD_eq_getElem]
  have dd : decode w = some (.wide true 0#2 0#2 imm r) := by
    rw [decode, h2, if_pos (by decide), decodeImm, h1]
    show (if fld w 29 2 = 1#2 ∨ (!bit w 31 && bit w 22) = true then none else _) = _
    rw [h3, h4, h5, h6, h7, if_neg (by simp)]
  rw [step, dd, Option.bind_some]

theorem e_movn (imm : BitVec 16) (r : BitVec 5) (hr : r ≠ 31#5) (s : St) :
    exec (.wide true 0#2 0#2 imm r) s = some (s.set r (~~~ imm.setWidth 64)) := by
  simp only [exec, St.setX, if_neg hr]
  rw [up_lo_true]
  simp

theorem movn_w (x : BitVec 16) (c : BitVec 32) (h : c = x.setWidth 32 <<< 5) (r : BitVec 5) : MOVN ||| c ||| r.setWidth 32 = movnW x r := by
  subst h
  apply BitVec.eq_of_getLsbD_eq; intro i hi
  simp only [movnW, BitVec.getLsbD_append]
  interval_cases i <;> simp [-BitVec.getLsbD_eq_getElem, -BitVec.setWidth_eq, MOVN]

theorem movz_w' (x : BitVec 16) (c : BitVec 32) (h : c = x.setWidth 32 <<< 5) (r : BitVec 5) : MOVZ ||| c ||| r.setWidth 32 = wideW false 0#2 x r := by
  subst h
  apply BitVec.eq_of_getLsbD_eq; intro i hi
  simp only [wideW, BitVec.getLsbD_append]
  interval_cases i <;> simp [-BitVec.getLsbD_eq_getElem, -BitVec.setWidth_eq, MOVZ]

theorem movk_w' (x : BitVec 16) (c : BitVec 32) (h : c = x.setWidth 32 <<< 5) (r : BitVec 5) :
    MOVK ||| (1#32 <<< 21) ||| c ||| r.setWidth 32 = wideW true 1#2 x r := by
  subst h
  apply BitVec.eq_of_getLsbD_eq; intro i hi
  simp only [wideW, BitVec.getLsbD_append]
  interval_cases i <;> simp [-BitVec.getLsbD_eq_getElem, -BitVec.setWidth_eq, MOVK]

theorem constU8_run (v : BitVec 64) (r : BitVec 5) (hr : r ≠ 31#5) (s : St) : runs [constU8 v ||| r.setWidth 32] s = some (s.set r ((v.setWidth 9).signExtend 64)) := by
  have hb : v &&& 0x100#64 ≠ 0#64 ↔ v.getLsbD 8 = true := by
    constructor
    · intro h
      by_contra hc
      apply h
      apply BitVec.eq_of_getLsbD_eq; intro i hi
      interval_cases i <;> simp [-BitVec.getLsbD_eq_getElem] <;> simpa [-BitVec.getLsbD_eq_getElem] using hc
    · intro h hc
      have := congrArg (·.getLsbD 8) hc
      simp [-BitVec.getLsbD_eq_getElem, h] at this
  rw [constU8]
  by_cases h : v &&& 0x100#64 ≠ 0#64
  · rw [if_pos h, movn_w ((~~~ v &&& 0xff#64).setWidth 16) _ (by bits [])]
    simp only [runs, s_movn, e_movn _ _ hr, Option.bind_some]
    have hv := hb.1 h
    congr 2
    bits64 [hv, BitVec.getLsbD_signExtend, BitVec.msb_eq_getLsbD_last]
  · rw [if_neg h, movz_w' ((v &&& 0xff#64).setWidth 16) _ (by bits [])]
    simp only [runs, s_wide, Bool.false_eq_true, if_false, e_movz _ _ hr, Option.bind_some]
    have hv : v.getLsbD 8 = false := by rw [hb] at h; simpa using h
    congr 2
    bits64 [hv, BitVec.getLsbD_signExtend, BitVec.msb_eq_getLsbD_last]

/-- A value whose upper 32 bits are all copies of its sign. -/
theorem constS32_run (c : BitVec 64) (hc : (∀ i, 32 ≤ i → i < 64 → c.getLsbD i = c.getLsbD 63)) (r : BitVec 5) (hr : r ≠ 31#5) (s : St) :
    runs [constS32 c ||| r.setWidth 32, MOVK ||| (1#32 <<< 21) ||| (c.sshiftRight 11 &&& 0x1fffe0#64).setWidth 32 ||| r.setWidth 32] s = some (s.set r c) := by
  have hs : c.slt 0#64 = c.getLsbD 63 := by
    rw [BitVec.slt_zero_eq_msb, BitVec.msb_eq_getLsbD_last]
  rw [constS32, movk_w' ((c >>> 16).setWidth 16) _ (by bits [BitVec.getLsbD_sshiftRight])]
  by_cases h : c.getLsbD 63 = true
  · rw [if_pos (by rw [hs]; exact h), movn_w ((~~~ c).setWidth 16) _ (by bits [])]
    simp only [runs, s_movn, e_movn _ _ hr, s_wide, if_true, e_movk _ _ _ hr, Option.bind_some]
    have hv : ∀ i, 32 ≤ i → i < 64 → c.getLsbD i = true := fun i a b => by rw [hc i a b, h]
    congr 2
    apply BitVec.eq_of_getLsbD_eq; intro i hi
    by_cases h32 : i < 32
    · interval_cases i <;> simp [-BitVec.getLsbD_eq_getElem, -BitVec.setWidth_eq]
    · rw [hv i (by omega) hi]
      interval_cases i <;> first | (exfalso; omega) | simp [-BitVec.getLsbD_eq_getElem, -BitVec.setWidth_eq]
  · have h' : c.getLsbD 63 = false := by simpa using h
    rw [if_neg (by rw [hs]; exact h), movz_w' (c.setWidth 16) _ (by bits [])]
    simp only [runs, Bool.false_eq_true, if_false, e_movz _ _ hr, s_wide, if_true, e_movk _ _ _ hr, Option.bind_some]
    have hv : ∀ i, 32 ≤ i → i < 64 → c.getLsbD i = false := fun i a b => by rw [hc i a b, h']
    congr 2
    apply BitVec.eq_of_getLsbD_eq; intro i hi
    by_cases h32 : i < 32
    · interval_cases i <;> simp [-BitVec.getLsbD_eq_getElem, -BitVec.setWidth_eq]
    · rw [hv i (by omega) hi]
      interval_cases i <;> first | (exfalso; omega) | simp [-BitVec.getLsbD_eq_getElem, -BitVec.setWidth_eq]

theorem and_rd (x : BitVec 32) (hx : x &&& 0x1f#32 = 0#32) (r : BitVec 5) : (x ||| r.setWidth 32) &&& 0x1f#32 = r.setWidth 32 := by
  rw [BitVec.and_or_distrib_right, hx]
  bits []

theorem constU8_rd (v : BitVec 64) : constU8 v &&& 0x1f#32 = 0#32 := by
  rw [constU8]; split <;> bits [MOVN, MOVZ]

theorem constS32_rd (v : BitVec 64) : constS32 v &&& 0x1f#32 = 0#32 := by
  rw [constS32]; split <;> bits [MOVN, MOVZ]

theorem constK_rd (v : BitVec 64) : (MOVK ||| (1#32 <<< 21) ||| (v.sshiftRight 11 &&& 0x1fffe0#64).setWidth 32) &&& 0x1f#32 = 0#32 := by
  bits [MOVK, BitVec.getLsbD_sshiftRight]

/-- sljit_set_const turns the words of one constant into those of the other. -/
theorem setConst_emit (op : COp) (reg : Nat) (v v' : BitVec 64) : setConst op (emitConst op reg v) v' = some (emitConst op reg v') := by
  have e : RD reg = (regMap reg).setWidth 32 := rfl
  cases op
  · simp only [emitConst, setConst, e, and_rd _ (constU8_rd _)]
  · simp only [emitConst, setConst, e, and_rd _ (constS32_rd _), and_rd _ (constK_rd _)]
  · simp only [emitConst, setConst, e, and_rd _ (constS32_rd _), and_rd _ (constK_rd _)]
  · obtain ⟨w, a, b, d, hw, hr⟩ : ∃ w a b d, movzk (RD reg) v 4 = [w, a, b, d] ∧ w &&& 0x1f#32 = (regMap reg).setWidth 32 := by
      refine ⟨_, _, _, _, rfl, ?_⟩
      rw [e, and_rd]
      bits [MOVZ]
    simp only [emitConst, setConst, hw, setJumpAddr_movzk w _ hr]
    rw [e]

theorem emitConst_run (op : COp) (reg : Nat) (hr : regMap reg ≠ 31#5) (v : BitVec 64) (s : St) :
    runs (emitConst op reg v) s = some (s.set (regMap reg) (match op with | .u8 => (v.setWidth 9).signExtend 64 | .word => v | op => constCast op v)) := by
  have e : RD reg = (regMap reg).setWidth 32 := rfl
  cases op
  · exact constU8_run v _ hr s
  · refine constS32_run (constCast .w32 v) ?_ _ hr s
    intro i h1 h2
    simp [constCast, -BitVec.getLsbD_eq_getElem]; omega
  · refine constS32_run (constCast .s32 v) ?_ _ hr s
    intro i h1 h2
    simp only [constCast, reduceCtorEq, if_false, BitVec.getLsbD_signExtend, if_neg (show ¬ i < 32 by omega)]
    simp [h2]
  · exact movzk_run _ hr v 4 (by simp) v.isLt s

end Verif.A64
