import Verif.RISCV.OpsProof2

/-!
# emit_single_op: all binary operations together (helper lemmas)
-/

namespace Verif.RV

/-- The codes of sljit_emit_op2. -/
def OpC.bin (o : OpC) : Prop :=
  o = .add ∨ o = .addc ∨ o = .sub ∨ o = .subc ∨ o = .mul ∨ o = .and ∨ o = .or ∨ o = .xor ∨ (o = .shl ∨ o = .mshl) ∨
  (o = .lshr ∨ o = .mlshr) ∨ (o = .ashr ∨ o = .mashr) ∨ (o = .rotl ∨ o = .rotr)

/-- Shifts and rotates. -/
def OpC.isSh (o : OpC) : Prop :=
  (o = .shl ∨ o = .mshl) ∨ (o = .lshr ∨ o = .mlshr) ∨ (o = .ashr ∨ o = .mashr) ∨ (o = .rotl ∨ o = .rotr)

theorem single2_reg {cfg : Cfg} {op : Op} {fl : SF} {dst a b : Nat} {c : Core} {cin : Bool} {A B : BitVec 64} (hc : op.code.bin)
    (hf : op.flagOk) (hd : DstOk dst) (ha : SrcOk a) (hb : SrcOk b) (hA : c.x (regMap a) = A) (hB : c.x (regMap b) = B)
    (hcin : op.code = .addc ∨ op.code = .subc → c.x 28#5 = bool64 cin)
    (h32 : op.is32 = true → Sx A ∧ (op.code.isSh ∨ Sx B))
    (hcy : op.flag = .carry → (op.code = .add → carrySrc dst a b OTHER_FLAG ≠ 0) ∧ (op.code = .addc → carrySrc dst a b EQUAL_FLAG ≠ 0)) :
    wp (emitSingle2 cfg op fl dst a (.reg b)) c (Post2 op fl (regMap dst) A B cin c) := by
  have h32' : ¬ op.code.isSh → op.is32 = true → Sx A ∧ Sx B := fun hn h => ⟨(h32 h).1, (h32 h).2.resolve_left hn⟩
  unfold emitSingle2
  rcases hc with hc | hc | hc | hc | hc | hc | hc | hc | hc | hc | hc | hc
  · have h := h32' (by simp [OpC.isSh, hc])
    rw [hc]; exact add_reg hc hf hd ha hb hA hB h (fun q => (hcy q).1 hc)
  · have h := h32' (by simp [OpC.isSh, hc])
    rw [hc]; exact addc_reg hc hf hd ha hb hA hB (hcin (Or.inl hc)) h (fun q => (hcy q).2 hc)
  · have h := h32' (by simp [OpC.isSh, hc])
    rw [hc]; exact sub_reg hc hd ha hb hA hB h
  · have h := h32' (by simp [OpC.isSh, hc])
    rw [hc]; exact subc_reg hc hf hd ha hb hA hB (hcin (Or.inr hc)) h
  · have h := h32' (by simp [OpC.isSh, hc])
    rw [hc]; exact mul_reg (cfg := cfg) hc hf hd ha hb hA hB h
  · have h := h32' (by simp [OpC.isSh, hc])
    rw [hc]; exact and_reg hc hf hd ha.n5 hb.n5 hA hB h
  · have h := h32' (by simp [OpC.isSh, hc])
    rw [hc]; exact or_reg hc hf hd ha.n5 hb.n5 hA hB h
  · have h := h32' (by simp [OpC.isSh, hc])
    rw [hc]; exact xor_reg hc hf hd ha.n5 hb.n5 hA hB h
  · have := shl_reg (cfg := cfg) (fl := fl) (cin := cin) hc hf hd ha hb hA hB
    rcases hc with hc | hc <;> rw [hc] <;> exact this
  · have := lshr_reg (cfg := cfg) (fl := fl) (cin := cin) hc hf hd ha hb hA hB
    rcases hc with hc | hc <;> rw [hc] <;> exact this
  · have := ashr_reg (cfg := cfg) (fl := fl) (cin := cin) hc hf hd ha hb hA hB
    rcases hc with hc | hc <;> rw [hc] <;> exact this
  · have := rot_reg (cfg := cfg) (fl := fl) (cin := cin) hc hf hd ha hb hA hB fun h => (h32 h).1
    rcases hc with hc | hc <;> rw [hc] <;> exact this

theorem single2_imm {cfg : Cfg} {op : Op} {fl : SF} {dst a : Nat} {c : Core} {cin : Bool} {A i : BitVec 64} (hc : op.code.bin)
    (hm : op.code ≠ .mul) (hf : op.flagOk) (hd : DstOk dst) (ha : SrcOk a) (ha1 : regMap a ≠ 1#5 ∨ (op.code ≠ .sub ∧ op.code ≠ .subc))
    (hA : c.x (regMap a) = A)
    (hi : Fits12 i) (hi0 : i ≠ 0#64) (his : op.code.isSh → i.toNat < if op.is32 then 32 else 64)
    (hcin : op.code = .addc ∨ op.code = .subc → c.x 28#5 = bool64 cin)
    (h32 : op.is32 = true → Sx A) (hov : op.flag = .overflow → a ≠ 0) :
    wp (emitSingle2 cfg op fl dst a (.imm i)) c (Post2 op fl (regMap dst) A i cin c) := by
  unfold emitSingle2
  rcases hc with hc | hc | hc | hc | hc | hc | hc | hc | hc | hc | hc | hc
  · rw [hc]; exact add_imm hc hf hd ha hi hA h32 hov
  · rw [hc]; exact addc_imm hc hf hd ha hA hi (hcin (Or.inl hc)) h32
  · rw [hc]; exact sub_imm hc hd ha (ha1.resolve_right (by simp [hc])) hA hi h32 hov
  · rw [hc]; exact subc_imm hc hf hd ha (ha1.resolve_right (by simp [hc])) hA hi (hcin (Or.inr hc)) h32
  · exact absurd hc hm
  · rw [hc]; exact and_imm hc hf hd ha hA hi h32
  · rw [hc]; exact or_imm hc hf hd ha hA hi h32
  · rw [hc]; exact xor_imm hc hf hd ha hA hi h32
  · have := shl_imm (cfg := cfg) (fl := fl) (cin := cin) hc hf hd ha hA (his (Or.inl hc))
    rcases hc with hc | hc <;> rw [hc] <;> exact this
  · have := lshr_imm (cfg := cfg) (fl := fl) (cin := cin) hc hf hd ha hA (his (Or.inr (Or.inl hc)))
    rcases hc with hc | hc <;> rw [hc] <;> exact this
  · have := ashr_imm (cfg := cfg) (fl := fl) (cin := cin) hc hf hd ha hA (his (Or.inr (Or.inr (Or.inl hc))))
    rcases hc with hc | hc <;> rw [hc] <;> exact this
  · have := rot_imm (cfg := cfg) (fl := fl) (cin := cin) hc hf hd ha hA (his (Or.inr (Or.inr (Or.inr hc)))) hi0
    rcases hc with hc | hc <;> rw [hc] <;> exact this

end Verif.RV
