import Verif.RISCV.LoadAddr
import Verif.RISCV.ConstProof

/-! # Writing the final jump / move-address sequence: helper lemmas -/

namespace Verif.RV

theorem or_rot (a b c d : BitVec 32) : a ||| b ||| c ||| d = a ||| d ||| b ||| c := by ac_rfl

theorem lastIns_mov (r : Nat) (a : BitVec 64) : lastIns (.mov r) a = ADDI ||| RD r ||| RS1 r ||| IMM_I a := rfl
theorem lastIns_jump (a : BitVec 64) : lastIns .jump a = JALR ||| RD 0 ||| RS1 TMP_REG1 ||| IMM_I a := by
  rw [lastIns, Z_RD]
theorem lastIns_call (a : BitVec 64) : lastIns .call a = JALR ||| RD RETURN_ADDR_REG ||| RS1 TMP_REG1 ||| IMM_I a := by
  rw [lastIns]; exact or_rot _ _ _ _

/-- When the sequence is usable for a target (the conditions of detect_jump_type / mov_addr_get_length,
with the excluded top of the 52 bit range). -/
def Patch.fits (p : Patch) (addr pc : BitVec 64) : Prop :=
  match p with
  | .rel32 => S32_MIN ≤ (addr - pc).toInt ∧ (addr - pc).toInt ≤ S32_MAX
  | .abs32 => addr.toNat ≤ 0x7ffff7ff
  | .abs44 => addr.toNat ≤ 0x7fffffff7ff
  | .abs52 => addr.toNat < 0x7fffffffff800
  | .full => True

theorem uimm_hi (v : BitVec 64) (h1 : v.toInt ≤ S32_MAX) (h2 : S32_MIN ≤ v.toInt) :
    uimm ((round v).extractLsb' 12 20) + ((round v).setWidth 12).signExtend 64 = v := by
  rw [← round_low_eq (round v)]; exact L1 v h1 h2

theorem toInt_small {v : BitVec 64} (h : v.toNat < 2 ^ 63) : v.toInt = v.toNat := by
  rw [BitVec.toInt_eq_toNat_cond, if_pos (by omega)]

/-- Shifting the loaded upper part back. -/
theorem shl12_back (u : BitVec 64) : (u.sshiftRight 12) <<< 12 = u &&& ~~~0xfff#64 := by
  apply BitVec.eq_of_getLsbD_eq
  intro k hk
  rw [BitVec.getLsbD_shiftLeft, BitVec.getLsbD_sshiftRight, BitVec.getLsbD_and, not_fff_bit k hk]
  by_cases h : k < 12
  · simp [h, show ¬ 12 ≤ k by omega]
  · have : 12 + (k - 12) = k := by omega
    simp [-BitVec.getLsbD_eq_getElem, hk, h, this, show 12 ≤ k by omega, show ¬ (64 ≤ k - 12) by omega]

theorem shr12_toNat (u : BitVec 64) (h : u.toNat < 2 ^ 63) : (u.sshiftRight 12).toNat = u.toNat / 4096 := by
  have hm : u.msb = false := by rw [BitVec.msb_eq_decide]; simp; omega
  rw [BitVec.sshiftRight_eq_of_msb_false hm, BitVec.toNat_ushiftRight, Nat.shiftRight_eq_div_pow]

theorem hi52 (u : BitVec 64) (h : u.toNat < 2 ^ 51) :
    uimm ((if u &&& 0x80000000#64 ≠ 0#64 then ~~~(u.sshiftRight 32) else u.sshiftRight 32).setWidth 20) <<< 20 =
    (if u &&& 0x80000000#64 ≠ 0#64 then ~~~(u.sshiftRight 32) else u.sshiftRight 32) <<< 32 := by
  have hm : u.msb = false := by rw [BitVec.msb_eq_decide]; simp; omega
  have hn : (u.sshiftRight 32).toNat = u.toNat / 4294967296 := by
    rw [BitVec.sshiftRight_eq_of_msb_false hm, BitVec.toNat_ushiftRight, Nat.shiftRight_eq_div_pow]
  have hi : (u.sshiftRight 32).toInt = (u.toNat / 4294967296 : Nat) := by
    rw [toInt_small (by omega), hn]
  split
  · apply hi20 <;> rw [BitVec.toInt_not] <;> simp only [Int.bmod] <;> omega
  · apply hi20 <;> omega

theorem loadAddr_pre (p : Patch) (u : Use) (addr pc : BitVec 64) (s : St) (hr0 : regMap u.reg ≠ 0#5) (hr3 : regMap u.reg ≠ 7#5)
    (hpc : s.pc = pc) (hf : p.fits addr pc) :
    ∃ pre y s', loadAddr p u addr pc = pre ++ w32 (lastIns u y) ∧ pre.length + 2 = p.len ∧ run pre s = some s' ∧
      s'.rd (regMap u.reg) + (y.setWidth 12).signExtend 64 = addr ∧ Keep [regMap u.reg, 7#5] s s' := by
  have ht : regMap TMP_REG3 = 7#5 := rfl
  have h3' : (7#5 : Reg) ≠ regMap u.reg := fun e => hr3 e.symm
  cases p with
  | rel32 =>
    unfold loadAddr
    simp only [adj12_round]
    have hm : (round (addr - pc) &&& ~~~0xfff#64).setWidth 32 &&& 0xfff#32 = 0#32 := by bits [Nat.reduceAdd]
    refine ⟨_, _, _, rfl, rfl, by rw [run32' (dec_AUIPC_of _ _ hm)]; rfl, ?_, (Keep.wr _ _ _ _ (by simp)).adv _⟩
    simp only [rd_adv, rd_wr, hr0, if_false, if_true, hpc]
    have e : ((round (addr - pc) &&& ~~~0xfff#64).setWidth 32).extractLsb' 12 20 = (round (addr - pc)).extractLsb' 12 20 := by
      bits [Nat.reduceAdd]
    rw [e, BitVec.add_assoc, uimm_hi _ hf.2 hf.1, BitVec.add_comm, BitVec.sub_add_cancel]
  | abs32 =>
    simp only [Patch.fits] at hf
    unfold loadAddr
    simp only [adj12_round]
    refine ⟨_, _, _, rfl, rfl, by rw [run32' (dec_LUI_mask ..)]; rfl, ?_, (Keep.wr _ _ _ _ (by simp)).adv _⟩
    simp only [rd_adv, rd_wr, hr0, if_false, if_true]
    have := toInt_small (v := addr) (by omega)
    exact uimm_hi _ (by omega) (by omega)
  | abs44 =>
    simp only [Patch.fits] at hf
    unfold loadAddr
    simp only [adj12_round]
    have hra : (round addr).toNat < 2 ^ 63 ∧ (round addr).toNat / 4096 ≤ 0x7fffffff := by
      rw [round_toNat]; split <;> omega
    have hn := shr12_toNat _ hra.1
    have hi : ((round addr).sshiftRight 12).toInt = ((round addr).toNat / 4096 : Nat) := by rw [toInt_small (by omega), hn]
    have fin : (((round addr).sshiftRight 12) <<< 12) + ((round addr).setWidth 12).signExtend 64 = addr := by
      rw [shl12_back]; exact round_split addr
    obtain ⟨high, eh⟩ : ∃ h, (round addr).sshiftRight 12 = h := ⟨_, rfl⟩
    rw [eh] at hn hi fin
    simp only [eh]
    split
    · next hgt =>
      refine ⟨_, _, _, rfl, rfl, by
        simp only [List.append_assoc]
        rw [run32 (dec_LUI_hi ..), execS, Option.bind_some, run32 (dec_XORI ..), execS, Option.bind_some,
          run32' (dec_SLLI _ _ _ (by decide))]; rfl, ?_,
          (((((Keep.wr _ _ _ _ (by simp)).adv _).wr' _ _ (by simp)).adv _).wr' _ _ (by simp)).adv _⟩
      simp only [rd_adv, rd_wr, hr0, if_false, if_true, IOp.eval, ShOp.eval]
      rw [xor_top high hgt (by omega), show ((12#64).setWidth 6).toNat = 12 from rfl]
      exact fin
    · next hgt =>
      refine ⟨_, _, _, rfl, rfl, by
        simp only [List.append_assoc]
        rw [run32 (dec_LUI_mask ..), execS, Option.bind_some, run32 (dec_ADDI ..), execS, Option.bind_some,
          run32' (dec_SLLI _ _ _ (by decide))]; rfl, ?_,
          (((((Keep.wr _ _ _ _ (by simp)).adv _).wr' _ _ (by simp)).adv _).wr' _ _ (by simp)).adv _⟩
      simp only [rd_adv, rd_wr, hr0, if_false, if_true, IOp.eval, ShOp.eval]
      rw [uimm_hi high (by omega) (by omega), show ((12#64).setWidth 6).toNat = 12 from rfl]
      exact fin
  | abs52 =>
    simp only [Patch.fits] at hf
    have hra : (round addr).toNat < 2 ^ 51 := by rw [round_toNat]; split <;> omega
    have hc := round_split addr
    obtain ⟨w, ew, hx, h52⟩ : ∃ w, (if round addr &&& 0x80000000#64 ≠ 0#64 then ~~~((round addr).sshiftRight 32)
          else (round addr).sshiftRight 32) = w ∧
        uimm ((round addr).extractLsb' 12 20) ^^^ w <<< 32 = round addr &&& ~~~0xfff#64 ∧
        uimm (w.setWidth 20) <<< 20 = w <<< 32 := ⟨_, rfl, xor_high _, hi52 _ hra⟩
    have e : loadAddr .abs52 u addr pc = w32 (LUI ||| RD TMP_REG3 ||| (w <<< 12).setWidth 32) ++
        w32 (LUI ||| RD u.reg ||| (round addr &&& ~~~0xfff#64).setWidth 32) ++
        w32 (SLLI ||| RD TMP_REG3 ||| RS1 TMP_REG3 ||| IMM_I 20#64) ++
        w32 (XOR ||| RD u.reg ||| RS1 u.reg ||| RS2 TMP_REG3) ++ w32 (lastIns u (round addr)) := by rw [← ew]; rfl
    rw [e]
    refine ⟨_, _, _, rfl, rfl, by
      simp only [List.append_assoc]
      rw [run32 (dec_LUI_shl ..), execS, Option.bind_some, run32 (dec_LUI_mask ..), execS, Option.bind_some,
        run32 (dec_SLLI _ _ _ (by decide)), execS, Option.bind_some, run32' (dec_XOR ..)]; rfl, ?_, ?_⟩
    · simp only [rd_adv, rd_wr, hr0, ht, if_false, if_true, ROp.eval, ShOp.eval, hr3, h3', show (7#5 : Reg) ≠ 0#5 by decide]
      rw [show ((20#64).setWidth 6).toNat = 20 from rfl, h52, hx]
      exact hc
    · exact ((((((((Keep.wr _ _ _ _ (by simp [ht])).adv _).wr' _ _ (by simp)).adv _).wr' _ _ (by simp [ht])).adv _).wr' _ _
        (by simp)).adv _)
  | full =>
    obtain ⟨pre, s', e, hl, r, hv, k⟩ := emitConst_pre u.reg addr 0#32 hr0 hr3 s
    have hpre : ∃ q, loadAddr .full u addr pc = q ++ w32 (lastIns u (round addr)) ∧
        emitConst u.reg addr 0#32 = q ++ w32 (0#32 ||| RS1 u.reg ||| IMM_I (round addr)) := ⟨_, rfl, rfl⟩
    obtain ⟨q, e1, e2⟩ := hpre
    have : q = pre := by
      rw [e] at e2
      exact (List.append_inj_left' e2.symm rfl)
    subst this
    exact ⟨q, _, s', e1, by rw [hl]; rfl, r, hv, k⟩

/-- The address is loaded (JUMP_MOV_ADDR). -/
theorem loadAddr_mov (p : Patch) (r : Nat) (addr pc : BitVec 64) (s : St) (hr0 : regMap r ≠ 0#5) (hr3 : regMap r ≠ 7#5)
    (hpc : s.pc = pc) (hf : p.fits addr pc) :
    ∃ s', run (loadAddr p (.mov r) addr pc) s = some s' ∧ s'.rd (regMap r) = addr ∧ Keep [regMap r, 7#5] s s' := by
  obtain ⟨pre, y, s1, e, -, r1, hv, k⟩ := loadAddr_pre p (.mov r) addr pc s hr0 hr3 hpc hf
  rw [e, lastIns_mov]
  refine ⟨_, run_seq r1 (by rw [run32' (dec_ADDI ..)]; rfl), ?_, (k.wr' _ _ (by simp [Use.reg])).adv _⟩
  simp only [rd_adv, rd_wr, hr0, if_false, if_true, IOp.eval]
  exact hv

/-- One JALR step at the end of a sequence. -/
theorem jalr_step (code : Code) (s1 : St) (l d : Nat) (y : BitVec 64)
    (hc : CodeAt code s1.pc (w32 (JALR ||| RD l ||| RS1 d ||| IMM_I y))) :
    step code s1 = some { s1.wr (regMap l) (s1.pc + 4#64) with pc := (s1.rd (regMap d) + (y.setWidth 12).signExtend 64) &&& ~~~1#64 } := by
  simp only [w32, CodeAt] at hc
  simp only [step, hc.1, hc.2.1]
  rw [join32, not_isC_of_decode32 (by rw [dec_JALR]; rfl), dec_JALR]
  rfl

/-- Control arrives at the target (bit 0 cleared by the hardware); a call also sets the return address to the end of
the sequence. -/
theorem loadAddr_jump (p : Patch) (u : Use) (hu : u = .jump ∨ u = .call) (addr pc : BitVec 64) (code : Code) (s : St)
    (hpc : s.pc = pc) (hf : p.fits addr pc) (hc : CodeAt code s.pc (loadAddr p u addr pc)) :
    ∃ s', Steps code s s' ∧ s'.pc = addr &&& ~~~1#64 ∧
      (u = .call → s'.rd 1#5 = pc + BitVec.ofNat 64 (2 * p.len)) ∧
      (∀ q, q ≠ 6#5 → q ≠ 7#5 → (u = .call → q ≠ 1#5) → s'.rd q = s.rd q) ∧ s'.mem = s.mem ∧ s'.f = s.f := by
  have hreg : u.reg = TMP_REG1 := by rcases hu with rfl | rfl <;> rfl
  have h6 : regMap u.reg = 6#5 := by rw [hreg]; rfl
  obtain ⟨pre, y, s1, e, hl, r, hv, k⟩ := loadAddr_pre p u addr pc s (by rw [h6]; decide) (by rw [h6]; decide) hpc hf
  rw [h6] at hv k
  rw [e, CodeAt_append] at hc
  have hs1 := steps_of_run hc.1 r
  have hpc1 := run_pc r
  have hc2 := hc.2
  rw [← hpc1] at hc2
  have he : s1.pc + 4#64 = pc + BitVec.ofNat 64 (2 * p.len) := by
    rw [hpc1, hpc, ← hl]
    apply BitVec.eq_of_toNat_eq
    simp; omega
  rcases hu with rfl | rfl
  · rw [lastIns_jump] at hc2
    have hst := jalr_step code s1 _ _ _ hc2
    rw [show regMap TMP_REG1 = 6#5 from rfl, hv, show regMap 0 = 0#5 from rfl] at hst
    refine ⟨_, hs1.trans (.step hst (.refl _)), rfl, by simp, ?_, k.mem, k.f⟩
    intro q h1 h2 _
    rw [← k.reg q (by simp [h1, h2])]
    show (s1.wr 0#5 _).rd q = _
    rw [rd_wr]
    split
    · next h0 => subst h0; simp
    · rfl
  · rw [lastIns_call] at hc2
    have hst := jalr_step code s1 _ _ _ hc2
    rw [show regMap TMP_REG1 = 6#5 from rfl, hv, show regMap RETURN_ADDR_REG = 1#5 from rfl] at hst
    refine ⟨_, hs1.trans (.step hst (.refl _)), rfl, ?_, ?_, k.mem, k.f⟩
    · intro _
      rw [← he]
      show (s1.wr 1#5 _).rd 1#5 = _
      rw [rd_wr]; rfl
    · intro q h1 h2 h3
      rw [← k.reg q (by simp [h1, h2])]
      show (s1.wr 1#5 _).rd q = _
      rw [rd_wr]
      split
      · next h0 => subst h0; simp
      · simp [h3 rfl]

end Verif.RV
