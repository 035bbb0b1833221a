import Verif.RISCV.GenDec

/-! # Executing a patched jump -/

namespace Verif.RV

theorem step_join {code : Code} {s : St} {lo hi : BitVec 16} {rest : List (BitVec 16)} {i : Instr} (hc : CodeAt code s.pc (lo :: hi :: rest))
    (hd : decode32 (join lo hi) = some i) : step code s = exec i 4#64 s := by
  have hlo : (join lo hi).setWidth 16 = lo := by simp only [join]; bits [Nat.reduceAdd]
  have hn := not_isC_of_decode32 (w := join lo hi) (by rw [hd]; rfl)
  rw [hlo] at hn
  simp only [CodeAt] at hc
  simp only [step, hc.1, hn, hc.2.1]
  simp only [join] at hd
  simp only [Bool.false_eq_true, if_false, hd, Option.bind_some]

theorem join_w32 (w : BitVec 32) : join (w.setWidth 16) ((w >>> 16).setWidth 16) = w := join32 w

theorem step_16 {code : Code} {s : St} {lo : BitVec 16} {rest : List (BitVec 16)} {i : Instr} (hc : CodeAt code s.pc (lo :: rest))
    (hd : decode16 lo = some i) : step code s = exec i 2#64 s := by
  have hn := isC_of_decode16 (h := lo) (by rw [hd]; rfl)
  simp only [CodeAt] at hc
  simp only [step, hc.1, hn, if_true, hd, Option.bind_some]

theorem exec_branch (o : BrOp) (a b : Reg) (imm : BitVec 13) (len : BitVec 64) (s : St) : exec (.branch o a b imm) len s =
    some { s with pc := if o.eval (s.rd a) (s.rd b) then s.pc + imm.signExtend 64 else s.pc + len } := rfl
theorem exec_jal (r : Reg) (imm : BitVec 21) (len : BitVec 64) (s : St) : exec (.jal r imm) len s =
    some { s.wr r (s.pc + len) with pc := s.pc + imm.signExtend 64 } := rfl

theorem even_sub {t p : BitVec 64} (ht : t &&& 1#64 = 0#64) (hp : p &&& 1#64 = 0#64) : (t - p).getLsbD 0 = false := by
  have f : ∀ v : BitVec 64, v &&& 1#64 = 0#64 ↔ v.toNat % 2 = 0 := by
    intro v
    rw [← BitVec.toNat_inj, BitVec.toNat_and]
    simp [Nat.and_one_is_mod]
  rw [f] at ht hp
  rw [BitVec.getLsbD, Nat.testBit_zero, BitVec.toNat_sub]
  simp; omega

theorem even_target {t : BitVec 64} (ht : t &&& 1#64 = 0#64) : t &&& ~~~1#64 = t := by
  have h : t.getLsbD 0 = false := by simpa using congrArg (fun v : BitVec 64 => v.getLsbD 0) ht
  apply BitVec.eq_of_getLsbD_eq
  intro k hk
  simp only [BitVec.getLsbD_and, BitVec.getLsbD_not, hk, decide_true, Bool.true_and]
  rcases Nat.eq_zero_or_pos k with rfl | h'
  · rw [h]; rfl
  · have : (1#64).getLsbD k = false := by simp [BitVec.getLsbD_one]; omega
    simp [this]

/-- After the branch (or without one) control is at the jump itself, or behind it. -/
theorem skip_sem {cfg : Cfg} {code : Code} {s : St} {j : JInfo} {k : Kind} {rest : List (BitVec 16)} (hb : j.br.Ok cfg)
    (hk : k = .j32 ∨ ∃ p, k = .seq p) (hc : CodeAt code s.pc (brSkip k j.br ++ rest)) :
    Steps code s { s with pc := if j.br.skips s then s.pc + BitVec.ofNat 64 (2 * (j.br.words.length + ksz j k))
      else s.pc + BitVec.ofNat 64 (2 * j.br.words.length) } := by
  obtain ⟨br, rew, call, tgt⟩ := j
  cases br with
  | none =>
    simp only [Br.skips, Br.words, Bool.false_eq_true, if_false, List.length_nil, Nat.mul_zero, BitVec.ofNat_eq_ofNat, BitVec.add_zero]
    exact .refl _
  | b32 f3 a b =>
    simp only [Br.Ok] at hb
    obtain ⟨o, ho⟩ := Option.isSome_iff_exists.mp hb
    have hx : k.skip32 &&& ~~~0x1e#32 = 0#32 := by
      rcases hk with rfl | ⟨p, rfl⟩
      · rfl
      · cases p <;> rfl
    have hd := dec_sk32 f3 a b k.skip32 hx
    rw [ho] at hd
    refine .step (s' := _) (by rw [step_join hc hd, exec_branch]) ?_
    have hlen : ((k.skip32.setWidth 13).signExtend 64 : BitVec 64) =
        BitVec.ofNat 64 (2 * ((Br.b32 f3 a b).words.length + ksz ⟨.b32 f3 a b, rew, call, tgt⟩ k)) := by
      rcases hk with rfl | ⟨p, rfl⟩
      · rfl
      · cases p <;> rfl
    simp only [Br.skips, ho, hlen]
    exact .refl _
  | b16 ne r =>
    simp only [Br.Ok] at hb
    have hx : k.skip16.getLsbD 0 = false := by
      rcases hk with rfl | ⟨p, rfl⟩
      · rfl
      · cases p <;> rfl
    have hd := dec_sk16 ne r k.skip16 hb.2 hx
    refine .step (s' := _) (by rw [step_16 hc hd, exec_branch]) ?_
    have hlen : (((k.skip16.setWidth 9).signExtend 13).signExtend 64 : BitVec 64) =
        BitVec.ofNat 64 (2 * ((Br.b16 ne r).words.length + ksz ⟨.b16 ne r, rew, call, tgt⟩ k)) := by
      rcases hk with rfl | ⟨p, rfl⟩
      · rfl
      · cases p <;> rfl
    have he : (if ne = true then BrOp.ne else BrOp.eq).eval (s.rd (regMap r)) (s.rd 0#5) = (Br.b16 ne r).skips s := by
      cases ne <;> simp [Br.skips, BrOp.eval]
    rw [he, hlen]
    exact .refl _

theorem even_add2 {x : BitVec 64} (n : Nat) (h : x &&& 1#64 = 0#64) : (x + BitVec.ofNat 64 (2 * n)) &&& 1#64 = 0#64 := by
  have f : ∀ v : BitVec 64, v &&& 1#64 = 0#64 ↔ v.toNat % 2 = 0 := by
    intro v
    rw [← BitVec.toNat_inj, BitVec.toNat_and]
    simp [Nat.and_one_is_mod]
  rw [f] at *
  simp only [BitVec.toNat_add, BitVec.toNat_ofNat]
  omega

theorem add_sub_self (x t : BitVec 64) : x + (t - x) = t := by rw [BitVec.add_comm, BitVec.sub_add_cancel]

theorem br16_not (ne : Bool) (r : Nat) (s : St) :
    (if ne = true then BrOp.eq else BrOp.ne).eval (s.rd (regMap r)) (s.rd 0#5) = !(Br.b16 ne r).skips s := by
  cases ne <;> simp [Br.skips, BrOp.eval, bne]

/-- A conditional branch which goes to the target itself. -/
theorem branch_does {code : Code} {s : St} {j : JInfo} {t d len : BitVec 64} {n : Nat} (hcall : j.call = false) {c : Bool} (hcs : c = !j.br.skips s)
    (hd : s.pc + d = t) (hl : len = BitVec.ofNat 64 (2 * n))
    (hst : step code s = some { s with pc := if c then s.pc + d else s.pc + len }) : JumpDoes code j t n s := by
  refine ⟨_, .step hst (.refl _), ?_, by simp [hcall], fun _ _ _ _ => rfl, rfl, rfl⟩
  subst hl hd hcs
  cases j.br.skips s <;> rfl

theorem jump_sem {cfg : Cfg} {code : Code} {s : St} {j : JInfo} {k : Kind} {t : BitVec 64} (hb : j.br.Ok cfg) (hcall : j.call = true → j.br = .none)
    (hf : KindFor cfg j k) (ht : t &&& 1#64 = 0#64) (hs : s.pc &&& 1#64 = 0#64)
    (hok : KindOk k t (s.pc + BitVec.ofNat 64 (2 * (j.br.words.length - kback j k))))
    (hc : CodeAt code s.pc (jumpW j k t (s.pc + BitVec.ofNat 64 (2 * (j.br.words.length - kback j k))))) :
    JumpDoes code j t (j.br.words.length + ksz j k) s := by
  have hpp := even_add2 (j.br.words.length - kback j k) hs
  have hev := even_sub ht hpp
  cases k with
  | b16 =>
    simp only [KindFor] at hf
    have hbr : ∃ ne r, j.br = .b16 ne r := by cases hbr : j.br <;> simp_all [Br.cond16]
    obtain ⟨ne, r, hbr⟩ := hbr
    have hcf : j.call = false := by cases h : j.call; rfl; rw [hcall h] at hbr; cases hbr
    have hw : j.br.words.length = 1 := by rw [hbr]; rfl
    simp only [hw, kback, Nat.sub_self, Nat.mul_zero, BitVec.ofNat_eq_ofNat, BitVec.add_zero, ksz] at *
    rw [hbr] at hb
    have hj : jumpW j .b16 t s.pc = [pb16 ne r (t - s.pc)] := by simp only [jumpW, preW, hbr]; rfl
    rw [hj] at hc
    refine branch_does hcf (c := !j.br.skips s) rfl (add_sub_self s.pc t) (len := 2#64) rfl ?_
    rw [step_16 hc (dec_pb16 ne r _ hb.2 hev), exec_branch, br16_not, sx9 _ hok.1 hok.2, hbr]
  | b32 =>
    simp only [KindFor] at hf
    have hcf : j.call = false := by cases h : j.call; rfl; rw [hcall h] at hf; cases hf
    rcases hbr : j.br with _ | ⟨f3, a, b⟩ | ⟨ne, r⟩
    · rw [hbr] at hf; simp [Br.cond] at hf
    · have hw : j.br.words.length = 2 := by rw [hbr]; rfl
      have hkb : kback j .b32 = 2 := by simp [kback, hbr, Br.cond16]
      have hkz : ksz j .b32 = 0 := by simp [ksz, hbr, Br.cond16]
      rw [← hbr]
      simp only [hw, hkb, hkz, Nat.sub_self, Nat.mul_zero, BitVec.ofNat_eq_ofNat, BitVec.add_zero] at *
      rw [hbr] at hb
      obtain ⟨o, ho⟩ := Option.isSome_iff_exists.mp hb
      obtain ⟨o', ho', hneg⟩ := decBr_neg ho
      have hdd := dec_pb32 f3 a b (t - s.pc) hev
      rw [ho'] at hdd
      refine branch_does hcf (c := o'.eval (s.rd (regMap a)) (s.rd (regMap b))) ?_ (add_sub_self s.pc t) (len := 4#64) rfl ?_
      · rw [hneg, hbr]; simp only [Br.skips, ho]
      · simp only [jumpW, preW, hbr] at hc
        rw [step_join hc hdd, exec_branch, sx13 _ hok.1 hok.2]
    · have hw : j.br.words.length = 1 := by rw [hbr]; rfl
      have hkb : kback j .b32 = 1 := by simp [kback, hbr, Br.cond16]
      have hkz : ksz j .b32 = 1 := by simp [ksz, hbr, Br.cond16]
      rw [← hbr]
      simp only [hw, hkb, hkz, Nat.sub_self, Nat.mul_zero, BitVec.ofNat_eq_ofNat, BitVec.add_zero] at *
      rw [hbr] at hb
      refine branch_does hcf (c := !j.br.skips s) rfl (add_sub_self s.pc t) (len := 4#64) rfl ?_
      simp only [jumpW, preW, hbr] at hc
      rw [step_join hc (dec_pb48 ne r (t - s.pc) hb.2 hev), exec_branch, br16_not, sx13 _ hok.1 hok.2, hbr]
  | j16 =>
    simp only [KindFor] at hf
    obtain ⟨-, hcl, hbr⟩ := hf
    have hw : j.br.words.length = 0 := by rw [hbr]; rfl
    have hsk : j.br.skips s = false := by rw [hbr]; rfl
    simp only [hw, kback, Nat.sub_self, Nat.mul_zero, BitVec.ofNat_eq_ofNat, BitVec.add_zero, ksz] at *
    simp only [jumpW] at hc
    have hst := step_16 hc (dec_C_J _ hev)
    rw [exec_jal, sx12 _ hok.1 hok.2, add_sub_self] at hst
    refine ⟨_, .step hst (.refl _), ?_, by simp [hcl], fun q _ _ _ => ?_, rfl, rfl⟩
    · simp only [hsk, Bool.false_eq_true, if_false]
    · show (s.wr 0#5 _).rd q = _
      rw [rd_wr]; split
      · next h => rw [h, rd_zero]
      · rfl
  | j32 =>
    simp only [jumpW, kback, Nat.sub_zero] at *
    have h1 := skip_sem hb (Or.inl rfl) hc
    rw [CodeAt_append, brSkip_length] at hc
    cases hsk : j.br.skips s with
    | true =>
      have hcf : j.call = false := by cases h : j.call; rfl; rw [hcall h] at hsk; cases hsk
      simp only [hsk, if_true] at h1
      exact ⟨_, h1, by simp only [hsk, if_true], by simp [hcf], fun _ _ _ _ => rfl, rfl, rfl⟩
    | false =>
      simp only [hsk, Bool.false_eq_true, if_false] at h1
      have hst := step_join (s := { s with pc := s.pc + BitVec.ofNat 64 (2 * j.br.words.length) }) (rest := []) hc.2
        (by rw [join_w32]; exact dec_pJal _ _ hev)
      rw [exec_jal, sx21 _ hok.1 hok.2] at hst
      refine ⟨_, h1.trans (.step hst (.refl _)), ?_, ?_, fun q _ _ h => ?_, rfl, rfl⟩
      · simp only [hsk, Bool.false_eq_true, if_false]; exact add_sub_self _ _
      · intro hcl
        show (St.wr _ _ _).rd 1#5 = _
        rw [rd_wr, hcl]
        simp only [if_true, show regMap RETURN_ADDR_REG = 1#5 from rfl, ksz, Nat.mul_add, BitVec.ofNat_add, BitVec.add_assoc]
        rfl
      · show (St.wr _ _ _).rd q = _
        rw [rd_wr]
        split
        · next h => rw [h, rd_zero]
        · next h1 =>
          have hne : q ≠ regMap (if j.call = true then RETURN_ADDR_REG else TMP_ZERO) := by
            cases hcl : j.call
            · exact h1
            · exact h hcl
          rw [if_neg hne]; rfl
  | seq p =>
    simp only [jumpW, kback, Nat.sub_zero] at *
    have h1 := skip_sem hb (Or.inr ⟨p, rfl⟩) hc
    rw [CodeAt_append, brSkip_length] at hc
    cases hsk : j.br.skips s with
    | true =>
      have hcf : j.call = false := by cases h : j.call; rfl; rw [hcall h] at hsk; cases hsk
      simp only [hsk, if_true] at h1
      exact ⟨_, h1, by simp only [hsk, if_true], by simp [hcf], fun _ _ _ _ => rfl, rfl, rfl⟩
    | false =>
      simp only [hsk, Bool.false_eq_true, if_false] at h1
      obtain ⟨s', a1, a2, a3, a4, a5, a6⟩ := loadAddr_jump p (if j.call then .call else .jump) (by cases j.call <;> simp) t _ code
        { s with pc := s.pc + BitVec.ofNat 64 (2 * j.br.words.length) } rfl hok hc.2
      refine ⟨s', h1.trans a1, ?_, ?_, ?_, a5, a6⟩
      · simp only [hsk, Bool.false_eq_true, if_false]; rw [a2, even_target ht]
      · intro hcl
        rw [a3 (by simp [hcl])]
        simp only [ksz, Nat.mul_add, BitVec.ofNat_add, BitVec.add_assoc]
      · intro q h6 h7 hq
        exact a4 q h6 h7 (fun h => hq (by cases hcl : j.call <;> simp [hcl] at h ⊢))

end Verif.RV
