import Verif.X86.GenPiece

/-! # The generating loop on x86-64 (helper lemmas) -/

namespace Verif.X86

/-! ## Move addresses -/

theorem mov_ok {e : Env} {L cur : List Nat} {T li E cp : Nat} (hi : Inv e L T cur li E cp) {reg : Nat} {t : Tgt} {est : Nat}
    (he : EstM e.win L.length reg t est) (hne : NoEdge (e.base + e.off) T (.mov reg t)) :
    let r := movCode e reg t cp (tgtSize cur t)
    r.1.length ≤ est ∧ 5 ≤ r.1.length ∧ ∀ F, Fits L cur F li E cp r.1.length → ∃ k, MKindOk (tgtPos e F t) (e.exec cp) k ∧
      Patches e F cp ⟨true, t, r.2, cp + r.1.length⟩ r.1 (movB e.win reg (tgtPos e F t) (e.exec cp) k) := by
  intro r
  have hsm := hi.small
  have hcpn : cp ≤ T := by have := hi.le; have := hi.leE; have := hi.fit; omega
  -- the three forms
  have hlea : r = ([0x48#8 ||| (((0x48#8 ||| if movHi e.win reg then 1#8 else 0#8) &&& 1#8) <<< 2), 0x8d#8, (((0xb8#8 ||| regLmap e.win reg) &&& 7#8) <<< 3) ||| 5#8] ++ toLe 4 0#64, .mw) →
      r.1.length = 7 ∧ ∀ F : List Nat, t.Ok F.length → Patches e F cp ⟨true, t, r.2, cp + r.1.length⟩ r.1 (movB e.win reg (tgtPos e F t) (e.exec cp) .lea) := by
    intro hr
    have hrex : (0x48#8 ||| (((0x48#8 ||| if movHi e.win reg then 1#8 else 0#8) &&& 1#8) <<< 2)) = if movHi e.win reg then 0x4c#8 else 0x48#8 := by
      cases movHi e.win reg <;> decide
    rw [hrex] at hr
    have hl : r.1.length = 7 := by rw [hr]; rfl
    refine ⟨hl, fun F ht => ⟨by rw [hl]; simp [movB, toLe_length], fun A Y hA => ?_⟩⟩
    rw [hl, hr]
    simp only [patchOne, if_true, tgtAddr_pos ht, movB, exec_add]
    have e7 : tgtPos e F t - (e.exec cp + BitVec.ofNat 64 7) = tgtPos e F t - e.exec cp - 7#64 := by
      simp only [BitVec.sub_eq_add_neg, BitVec.neg_add]; ac_rfl
    rw [e7]
    have := store_mid (A := A) (pre := [if movHi e.win reg then 0x4c#8 else 0x48#8, 0x8d#8, (((0xb8#8 ||| regLmap e.win reg) &&& 7#8) <<< 3) ||| 5#8])
      (mid := toLe 4 0#64) (post := []) (Y := Y) (at' := cp + 7 - 4) (new := toLe 4 (tgtPos e F t - e.exec cp - 7#64)) (by simp; omega) (by simp [toLe_length])
    simpa only [List.append_nil, List.append_assoc, List.cons_append, List.nil_append] using this
  have hfull : r = ((0x48#8 ||| if movHi e.win reg then 1#8 else 0#8) :: (0xb8#8 ||| regLmap e.win reg) :: toLe 8 0#64, .md) →
      r.1.length = 10 ∧ ∀ F : List Nat, t.Ok F.length → Patches e F cp ⟨true, t, r.2, cp + r.1.length⟩ r.1 (movB e.win reg (tgtPos e F t) (e.exec cp) .full) := by
    intro hr
    have hrex : (0x48#8 ||| if movHi e.win reg then 1#8 else 0#8) = if movHi e.win reg then 0x49#8 else 0x48#8 := by
      cases movHi e.win reg <;> decide
    rw [hrex] at hr
    have hl : r.1.length = 10 := by rw [hr]; rfl
    refine ⟨hl, fun F ht => ⟨by rw [hl]; simp [movB, toLe_length], fun A Y hA => ?_⟩⟩
    rw [hl, hr]
    simp only [patchOne, if_true, tgtAddr_pos ht, movB]
    have := store_mid (A := A) (pre := [if movHi e.win reg then 0x49#8 else 0x48#8, 0xb8#8 ||| regLmap e.win reg])
      (mid := toLe 8 0#64) (post := []) (Y := Y) (at' := cp + 10 - 8) (new := toLe 8 (tgtPos e F t)) (by simp; omega) (by simp [toLe_length])
    simpa only [List.append_nil, List.append_assoc, List.cons_append, List.nil_append] using this
  have hhalf : r = (if (0x48#8 ||| if movHi e.win reg then 1#8 else 0#8) &&& 7#8 ≠ 0#8 then
        (((0x48#8 ||| if movHi e.win reg then 1#8 else 0#8) &&& ~~~8#8) :: (0xb8#8 ||| regLmap e.win reg) :: toLe 4 0#64, Patch.none)
        else ((0xb8#8 ||| regLmap e.win reg) :: toLe 4 0#64, .none)) →
      r.1.length = (if movHi e.win reg then 6 else 5) ∧
        ∀ F : List Nat, t.Ok F.length → Patches e F cp ⟨true, t, r.2, cp + r.1.length⟩ r.1 (movB e.win reg (tgtPos e F t) (e.exec cp) .half) := by
    intro hr
    cases hh : movHi e.win reg
    · have hr : r = ((0xb8#8 ||| regLmap e.win reg) :: toLe 4 0#64, .none) := by
        rw [hr, hh]; exact if_neg (by decide)
      have hl : r.1.length = 5 := by rw [hr]; rfl
      refine ⟨hl, fun F ht => ⟨by rw [hl]; simp [movB, toLe_length, hh], fun A Y hA => ?_⟩⟩
      rw [hl, hr]
      simp only [patchOne, if_true, tgtAddr_pos ht, movB, hh, Bool.false_eq_true, if_false, List.nil_append]
      have := store_mid (A := A) (pre := [0xb8#8 ||| regLmap e.win reg])
        (mid := toLe 4 0#64) (post := []) (Y := Y) (at' := cp + 5 - 4) (new := toLe 4 (tgtPos e F t)) (by simp; omega) (by simp [toLe_length])
      simpa only [List.append_nil, List.append_assoc, List.cons_append, List.nil_append] using this
    · have hr : r = (0x41#8 :: (0xb8#8 ||| regLmap e.win reg) :: toLe 4 0#64, .none) := by
        rw [hr, hh]; exact if_pos (by decide)
      have hl : r.1.length = 6 := by rw [hr]; rfl
      refine ⟨hl, fun F ht => ⟨by rw [hl]; simp [movB, toLe_length, hh], fun A Y hA => ?_⟩⟩
      rw [hl, hr]
      simp only [patchOne, if_true, tgtAddr_pos ht, movB, hh, List.nil_append]
      have := store_mid (A := A) (pre := [0x41#8, 0xb8#8 ||| regLmap e.win reg])
        (mid := toLe 4 0#64) (post := []) (Y := Y) (at' := cp + 6 - 4) (new := toLe 4 (tgtPos e F t)) (by simp; omega) (by simp [toLe_length])
      simpa only [List.append_nil, List.append_assoc, List.cons_append, List.nil_append] using this
  cases t with
  | label k =>
    simp only [EstM] at he
    obtain ⟨hk, rfl⟩ := he
    have hcur : cur.getD k 0 ≤ T := by
      by_cases h : k < li
      · have := (hi.done k h).1; omega
      · rw [hi.todo k (by omega)]; exact hi.bound k
    have hF' : ∀ F len, Fits L cur F li E cp len → F.getD k 0 ≤ cur.getD k 0 := by
      intro F len hF
      by_cases h : k < li
      · rw [hF.old k h]
      · have := hF.new k (by omega) hk; rw [hi.todo k (by omega)]; have := hi.le; omega
    have ha : e.base + e.off + BitVec.ofNat 64 (cur.getD k 0) = e.exec (cur.getD k 0) := (exec_base ..).symm
    have hx : ∀ x, x ≤ T → (e.exec x).toNat = (e.base + e.off).toNat + x := by
      intro x hx
      have := hi.wrapx
      rw [exec_base, BitVec.toNat_add, BitVec.toNat_ofNat, Nat.mod_eq_of_lt (a := x) (by omega), Nat.mod_eq_of_lt (by omega)]
    by_cases hbig : 0xffffffff < (e.exec (cur.getD k 0)).toNat
    · have hdiff : (e.exec (cur.getD k 0) - e.exec (cp + 10)).toInt = (cur.getD k 0 : Int) - (cp + 10 : Nat) := by
        have := sub_toInt (e.base + e.off) (x := cur.getD k 0) (y := cp + 10) (m := 0) (by omega) (by omega) (by omega)
        rw [exec_base, exec_base]
        simpa using this
      have hr := hlea (by
        simp only [r, movCode, tgtSize, ha]
        rw [if_pos hbig, if_pos (by rw [hdiff]; omega)])
      refine ⟨by omega, by omega, fun F hF => ⟨.lea, ?_, hr.2 F (by rw [hF.len_eq]; exact hk)⟩⟩
      simp only [MKindOk, tgtPos]
      rw [isHalf_iff, exec_base, exec_base, show (7#64 : BitVec 64) = BitVec.ofNat 64 7 from rfl]
      have := hF' F _ hF
      rw [sub_toInt _ (by omega) (by omega) (by omega)]
      omega
    · have hr := hhalf (by
        simp only [r, movCode, tgtSize, ha]
        rw [if_neg hbig])
      refine ⟨by rw [hr.1]; split <;> omega, by rw [hr.1]; split <;> omega, fun F hF => ⟨.half, ?_, hr.2 F (by rw [hF.len_eq]; exact hk)⟩⟩
      simp only [MKindOk, tgtPos]
      have := hF' F _ hF
      rw [hx _ hcur] at hbig
      rw [hx _ (by omega)]
      omega
  | addr a =>
    simp only [EstM] at he
    by_cases hbig : 0xffffffff < a.toNat
    · rw [if_neg (by omega)] at he
      by_cases hd : (a - e.exec (cp + 10)).toInt ≤ 0x7fffffff ∧ -0x80000000 ≤ (a - e.exec (cp + 10)).toInt
      · have hr := hlea (by
          simp only [r, movCode]
          rw [if_pos hbig, if_pos hd])
        refine ⟨by omega, by omega, fun F hF => ⟨.lea, ?_, hr.2 F trivial⟩⟩
        simp only [MKindOk, tgtPos]
        have e7 : a - e.exec cp - 7#64 = (a - e.exec (cp + 10)) + BitVec.ofNat 64 3 := by
          rw [exec_add]; generalize e.exec cp = u; bv_omega
        rw [isHalf_iff, e7, add_toInt _ (by omega) (by omega)]
        have hne := hne cp hcpn
        have key : ∀ k : Nat, k ≤ 2 → (a - e.exec (cp + 10)).toInt ≠ 0x7fffffff - (k : Int) := by
          intro k hk h
          apply hne k hk
          have h' : a - e.exec (cp + 10) = 0x7fffffff#64 - BitVec.ofNat 64 k := by
            apply BitVec.eq_of_toInt_eq
            rw [h]
            rcases (show k = 0 ∨ k = 1 ∨ k = 2 by omega) with rfl | rfl | rfl <;> decide
          rw [exec_add, exec_base] at h'
          rw [← h']
          generalize e.base + e.off + BitVec.ofNat 64 cp = u
          bv_omega
        have := key 0 (by omega)
        have := key 1 (by omega)
        have := key 2 (by omega)
        omega
      · have hr := hfull (by
          simp only [r, movCode]
          rw [if_pos hbig, if_neg hd])
        exact ⟨by omega, by omega, fun F hF => ⟨.full, trivial, hr.2 F trivial⟩⟩
    · rw [if_pos (by omega)] at he
      have hr := hhalf (by
        simp only [r, movCode]
        rw [if_neg hbig])
      refine ⟨by rw [hr.1, he]; split <;> omega, by rw [hr.1]; split <;> omega, fun F hF => ⟨.half, ?_, hr.2 F trivial⟩⟩
      simp only [MKindOk, tgtPos]
      omega

/-! ## Aligned labels -/

theorem andNot_mask (x : BitVec 64) {al : Nat} (h : al ≤ 40) : (x &&& ~~~(BitVec.ofNat 64 (alMask al))).toNat = x.toNat - x.toNat % 2 ^ al := by
  have hp : 2 ^ al ≤ 2 ^ 40 := Nat.pow_le_pow_right (by omega) h
  have h1 : 1 ≤ 2 ^ al := Nat.one_le_two_pow
  have hm : (BitVec.ofNat 64 (alMask al)).toNat = 2 ^ al - 1 := by
    rw [BitVec.toNat_ofNat, alMask, Nat.mod_eq_of_lt (by omega)]
  have e : x &&& ~~~(BitVec.ofNat 64 (alMask al)) = x - (x &&& BitVec.ofNat 64 (alMask al)) := by
    have : x = (x &&& ~~~(BitVec.ofNat 64 (alMask al))) + (x &&& BitVec.ofNat 64 (alMask al)) := by
      rw [BitVec.add_eq_or_of_and_eq_zero]
      · apply BitVec.eq_of_getLsbD_eq
        intro i hi
        simp only [BitVec.getLsbD_or, BitVec.getLsbD_and, BitVec.getLsbD_not, hi, decide_true, Bool.true_and]
        cases x.getLsbD i <;> cases (BitVec.ofNat 64 (alMask al)).getLsbD i <;> rfl
      · apply BitVec.eq_of_getLsbD_eq
        intro i hi
        simp only [BitVec.getLsbD_and, BitVec.getLsbD_not, hi, decide_true, Bool.true_and, BitVec.getLsbD_zero]
        cases x.getLsbD i <;> cases (BitVec.ofNat 64 (alMask al)).getLsbD i <;> rfl
    generalize x &&& BitVec.ofNat 64 (alMask al) = u at *
    generalize x &&& ~~~BitVec.ofNat 64 (alMask al) = v at *
    bv_omega
  have hand : (x &&& BitVec.ofNat 64 (alMask al)).toNat = x.toNat % 2 ^ al := by
    rw [BitVec.toNat_and, hm, Nat.and_two_pow_sub_one_eq_mod]
  rw [e, BitVec.toNat_sub_of_le (by rw [BitVec.le_def, hand]; exact Nat.mod_le ..), hand]

theorem padding_ok {e : Env} {cp al T : Nat} (hal : al ≤ 40) (hw : e.base.toNat + T < 2 ^ 64) (hn : cp + alMask al ≤ T) :
    padding e cp al ≤ alMask al ∧ (e.base + BitVec.ofNat 64 (cp + padding e cp al)).toNat % 2 ^ al = 0 := by
  have hp : 2 ^ al ≤ 2 ^ 40 := Nat.pow_le_pow_right (by omega) hal
  have h1 : 1 ≤ 2 ^ al := Nat.one_le_two_pow
  have hx : ∀ x, x ≤ T → (e.base + BitVec.ofNat 64 x).toNat = e.base.toNat + x := by
    intro x hx
    rw [BitVec.toNat_add, BitVec.toNat_ofNat, Nat.mod_eq_of_lt (a := x) (by omega), Nat.mod_eq_of_lt (by omega)]
  have e1 : e.base + BitVec.ofNat 64 cp + BitVec.ofNat 64 (alMask al) = e.base + BitVec.ofNat 64 (cp + alMask al) := by
    rw [BitVec.add_assoc, ← BitVec.ofNat_add]
  have ha := andNot_mask (e.base + BitVec.ofNat 64 (cp + alMask al)) hal
  rw [hx _ hn] at ha
  have hlt : (e.base.toNat + (cp + alMask al)) % 2 ^ al < 2 ^ al := Nat.mod_lt _ (by omega)
  have hmask : alMask al = 2 ^ al - 1 := rfl
  have hpad : padding e cp al = (e.base.toNat + (cp + alMask al)) - (e.base.toNat + (cp + alMask al)) % 2 ^ al - (e.base.toNat + cp) := by
    simp only [padding]
    rw [e1, BitVec.toNat_sub_of_le (by rw [BitVec.le_def, ha, hx _ (by omega)]; omega), ha, hx _ (by omega)]
  refine ⟨by omega, ?_⟩
  rw [hx _ (by omega), hpad]
  have hdm := Nat.div_add_mod (e.base.toNat + (cp + alMask al)) (2 ^ al)
  have : e.base.toNat + (cp + (e.base.toNat + (cp + alMask al) - (e.base.toNat + (cp + alMask al)) % 2 ^ al - (e.base.toNat + cp))) =
      2 ^ al * ((e.base.toNat + (cp + alMask al)) / 2 ^ al) := by omega
  rw [this, Nat.mul_mod_right]

end Verif.X86
