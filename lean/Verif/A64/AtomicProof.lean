import Verif.A64.Atomic

/-! # Atomic operations on ARM64 (helper lemmas) -/

set_option linter.all false

namespace Verif.A64
open Verif.Imm.A64 (fld)
open Verif.Imm.Arm64 (regMap RD RN TMP_ZERO W_OP)
open Verif (RV.Op1C)

/-! ## Interference -/

theorem Interf.refl (s : ASt) : Interf s s := ⟨⟨s.st.m, rfl⟩, Or.inr ⟨rfl, fun _ _ _ => rfl⟩⟩
theorem Interf.r {s s' : ASt} (h : Interf s s') : s'.st.r = s.st.r := by obtain ⟨⟨m, e⟩, -⟩ := h; rw [e]
theorem Interf.f {s s' : ASt} (h : Interf s s') : s'.st.f = s.st.f := by obtain ⟨⟨m, e⟩, -⟩ := h; rw [e]

/-- Some execution exists, and all of them end with `Q`. -/
def wpA (e : List (BitVec 32)) (s : ASt) (Q : ASt → ALog → Prop) : Prop := (∃ s' l, ExecA e s s' l) ∧ ∀ s' l, ExecA e s s' l → Q s' l

theorem wpA_mono {e : List (BitVec 32)} {s : ASt} {P Q : ASt → ALog → Prop} (h : wpA e s P) (hpq : ∀ s' l, P s' l → Q s' l) : wpA e s Q :=
  ⟨h.1, fun s' l hx => hpq _ _ (h.2 _ _ hx)⟩

theorem wpA_nil {s : ASt} {Q} (h : ∀ s', Interf s s' → Q s' []) : wpA [] s Q :=
  ⟨⟨s, [], .nil (.refl s)⟩, by rintro s' l ⟨⟩; exact h _ ‹_›⟩

theorem wpA_cons {w : BitVec 32} {ws : List (BitVec 32)} {s : ASt} {Q}
    (h : ∀ s1, Interf s s1 → (∃ s2 l, StepA w s1 s2 l) ∧ ∀ s2 l, StepA w s1 s2 l → wpA ws s2 fun s' l' => Q s' (l ++ l')) :
    wpA (w :: ws) s Q := by
  refine ⟨?_, ?_⟩
  · obtain ⟨⟨s2, l, h1⟩, h2⟩ := h s (.refl s)
    obtain ⟨⟨s', l', h3⟩, -⟩ := h2 _ _ h1
    exact ⟨s', l ++ l', .cons (.refl s) h1 h3⟩
  · intro s' l hx
    cases hx with
    | cons hi hs he => exact ((h _ hi).2 _ _ hs).2 _ _ he

theorem wpA_ins {w : BitVec 32} {ws : List (BitVec 32)} {s : ASt} {Q} (hn : decAt w = none) (g : St → St) (hg : ∀ t, step w t = some (g t)) (hm : ∀ t, (g t).m = t.m)
    (h : ∀ s1, Interf s s1 → wpA ws ⟨g s1.st, s1.res⟩ Q) : wpA (w :: ws) s Q := by
  refine wpA_cons fun s1 hi => ⟨⟨_, _, .ins (hg _) (hm _)⟩, ?_⟩
  intro s2 l hstep
  cases hstep with
  | ins h1 h2 => rw [hg] at h1; cases h1; exact h s1 hi
  | str h1 h2 => rw [hg] at h1; cases h1; exact absurd (hm _) h2
  | ldxr hd => rw [hn] at hd; cases hd
  | stxrOk hd => rw [hn] at hd; cases hd
  | stxrFail hd => rw [hn] at hd; cases hd
  | casEq hd => rw [hn] at hd; cases hd
  | casNe hd => rw [hn] at hd; cases hd

/-- The atomic instructions are no other instructions. -/
theorem step_none {w : BitVec 32} {i : AInst} (h : decAt w = some i) (s : St) : step w s = none := by
  have h8 : fld w 24 6 = 8#6 := by
    unfold decAt at h
    by_contra hc
    rw [if_pos (Or.inl hc)] at h
    cases h
  have bit6 : ∀ k, k < 6 → w.getLsbD (24 + k) = (8#6).getLsbD k := fun k hk => by rw [← fld_bit w 24 6 k hk, h8]
  have e1 : fld w 26 3 = 2#3 := by
    apply BitVec.eq_of_getLsbD_eq; intro k hk
    rw [fld_bit _ _ _ _ hk]
    have := bit6 (2 + k) (by omega)
    rw [show 24 + (2 + k) = 26 + k by omega] at this
    rw [this]; interval_cases k <;> rfl
  have e2 : fld w 25 3 = 4#3 := by
    apply BitVec.eq_of_getLsbD_eq; intro k hk
    rw [fld_bit _ _ _ _ hk]
    have := bit6 (1 + k) (by omega)
    rw [show 24 + (1 + k) = 25 + k by omega] at this
    rw [this]; interval_cases k <;> rfl
  have e3 : fld w 27 3 = 1#3 := by
    apply BitVec.eq_of_getLsbD_eq; intro k hk
    rw [fld_bit _ _ _ _ hk]
    have := bit6 (3 + k) (by omega)
    rw [show 24 + (3 + k) = 27 + k by omega] at this
    rw [this]; interval_cases k <;> rfl
  unfold step decode
  rw [e1, e2, e3]
  rfl

theorem wpA_ldxr {w : BitVec 32} {z : BitVec 2} {n t : BitVec 5} {ws : List (BitVec 32)} {s : ASt} {Q} (hd : decAt w = some (.ldxr z n t))
    (h : ∀ s1, Interf s s1 → wpA ws ⟨s1.st.setX t (rd s1.st.m (s1.st.r n) (bytes z)), some (s1.st.r n, z)⟩ Q) : wpA (w :: ws) s Q := by
  refine wpA_cons fun s1 hi => ⟨⟨_, _, .ldxr hd⟩, ?_⟩
  intro s2 l hstep
  have hs := step_none hd
  cases hstep with
  | ins h1 => rw [hs] at h1; cases h1
  | str h1 => rw [hs] at h1; cases h1
  | ldxr hd' => rw [hd] at hd'; cases hd'; exact h s1 hi
  | stxrOk hd' => rw [hd] at hd'; cases hd'
  | stxrFail hd' => rw [hd] at hd'; cases hd'
  | casEq hd' => rw [hd] at hd'; cases hd'
  | casNe hd' => rw [hd] at hd'; cases hd'

theorem wpA_stxr {w : BitVec 32} {z : BitVec 2} {d n t : BitVec 5} {ws : List (BitVec 32)} {s : ASt} {Q} (hd : decAt w = some (.stxr z d n t))
    (h : ∀ s1, Interf s s1 →
      (s1.res = some (s1.st.r n, z) → wpA ws ⟨{ s1.st with m := wr s1.st.m (s1.st.r n) (s1.st.x t) (bytes z) }.setX d 0#64, none⟩
        fun s' l => Q s' ((s1.st.m, wr s1.st.m (s1.st.r n) (s1.st.x t) (bytes z)) :: l)) ∧
      wpA ws ⟨s1.st.setX d 1#64, none⟩ Q) : wpA (w :: ws) s Q := by
  refine wpA_cons fun s1 hi => ⟨⟨_, _, .stxrFail hd⟩, ?_⟩
  intro s2 l hstep
  have hs := step_none hd
  cases hstep with
  | ins h1 => rw [hs] at h1; cases h1
  | str h1 => rw [hs] at h1; cases h1
  | ldxr hd' => rw [hd] at hd'; cases hd'
  | stxrOk hd' hr => rw [hd] at hd'; cases hd'; exact (h s1 hi).1 hr
  | stxrFail hd' => rw [hd] at hd'; cases hd'; exact (h s1 hi).2
  | casEq hd' => rw [hd] at hd'; cases hd'
  | casNe hd' => rw [hd] at hd'; cases hd'

theorem wpA_cas {w : BitVec 32} {z : BitVec 2} {d n t : BitVec 5} {ws : List (BitVec 32)} {s : ASt} {Q} (hd : decAt w = some (.cas z d n t))
    (h : ∀ s1 r, Interf s s1 →
      (rd s1.st.m (s1.st.r n) (bytes z) = low z (s1.st.x d) →
        wpA ws ⟨{ s1.st with m := wr s1.st.m (s1.st.r n) (s1.st.x t) (bytes z) }.setX d (rd s1.st.m (s1.st.r n) (bytes z)), r⟩
          fun s' l => Q s' ((s1.st.m, wr s1.st.m (s1.st.r n) (s1.st.x t) (bytes z)) :: l)) ∧
      (rd s1.st.m (s1.st.r n) (bytes z) ≠ low z (s1.st.x d) →
        wpA ws ⟨s1.st.setX d (rd s1.st.m (s1.st.r n) (bytes z)), r⟩ fun s' l => Q s' ((s1.st.m, s1.st.m) :: l))) : wpA (w :: ws) s Q := by
  refine wpA_cons fun s1 hi => ⟨?_, ?_⟩
  · by_cases he : rd s1.st.m (s1.st.r n) (bytes z) = low z (s1.st.x d)
    · exact ⟨_, _, .casEq hd (Or.inl rfl) he⟩
    · exact ⟨_, _, .casNe hd (Or.inl rfl) he⟩
  · intro s2 l hstep
    have hs := step_none hd
    cases hstep with
    | ins h1 => rw [hs] at h1; cases h1
    | str h1 => rw [hs] at h1; cases h1
    | ldxr hd' => rw [hd] at hd'; cases hd'
    | stxrOk hd' hr => rw [hd] at hd'; cases hd'
    | stxrFail hd' => rw [hd] at hd'; cases hd'
    | casEq hd' _ he => rw [hd] at hd'; cases hd'; exact (h s1 _ hi).1 he
    | casNe hd' _ he => rw [hd] at hd'; cases hd'; exact (h s1 _ hi).2 he

/-! ## Decoding -/

theorem decAt_ins (top : BitVec 11) (rm rn rd : BitVec 5) : decAt (ins top rm 31#6 rn rd) =
    if top.extractLsb' 3 6 ≠ 8#6 then none
    else if top.extractLsb' 1 2 = 1#2 ∧ top.getLsbD 0 = false ∧ rm = 31#5 then some (.ldxr (top.extractLsb' 9 2) rn rd)
    else if top.extractLsb' 1 2 = 0#2 ∧ top.getLsbD 0 = false then stxr (top.extractLsb' 9 2) rm rn rd
    else if top.extractLsb' 1 2 = 2#2 ∧ top.getLsbD 0 = true then some (.cas (top.extractLsb' 9 2) rm rn rd)
    else none := by
  unfold decAt
  rw [ins_hi 24 6 (by decide), ins_mid 10 6 (by decide) (by decide), ins_hi 22 2 (by decide), ins_bhi 21 (by decide), ins_rm, ins_rn, ins_rd, ins_hi 30 2 (by decide)]
  rw [show (31#6).extractLsb' (10 - 10) 6 = 31#6 by decide]
  simp

/-- The order of the fields. -/
theorem order3 (b x y z : BitVec 32) : b ||| x ||| y ||| z = b ||| z ||| y ||| x := by
  rw [BitVec.or_assoc, BitVec.or_assoc, BitVec.or_assoc b z, BitVec.or_assoc b, BitVec.or_comm x, BitVec.or_comm y z]
theorem order2 (b x y : BitVec 32) : b ||| x ||| y = b ||| y ||| x := by
  rw [BitVec.or_assoc, BitVec.or_comm x, ← BitVec.or_assoc]

/-- The size field of the operations. -/
def atSize : RV.Op1C → BitVec 2
  | .movU8 | .movS8 => 0#2
  | .movU16 | .movS16 => 1#2
  | .movU32 | .movS32 | .mov32 => 2#2
  | _ => 3#2

/-- The words of the three instructions. -/
def ldxrW : BitVec 2 → BitVec 32 | 0#2 => LDXRB | 1#2 => LDXRH | 2#2 => LDXR ^^^ (1#32 <<< 30) | _ => LDXR
@[inherit_doc ldxrW] def stxrW : BitVec 2 → BitVec 32 | 0#2 => STXRB | 1#2 => STXRH | 2#2 => STXR ^^^ (1#32 <<< 30) | _ => STXR
@[inherit_doc ldxrW] def casW : BitVec 2 → BitVec 32 | 0#2 => CASB | 1#2 => CASH | 2#2 => CAS ^^^ (1#32 <<< 30) | _ => CAS
@[inherit_doc ldxrW] def ldrW : BitVec 2 → BitVec 32 | 0#2 => LDRB | 1#2 => LDRH | 2#2 => LDR ^^^ (1#32 <<< 30) | _ => LDR

theorem dec_ldxr (z : BitVec 2) (n t : Nat) : decAt (ldxrW z ||| RN n ||| RT t) = some (.ldxr z (regMap n) (regMap t)) := by
  have split : ∀ z : BitVec 2, ldxrW z = (ldxrW z ^^^ (31#32 <<< 16)) ||| (31#5).setWidth 32 <<< 16 ∧ (ldxrW z ^^^ (31#32 <<< 16)) &&& 0x1f03ff#32 = 0#32 ∧
      (fld (ldxrW z ^^^ (31#32 <<< 16)) 10 6) = 31#6 ∧ (fld (ldxrW z ^^^ (31#32 <<< 16)) 21 11).extractLsb' 3 6 = 8#6 ∧
      (fld (ldxrW z ^^^ (31#32 <<< 16)) 21 11).extractLsb' 1 2 = 1#2 ∧ (fld (ldxrW z ^^^ (31#32 <<< 16)) 21 11).getLsbD 0 = false ∧
      (fld (ldxrW z ^^^ (31#32 <<< 16)) 21 11).extractLsb' 9 2 = z := by decide
  obtain ⟨h1, h2, h3, h4, h5, h6, h7⟩ := split z
  rw [h1, RN, RT, order3, word_R h2, h3, decAt_ins, h4, h5, h6, h7]
  simp

theorem dec_stxr (z : BitVec 2) {r n t : Nat} (h1 : regMap r ≠ regMap t) (h2 : regMap r ≠ regMap n) :
    decAt (stxrW z ||| RM r ||| RN n ||| RT t) = some (.stxr z (regMap r) (regMap n) (regMap t)) := by
  have split : ∀ z : BitVec 2, stxrW z &&& 0x1f03ff#32 = 0#32 ∧ fld (stxrW z) 10 6 = 31#6 ∧ (fld (stxrW z) 21 11).extractLsb' 3 6 = 8#6 ∧
      (fld (stxrW z) 21 11).extractLsb' 1 2 = 0#2 ∧ (fld (stxrW z) 21 11).getLsbD 0 = false ∧ (fld (stxrW z) 21 11).extractLsb' 9 2 = z := by decide
  obtain ⟨k2, k3, k4, k5, k6, k7⟩ := split z
  rw [RM, RN, RT, order3, word_R k2, k3, decAt_ins, k4, k5, k6, k7]
  simp [stxr, h1, h2]

theorem dec_cas (z : BitVec 2) (r n t : Nat) : decAt (casW z ||| RM r ||| RN n ||| RD t) = some (.cas z (regMap r) (regMap n) (regMap t)) := by
  have split : ∀ z : BitVec 2, casW z &&& 0x1f03ff#32 = 0#32 ∧ fld (casW z) 10 6 = 31#6 ∧ (fld (casW z) 21 11).extractLsb' 3 6 = 8#6 ∧
      (fld (casW z) 21 11).extractLsb' 1 2 = 2#2 ∧ (fld (casW z) 21 11).getLsbD 0 = true ∧ (fld (casW z) 21 11).extractLsb' 9 2 = z := by decide
  obtain ⟨k2, k3, k4, k5, k6, k7⟩ := split z
  rw [RM, RN, RD, order3, word_R k2, k3, decAt_ins, k4, k5, k6, k7]
  simp

/-- Words with other top bits are not atomic. -/
theorem dec_other {w : BitVec 32} {t : St} {s : St} (h : step w s = some t) : decAt w = none := by
  cases hd : decAt w with
  | none => rfl
  | some i => rw [step_none hd s] at h; cases h

theorem s_ldr (z : BitVec 2) {n t : Nat} (ht : regMap t ≠ 31#5) (s : St) : step (ldrW z ||| RN n ||| RT t) s = some (s.set (regMap t) (rd s.m (s.r (regMap n)) (bytes z))) := by
  have key : ∀ z : BitVec 2, ldrW z = STRBI ||| Ty.bits ⟨z.toNat, false, false⟩ := by decide
  rw [order2, key, s_mem0 _ z.isLt, exec_mem _ z.isLt (by intro _; rfl) _ _ _ (s.r (regMap n)) (by simp [Mode.off])]
  simp [Ty.eff, Ty.load, setX_ne _ _ ht, bytes]

/-! ## Flags -/

theorem awc_eq {w : Nat} (x y : BitVec w) : decide ((awc x (~~~ y) true).1 = 0#w) = decide (x = y) := by
  rw [awc_val]
  congr 1
  have : x + ~~~ y + BitVec.ofNat w true.toNat = x - y := by
    rw [BitVec.sub_eq_add_neg, BitVec.neg_eq_not_add, BitVec.add_assoc]; rfl
  rw [this]
  apply propext
  constructor
  · intro h
    have := congrArg (· + y) h
    simpa [BitVec.sub_add_cancel] using this
  · rintro rfl; simp

/-! ## Values -/

theorem rd_high (m : AMem) : ∀ (k : Nat) (a : BitVec 64) (i : Nat), 8 * k ≤ i → (rd m a k).getLsbD i = false
  | 0, a, i, h => by simp [rd]
  | k + 1, a, i, h => by
    rw [rd, BitVec.getLsbD_or, BitVec.getLsbD_shiftLeft, rd_high m k _ (i - 8) (by omega), BitVec.getLsbD_setWidth, BitVec.getLsbD_of_ge _ i (by omega)]
    simp

theorem low_rd (z : BitVec 2) (m : AMem) (a : BitVec 64) : low z (rd m a (bytes z)) = rd m a (bytes z) := by
  apply BitVec.eq_of_getLsbD_eq
  intro i hi
  rw [low, BitVec.getLsbD_setWidth, BitVec.getLsbD_setWidth]
  by_cases h : i < 8 * bytes z
  · simp [h, hi]
  · rw [rd_high m _ a i (by omega)]; simp

/-- The data size of the comparison: 32 bits unless the cell has 64. -/
def i32 (z : BitVec 2) : Bool := decide (z ≠ 3#2)

theorem low_lo (z : BitVec 2) {x y : BitVec 64} (h : lo (!i32 z) x = lo (!i32 z) y) : low z x = low z y := by
  have e : ∀ v : BitVec 64, low z v = ((lo (!i32 z) v).setWidth (8 * bytes z)).setWidth 64 := by
    intro v
    have hb : ∀ z : BitVec 2, 8 * bytes z ≤ W (!i32 z) := by decide
    rw [low, lo, BitVec.setWidth_setWidth_of_le _ (hb z)]
  rw [e, e, h]

theorem low_iff (z : BitVec 2) {x y : BitVec 64} (hx : low z x = x) (hy : z.toNat < 2 → low z y = y) : lo (!i32 z) x = lo (!i32 z) y ↔ x = low z y := by
  constructor
  · intro h; rw [← low_lo z h, hx]
  · intro h
    have hc : ∀ z : BitVec 2, z.toNat < 2 ∨ z = 2#2 ∨ z = 3#2 := by decide
    rcases hc z with hz | rfl | rfl
    · rw [h, hy hz]
    · rw [h]
      show ((y.setWidth 32).setWidth 64).setWidth 32 = y.setWidth 32
      rw [BitVec.setWidth_setWidth_of_le _ (by decide), BitVec.setWidth_eq]
    · rw [h]
      show ((y.setWidth 64).setWidth 64).setWidth 64 = y.setWidth 64
      simp

/-! ## The words of the operations -/

theorem load_words {feat : Bool} {use : AUse} {o : RV.Op1C} {dst mem : Nat} {e : List (BitVec 32)} (he : emitAtomicLoad feat use o dst mem = some e) :
    e = [(if feat = true ∧ use ≠ .ls then ldrW (atSize o) else ldxrW (atSize o)) ||| RN mem ||| RT dst] := by
  unfold emitAtomicLoad at he
  split_ifs at he with h1 h2
  · rw [if_pos h2]
    cases o <;> simp only [Option.some.injEq, reduceCtorEq] at he <;> subst he <;> rfl
  · rw [if_neg h2]
    cases o <;> simp only [Option.some.injEq, reduceCtorEq] at he <;> subst he <;> rfl

/-- The words of the compare and swap. -/
def casWords (stored : Bool) (z : BitVec 2) (src mem temp : Nat) : List (BitVec 32) :=
  (if stored then [(MOV ^^^ iv (i32 z)) ||| RM temp ||| RD TMP_REG2] else []) ++ [casW z ||| RM temp ||| RN mem ||| RD src] ++
    (if stored then [((SUBS ^^^ iv (i32 z)) ||| RD TMP_ZERO) ||| RM TMP_REG2 ||| RN temp] else [])

theorem cas_words {use : AUse} {stored : Bool} {o : RV.Op1C} {src mem temp : Nat} {e : List (BitVec 32)} (hu : use ≠ .ls) (he : emitAtomicStore true use stored o src mem temp = some e) :
    e = casWords stored (atSize o) src mem temp := by
  unfold emitAtomicStore at he
  rw [if_pos ⟨rfl, hu⟩] at he
  unfold emitCas at he
  have c1 : (SUBS ^^^ W_OP) ||| RD TMP_ZERO ≠ 0#32 := by decide
  have c2 : ((SUBS ^^^ W_OP) ||| RD TMP_ZERO) ^^^ W_OP ≠ 0#32 := by decide
  have c3 : ((SUBS ^^^ W_OP) ||| RD TMP_ZERO) &&& W_OP = 0#32 := by decide
  have c4 : (MOV ^^^ W_OP) ^^^ ((((SUBS ^^^ W_OP) ||| RD TMP_ZERO) ^^^ W_OP) &&& W_OP) = MOV ^^^ 0#32 := by decide
  have c5 : ((SUBS ^^^ W_OP) ||| RD TMP_ZERO) ^^^ W_OP = (SUBS ^^^ 0#32) ||| RD TMP_ZERO := by decide
  have i3 : iv (i32 3#2) = 0#32 := by decide
  have i0 : iv (i32 0#2) = W_OP := by decide
  have i1 : iv (i32 1#2) = W_OP := by decide
  have i2 : iv (i32 2#2) = W_OP := by decide
  cases stored
  · cases o <;> simp only [Option.some.injEq, reduceCtorEq] at he <;> subst he <;> rfl
  · cases o <;> simp only [Option.some.injEq, reduceCtorEq, if_true, ne_eq, c1, c2, c3, c4, not_false_iff, if_false, BitVec.xor_zero] at he <;> subst he <;>
      simp only [casWords, atSize, i0, i1, i2, i3, if_true, c5, BitVec.xor_zero] <;> rfl

/-- The words of the store exclusive. -/
def scWords (stored : Bool) (z : BitVec 2) (src mem : Nat) : List (BitVec 32) :=
  [stxrW z ||| RM TMP_REG2 ||| RN mem ||| RT src] ++ (if stored then [(SUBI ^^^ (W_OP ||| 1#32 <<< 29)) ||| RD TMP_ZERO ||| RN TMP_REG2] else [])

theorem sc_words {feat : Bool} {use : AUse} {stored : Bool} {o : RV.Op1C} {src mem temp : Nat} {e : List (BitVec 32)} (hu : use = .ls ∨ feat = false)
    (he : emitAtomicStore feat use stored o src mem temp = some e) : e = scWords stored (atSize o) src mem := by
  unfold emitAtomicStore at he
  rw [if_neg (by rintro ⟨h1, h2⟩; rcases hu with h | h; exact h2 h; rw [h] at h1; cases h1)] at he
  by_cases h1 : feat = false ∧ use = .cas
  · rw [if_pos h1] at he; cases he
  rw [if_neg h1] at he
  have c1 : (SUBI ^^^ W_OP) ||| 1#32 <<< 29 ≠ 0#32 := by decide
  have c2 : (SUBI ^^^ W_OP) ||| 1#32 <<< 29 = SUBI ^^^ (W_OP ||| 1#32 <<< 29) := by decide
  cases stored
  · cases o <;> simp only [Option.some.injEq, reduceCtorEq] at he <;> subst he <;> rfl
  · rw [if_pos rfl] at he
    cases o <;> simp only [Option.some.injEq, reduceCtorEq, c1, if_false] at he <;> subst he <;> rw [c2] <;> rfl

theorem s_movr (i : Bool) {d r : Nat} (hd : regMap d ≠ 31#5) (hr : regMap r ≠ 31#5) (s : St) :
    step ((MOV ^^^ iv i) ||| RM r ||| RD d) s = some (s.set (regMap d) (up (lo (!i) (s.r (regMap r))))) := by
  have e : MOV ^^^ iv i = (ORR ^^^ iv i) ||| RN TMP_ZERO := by cases i <;> decide
  rw [e, order3, order2, s_orr]
  have z : s.x (regMap TMP_ZERO) = 0#64 := x_31
  simp only [exec, z, x_ne hr, setX_ne _ _ hd]
  rw [if_neg (by decide)]
  have h1 : shiftReg 0#2 (lo (!i) (s.r (regMap r))) 0 = lo (!i) (s.r (regMap r)) := by simp [shiftReg]
  simp only [h1]
  congr 3
  cases i <;> simp [logF, lo]

/-! ## The operations -/

structure LoadOk (ls : Bool) (z : BitVec 2) (dst mem : Nat) (s s' : ASt) (l : ALog) : Prop where
  log : l = []
  val : ∃ m, s'.st.r (regMap dst) = rd m (s.st.r (regMap mem)) (bytes z)
  kept : ∀ q, q ≠ regMap dst → s'.st.r q = s.st.r q
  f : s'.st.f = s.st.f
  res : ls = true → s'.res = none ∨ s'.res = some (s.st.r (regMap mem), z) ∧ rd s'.st.m (s.st.r (regMap mem)) (bytes z) = s'.st.r (regMap dst)

theorem ldr_ok (z : BitVec 2) {dst mem : Nat} (hd : regMap dst ≠ 31#5) (s : ASt) : wpA [ldrW z ||| RN mem ||| RT dst] s (LoadOk false z dst mem s) := by
  refine wpA_ins (dec_other (s_ldr z hd s.st)) (fun t => t.set (regMap dst) (rd t.m (t.r (regMap mem)) (bytes z))) (s_ldr z hd) (fun _ => rfl) fun s1 i1 => wpA_nil fun s2 i2 => ?_
  have hr := i2.r
  have hf := i2.f
  refine ⟨rfl, ⟨s1.st.m, ?_⟩, fun q hq => ?_, ?_, by intro h; cases h⟩
  · rw [hr]; show (St.set _ _ _).r _ = _; rw [set_self, i1.r]
  · rw [hr]; show (St.set _ _ _).r _ = _; rw [set_ne _ _ hq, i1.r]
  · rw [hf]; exact i1.f

theorem ldxr_ok (z : BitVec 2) {dst mem : Nat} (hd : regMap dst ≠ 31#5) (s : ASt) : wpA [ldxrW z ||| RN mem ||| RT dst] s (LoadOk true z dst mem s) := by
  refine wpA_ldxr (dec_ldxr z mem dst) fun s1 i1 => wpA_nil fun s2 i2 => ?_
  rw [setX_ne _ _ hd, i1.r] at i2
  have hr := i2.r
  have hf := i2.f
  have e : s2.st.r (regMap dst) = rd s1.st.m (s.st.r (regMap mem)) (bytes z) := by
    rw [hr]; show (St.set _ _ _).r _ = _; rw [set_self]
  refine ⟨rfl, ⟨s1.st.m, e⟩, fun q hq => ?_, ?_, fun _ => ?_⟩
  · rw [hr]; show (St.set _ _ _).r _ = _; rw [set_ne _ _ hq, i1.r]
  · rw [hf]; exact i1.f
  · rcases i2.2 with h | ⟨h1, h2⟩
    · exact Or.inl h
    · refine Or.inr ⟨h1, ?_⟩
      rw [e]; exact h2 _ _ rfl

structure ScOk (stored : Bool) (z : BitVec 2) (src mem : Nat) (s s' : ASt) (l : ALog) : Prop where
  kept : ∀ q, q ≠ 10#5 → s'.st.r q = s.st.r q
  f : stored = false → s'.st.f = s.st.f
  cell : (∃ m, s.res = some (s.st.r (regMap mem), z) ∧ rd m (s.st.r (regMap mem)) (bytes z) = rd s.st.m (s.st.r (regMap mem)) (bytes z) ∧
      l = [(m, wr m (s.st.r (regMap mem)) (s.st.r (regMap src)) (bytes z))] ∧ (stored = true → s'.st.f.z = true)) ∨
    (l = [] ∧ (stored = true → s'.st.f.z = false))

/-- SUBS WZR, W10, #0. -/
def subs0 (s : St) : St := { s with f := nzcv (awc (lo false (s.r 10#5)) (~~~ lo false 0#64) true).1 (awc (lo false (s.r 10#5)) (~~~ lo false 0#64) true).2.1 (awc (lo false (s.r 10#5)) (~~~ lo false 0#64) true).2.2 }

theorem s_subs0 (s : St) : step ((SUBI ^^^ (W_OP ||| 1#32 <<< 29)) ||| RD TMP_ZERO ||| RN TMP_REG2) s = some (subs0 s) := by
  have := s_addi0 (s := s) (d := TMP_ZERO) (n := TMP_REG2) ⟨true, true, true⟩ true
  rw [if_pos rfl] at this
  rw [show SUBI ^^^ (W_OP ||| 1#32 <<< 29) = SUBI ^^^ Fl.chk ⟨true, true, true⟩ (1#32 <<< 29) from rfl, this]
  rfl

theorem subs0_z (s : St) : (subs0 s).f.z = decide (lo false (s.r 10#5) = lo false 0#64) := by
  have h := awc_eq (lo false (s.r 10#5)) (lo false 0#64)
  unfold subs0
  simp only [nzcv]
  exact h

theorem withF_r (s : St) (f : Flags) : ({ s with f := f } : St).r = s.r := rfl
theorem withF_m (s : St) (f : Flags) : ({ s with f := f } : St).m = s.m := rfl
theorem subs0_r (s : St) : (subs0 s).r = s.r := by unfold subs0; exact withF_r _ _
theorem subs0_m (s : St) : (subs0 s).m = s.m := by unfold subs0; exact withF_m _ _

theorem subs0_wp {w : BitVec 32} (hw : ∀ t, step w t = some (subs0 t)) (s : ASt) (Q : ASt → ALog → Prop)
    (h : ∀ s', (∀ q, s'.st.r q = s.st.r q) → s'.st.f.z = decide (lo false (s.st.r 10#5) = lo false 0#64) → Q s' []) : wpA [w] s Q := by
  refine wpA_ins (dec_other (hw s.st)) subs0 hw subs0_m fun s1 i1 => wpA_nil fun s2 i2 => h s2 (fun q => ?_) ?_
  · rw [i2.r, subs0_r, i1.r]
  · rw [i2.f, subs0_z, i1.r]

theorem stxr_tail (stored : Bool) (s : ASt) (Q : ASt → ALog → Prop)
    (h : ∀ s', (∀ q, s'.st.r q = s.st.r q) → (stored = false → s'.st.f = s.st.f) → (stored = true → s'.st.f.z = decide (lo false (s.st.r 10#5) = lo false 0#64)) → Q s' []) :
    wpA (if stored then [(SUBI ^^^ (W_OP ||| 1#32 <<< 29)) ||| RD TMP_ZERO ||| RN TMP_REG2] else []) s Q := by
  cases stored
  · rw [if_neg (by decide)]
    exact wpA_nil fun s' i => h s' (fun q => by rw [i.r]) (fun _ => i.f) (by intro h; cases h)
  · rw [if_pos rfl]
    exact subs0_wp s_subs0 s Q fun s' h1 h2 => h s' h1 (by intro h; cases h) fun _ => h2

theorem sc_ok (stored : Bool) (z : BitVec 2) {src mem : Nat} (hs : regMap src ≠ 10#5 ∧ regMap src ≠ 31#5) (hm : regMap mem ≠ 10#5) (s : ASt) :
    wpA (scWords stored z src mem) s (ScOk stored z src mem s) := by
  refine wpA_stxr (dec_stxr z (r := TMP_REG2) (fun h => hs.1 h.symm) (fun h => hm h.symm)) fun s1 i1 => ⟨fun hr => ?_, ?_⟩
  · rw [setX_ne _ _ (by decide), x_ne hs.2, i1.r]
    refine stxr_tail stored _ _ fun s' k1 k2 k3 => ⟨fun q hq => ?_, fun h => ?_, Or.inl ⟨s1.st.m, ?_, ?_, rfl, fun h => ?_⟩⟩
    · rw [k1]; show (St.set _ 10#5 _).r q = _; rw [set_ne _ _ hq]; show s1.st.r q = _; rw [i1.r]
    · rw [k2 h]; exact i1.f
    · rw [i1.r] at hr
      rcases i1.2 with h | ⟨h, -⟩
      · rw [h] at hr; cases hr
      · rw [← h]; exact hr
    · rw [i1.r] at hr
      rcases i1.2 with h | ⟨h, h'⟩
      · rw [h] at hr; cases hr
      · exact h' _ _ (by rw [← h]; exact hr)
    · rw [k3 h]; show decide (lo false ((St.set _ 10#5 0#64).r 10#5) = lo false 0#64) = true; rw [set_self]; exact decide_eq_true rfl
  · rw [setX_ne _ _ (by decide)]
    refine stxr_tail stored _ _ fun s' k1 k2 k3 => ⟨fun q hq => ?_, fun h => ?_, Or.inr ⟨rfl, fun h => ?_⟩⟩
    · rw [k1]; show (St.set _ 10#5 _).r q = _; rw [set_ne _ _ hq, i1.r]
    · rw [k2 h]; exact i1.f
    · rw [k3 h]; show decide (lo false ((St.set _ 10#5 1#64).r 10#5) = lo false 0#64) = false; rw [set_self]; exact decide_eq_false (by decide)

structure CasOk (stored : Bool) (z : BitVec 2) (src mem temp : Nat) (s s' : ASt) (l : ALog) : Prop where
  kept : ∀ q, q ≠ 10#5 → q ≠ regMap temp → s'.st.r q = s.st.r q
  f : stored = false → s'.st.f = s.st.f
  cell : ∃ m, (rd m (s.st.r (regMap mem)) (bytes z) = low z (s.st.r (regMap temp)) ∧ l = [(m, wr m (s.st.r (regMap mem)) (s.st.r (regMap src)) (bytes z))] ∧
      s'.st.r (regMap temp) = low z (s.st.r (regMap temp)) ∧ (stored = true → s'.st.f.z = true)) ∨
    (rd m (s.st.r (regMap mem)) (bytes z) ≠ low z (s.st.r (regMap temp)) ∧ l = [(m, m)] ∧ (stored = true → s'.st.f.z = false))

/-- SUBS of the compare and swap. -/
def subsR (sf : Bool) (n m : BitVec 5) (s : St) : St :=
  { s with f := nzcv (awc (lo sf (s.x n)) (~~~ shiftReg 0#2 (lo sf (s.x m)) 0) true).1 (awc (lo sf (s.x n)) (~~~ shiftReg 0#2 (lo sf (s.x m)) 0) true).2.1 (awc (lo sf (s.x n)) (~~~ shiftReg 0#2 (lo sf (s.x m)) 0) true).2.2 }

theorem s_subsR (i : Bool) (n m : Nat) (s : St) : step (((SUBS ^^^ iv i) ||| RD TMP_ZERO) ||| RM m ||| RN n) s = some (subsR (!i) (regMap n) (regMap m) s) := by
  rw [order2, s_setFlags]
  rfl

theorem cas_tail (stored : Bool) (i : Bool) {temp : Nat} (ht : regMap temp ≠ 31#5) (s : ASt) (Q : ASt → ALog → Prop)
    (h : ∀ s', (∀ q, s'.st.r q = s.st.r q) → (stored = false → s'.st.f = s.st.f) → (stored = true → s'.st.f.z = decide (lo (!i) (s.st.r (regMap temp)) = lo (!i) (s.st.r 10#5))) → Q s' []) :
    wpA (if stored then [((SUBS ^^^ iv i) ||| RD TMP_ZERO) ||| RM TMP_REG2 ||| RN temp] else []) s Q := by
  cases stored
  · refine wpA_nil fun s' i => h s' (fun q => by rw [i.r]) (fun _ => i.f) (by intro h; cases h)
  · refine wpA_ins (dec_other (s_subsR i temp TMP_REG2 s.st)) (subsR (!i) (regMap temp) (regMap TMP_REG2)) (s_subsR i temp TMP_REG2) (fun _ => rfl) fun s1 i1 => wpA_nil fun s2 i2 => h s2 (fun q => ?_) (by intro h; cases h) fun _ => ?_
    · rw [i2.r]; show s1.st.r q = _; rw [i1.r]
    · rw [i2.f]
      show decide ((awc (lo (!i) (s1.st.x (regMap temp))) (~~~ shiftReg 0#2 (lo (!i) (s1.st.x (regMap TMP_REG2))) 0) true).1 = 0#_) = _
      rw [awc_eq, x_ne ht, x_ne (show regMap TMP_REG2 ≠ 31#5 by decide), i1.r]
      congr 1
      simp [shiftReg]
      rfl

theorem cas_body (stored : Bool) (z : BitVec 2) {src mem temp : Nat} (hs : regMap src ≠ 10#5 ∧ regMap src ≠ 31#5) (hm : regMap mem ≠ 10#5) (ht : regMap temp ≠ 10#5 ∧ regMap temp ≠ 31#5)
    (s0 s : ASt) (hr : ∀ q, q ≠ 10#5 → s.st.r q = s0.st.r q) (hf : s.st.f = s0.st.f) (h10 : stored = true → s.st.r 10#5 = up (lo (!i32 z) (s0.st.r (regMap temp))))
    (hv : z.toNat < 2 → low z (s0.st.r (regMap temp)) = s0.st.r (regMap temp)) :
    wpA ([casW z ||| RM temp ||| RN mem ||| RD src] ++ (if stored then [((SUBS ^^^ iv (i32 z)) ||| RD TMP_ZERO) ||| RM TMP_REG2 ||| RN temp] else [])) s (CasOk stored z src mem temp s0) := by
  have hl : ∀ v : BitVec 64, lo (!i32 z) (up (lo (!i32 z) v)) = lo (!i32 z) v := by
    intro v
    have : ∀ sf : Bool, lo sf (up (lo sf v)) = lo sf v := by
      intro sf; cases sf
      · show ((v.setWidth 32).setWidth 64).setWidth 32 = v.setWidth 32
        rw [BitVec.setWidth_setWidth_of_le _ (by decide), BitVec.setWidth_eq]
      · show ((v.setWidth 64).setWidth 64).setWidth 64 = v.setWidth 64
        simp
    exact this _
  refine wpA_cas (dec_cas z temp mem src) fun s1 r i1 => ⟨fun he => ?_, fun he => ?_⟩
  · rw [setX_ne _ _ ht.2, x_ne hs.2, i1.r, hr _ hm, hr _ hs.1]
    rw [x_ne ht.2, i1.r, hr _ hm, hr _ ht.1] at he
    refine cas_tail stored (i32 z) ht.2 _ _ fun s' k1 k2 k3 => ⟨fun q hq hq' => ?_, fun h => ?_, s1.st.m, Or.inl ⟨he, rfl, ?_, fun h => ?_⟩⟩
    · rw [k1]; show (St.set _ (regMap temp) _).r q = _; rw [set_ne _ _ hq']; show s1.st.r q = _; rw [i1.r, hr _ hq]
    · rw [k2 h]; show s1.st.f = _; rw [i1.f, hf]
    · rw [k1]; show (St.set _ (regMap temp) _).r _ = _; rw [set_self, he]
    · rw [k3 h]
      have e10 : (St.set { s1.st with m := wr s1.st.m (s0.st.r (regMap mem)) (s0.st.r (regMap src)) (bytes z) } (regMap temp) (rd s1.st.m (s0.st.r (regMap mem)) (bytes z))).r 10#5 = s.st.r 10#5 := by
        rw [set_ne _ _ (Ne.symm ht.1)]; show s1.st.r _ = _; rw [i1.r]
      show decide (lo _ ((St.set _ (regMap temp) _).r (regMap temp)) = lo _ ((St.set _ (regMap temp) _).r 10#5)) = true
      rw [set_self, e10, h10 h, hl]
      exact decide_eq_true ((low_iff z (low_rd z _ _) hv).2 he)
  · rw [setX_ne _ _ ht.2, i1.r, hr _ hm]
    rw [x_ne ht.2, i1.r, hr _ hm, hr _ ht.1] at he
    refine cas_tail stored (i32 z) ht.2 _ _ fun s' k1 k2 k3 => ⟨fun q hq hq' => ?_, fun h => ?_, s1.st.m, Or.inr ⟨he, rfl, fun h => ?_⟩⟩
    · rw [k1]; show (St.set _ (regMap temp) _).r q = _; rw [set_ne _ _ hq', i1.r, hr _ hq]
    · rw [k2 h]; show s1.st.f = _; rw [i1.f, hf]
    · rw [k3 h]
      have e10 : (St.set s1.st (regMap temp) (rd s1.st.m (s0.st.r (regMap mem)) (bytes z))).r 10#5 = s.st.r 10#5 := by
        rw [set_ne _ _ (Ne.symm ht.1), i1.r]
      show decide (lo _ ((St.set _ (regMap temp) _).r (regMap temp)) = lo _ ((St.set _ (regMap temp) _).r 10#5)) = false
      rw [set_self, e10, h10 h, hl]
      exact decide_eq_false fun hh => he ((low_iff z (low_rd z _ _) hv).1 hh)

theorem cas_ok (stored : Bool) (z : BitVec 2) {src mem temp : Nat} (hs : regMap src ≠ 10#5 ∧ regMap src ≠ 31#5) (hm : regMap mem ≠ 10#5) (ht : regMap temp ≠ 10#5 ∧ regMap temp ≠ 31#5) (s : ASt)
    (hv : z.toNat < 2 → low z (s.st.r (regMap temp)) = s.st.r (regMap temp)) : wpA (casWords stored z src mem temp) s (CasOk stored z src mem temp s) := by
  cases stored
  · exact cas_body false z hs hm ht s s (fun _ _ => rfl) rfl (by intro h; cases h) hv
  · have h10 : regMap TMP_REG2 ≠ 31#5 := by decide
    refine wpA_ins (dec_other (s_movr (i32 z) h10 ht.2 s.st)) _ (s_movr (i32 z) h10 ht.2) (fun _ => rfl) fun s1 i1 => ?_
    refine cas_body true z hs hm ht s _ (fun q hq => ?_) ?_ (fun _ => ?_) hv
    · show (St.set _ 10#5 _).r q = _; rw [set_ne _ _ hq, i1.r]
    · exact i1.f
    · show (St.set _ 10#5 _).r 10#5 = _; rw [set_self, i1.r]

end Verif.A64
