import Verif.A64.GenLay

/-!
# Changing jumps of generated code on ARM64

sljit_set_jump_addr stores four words; the rest of the file compares the code before with the code which sljit_generate_code makes for the other target.
-/

namespace Verif.A64
open Verif.Imm.Arm64 (regMap RD RN)

/-- Storing words.  Instruction memory is accessed by words, all addresses here are aligned. -/
def storeW (c : IMem) : BitVec 64 → List (BitVec 32) → IMem
  | _, [] => c
  | a, w :: ws => storeW (fun q => if q = a then w else c q) (a + 4#64) ws

/-- sljit_set_jump_addr (sljitNativeARM_64.c:3666-3685) for the address `addr` in the executable mapping; the store goes through the writable one.  The register of the
moves is read from the word which is already there. -/
def setJump (c : IMem) (addr t : BitVec 64) : IMem := storeW c addr (setJumpAddr (c addr) t)

/-- An item that has a jump record. -/
def Item.isRec : Item → Bool
  | .jump _ | .mov .. => true
  | _ => false

/-- The number of jump records. -/
def recs (is : List Item) : Nat := is.countP Item.isRec

/-! ## reduce_code_size -/

theorem usize_jump (xs ys : List Item) (sk : Option Skip) (cl : Bool) (t t' : Tgt) :
    usize (xs ++ .jump ⟨sk, cl, true, t'⟩ :: ys) = usize (xs ++ .jump ⟨sk, cl, true, t⟩ :: ys) := by
  induction xs with
  | nil => rfl
  | cons i is ih => simp only [List.cons_append, usize, ih]

theorem labelSizes_jump (ys : List Item) (sk : Option Skip) (cl : Bool) (t t' : Tgt) : ∀ (xs : List Item) (pos : Nat),
    labelSizes pos (xs ++ .jump ⟨sk, cl, true, t'⟩ :: ys) = labelSizes pos (xs ++ .jump ⟨sk, cl, true, t⟩ :: ys)
  | [], pos => rfl
  | i :: is, pos => by
    have ih := labelSizes_jump ys sk cl t t' is
    cases i <;> simp only [List.cons_append, labelSizes, ih]

theorem reduce_jump (ys : List Item) (sk : Option Skip) (cl : Bool) : ∀ (xs : List Item) (pos li sr : Nat) (L : List Nat), ∃ R1 a R2 L' SR, R1.map RItem.strip = xs ∧
    ∀ t, reduce (xs ++ .jump ⟨sk, cl, true, t⟩ :: ys) pos li sr L = (R1 ++ .jump ⟨sk, cl, true, t⟩ a 5 :: R2, L', SR)
  | [], pos, li, sr, L => ⟨[], pos + JInfo.pre ⟨sk, cl, true, .label 0⟩ - sr, (reduce ys (pos + JInfo.pre ⟨sk, cl, true, .label 0⟩ + 5) li sr L).1,
      (reduce ys (pos + JInfo.pre ⟨sk, cl, true, .label 0⟩ + 5) li sr L).2.1, (reduce ys (pos + JInfo.pre ⟨sk, cl, true, .label 0⟩ + 5) li sr L).2.2, rfl, fun t => rfl⟩
  | i :: is, pos, li, sr, L => by
    have ih := reduce_jump ys sk cl is
    cases i with
    | code ws =>
      obtain ⟨R1, a, R2, L', SR, h1, h2⟩ := ih (pos + ws.length) li sr L
      exact ⟨.code ws :: R1, a, R2, L', SR, by rw [List.map_cons, h1]; rfl, fun t => by simp only [List.cons_append, reduce, h2]⟩
    | label =>
      obtain ⟨R1, a, R2, L', SR, h1, h2⟩ := ih pos (li + 1) sr (L.set li (L.getD li 0 - sr))
      exact ⟨.label :: R1, a, R2, L', SR, by rw [List.map_cons, h1]; rfl, fun t => by simp only [List.cons_append, reduce, h2]⟩
    | alabel al =>
      obtain ⟨R1, a, R2, L', SR, h1, h2⟩ := ih (pos + nops al) (li + 1) sr (L.set li (L.getD li 0 - sr))
      exact ⟨.alabel al :: R1, a, R2, L', SR, by rw [List.map_cons, h1]; rfl, fun t => by simp only [List.cons_append, reduce, h2]⟩
    | const ws =>
      obtain ⟨R1, a, R2, L', SR, h1, h2⟩ := ih (pos + ws.length) li sr L
      exact ⟨.const ws :: R1, a, R2, L', SR, by rw [List.map_cons, h1]; rfl, fun t => by simp only [List.cons_append, reduce, h2]⟩
    | jump j =>
      obtain ⟨R1, a, R2, L', SR, h1, h2⟩ := ih (pos + j.pre + 5) li (sr + (5 - jumpTotal j (pos + j.pre - sr) (tgtSize L j.tgt) sr)) L
      exact ⟨.jump j (pos + j.pre - sr) (jumpTotal j (pos + j.pre - sr) (tgtSize L j.tgt) sr) :: R1, a, R2, L', SR, by rw [List.map_cons, h1]; rfl, fun t => by simp only [List.cons_append, reduce, h2]⟩
    | mov reg tg =>
      obtain ⟨R1, a, R2, L', SR, h1, h2⟩ := ih (pos + 4) li (sr + (3 - movTotal tg (pos - sr) (tgtSize L tg) sr)) L
      exact ⟨.mov reg tg (pos - sr) (movTotal tg (pos - sr) (tgtSize L tg) sr) :: R1, a, R2, L', SR, by rw [List.map_cons, h1]; rfl, fun t => by simp only [List.cons_append, reduce, h2]⟩

/-! ## The generating loop -/

theorem genLoop_frame (e : Env) : ∀ (R : List RItem) (done : Bool) (s s1 : GSt), genLoop e R done s = some s1 →
    ∃ ps, s1.pend = s.pend ++ ps ∧ ∀ q, genLoop e R done { s with pend := q } = some { s1 with pend := q ++ ps }
  | [], done, s, s1, h => by
    cases Option.some.inj h
    exact ⟨[], by simp, fun q => by simp [genLoop]⟩
  | i :: is, done, s, s1, h => by
    have ih := genLoop_frame e is
    cases i with
    | code ws =>
      obtain ⟨out, h1, h2⟩ := Option.bind_eq_some_iff.mp h
      obtain ⟨ps, g1, g2⟩ := ih _ _ _ h2
      exact ⟨ps, g1, fun q => by simp only [genLoop, h1, Option.bind_some]; exact g2 q⟩
    | label =>
      obtain ⟨ps, g1, g2⟩ := ih _ _ _ h
      refine ⟨ps, ?_, fun q => ?_⟩
      · rw [g1]; split <;> rfl
      · have := g2 q
        simp only [genLoop]
        cases done <;> exact this
    | alabel al =>
      obtain ⟨out, h1, h2⟩ := Option.bind_eq_some_iff.mp h
      split at h2 <;> [cases h2; skip]
      next hn =>
      obtain ⟨ps, g1, g2⟩ := ih _ _ _ h2
      exact ⟨ps, g1, fun q => by simp only [genLoop, h1, Option.bind_some, if_neg hn]; exact g2 q⟩
    | const ws =>
      obtain ⟨out, h1, h2⟩ := Option.bind_eq_some_iff.mp h
      obtain ⟨ps, g1, g2⟩ := ih _ _ _ h2
      exact ⟨ps, g1, fun q => by simp only [genLoop, h1, Option.bind_some]; exact g2 q⟩
    | jump j addr total =>
      obtain ⟨_, h0, h⟩ := Option.bind_eq_some_iff.mp h
      simp only at h
      by_cases hf : (decide (total = 0) && RItem.isLabel is) = true
      · rw [hf] at h
        simp only [if_true] at h
        obtain ⟨out, h1, h2⟩ := Option.bind_eq_some_iff.mp h
        obtain ⟨ps, g1, g2⟩ := ih _ _ _ h2
        refine ⟨_ :: ps, by rw [g1, List.append_assoc]; rfl, fun q => ?_⟩
        simp only [genLoop, h0, Option.bind_some, hf, if_true]
        simp only [GSt.setLabel] at h1 g2 ⊢
        rw [h1, Option.bind_some, g2, List.append_assoc]; rfl
      · rw [Bool.not_eq_true] at hf
        rw [hf] at h
        simp only [Bool.false_eq_true, if_false] at h
        obtain ⟨out, h1, h2⟩ := Option.bind_eq_some_iff.mp h
        obtain ⟨ps, g1, g2⟩ := ih _ _ _ h2
        refine ⟨_ :: ps, by rw [g1, List.append_assoc]; rfl, fun q => ?_⟩
        simp only [genLoop, h0, Option.bind_some, hf, Bool.false_eq_true, if_false]
        rw [h1, Option.bind_some, g2, List.append_assoc]; rfl
    | mov reg t addr total =>
      obtain ⟨out, h1, h⟩ := Option.bind_eq_some_iff.mp h
      obtain ⟨out2, h2, h3⟩ := Option.bind_eq_some_iff.mp h
      obtain ⟨ps, g1, g2⟩ := ih _ _ _ h3
      refine ⟨_ :: ps, by rw [g1, List.append_assoc]; rfl, fun q => ?_⟩
      simp only [genLoop, h1, h2, Option.bind_some]
      rw [g2, List.append_assoc]; rfl

theorem isLabel_jump {R1 R2 : List RItem} {j j' : JInfo} {a n : Nat} : RItem.isLabel (R1 ++ .jump j a n :: R2) = RItem.isLabel (R1 ++ .jump j' a n :: R2) := by
  cases R1 with
  | nil => rfl
  | cons i is => cases i <;> rfl

theorem more_jump {R2 : List RItem} {j j' : JInfo} {a n : Nat} : ∀ R1 : List RItem, RItem.more (R1 ++ .jump j a n :: R2) = RItem.more (R1 ++ .jump j' a n :: R2)
  | [] => rfl
  | i :: is => by
    have := more_jump (j := j) (j' := j') (a := a) (n := n) (R2 := R2) is
    cases i <;> first | rfl | exact this

theorem genLoop_swap {e : Env} {R2 : List RItem} {sk : Option Skip} {cl : Bool} {t t' : Tgt} {a : Nat} : ∀ (R1 : List RItem) (done : Bool) (s s1 : GSt),
    genLoop e (R1 ++ .jump ⟨sk, cl, true, t⟩ a 5 :: R2) done s = some s1 → ∃ ps1 x ps2, s1.pend = s.pend ++ (ps1 ++ ⟨false, cl, t, .abs64, x⟩ :: ps2) ∧ ps1.length = recs (R1.map RItem.strip) ∧
      genLoop e (R1 ++ .jump ⟨sk, cl, true, t'⟩ a 5 :: R2) done s = some { s1 with pend := s.pend ++ (ps1 ++ ⟨false, cl, t', .abs64, x⟩ :: ps2) }
  | [], done, s, s1, h => by
    have hf : (5 = 0) = False := by simp
    have hd : ∀ (t : Tgt) cp ls, detectJump e ⟨sk, cl, true, t⟩ cp a ls = .abs64 := fun t cp ls => by rw [detectJump, if_pos rfl]
    rw [List.nil_append, genLoop] at h ⊢
    simp only [hf, decide_false, Bool.false_and, Bool.false_eq_true, if_false, hd, reduceCtorEq] at h ⊢
    obtain ⟨o, h0, h⟩ := Option.bind_eq_some_iff.mp h
    obtain ⟨out, h1, h2⟩ := Option.bind_eq_some_iff.mp h
    obtain ⟨ps, g1, g2⟩ := genLoop_frame _ _ _ _ _ h2
    refine ⟨[], _, ps, by rw [g1, List.append_assoc]; rfl, rfl, ?_⟩
    have e0 : ∀ t : Tgt, emitW e s.out (JInfo.skipW ⟨sk, cl, true, t⟩ Skip.word ++ [JInfo.br ⟨sk, cl, true, t⟩]) = emitW e s.out (JInfo.skipW ⟨sk, cl, true, t'⟩ Skip.word ++ [JInfo.br ⟨sk, cl, true, t'⟩]) := fun _ => rfl
    have e1 : ∀ t : Tgt, jumpWords ⟨sk, cl, true, t⟩ .abs64 = jumpWords ⟨sk, cl, true, t'⟩ .abs64 := fun _ => rfl
    rw [e0 t] at h0
    rw [e1 t] at h1
    rw [h0, Option.bind_some, h1, Option.bind_some, g2, List.append_assoc]
    rfl
  | i :: is, done, s, s1, h => by
    have ih := genLoop_swap (e := e) (R2 := R2) (sk := sk) (cl := cl) (t := t) (t' := t') (a := a) is
    rw [List.cons_append] at h ⊢
    cases i with
    | code ws =>
      obtain ⟨out, h1, h2⟩ := Option.bind_eq_some_iff.mp h
      obtain ⟨ps1, x, ps2, g1, g2, g3⟩ := ih _ _ _ h2
      exact ⟨ps1, x, ps2, g1, g2, by simp only [genLoop, h1, Option.bind_some]; exact g3⟩
    | label =>
      obtain ⟨ps1, x, ps2, g1, g2, g3⟩ := ih _ _ _ h
      refine ⟨ps1, x, ps2, ?_, g2, ?_⟩
      · rw [g1]; split <;> rfl
      · simp only [genLoop]
        cases done <;> exact g3
    | alabel al =>
      obtain ⟨out, h1, h2⟩ := Option.bind_eq_some_iff.mp h
      split at h2 <;> [cases h2; skip]
      next hn =>
      obtain ⟨ps1, x, ps2, g1, g2, g3⟩ := ih _ _ _ h2
      rw [more_jump (j' := ⟨sk, cl, true, t'⟩)] at hn
      exact ⟨ps1, x, ps2, g1, g2, by simp only [genLoop, h1, Option.bind_some, if_neg hn]; exact g3⟩
    | const ws =>
      obtain ⟨out, h1, h2⟩ := Option.bind_eq_some_iff.mp h
      obtain ⟨ps1, x, ps2, g1, g2, g3⟩ := ih _ _ _ h2
      exact ⟨ps1, x, ps2, g1, g2, by simp only [genLoop, h1, Option.bind_some]; exact g3⟩
    | jump j addr total =>
      obtain ⟨_, h0, h⟩ := Option.bind_eq_some_iff.mp h
      simp only at h
      rw [isLabel_jump (j' := ⟨sk, cl, true, t'⟩)] at h
      by_cases hf : (decide (total = 0) && RItem.isLabel (is ++ .jump ⟨sk, cl, true, t'⟩ a 5 :: R2)) = true
      · rw [hf] at h
        simp only [if_true] at h
        obtain ⟨out, h1, h2⟩ := Option.bind_eq_some_iff.mp h
        obtain ⟨ps1, x, ps2, g1, g2, g3⟩ := ih _ _ _ h2
        refine ⟨_ :: ps1, x, ps2, by rw [g1, List.append_assoc]; rfl, by simp only [List.length_cons, g2, recs, List.map_cons, List.countP_cons, RItem.strip, Item.isRec, if_true], ?_⟩
        simp only [genLoop, h0, Option.bind_some, hf, if_true]
        rw [h1, Option.bind_some, g3, List.append_assoc]; rfl
      · rw [Bool.not_eq_true] at hf
        rw [hf] at h
        simp only [Bool.false_eq_true, if_false] at h
        obtain ⟨out, h1, h2⟩ := Option.bind_eq_some_iff.mp h
        obtain ⟨ps1, x, ps2, g1, g2, g3⟩ := ih _ _ _ h2
        refine ⟨_ :: ps1, x, ps2, by rw [g1, List.append_assoc]; rfl, by simp only [List.length_cons, g2, recs, List.map_cons, List.countP_cons, RItem.strip, Item.isRec, if_true], ?_⟩
        simp only [genLoop, h0, Option.bind_some, hf, Bool.false_eq_true, if_false]
        rw [h1, Option.bind_some, g3, List.append_assoc]; rfl
    | mov reg tg addr total =>
      obtain ⟨out, h1, h⟩ := Option.bind_eq_some_iff.mp h
      obtain ⟨out2, h2, h3⟩ := Option.bind_eq_some_iff.mp h
      obtain ⟨ps1, x, ps2, g1, g2, g3⟩ := ih _ _ _ h3
      refine ⟨_ :: ps1, x, ps2, by rw [g1, List.append_assoc]; rfl, by simp only [List.length_cons, g2, recs, List.map_cons, List.countP_cons, RItem.strip, Item.isRec, if_true], ?_⟩
      simp only [genLoop, h1, h2, Option.bind_some]
      rw [g3, List.append_assoc]; rfl

/-! ## The final pass -/

theorem patch_swap {e : Env} {F : List Nat} {R2 : List RItem} {sk : Option Skip} {cl : Bool} {t t' : Tgt} {a n : Nat} (ht : t'.Ok F.length) : ∀ (R1 : List RItem) {cp li X ps cs},
    Lay false e F (R1 ++ .jump ⟨sk, cl, true, t⟩ a n :: R2) cp li X ps cs → ∃ ps1 ps2 P S, ps = ps1 ++ ⟨false, cl, t, .abs64, cp + P.length⟩ :: ps2 ∧ ps1.length = recs (R1.map RItem.strip) ∧
      ∀ A : List (BitVec 32), A.length = cp → patchAll e (F.map e.exec) ps (A ++ X) = some (A ++ (P ++ (movzk (RD TMP_REG2) (tgtPos e F t) 4 ++ S))) ∧
        patchAll e (F.map e.exec) (ps1 ++ ⟨false, cl, t', .abs64, cp + P.length⟩ :: ps2) (A ++ X) = some (A ++ (P ++ (movzk (RD TMP_REG2) (tgtPos e F t') 4 ++ S)))
  | [], cp, li, X, ps, cs, h => by
    obtain ⟨k, pb, p, X', ps', rfl, rfl, hk, hrw, hp, h⟩ := h
    obtain ⟨rfl, rfl, rfl⟩ := hrw rfl
    simp only [Bool.false_eq_true, if_false] at *
    have hp' := jump_patches (e := e) (F := F) (cp := cp) (j := ⟨sk, cl, true, t'⟩) ht .abs64 (by rintro ⟨⟩)
    obtain ⟨Y, g1, -, -⟩ := patchAll_ok R2 h
    refine ⟨[], ps', JInfo.skipW ⟨sk, cl, true, t⟩ (fun k => cw false k 6#19), [JInfo.br ⟨sk, cl, true, t⟩] ++ Y, by rw [skipW_length]; rfl, rfl, fun A hA => ⟨?_, ?_⟩⟩
    · rw [patchAll, hp.2 A X' hA, Option.bind_some, ← List.append_assoc, g1 _ (by rw [List.length_append, hA, hp.1])]
      simp only [jumpFin, List.append_assoc]
    · rw [List.nil_append, patchAll, skipW_length]
      have q := hp'.2 A X' hA
      rw [if_neg (by rintro ⟨⟩)] at q
      rw [show patchOne e (F.map e.exec) (A ++ (jumpWords ⟨sk, cl, true, t⟩ .abs64 ++ X')) ⟨false, cl, t', .abs64, cp + JInfo.pre ⟨sk, cl, true, t⟩⟩ = _ from q, Option.bind_some, ← List.append_assoc,
        g1 _ (by rw [List.length_append, hA, ← hp'.1]; rfl)]
      simp only [jumpFin, List.append_assoc]
      rfl
  | i :: is, cp, li, X, ps, cs, h => by
    have ih := fun {cp li X ps cs} => patch_swap (e := e) (F := F) (R2 := R2) (sk := sk) (cl := cl) (t := t) (a := a) (n := n) ht is (cp := cp) (li := li) (X := X) (ps := ps) (cs := cs)
    cases i with
    | code bs =>
      obtain ⟨X', rfl, h⟩ := h
      obtain ⟨ps1, ps2, P, S, g1, g2, g3⟩ := ih h
      refine ⟨ps1, ps2, bs ++ P, S, by rw [g1, List.length_append, Nat.add_assoc], g2, fun A hA => ?_⟩
      obtain ⟨q1, q2⟩ := g3 (A ++ bs) (by simp [hA])
      rw [List.append_assoc] at q1 q2
      simp only [List.append_assoc, List.length_append, ← Nat.add_assoc] at q1 q2 ⊢
      exact ⟨q1, q2⟩
    | const bs =>
      obtain ⟨X', cs', rfl, rfl, h⟩ := h
      obtain ⟨ps1, ps2, P, S, g1, g2, g3⟩ := ih h
      refine ⟨ps1, ps2, bs ++ P, S, by rw [g1, List.length_append, Nat.add_assoc], g2, fun A hA => ?_⟩
      obtain ⟨q1, q2⟩ := g3 (A ++ bs) (by simp [hA])
      simp only [List.append_assoc, List.length_append, ← Nat.add_assoc] at q1 q2 ⊢
      exact ⟨q1, q2⟩
    | label =>
      obtain ⟨-, -, h⟩ := h
      exact ih h
    | alabel al =>
      obtain ⟨m, X', -, -, rfl, -, h⟩ := h
      obtain ⟨ps1, ps2, P, S, g1, g2, g3⟩ := ih h
      refine ⟨ps1, ps2, List.replicate m NOP ++ P, S, by rw [g1, List.length_append, List.length_replicate, Nat.add_assoc], g2, fun A hA => ?_⟩
      obtain ⟨q1, q2⟩ := g3 (A ++ List.replicate m NOP) (by simp [hA])
      simp only [List.append_assoc, List.length_append, List.length_replicate, ← Nat.add_assoc] at q1 q2 ⊢
      exact ⟨q1, q2⟩
    | jump j addr total =>
      obtain ⟨k, pb, p, X', ps', rfl, rfl, -, -, hp, h⟩ := h
      simp only [Bool.false_eq_true, if_false] at *
      obtain ⟨ps1, ps2, P, S, rfl, g2, g3⟩ := ih h
      refine ⟨p :: ps1, ps2, jumpFin j (tgtPos e F j.tgt) (e.exec cp) k ++ P, S, by rw [List.length_append, ← hp.1, Nat.add_assoc]; rfl,
        by simp only [List.length_cons, g2, recs, List.map_cons, List.countP_cons, RItem.strip, Item.isRec, if_true], fun A hA => ?_⟩
      obtain ⟨q1, q2⟩ := g3 (A ++ jumpFin j (tgtPos e F j.tgt) (e.exec cp) k) (by simp [hA, hp.1])
      rw [List.cons_append, patchAll, patchAll, hp.2 A X' hA, Option.bind_some, Option.bind_some]
      simp only [List.append_assoc, List.length_append, ← Nat.add_assoc, ← hp.1] at q1 q2 ⊢
      exact ⟨q1, q2⟩
    | mov reg tg addr total =>
      obtain ⟨k, pb, p, X', ps', rfl, rfl, -, hp, h⟩ := h
      simp only [Bool.false_eq_true, if_false] at *
      obtain ⟨ps1, ps2, P, S, rfl, g2, g3⟩ := ih h
      refine ⟨p :: ps1, ps2, movFin reg (tgtPos e F tg) (e.exec cp) k ++ P, S, by rw [List.length_append, ← hp.1, Nat.add_assoc]; rfl,
        by simp only [List.length_cons, g2, recs, List.map_cons, List.countP_cons, RItem.strip, Item.isRec, if_true], fun A hA => ?_⟩
      obtain ⟨q1, q2⟩ := g3 (A ++ movFin reg (tgtPos e F tg) (e.exec cp) k) (by simp [hA, hp.1])
      rw [List.cons_append, patchAll, patchAll, hp.2 A X' hA, Option.bind_some, Option.bind_some]
      simp only [List.append_assoc, List.length_append, ← Nat.add_assoc, ← hp.1] at q1 q2 ⊢
      exact ⟨q1, q2⟩

theorem labels_jump (xs ys : List Item) (j j' : JInfo) : Prog.labels (xs ++ .jump j :: ys) = Prog.labels (xs ++ .jump j' :: ys) := by
  induction xs with
  | nil => rfl
  | cons i is ih => cases i <;> simp only [List.cons_append, Prog.labels, ih]

/-- The code of a program with a rewritable jump, and the code of the program with another target: they differ in four words at the address of the jump. -/
theorem generate_swap {xs ys : List Item} {sk : Option Skip} {cl : Bool} {t t' : Tgt} {base off : BitVec 64} {r : GenResult}
    (ho : Prog.Ok (Prog.labels (xs ++ .jump ⟨sk, cl, true, t⟩ :: ys)) (xs ++ .jump ⟨sk, cl, true, t⟩ :: ys)) (hr : Room (xs ++ .jump ⟨sk, cl, true, t⟩ :: ys) base off)
    (ht : t'.Ok (Prog.labels (xs ++ .jump ⟨sk, cl, true, t⟩ :: ys))) (hg : generate (xs ++ .jump ⟨sk, cl, true, t⟩ :: ys) base off = some r) :
    ∃ P S, r.jaddr[recs xs]? = some P.length ∧ r.code = P ++ (movzk (RD TMP_REG2) (tgtOf r.laddr t) 4 ++ S) ∧
      generate (xs ++ .jump ⟨sk, cl, true, t'⟩ :: ys) base off = some { r with code := P ++ (movzk (RD TMP_REG2) (tgtOf r.laddr t') 4 ++ S) } := by
  have htj : t.Ok (Prog.labels (xs ++ .jump ⟨sk, cl, true, t⟩ :: ys)) := (ho.mem (.jump ⟨sk, cl, true, t⟩) (by simp)).1
  obtain ⟨hr0, hr1, hr2, hr3, hr4, hr5⟩ := hr
  obtain ⟨R1, a, R2, L, SR, hs, hred⟩ := reduce_jump ys sk cl xs 0 0 0 (labelSizes 0 (xs ++ .jump ⟨sk, cl, true, t⟩ :: ys))
  have hus := usize_jump xs ys sk cl t t'
  have hls := labelSizes_jump ys sk cl t t' xs 0
  have hr' := hred t'
  rw [← hls] at hr'
  replace hred := hred t
  generalize hi : xs ++ .jump ⟨sk, cl, true, t⟩ :: ys = items at *
  generalize hi' : xs ++ .jump ⟨sk, cl, true, t'⟩ :: ys = items' at *
  have hb : ∀ k, (labelSizes 0 items).getD k 0 ≤ usize items := by
    intro k
    by_cases h : k < (labelSizes 0 items).length
    · have := labelSizes_mem items 0 ((labelSizes 0 items)[k]) (List.getElem_mem h)
      simp only [List.getD, List.getElem?_eq_getElem h, Option.getD_some]; omega
    · simp only [List.getD, List.getElem?_eq_none (by omega : (labelSizes 0 items).length ≤ k), Option.getD_none]; omega
  obtain ⟨g1, -, g3, -, -, g4, -, -, g6, g7⟩ := reduce_good (Prog.labels items) (usize items) items 0 0 0 (labelSizes 0 items) _ L SR hred
    (labelSizes_length items 0) rfl (Nat.zero_le _) (Nat.le_refl _) ho (Nat.zero_add _) (fun k h => by omega) hb
  obtain ⟨s', F, X, ps, cs, l1, l2, l3, l4, l5, l6, l7, l8⟩ := genLoop_ok (e := ⟨base, off, usize items - SR⟩) (L := L) (T := usize items) _ _ (Nat.le_refl _)
    (s := ⟨[], L, 0, [], [], []⟩) (E := 0) g7 ⟨hr1, Nat.sub_le _ _, hr2, hr3, hr4, hr5, g6, Nat.le_refl _, Nat.zero_le _, rfl, fun k h => absurd h (Nat.not_lt_zero _), fun k _ => rfl⟩ rfl
  obtain ⟨q1, x, q2, m1, m2, m3⟩ := genLoop_swap (t' := t') R1 _ _ _ l1
  simp only [List.nil_append, List.length_nil, Nat.zero_add] at l2 l3 l4 l7 m1 m3
  have hF : F.length = Prog.labels items := by rw [l6.len_eq, g1]
  obtain ⟨ps1, ps2, P, S, n1, n2, n0⟩ := patch_swap (t' := t') (by rw [hF]; exact ht) R1 l7
  obtain ⟨n3, n4⟩ := n0 [] rfl
  simp only [List.nil_append, Nat.zero_add] at n1 n3 n4
  have e1 : q1 = ps1 ∧ (⟨false, cl, t, .abs64, x⟩ : Pending) :: q2 = ⟨false, cl, t, .abs64, P.length⟩ :: ps2 := by
    have := m1.symm.trans (l3.trans n1)
    exact List.append_inj this (m2.trans n2.symm)
  obtain ⟨rfl, e2⟩ := e1
  injection e2 with e2 e3
  injection e2 with _ _ _ _ e2
  subst e2 e3
  have et : ∀ t : Tgt, t.Ok (Prog.labels items) → tgtPos ⟨base, off, usize items - SR⟩ F t = tgtOf s'.laddr t := by
    intro t h
    rw [l5, ← tgtAddr_pos (by rw [hF]; exact h)]
    cases t <;> rfl
  rw [et _ htj, ← l5, ← l3, ← l2] at n3
  rw [et _ ht, ← l5, ← l2] at n4
  have er : r = ⟨P ++ (movzk (RD TMP_REG2) (tgtOf s'.laddr t) 4 ++ S), s'.laddr, s'.caddr, s'.pend.map (·.addr), usize items - SR⟩ := by
    rw [generate, if_neg (show ¬ usize items = 0 by omega), hred] at hg
    simp only [l1, Option.bind_some] at hg
    rw [n3] at hg
    exact (Option.some.inj hg).symm
  subst er
  refine ⟨P, S, ?_, rfl, ?_⟩
  · show (s'.pend.map (·.addr))[recs xs]? = _
    rw [m1, ← hs, ← m2, List.getElem?_map, List.getElem?_append_right (Nat.le_refl _), Nat.sub_self]; rfl
  · rw [generate, if_neg (show ¬ usize items' = 0 by omega), hr']
    simp only [hus, m3, Option.bind_some, n4, m1, List.map_append, List.map_cons]

/-! ## Memory -/

theorem wordsAt_iff {c : IMem} {ws : List (BitVec 32)} : ∀ {a : BitVec 64}, WordsAt c a ws ↔ ∀ i w, ws[i]? = some w → c (a + BitVec.ofNat 64 (4 * i)) = w := by
  induction ws with
  | nil => intro a; simp [WordsAt]
  | cons w ws ih =>
    intro a
    rw [WordsAt, ih]
    have e : ∀ i, a + 4#64 + BitVec.ofNat 64 (4 * i) = a + BitVec.ofNat 64 (4 * (i + 1)) := by
      intro i
      rw [Nat.mul_add, BitVec.ofNat_add, BitVec.add_assoc, BitVec.add_comm (BitVec.ofNat 64 (4 * i))]
    constructor
    · rintro ⟨h1, h2⟩ i v hv
      cases i with
      | zero => simp only [List.getElem?_cons_zero, Option.some.injEq] at hv; simpa [← hv] using h1
      | succ i => rw [← e]; exact h2 i v (by simpa using hv)
    · intro h
      refine ⟨by simpa using h 0 w rfl, fun i v hv => ?_⟩
      rw [e]; exact h (i + 1) v (by simpa using hv)

theorem storeW_get (ws : List (BitVec 32)) : ∀ (c : IMem) (a q : BitVec 64), 4 * ws.length < 2 ^ 64 →
    (∀ i w, ws[i]? = some w → storeW c a ws (a + BitVec.ofNat 64 (4 * i)) = w) ∧ ((∀ i < ws.length, q ≠ a + BitVec.ofNat 64 (4 * i)) → storeW c a ws q = c q) := by
  induction ws with
  | nil => intro c a q _; exact ⟨fun i w h => by simp at h, fun _ => rfl⟩
  | cons w ws ih =>
    intro c a q hl
    simp only [List.length_cons] at hl
    have e : ∀ i, a + 4#64 + BitVec.ofNat 64 (4 * i) = a + BitVec.ofNat 64 (4 * (i + 1)) := by
      intro i
      rw [Nat.mul_add, BitVec.ofNat_add, BitVec.add_assoc, BitVec.add_comm (BitVec.ofNat 64 (4 * i))]
    rw [storeW]
    refine ⟨fun i v hv => ?_, fun h => ?_⟩
    · cases i with
      | zero =>
        rw [(ih _ _ _ (by omega)).2]
        · simpa using hv
        · intro i hi h
          have := congrArg BitVec.toNat h
          simp only [BitVec.toNat_add, BitVec.toNat_ofNat] at this
          omega
      | succ i =>
        rw [← e]
        exact (ih _ _ 0#64 (by omega)).1 i v (by simpa using hv)
    · rw [(ih _ _ q (by omega)).2 fun i hi => by rw [e]; exact h (i + 1) (by simp only [List.length_cons]; omega)]
      exact if_neg (by simpa using h 0 (by simp))

/-- Storing over words in the middle. -/
theorem storeW_mid {c : IMem} {a : BitVec 64} {P M M' S : List (BitVec 32)} (h : WordsAt c a (P ++ (M ++ S))) (hl : M'.length = M.length) (hs : 4 * (P ++ (M ++ S)).length < 2 ^ 64) :
    WordsAt (storeW c (a + BitVec.ofNat 64 (4 * P.length)) M') a (P ++ (M' ++ S)) := by
  simp only [List.length_append] at hs
  rw [wordsAt_iff] at h ⊢
  intro i w hw
  have hi : i < (P ++ (M' ++ S)).length := (List.getElem?_eq_some_iff.mp hw).1
  simp only [List.length_append] at hi
  have far : ∀ k < M'.length, (i < P.length ∨ P.length + M'.length ≤ i) → a + BitVec.ofNat 64 (4 * i) ≠ a + BitVec.ofNat 64 (4 * P.length) + BitVec.ofNat 64 (4 * k) := by
    intro k hk hor h
    have := congrArg BitVec.toNat h
    simp only [BitVec.toNat_add, BitVec.toNat_ofNat] at this
    omega
  have g := storeW_get M' c (a + BitVec.ofNat 64 (4 * P.length)) (a + BitVec.ofNat 64 (4 * i)) (by omega)
  by_cases h1 : i < P.length
  · rw [g.2 fun k hk => far k hk (Or.inl h1)]
    refine h i w ?_
    rw [List.getElem?_append_left h1] at hw ⊢
    exact hw
  · by_cases h2 : i < P.length + M'.length
    · rw [List.getElem?_append_right (by omega), List.getElem?_append_left (by omega)] at hw
      have := g.1 _ _ hw
      rw [← this]
      congr 1
      rw [BitVec.add_assoc, ← BitVec.ofNat_add]
      congr 2; omega
    · rw [g.2 fun k hk => far k hk (Or.inr (by omega))]
      refine h i w ?_
      rw [List.getElem?_append_right (by omega), List.getElem?_append_right (by omega)] at hw ⊢
      rw [← hl]; exact hw

theorem setJump_words {c : IMem} {a : BitVec 64} {P S : List (BitVec 32)} {t t' : BitVec 64} (h : WordsAt c a (P ++ (movzk (RD TMP_REG2) t 4 ++ S)))
    (hs : 4 * (P ++ (movzk (RD TMP_REG2) t 4 ++ S)).length < 2 ^ 64) :
    WordsAt (setJump c (a + BitVec.ofNat 64 (4 * P.length)) t') a (P ++ (movzk (RD TMP_REG2) t' 4 ++ S)) := by
  obtain ⟨w, mid, m1, m2, m3⟩ := movzk_head t
  have hw : c (a + BitVec.ofNat 64 (4 * P.length)) = w := by
    refine wordsAt_iff.mp h P.length w ?_
    rw [List.getElem?_append_right (Nat.le_refl _), Nat.sub_self, m1]; rfl
  rw [setJump, hw, setJumpAddr_movzk w 10#5 m3, show (10#5).setWidth 32 = RD TMP_REG2 from by decide]
  exact storeW_mid h (by simp [movzk]) hs

end Verif.A64
