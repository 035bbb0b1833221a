import Verif.RISCV.FlagsOp
import Verif.RISCV.Blk
import Verif.RISCV.ClzProof

/-!
# sljit_emit_select (helper lemmas)
-/

namespace Verif.RV

/-! ## Lengths: the branch distance always fits -/

theorem ite_len {p : Prop} [Decidable p] {a b : Emit} {n : Nat} (ha : a.length ≤ n) (hb : b.length ≤ n) :
    (if p then a else b).length ≤ n := by split <;> assumption

theorem ite_len2 {p : Prop} [Decidable p] {a b : BitVec 64 × Emit} {n : Nat} (ha : a.2.length ≤ n) (hb : b.2.length ≤ n) :
    (if p then a else b).2.length ≤ n := by split <;> assumption

theorem app_len {a b : Emit} {n m : Nat} (ha : a.length ≤ n) (hb : b.length ≤ m) : (a ++ b).length ≤ n + m := by
  rw [List.length_append]; omega

theorem l32 (w : BitVec 32) : (w32 w).length ≤ 2 := Nat.le_refl 2
theorem l16 (w : BitVec 16) : (w16 w).length ≤ 2 := Nat.le_succ 1
theorem lnil : ([] : Emit).length ≤ 2 := Nat.zero_le 2

theorem loadImmLow_len (cfg : Cfg) (d : Nat) (v : BitVec 64) : (loadImmLow cfg d v).length ≤ 2 :=
  ite_len lnil (ite_len (l16 _) (l32 _))

theorem loadImm32_len (cfg : Cfg) (d : Nat) (v : BitVec 64) : (loadImm32 cfg d v).length ≤ 4 :=
  ite_len (app_len (l32 _) (l32 _)) (ite_len (ite_len (app_len (l16 _) (l32 _)) (app_len (l16 _) (loadImmLow_len ..)))
    (app_len (l32 _) (loadImmLow_len ..)))

theorem loadImmS32_len (cfg : Cfg) (d : Nat) (v : BitVec 64) : (loadImmS32 cfg d v).length ≤ 4 :=
  ite_len (Nat.le_trans (l16 _) (by decide)) (ite_len (Nat.le_trans (l32 _) (by decide)) (loadImm32_len ..))

theorem emitSlli_len (cfg : Cfg) (d : Nat) (v : BitVec 64) : (emitSlli cfg d v).length ≤ 2 := ite_len (l16 _) (l32 _)

theorem loadImm64_len (cfg : Cfg) (d t : Nat) (v : BitVec 64) : (loadImm64 cfg d v t).length ≤ 12 := by
  unfold loadImm64
  refine app_len (n := 10) (m := 2) (app_len (n := 8) (m := 2) (app_len (n := 6) (m := 2) (app_len (n := 4) (m := 2) (app_len (n := 2) (m := 2) ?_ ?_) ?_) ?_) ?_) (l32 _)
  · exact ite_len2 (l32 _) (l32 _)
  · exact ite_len2 (ite_len (l16 _) (l32 _)) (ite_len2 (l32 _) (ite_len (l16 _) (l32 _)))
  · exact ite_len (ite_len (l16 _) (l32 _)) lnil
  · exact ite_len (l32 _) (ite_len (ite_len (l16 _) (l32 _)) lnil)
  · exact emitSlli_len ..

theorem loadImm_len (cfg : Cfg) (d t : Nat) (v : BitVec 64) : (loadImm cfg d v t).length ≤ 12 := by
  unfold loadImm
  refine ite_len (Nat.le_trans (loadImmS32_len ..) (by decide)) (ite_len ?_ (ite_len ?_ (loadImm64_len ..)))
  · exact Nat.le_trans (app_len (loadImmS32_len ..) (emitSlli_len ..)) (by decide)
  · exact Nat.le_trans (app_len (app_len (loadImm32_len ..) (emitSlli_len ..)) (l32 _)) (by decide)

theorem pushMem_len (cfg : Cfg) (t : MT) (load : Bool) (r b : Nat) (w : BitVec 64) : (pushMem cfg t load r b w).length ≤ 2 := by
  unfold pushMem
  split
  · exact l16 _
  · exact ite_len (l32 _) (l32 _)

theorem emitOpMem_len (cfg : Cfg) (t : MT) (load : Bool) (r b i : Nat) (w : BitVec 64) : (emitOpMem cfg t load r b i w).length ≤ 16 := by
  unfold emitOpMem
  refine ite_len (Nat.le_trans (pushMem_len ..) (by decide)) (ite_len ?_ ?_)
  · exact Nat.le_trans (app_len (n := 4) (ite_len (app_len (l32 _) (l32 _)) (Nat.le_trans (l32 _) (by decide))) (pushMem_len ..)) (by decide)
  · exact app_len (n := 12) (m := 4) (loadImm_len ..) (app_len (n := 2) (m := 2) (ite_len (l32 _) lnil) (pushMem_len ..))

theorem selectBody_len (cfg : Cfg) (is32 : Bool) (d : Nat) (o : Opd) : (selectBody cfg is32 d o).length ≤ 16 := by
  unfold selectBody
  split
  · exact emitOpMem_len ..
  · exact Nat.le_trans (loadImm_len ..) (by decide)
  · exact Nat.le_trans (l32 _) (by decide)

/-! ## The branch -/

/-- The condition `type` is `t`, as far as a branch can tell. -/
def CondIs (c : Core) (type : Nat) (t : Bool) : Prop :=
  if type = 0 then (c.x 5#5 = 0#64 ↔ t = true)
  else if type = 1 then (c.x 5#5 = 0#64 ↔ t = false)
  else (c.x 28#5 ≠ 0#64 ↔ (t ^^ inverted type) = true)

theorem FlagIs.cond {c : Core} {a : Bool} {type : Nat} {t : Bool} (h : FlagIs c a type t) : CondIs c type t := by
  unfold FlagIs at h
  unfold CondIs
  split
  · next h0 => rw [if_pos h0] at h; exact h
  · next h0 =>
    rw [if_neg h0] at h
    split
    · next h1 => rw [if_pos h1] at h; exact h
    · next h1 =>
      rw [if_neg h1] at h
      split at h
      · next h2 =>
        rw [h]
        rcases h2.2 with e | e <;> subst e <;> cases t <;> decide
      · rw [h]
        cases (t ^^ inverted type) <;> simp [bool64]

theorem jumpBr_skips {s : St} {type : Nat} {t : Bool} (hty : type < 36) (h : CondIs s.core type t) : (jumpBr type).skips s = !t := by
  have z : s.rd (regMap TMP_ZERO) = 0#64 := s.core.x0
  have e5 : s.rd (regMap EQUAL_FLAG) = s.core.x 5#5 := rfl
  have e28 : s.rd (regMap OTHER_FLAG) = s.core.x 28#5 := rfl
  unfold CondIs at h
  generalize s.core.x 28#5 = v28 at *
  generalize s.core.x 5#5 = v5 at *
  interval_cases type <;> simp [inverted] at h <;> simp only [jumpBr, Br.skips, decBr, BrOp.eval, e5, e28, z] <;> cases t <;> simp_all

theorem selectBr_dec (type n : Nat) (hty : type < 36) (hn : n < 64) :
    ∃ o a b, decode32 (selectBr type n) = some (.branch o a b (BitVec.ofNat 13 (2 * n))) ∧
      ∀ s : St, o.eval (s.core.x a) (s.core.x b) = (jumpBr type).skips s := by
  have k : ∀ n : Fin 64, ∀ e : Bool, ∀ z : Bool,
      decode32 ((BRANCH (if e then 1#3 else 0#3) ||| RS1 (if z then EQUAL_FLAG else OTHER_FLAG) ||| RS2 TMP_ZERO) ||| (BitVec.ofNat 32 n.1 &&& 0xf#32) <<< 8 ||| (BitVec.ofNat 32 n.1 >>> 4) <<< 25) =
        some (.branch (if e then .ne else .eq) (if z then 5#5 else 28#5) 0#5 (BitVec.ofNat 13 (2 * n.1))) := by decide +kernel
  have main : ∀ e z : Bool, jumpBr type = .b32 (if e then 1#3 else 0#3) (if z then EQUAL_FLAG else OTHER_FLAG) TMP_ZERO →
      ∃ o a b, decode32 (selectBr type n) = some (.branch o a b (BitVec.ofNat 13 (2 * n))) ∧
      ∀ s : St, o.eval (s.core.x a) (s.core.x b) = (jumpBr type).skips s := by
    intro e z h
    refine ⟨if e then .ne else .eq, if z then 5#5 else 28#5, 0#5, ?_, ?_⟩
    · unfold selectBr jumpIns
      rw [h]
      exact k ⟨n, hn⟩ e z
    · intro s
      rw [h]
      cases e <;> cases z <;> rfl
  interval_cases type <;> first
    | exact main true true rfl
    | exact main false true rfl
    | exact main true false rfl
    | exact main false false rfl

/-- A branch over a piece of code. -/
theorem over_ok {type : Nat} {t : Bool} {body : Emit} {c : Core} {Q : Core → Prop} (hty : type < 36) (hl : body.length ≤ 16)
    (h : CondIs c type t) (h1 : t = true → wp body c Q) (h0 : t = false → Q c) :
    wpB (w32 (selectBr type (body.length + 2)) ++ body) c Q := by
  apply wpB_of_reach
  intro code p hc
  have hc0 : CodeAt code (p + BitVec.ofNat 64 0) (w32 (selectBr type (body.length + 2)) ++ body) := by
    rw [show p + BitVec.ofNat 64 0 = p by simp]; exact hc
  obtain ⟨c1, c2⟩ := CodeAt.off hc0
  obtain ⟨o, a, b, hdec, hev⟩ := selectBr_dec type (body.length + 2) hty (by omega)
  have hs : ∀ n : Fin 64, (BitVec.ofNat 13 (2 * n.1)).signExtend 64 = BitVec.ofNat 64 (2 * n.1) := by decide +kernel
  have hlen : 2 * (w32 (selectBr type (body.length + 2)) ++ body).length = 2 * (body.length + 2) := by
    rw [List.length_append, len_w32]; omega
  have ev : o.eval (c.x a) (c.x b) = !t := by
    have := hev ⟨c.x, c.f, c.mem, 0#64⟩
    have e : (⟨c.x, c.f, c.mem, 0#64⟩ : St).core = c := by
      have hx := c.x0
      cases c
      simp only [St.core, Core.mk.injEq, and_true]
      funext q
      simp only [St.rd]
      split
      · next hq => subst hq; exact hx.symm
      · rfl
    rw [e] at this
    rw [this]
    exact jumpBr_skips hty (by rw [e]; exact h)
  rw [hlen]
  cases t
  · refine Reach.br (m := 2 * (body.length + 2)) c1 hdec (t := true) (by rw [ev]; rfl) ?_ (h0 rfl)
    rw [if_pos rfl, hs ⟨body.length + 2, by omega⟩]; simp
  · refine (Reach.br (m := 4) (Q := fun c' => c' = c) c1 hdec (t := false) (by rw [ev]; rfl) (by simp) rfl).trans ?_
    rintro c' rfl
    exact Reach.wp c2 (h1 rfl) (by omega)

/-! ## The moves -/

/-- Value of the first source. -/
def selVal (is32 : Bool) (c : Core) : Opd → BitVec 64
  | .reg r => if is32 then sx32 (lo32 (c.x (regMap r))) else c.x (regMap r)
  | .imm v => if is32 then sx32 (lo32 v) else v
  | .mem b i w => (ldOp (if is32 then .int else .word) false).eval c.mem (ea c b i w)

theorem addw_z (w : Bool) (a : BitVec 64) : addw w a 0#64 = if w then sx32 (lo32 a) else a := by
  cases w <;> simp [addw, lo32]

theorem selectBody_ok {cfg : Cfg} {is32 : Bool} {d : Nat} {o : Opd} {c : Core} (d0 : regMap d ≠ 0#5) (d2 : regMap d ≠ 2#5)
    (d6 : regMap d ≠ 6#5) (d7 : regMap d ≠ 7#5)
    (hb : ∀ b i w, o = .mem b i w → regMap b ≠ 7#5 ∧ (fastArg i w = true ∨ regMap b ≠ regMap d ∨ (i ≠ 0 ∧ w &&& 3#64 = 0#64))) :
    wp (selectBody cfg is32 d o) c fun c' => c'.x (regMap d) = selVal is32 c o ∧ Only [regMap d, 6#5, 7#5] c c' := by
  have hz : Fits12 0#64 := by unfold Fits12; decide
  cases o with
  | reg r =>
    simp only [selectBody]
    rw [wp_ADDIW' _ _ hz]
    refine ⟨?_, (Only.refl _ _).wr (by simp) _⟩
    simp [d0, addw_z, selVal]
  | imm v =>
    refine wp_mono (wp_loadImm d0 d2 (by decide) (by rw [rm25]; exact d6)) ?_
    rintro c' ⟨h1, h2⟩
    exact ⟨h1, h2.mono (by simp [rm25])⟩
  | mem b i w =>
    obtain ⟨b7, hb⟩ := hb b i w rfl
    refine wp_mono (opMem_load d0 d2 d7 b7 hb) ?_
    rintro c' ⟨h1, h2⟩
    exact ⟨h1, h2.mono (by simp)⟩

/-- The first source can be read after dst has been used as a temporary. -/
def SelOk (dst : Nat) (src1 : Opd) (src2 : Nat) : Prop :=
  ∀ b i w, src1 = .mem b i w → dst = src2 → b = dst → fastArg i w = true ∨ (i ≠ 0 ∧ w &&& 3#64 = 0#64)

theorem emitSelect_ok {cfg : Cfg} {type : Nat} {is32 : Bool} {dst : Nat} {src1 : Opd} {src2 : Nat} {c : Core} {t : Bool}
    (hty : type < 36) (hd0 : dst ≠ 0) (hd : dst ≤ 23) (h1 : OpdOk src1) (h2 : src2 ≤ 24) (hs : SelOk dst src1 src2)
    (h32 : is32 = true → Sx (c.x (regMap dst)) ∨ (dst ≠ src2 ∧ src1 ≠ .reg dst)) (hF : CondIs c type t) :
    wpB (emitSelect cfg type is32 dst src1 src2) c fun c' =>
      c'.x (regMap dst) = (if t then selVal is32 c src1 else selVal is32 c (.reg src2)) ∧ Only [regMap dst, 6#5, 7#5] c c' := by
  have hz : Fits12 0#64 := by unfold Fits12; decide
  obtain ⟨u1, u5, u6, u7, u28⟩ := user_ne (Nat.le_trans hd (by decide))
  have u0 : regMap dst ≠ 0#5 := rm_ne0 (by omega) hd0
  have u2 : regMap dst ≠ 2#5 := by
    have : ∀ r : Fin 24, regMap r.1 ≠ 2#5 := by decide +kernel
    exact this ⟨dst, by omega⟩
  have hlen : ∀ o, (selectBody cfg is32 dst o).length ≤ 16 := fun o => selectBody_len ..
  have self : (is32 = true → Sx (c.x (regMap dst))) → selVal is32 c (.reg dst) = c.x (regMap dst) := by
    intro h
    simp only [selVal]
    split
    · next e => exact (h e).symm
    · rfl
  by_cases hds : dst = src2
  · have he : emitSelect cfg type is32 dst src1 src2 = [] ++ (w32 (selectBr type ((selectBody cfg is32 dst src1).length + 2)) ++ selectBody cfg is32 dst src1) := by
      unfold emitSelect
      rw [if_neg (by simpa using hds)]
    rw [he, List.nil_append]
    refine over_ok hty (hlen _) hF ?_ ?_
    · rintro rfl
      refine selectBody_ok u0 u2 u6 u7 ?_
      rintro b i w rfl
      refine ⟨(user_ne h1.1).2.2.2.1, ?_⟩
      by_cases hb : regMap b = regMap dst
      · have : b = dst := rm_inj _ (by have := h1.1; omega) _ (by omega) hb
        rcases hs b i w rfl hds this with h | h
        · exact Or.inl h
        · exact Or.inr (Or.inr h)
      · exact Or.inr (Or.inl hb)
    · rintro rfl
      refine ⟨?_, Only.refl _ _⟩
      rw [if_neg (by decide), ← hds, self]
      intro h
      exact (h32 h).resolve_right (fun q => q.1 hds)
  · by_cases h1d : src1 = .reg dst
    · have he : emitSelect cfg type is32 dst src1 src2 = [] ++ (w32 (selectBr (type ^^^ 1) ((selectBody cfg is32 dst (.reg src2)).length + 2)) ++ selectBody cfg is32 dst (.reg src2)) := by
        unfold emitSelect
        rw [if_pos hds, if_pos h1d]
      rw [he, List.nil_append, h1d]
      have hty' : type ^^^ 1 < 36 := by
        have : ∀ n : Fin 36, n.1 ^^^ 1 < 36 := by decide
        exact this ⟨type, hty⟩
      have hF' : CondIs c (type ^^^ 1) (!t) := by
        unfold CondIs at hF ⊢
        interval_cases type <;> simp [inverted] at hF ⊢ <;> cases t <;> simp_all
      refine over_ok hty' (hlen _) hF' ?_ ?_
      · intro h
        have : t = false := by simpa using h
        subst this
        refine wp_mono (selectBody_ok u0 u2 u6 u7 (by simp)) ?_
        rintro c' ⟨k1, k2⟩
        exact ⟨by rw [k1]; simp, k2⟩
      · intro h
        have : t = true := by simpa using h
        subst this
        refine ⟨?_, Only.refl _ _⟩
        rw [if_pos rfl, self]
        intro h
        exact (h32 h).resolve_right (fun q => q.2 h1d)
    · have he : emitSelect cfg type is32 dst src1 src2 = ((if src1.dependsOn dst then w32 (ADDI ||| RD TMP_REG1 ||| RS1 dst ||| IMM_I 0#64) else []) ++
          w32 (ADDI ||| WORD is32 ||| RD dst ||| RS1 src2 ||| IMM_I 0#64)) ++
          (w32 (selectBr type ((selectBody cfg is32 dst (src1.subst dst)).length + 2)) ++ selectBody cfg is32 dst (src1.subst dst)) := by
        unfold emitSelect
        rw [if_pos hds, if_neg h1d]
      rw [he]
      obtain ⟨v1, v5, v6, v7, v28⟩ := user_ne h2
      have first : wp ((if src1.dependsOn dst then w32 (ADDI ||| RD TMP_REG1 ||| RS1 dst ||| IMM_I 0#64) else []) ++
          w32 (ADDI ||| WORD is32 ||| RD dst ||| RS1 src2 ||| IMM_I 0#64)) c fun c1 =>
          c1.x (regMap dst) = selVal is32 c (.reg src2) ∧ (src1.dependsOn dst = true → c1.x 6#5 = c.x (regMap dst)) ∧
          Only [regMap dst, 6#5, 7#5] c c1 := by
        cases hdep : src1.dependsOn dst
        · simp only [Bool.false_eq_true, if_false, List.nil_append]
          rw [wp_ADDIW' _ _ hz]
          exact ⟨by simp [u0, addw_z, selVal], by simp, (Only.refl _ _).wr (by simp) _⟩
        · simp only [if_true]
          wps [IOp.eval, rm25, u0, u6, u6.symm, v6, v6.symm, hz]
          refine ⟨by simp [addw_z, selVal], ?_⟩
          exact ((Only.refl _ _).wr (by simp) _).wr (by simp) _
      refine wpB_append (wpB_mono first.B ?_)
      rintro c1 ⟨k1, k2, k3⟩
      have hx : ∀ r, r ≤ 24 → r ≠ dst → c1.x (regMap r) = c.x (regMap r) := by
        intro r hr hne
        obtain ⟨w1, w5, w6, w7, w28⟩ := user_ne hr
        refine k3.1 _ ?_
        simp only [List.mem_cons, List.not_mem_nil, or_false, not_or]
        exact ⟨fun e => hne (rm_inj _ (by omega) _ (by omega) e), w6, w7⟩
      have hv : selVal is32 c1 (src1.subst dst) = selVal is32 c src1 := by
        cases src1 with
        | reg r =>
          have : r ≠ dst := fun e => h1d (by rw [e])
          simp only [Opd.subst, selVal, hx r h1 this]
        | imm v => rfl
        | mem b i w =>
          have hsub : ∀ r, r ≤ 24 → (r = b ∨ r = i) → c1.x (regMap (if r = dst then TMP_REG1 else r)) = c.x (regMap r) := by
            intro r hr hbi
            by_cases hrd : r = dst
            · rw [if_pos hrd, rm25, k2, hrd]
              subst hrd
              simp only [Opd.dependsOn, decide_eq_true_eq]
              exact hbi.imp Eq.symm Eq.symm
            · rw [if_neg hrd]; exact hx r hr hrd
          have hz' : (if i = dst then TMP_REG1 else i) = 0 ↔ i = 0 := by
            constructor
            · intro h; by_contra hi
              split at h
              · exact absurd h (by decide)
              · exact hi h
            · rintro rfl; rw [if_neg (fun e => hd0 e.symm)]
          simp only [Opd.subst, selVal, ea, hsub b h1.1 (Or.inl rfl), hsub i h1.2 (Or.inr rfl), hz', k3.2.1]
      have hF1 : CondIs c1 type t := by
        unfold CondIs at hF ⊢
        rw [k3.1 5#5 (by simp [u5.symm]), k3.1 28#5 (by simp [u28.symm])]; exact hF
      refine (over_ok hty (hlen _) hF1 ?_ ?_)
      · rintro rfl
        refine wp_mono (selectBody_ok u0 u2 u6 u7 ?_) ?_
        · intro b i w hm
          cases src1 with
          | mem b' i' w' =>
            simp only [Opd.subst, Opd.mem.injEq] at hm
            obtain ⟨rfl, -, -⟩ := hm
            by_cases hb : b' = dst
            · rw [if_pos hb]; exact ⟨by decide, Or.inr (Or.inl (by rw [rm25]; exact u6.symm))⟩
            · rw [if_neg hb]
              exact ⟨(user_ne h1.1).2.2.2.1, Or.inr (Or.inl (fun e => hb (rm_inj _ (by have := h1.1; omega) _ (by omega) e)))⟩
          | _ => simp [Opd.subst] at hm
        · rintro c' ⟨g1, g2⟩
          exact ⟨by rw [g1, hv]; simp, k3.trans g2⟩
      · rintro rfl
        exact ⟨by rw [k1]; simp, k3⟩

end Verif.RV
