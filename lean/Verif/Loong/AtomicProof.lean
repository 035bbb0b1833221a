import Verif.Loong.Atomic

/-! # Atomic operations on LoongArch64 (helper lemmas) -/

set_option linter.all false

namespace Verif.LA
open Verif.RV
open Verif.Imm.Loong (regMap)

/-! ## Interference -/

theorem Interf.refl (s : ASt) : Interf s s := ⟨⟨s.core.mem, rfl⟩, Or.inr ⟨rfl, fun _ _ _ => rfl⟩⟩
theorem Interf.x {s s' : ASt} (h : Interf s s') : s'.core.x = s.core.x := by obtain ⟨⟨m, e⟩, -⟩ := h; rw [e]; rfl
theorem Interf.f {s s' : ASt} (h : Interf s s') : s'.core.f = s.core.f := by obtain ⟨⟨m, e⟩, -⟩ := h; rw [e]; rfl

/-- Some execution exists, and all of them end with `Q`. -/
def wpA (e : Emit) (s : ASt) (Q : ASt → Log → Prop) : Prop := (∃ s' l, ExecA e s s' l) ∧ ∀ s' l, ExecA e s s' l → Q s' l

theorem wpA_nil {s : ASt} {Q} (h : ∀ s', Interf s s' → Q s' []) : wpA [] s Q :=
  ⟨⟨s, [], .nil (.refl s)⟩, by rintro s' l ⟨⟩; exact h _ ‹_›⟩

theorem wpA_cons {w : BitVec 32} {ws : Emit} {s : ASt} {Q}
    (h : ∀ s1, Interf s s1 → (∃ s2 l, StepA w s1 s2 l) ∧ ∀ s2 l, StepA w s1 s2 l → wpA ws s2 fun s' l' => Q s' (l ++ l')) :
    wpA (ins w ++ ws) s Q := by
  refine ⟨?_, ?_⟩
  · obtain ⟨⟨s2, l, h1⟩, h2⟩ := h s (.refl s)
    obtain ⟨⟨s', l', h3⟩, -⟩ := h2 _ _ h1
    exact ⟨s', l ++ l', .cons (.refl s) h1 h3⟩
  · intro s' l hx
    cases hx with
    | cons hi hs he => exact ((h _ hi).2 _ _ hs).2 _ _ he

theorem wpA_ins {w : BitVec 32} {i : Inst} {ws : Emit} {s : ASt} {Q} (hd : decode w = some i) (hs : i.isStore = false)
    (h : ∀ s1, Interf s s1 → wpA ws ⟨exec i s1.core, s1.res⟩ Q) : wpA (ins w ++ ws) s Q := by
  refine wpA_cons fun s1 hi => ⟨⟨_, _, .ins hd⟩, ?_⟩
  intro s2 l hstep
  cases hstep with
  | ins hd' =>
    rw [hd] at hd'; cases hd'
    simp only [hs, Bool.false_eq_true, if_false, List.nil_append]
    exact h s1 hi
  | casEq hn => rw [hd] at hn; cases hn
  | casNe hn => rw [hd] at hn; cases hn
  | ll hn => rw [hd] at hn; cases hn
  | scOk hn => rw [hd] at hn; cases hn
  | scFail hn => rw [hd] at hn; cases hn

theorem wpA_cas {w : BitVec 32} {sz : Sz} {d j k : Reg} {ws : Emit} {s : ASt} {Q} (hn : decode w = none) (hd : decAt w = some (.cas sz d j k))
    (h : ∀ s1, Interf s s1 →
      ((ldOp sz true).eval s1.core.mem (s1.core.x j) = sxt sz (s1.core.x d) →
        wpA ws ⟨(s1.core.setMem ((stOp sz).eval s1.core.mem (s1.core.x j) (s1.core.x k))).wr d ((ldOp sz true).eval s1.core.mem (s1.core.x j)), s1.res⟩
          fun s' l => Q s' ((s1.core.mem, (stOp sz).eval s1.core.mem (s1.core.x j) (s1.core.x k)) :: l)) ∧
      ((ldOp sz true).eval s1.core.mem (s1.core.x j) ≠ sxt sz (s1.core.x d) →
        wpA ws ⟨s1.core.wr d ((ldOp sz true).eval s1.core.mem (s1.core.x j)), s1.res⟩ fun s' l => Q s' ((s1.core.mem, s1.core.mem) :: l))) :
    wpA (ins w ++ ws) s Q := by
  refine wpA_cons fun s1 hi => ⟨?_, ?_⟩
  · by_cases he : (ldOp sz true).eval s1.core.mem (s1.core.x j) = sxt sz (s1.core.x d)
    · exact ⟨_, _, .casEq hn hd he⟩
    · exact ⟨_, _, .casNe hn hd he⟩
  · intro s2 l hstep
    cases hstep with
    | ins hd' => rw [hn] at hd'; cases hd'
    | casEq _ hd' he => rw [hd] at hd'; cases hd'; exact (h s1 hi).1 he
    | casNe _ hd' he => rw [hd] at hd'; cases hd'; exact (h s1 hi).2 he
    | ll _ hd' => rw [hd] at hd'; cases hd'
    | scOk _ hd' => rw [hd] at hd'; cases hd'
    | scFail _ hd' => rw [hd] at hd'; cases hd'

theorem wpA_ll {w : BitVec 32} {sz : Sz} {d j : Reg} {ws : Emit} {s : ASt} {Q} (hn : decode w = none) (hd : decAt w = some (.ll sz d j 0#64))
    (h : ∀ s1, Interf s s1 → wpA ws ⟨s1.core.wr d ((ldOp sz true).eval s1.core.mem (s1.core.x j)), some (s1.core.x j, sz)⟩ Q) :
    wpA (ins w ++ ws) s Q := by
  refine wpA_cons fun s1 hi => ⟨⟨_, _, .ll hn hd⟩, ?_⟩
  intro s2 l hstep
  cases hstep with
  | ins hd' => rw [hn] at hd'; cases hd'
  | casEq _ hd' he => rw [hd] at hd'; cases hd'
  | casNe _ hd' he => rw [hd] at hd'; cases hd'
  | ll _ hd' => rw [hd] at hd'; cases hd'; simp only [BitVec.add_zero, List.nil_append]; exact h s1 hi
  | scOk _ hd' => rw [hd] at hd'; cases hd'
  | scFail _ hd' => rw [hd] at hd'; cases hd'

theorem wpA_sc {w : BitVec 32} {sz : Sz} {d j : Reg} {ws : Emit} {s : ASt} {Q} (hn : decode w = none) (hd : decAt w = some (.sc sz d j 0#64))
    (h : ∀ s1, Interf s s1 →
      (s1.res = some (s1.core.x j, sz) →
        wpA ws ⟨(s1.core.setMem ((stOp sz).eval s1.core.mem (s1.core.x j) (s1.core.x d))).wr d 1#64, none⟩
          fun s' l => Q s' ((s1.core.mem, (stOp sz).eval s1.core.mem (s1.core.x j) (s1.core.x d)) :: l)) ∧
      wpA ws ⟨s1.core.wr d 0#64, none⟩ Q) :
    wpA (ins w ++ ws) s Q := by
  refine wpA_cons fun s1 hi => ⟨⟨_, _, .scFail hn hd⟩, ?_⟩
  intro s2 l hstep
  cases hstep with
  | ins hd' => rw [hn] at hd'; cases hd'
  | casEq _ hd' he => rw [hd] at hd'; cases hd'
  | casNe _ hd' he => rw [hd] at hd'; cases hd'
  | ll _ hd' => rw [hd] at hd'; cases hd'
  | scOk _ hd' hr =>
    rw [hd] at hd'; cases hd'
    simp only [BitVec.add_zero] at hr ⊢
    exact (h s1 hi).1 hr
  | scFail _ hd' => rw [hd] at hd'; cases hd'; exact (h s1 hi).2

/-! ## Decoding -/

/-- Opcodes of 0x4000 and above which are not in the tables. -/
theorem dec_none {o : BitVec 17} (h10 : ok10 (o.extractLsb' 7 10) = true) (h17 : ∀ d j k, dec17 o d j k = none) (hlo : 0x4000 ≤ o.toNat) (d j k : BitVec 5) :
    decode (w3 o d j k) = none := by
  have hw : (w3 o d j k).toNat / 2 ^ 15 = o.toNat := by
    have := congrArg BitVec.toNat (w3_15 o d j k)
    simp only [fld, BitVec.extractLsb'_toNat, Nat.shiftRight_eq_div_pow] at this
    have hlt := (w3 o d j k).isLt
    omega
  have hlt := o.isLt
  rw [decode_ok10 (by rw [w3_22]; exact h10), w3_15, h17]
  have e2 : dec16 (fld (w3 o d j k) 16 16) (fld (w3 o d j k) 0 5) (fld (w3 o d j k) 5 5) (fld (w3 o d j k) 10 6) = none := by
    have hb : 0x2000 ≤ (fld (w3 o d j k) 16 16).toNat := by
      simp only [fld, BitVec.extractLsb'_toNat, Nat.shiftRight_eq_div_pow]
      omega
    generalize fld (w3 o d j k) 16 16 = y at hb
    unfold dec16
    repeat (rw [if_neg (by rintro rfl; revert hb; decide)])
  have e3 : dec22 (fld (w3 o d j k) 10 22) (fld (w3 o d j k) 0 5) (fld (w3 o d j k) 5 5) = none := by
    have hb : 0x80000 ≤ (fld (w3 o d j k) 10 22).toNat := by
      simp only [fld, BitVec.extractLsb'_toNat, Nat.shiftRight_eq_div_pow]
      omega
    generalize fld (w3 o d j k) 10 22 = y at hb
    have hy := y.isLt
    unfold dec22
    repeat (rw [if_neg (by rintro rfl; revert hb; decide)])
    rw [if_neg]
    rintro ⟨h1, -⟩
    have h2 := congrArg BitVec.toNat h1
    simp only [BitVec.extractLsb'_toNat, Nat.shiftRight_eq_div_pow, BitVec.toNat_ofNat] at h2
    omega
  rw [e2, e3]

theorem w3_24 (o : BitVec 17) (d j k : BitVec 5) : fld (w3 o d j k) 24 8 = o.extractLsb' 9 8 := by fbits [w3]
theorem w3_14 (o : BitVec 17) (d j k : BitVec 5) : fld (w3 o d j k) 10 14 = o.extractLsb' 0 9 ++ k := by fbits [w3] <;> (rw [BitVec.getLsbD_append]; simp [BitVec.getLsbD_extractLsb'])

/-- The opcodes as three register opcodes. -/
theorem atWords (d j : Nat) : LL_W ||| RD d ||| RJ j = w3 0x4000#17 (regMap d) (regMap j) 0#5 ∧ SC_W ||| RD d ||| RJ j = w3 0x4200#17 (regMap d) (regMap j) 0#5 ∧
    LL_D ||| RD d ||| RJ j = w3 0x4400#17 (regMap d) (regMap j) 0#5 ∧ SC_D ||| RD d ||| RJ j = w3 0x4600#17 (regMap d) (regMap j) 0#5 := by
  have e : (0#5).setWidth 32 <<< 10 = 0#32 := by decide
  unfold w3
  rw [e]
  simp only [BitVec.or_zero]
  exact ⟨rfl, rfl, rfl, rfl⟩

theorem dec_ll (sz : Sz) (h : sz = .int ∨ sz = .word) (d j : Nat) : decode ((if sz = .int then LL_W else LL_D) ||| RD d ||| RJ j) = none ∧
    decAt ((if sz = .int then LL_W else LL_D) ||| RD d ||| RJ j) = some (.ll sz (regMap d) (regMap j) 0#64) := by
  obtain ⟨a1, a2, a3, a4⟩ := atWords d j
  rcases h with rfl | rfl
  · simp only [if_true]
    rw [a1]
    refine ⟨dec_none (by decide) (fun _ _ _ => rfl) (by decide) _ _ _, ?_⟩
    unfold decAt
    rw [w3_0, w3_5, w3_10, w3_14, w3_15, w3_24]
    rfl
  · simp only [reduceCtorEq, if_false]
    rw [a3]
    refine ⟨dec_none (by decide) (fun _ _ _ => rfl) (by decide) _ _ _, ?_⟩
    unfold decAt
    rw [w3_0, w3_5, w3_10, w3_14, w3_15, w3_24]
    rfl

theorem dec_sc (sz : Sz) (h : sz = .int ∨ sz = .word) (d j : Nat) : decode ((if sz = .int then SC_W else SC_D) ||| RD d ||| RJ j) = none ∧
    decAt ((if sz = .int then SC_W else SC_D) ||| RD d ||| RJ j) = some (.sc sz (regMap d) (regMap j) 0#64) := by
  obtain ⟨a1, a2, a3, a4⟩ := atWords d j
  rcases h with rfl | rfl
  · simp only [if_true]
    rw [a2]
    refine ⟨dec_none (by decide) (fun _ _ _ => rfl) (by decide) _ _ _, ?_⟩
    unfold decAt
    rw [w3_0, w3_5, w3_10, w3_14, w3_15, w3_24]
    rfl
  · simp only [reduceCtorEq, if_false]
    rw [a4]
    refine ⟨dec_none (by decide) (fun _ _ _ => rfl) (by decide) _ _ _, ?_⟩
    unfold decAt
    rw [w3_0, w3_5, w3_10, w3_14, w3_15, w3_24]
    rfl

/-- Size and signedness of the operations. -/
def atSz : Op1C → Sz × Bool
  | .movS8 => (.byte, true)
  | .movU8 => (.byte, false)
  | .movS16 => (.half, true)
  | .movU16 => (.half, false)
  | .mov32 | .movS32 => (.int, true)
  | .movU32 => (.int, false)
  | _ => (.word, true)

theorem dec_casIns (o : Op1C) {d j k : Nat} (hj : regMap d ≠ regMap j) (hk : regMap d ≠ regMap k) : decode ((casIns o).1 ||| RD d ||| RJ j ||| RK k) = none ∧
    decAt ((casIns o).1 ||| RD d ||| RJ j ||| RK k) = some (.cas (atSz o).1 (regMap d) (regMap j) (regMap k)) := by
  have key : ∀ (op : BitVec 32) (o17 : BitVec 17) (sz : Sz), op = o17.setWidth 32 <<< 15 → ok10 (o17.extractLsb' 7 10) = true → (∀ d j k, dec17 o17 d j k = none) →
      0x4000 ≤ o17.toNat → (∀ d j k, decAt (w3 o17 d j k) = amcas sz d j k) →
      decode (op ||| RD d ||| RJ j ||| RK k) = none ∧ decAt (op ||| RD d ||| RJ j ||| RK k) = some (.cas sz (regMap d) (regMap j) (regMap k)) := by
    intro op o17 sz h1 h2 h3 h4 h5
    have e : op ||| RD d ||| RJ j ||| RK k = w3 o17 (regMap d) (regMap j) (regMap k) := by rw [h1]; rfl
    rw [e]
    exact ⟨dec_none h2 h3 h4 _ _ _, by rw [h5, amcas, if_neg (by rintro (h | h); exacts [hj h, hk h])]⟩
  have hb : ∀ d j k, decAt (w3 0x70b0#17 d j k) = amcas .byte d j k := by
    intro d j k; unfold decAt; rw [w3_0, w3_5, w3_10, w3_15]; rfl
  have hh : ∀ d j k, decAt (w3 0x70b1#17 d j k) = amcas .half d j k := by
    intro d j k; unfold decAt; rw [w3_0, w3_5, w3_10, w3_15]; rfl
  have hi : ∀ d j k, decAt (w3 0x70b2#17 d j k) = amcas .int d j k := by
    intro d j k; unfold decAt; rw [w3_0, w3_5, w3_10, w3_15]; rfl
  have hw : ∀ d j k, decAt (w3 0x70b3#17 d j k) = amcas .word d j k := by
    intro d j k; unfold decAt; rw [w3_0, w3_5, w3_10, w3_15]; rfl
  have kb := key AMCAS_B 0x70b0#17 .byte rfl (by decide) (fun _ _ _ => rfl) (by decide) hb
  have kh := key AMCAS_H 0x70b1#17 .half rfl (by decide) (fun _ _ _ => rfl) (by decide) hh
  have ki := key AMCAS_W 0x70b2#17 .int rfl (by decide) (fun _ _ _ => rfl) (by decide) hi
  have kw := key AMCAS_D 0x70b3#17 .word rfl (by decide) (fun _ _ _ => rfl) (by decide) hw
  cases o <;> first | exact kb | exact kh | exact ki | exact kw

/-! ## Extension -/

/-- Zero extension of the low part. -/
def zxt (sz : Sz) (v : BitVec 64) : BitVec 64 :=
  match sz with
  | .byte => (v.setWidth 8).setWidth 64
  | .half => (v.setWidth 16).setWidth 64
  | .int => (v.setWidth 32).setWidth 64
  | .word => v

def ext (sz : Sz) (sg : Bool) (v : BitVec 64) : BitVec 64 := if sg then sxt sz v else zxt sz v

theorem sxt_ld (sz : Sz) (m : Mem) (a : BitVec 64) : sxt sz ((ldOp sz true).eval m a) = (ldOp sz true).eval m a := by
  cases sz <;> simp only [sxt, ldOp, LdOp.eval] <;> bits [BitVec.getLsbD_signExtend, BitVec.msb_eq_getLsbD_last]
theorem ext_ld (sz : Sz) (sg : Bool) (m : Mem) (a : BitVec 64) : ext sz sg ((ldOp sz true).eval m a) = (ldOp sz sg).eval m a := by
  cases sg
  · cases sz <;> simp only [ext, zxt, ldOp, LdOp.eval, Bool.false_eq_true, if_false] <;> bits [BitVec.getLsbD_signExtend, BitVec.msb_eq_getLsbD_last]
  · exact sxt_ld sz m a
theorem zxt_sxt (sz : Sz) (v : BitVec 64) : zxt sz (sxt sz v) = zxt sz v := by
  cases sz <;> simp only [zxt, sxt] <;> bits [BitVec.getLsbD_signExtend, BitVec.msb_eq_getLsbD_last]
theorem sxt_zxt (sz : Sz) (v : BitVec 64) : sxt sz (zxt sz v) = sxt sz v := by
  cases sz <;> simp only [zxt, sxt] <;> bits [BitVec.getLsbD_signExtend, BitVec.msb_eq_getLsbD_last]

theorem ld_iff {sz : Sz} {sg : Bool} {v : BitVec 64} (hv : ext sz sg v = v) (m : Mem) (a : BitVec 64) :
    (ldOp sz true).eval m a = sxt sz v ↔ (ldOp sz sg).eval m a = v := by
  cases sg
  · simp only [ext, Bool.false_eq_true, if_false] at hv
    have e : (ldOp sz false).eval m a = zxt sz ((ldOp sz true).eval m a) := (ext_ld sz false m a).symm
    rw [e]
    constructor
    · intro h; rw [h, zxt_sxt, hv]
    · intro h; rw [← h, sxt_zxt, sxt_ld]
  · simp only [ext, if_true] at hv
    rw [hv]

/-! ## The operations -/

theorem wpA_mono {e : Emit} {s : ASt} {Q R : ASt → Log → Prop} (h : wpA e s Q) (hr : ∀ s' l, Q s' l → R s' l) : wpA e s R :=
  ⟨h.1, fun s' l hx => hr _ _ (h.2 s' l hx)⟩

/-- What sljit_emit_atomic_load leaves. -/
structure LoadOk (ls : Bool) (sz : Sz) (sg : Bool) (dst mem : Nat) (s s' : ASt) (l : Log) : Prop where
  log : l = []
  val : ∃ m, s'.core.x (regMap dst) = (ldOp sz sg).eval m (s.core.x (regMap mem))
  kept : ∀ q, q ≠ regMap dst → s'.core.x q = s.core.x q
  f : s'.core.f = s.core.f
  res : ls = true → s'.res = none ∨ s'.res = some (s.core.x (regMap mem), sz) ∧
    (ldOp sz true).eval s'.core.mem (s.core.x (regMap mem)) = s'.core.x (regMap dst)

theorem ll_ok {sz : Sz} (h : sz = .int ∨ sz = .word) {dst mem : Nat} (hd : regMap dst ≠ 0#5) (s : ASt) :
    wpA (ins ((if sz = .int then LL_W else LL_D) ||| RD dst ||| RJ mem)) s (LoadOk true sz true dst mem s) := by
  obtain ⟨a1, a2⟩ := dec_ll sz h dst mem
  have := wpA_ll (ws := []) (s := s) (Q := LoadOk true sz true dst mem s) a1 a2 ?_
  · rwa [List.append_nil] at this
  intro s1 h1
  refine wpA_nil fun s' h2 => ?_
  have ex := h2.x; have ef := h2.f
  simp only at ex ef
  have hx : s'.core.x (regMap dst) = (ldOp sz true).eval s1.core.mem (s1.core.x (regMap mem)) := by rw [ex]; simp [hd]
  refine ⟨rfl, ⟨s1.core.mem, by rw [hx, h1.x]⟩, ?_, by rw [ef]; exact h1.f, fun _ => ?_⟩
  · intro q hq; rw [ex]; simp [hq, h1.x]
  · rcases h2.2 with hr | ⟨hr, hc⟩
    · exact Or.inl hr
    · refine Or.inr ⟨by rw [hr, ← h1.x], ?_⟩
      have := hc _ _ rfl
      rw [← h1.x, this, hx]; rfl

theorem ld_ok {o : Op1C} {i : BitVec 32} {dst mem : Nat} (hi : decode (i ||| RD dst ||| RJ mem ||| IMM_I12 0#64) =
      some (.load (ldOp (atSz o).1 (atSz o).2) (regMap dst) (regMap mem) ((0#64).setWidth 12))) (hd : regMap dst ≠ 0#5) (s : ASt) :
    wpA (ins (i ||| RD dst ||| RJ mem ||| IMM_I12 0#64)) s (LoadOk false (atSz o).1 (atSz o).2 dst mem s) := by
  have := wpA_ins (ws := []) (s := s) (Q := LoadOk false (atSz o).1 (atSz o).2 dst mem s) hi rfl ?_
  · rwa [List.append_nil] at this
  intro s1 h1
  refine wpA_nil fun s' h2 => ?_
  have ex := h2.x; have ef := h2.f
  simp only [exec, show ((0#64).setWidth 12).signExtend 64 = 0#64 by decide, BitVec.add_zero] at ex ef
  refine ⟨rfl, ⟨s1.core.mem, by rw [ex]; simp [hd, h1.x]⟩, ?_, by rw [ef]; exact h1.f, fun h => by cases h⟩
  intro q hq; rw [ex]; simp [hq, h1.x]

/-- What a compare and swap leaves: `q` is the register which gets the old value, with `stored` also the flag. -/
structure CasOk (stored : Bool) (sz : Sz) (sg : Bool) (src mem temp : Nat) (s s' : ASt) (l : Log) : Prop where
  cell : ∃ m, ((ldOp sz sg).eval m (s.core.x (regMap mem)) = s.core.x (regMap temp) ∧
      l = [(m, (stOp sz).eval m (s.core.x (regMap mem)) (s.core.x (regMap src)))] ∧ (stored = true → s'.core.x 15#5 = 1#64) ∧
      (stored = false → s'.core.x (regMap temp) = sxt sz (s.core.x (regMap temp)))) ∨
    ((ldOp sz sg).eval m (s.core.x (regMap mem)) ≠ s.core.x (regMap temp) ∧ l = [(m, m)] ∧ (stored = true → s'.core.x 15#5 = 0#64))
  kept : ∀ q, q ≠ 14#5 → q ≠ 15#5 → (stored = false → q ≠ regMap temp) → s'.core.x q = s.core.x q
  f : s'.core.f = s.core.f

theorem cas_plain (o : Op1C) {src mem temp : Nat} (ht : regMap temp ≠ 0#5) (hj : regMap temp ≠ regMap mem) (hk : regMap temp ≠ regMap src) (s : ASt) (hv : ext (atSz o).1 (atSz o).2 (s.core.x (regMap temp)) = s.core.x (regMap temp)) :
    wpA (ins ((casIns o).1 ||| RD temp ||| RJ mem ||| RK src)) s (CasOk false (atSz o).1 (atSz o).2 src mem temp s) := by
  obtain ⟨a1, a2⟩ := dec_casIns o hj hk
  have := wpA_cas (ws := []) (s := s) (Q := CasOk false (atSz o).1 (atSz o).2 src mem temp s) a1 a2 ?_
  · rwa [List.append_nil] at this
  intro s1 h1
  constructor
  · intro he
    refine wpA_nil fun s' h2 => ?_
    have ex := h2.x; have ef := h2.f
    simp only at ex ef
    refine ⟨⟨s1.core.mem, Or.inl ⟨?_, by rw [h1.x], (by intro h; cases h), fun _ => ?_⟩⟩, ?_, ?_⟩
    · rw [h1.x] at he; exact (ld_iff hv _ _).mp he
    · rw [ex, he, h1.x]; simp [ht]
    · intro q _ _ hq; rw [ex]; simp [hq rfl, h1.x, Core.setMem]
    · rw [ef]; exact h1.f
  · intro he
    refine wpA_nil fun s' h2 => ?_
    have ex := h2.x; have ef := h2.f
    simp only at ex ef
    refine ⟨⟨s1.core.mem, Or.inr ⟨?_, rfl, fun h => by cases h⟩⟩, ?_, ?_⟩
    · rw [h1.x] at he; exact fun h => he ((ld_iff hv _ _).mpr h)
    · intro q _ _ hq; rw [ex]; simp [hq rfl, h1.x]
    · rw [ef]; exact h1.f

theorem dec_unsign {o : Op1C} {u : BitVec 32} (h : (casIns o).2 = some u) (d : Nat) :
    ∃ i, decode (u ||| RD d ||| RJ d) = some i ∧ i.isStore = false ∧ ∀ c, exec i c = c.wr (regMap d) (zxt (atSz o).1 (c.x (regMap d))) := by
  have key : ∀ (v : BitVec 32) (i12 : BitVec 12), v = i12.setWidth 32 <<< 10 → BSTRPICK_D ||| v ||| RD d ||| RJ d = w12 0x3#10 (regMap d) (regMap d) i12 := by
    intro v i12 e
    have : BSTRPICK_D ||| v ||| RD d ||| RJ d = BSTRPICK_D ||| RD d ||| RJ d ||| v := by ac_rfl
    rw [this, e]; rfl
  have pick : ∀ (n w : Nat) (v : BitVec n), v.extractLsb' 0 w = v.setWidth w := by
    intro n w v; apply BitVec.eq_of_getLsbD_eq; intro i hi; simp [BitVec.getLsbD_extractLsb', BitVec.getLsbD_setWidth, hi]
  cases o <;> simp only [casIns, Option.some.injEq, reduceCtorEq] at h
  · subst h
    refine ⟨.pickd (regMap d) (regMap d) 7#6 0#6, ?_, rfl, fun c => ?_⟩
    · rw [key (7#32 <<< 16) 0x1c0#12 (by decide)]; exact dec12 0x3#10 _ _ _ (by decide) (by rfl)
    · exact congrArg (c.wr (regMap d)) (congrArg (BitVec.setWidth 64) (pick 64 8 (c.x (regMap d))))
  · subst h
    refine ⟨.pickd (regMap d) (regMap d) 15#6 0#6, ?_, rfl, fun c => ?_⟩
    · rw [key (15#32 <<< 16) 0x3c0#12 (by decide)]; exact dec12 0x3#10 _ _ _ (by decide) (by rfl)
    · exact congrArg (c.wr (regMap d)) (congrArg (BitVec.setWidth 64) (pick 64 16 (c.x (regMap d))))
  · subst h
    refine ⟨.pickd (regMap d) (regMap d) 31#6 0#6, ?_, rfl, fun c => ?_⟩
    · rw [key (31#32 <<< 16) 0x7c0#12 (by decide)]; exact dec12 0x3#10 _ _ _ (by decide) (by rfl)
    · exact congrArg (c.wr (regMap d)) (congrArg (BitVec.setWidth 64) (pick 64 32 (c.x (regMap d))))

/-- The comparison after a compare and swap: TMP_REG3 holds the old value. -/
theorem cas_tail (o : Op1C) {temp : Nat} (ht : temp ≤ 24) (s : ASt) {Q : ASt → Log → Prop}
    (h : ∀ s', s'.core.x 15#5 = (if ext (atSz o).1 (atSz o).2 (s.core.x 14#5) = s.core.x (regMap temp) then 1#64 else 0#64) →
      (∀ q, q ≠ 14#5 → q ≠ 15#5 → s'.core.x q = s.core.x q) → s'.core.f = s.core.f → Q s' [])
    (hs : (atSz o).2 = true → sxt (atSz o).1 (s.core.x 14#5) = s.core.x 14#5) :
    wpA ((match (casIns o).2 with | some u => ins (u ||| RD TMP_REG3 ||| RJ TMP_REG3) | none => []) ++
        (ins (XOR ||| RD OTHER_FLAG ||| RJ TMP_REG3 ||| RK temp) ++ ins (SLTUI ||| RD OTHER_FLAG ||| RJ OTHER_FLAG ||| IMM_I12 1#64))) s Q := by
  obtain ⟨-, -, -, t14, t15⟩ := user_ne ht
  have tail : ∀ s1 : ASt, s1.core.x 14#5 = ext (atSz o).1 (atSz o).2 (s.core.x 14#5) → (∀ q, q ≠ 14#5 → s1.core.x q = s.core.x q) → s1.core.f = s.core.f →
      wpA (ins (XOR ||| RD OTHER_FLAG ||| RJ TMP_REG3 ||| RK temp) ++ ins (SLTUI ||| RD OTHER_FLAG ||| RJ OTHER_FLAG ||| IMM_I12 1#64)) s1 Q := by
    intro s1 g1 g2 g3
    refine wpA_ins (dec_XOR _ _ _) rfl fun s2 h2 => ?_
    have := wpA_ins (ws := []) (s := ⟨exec (.rd3 .xor (regMap OTHER_FLAG) (regMap TMP_REG3) (regMap temp)) s2.core, s2.res⟩) (Q := Q)
      (dec_SLTUI OTHER_FLAG OTHER_FLAG 1#64) rfl ?_
    · rwa [List.append_nil] at this
    intro s3 h3
    refine wpA_nil fun s' h4 => ?_
    have x4 := h4.x; have f4 := h4.f; have x3 := h3.x; have f3 := h3.f
    simp only [exec] at x4 f4 x3 f3
    have e14 : regMap TMP_REG3 = 14#5 := rfl
    have e15 : regMap OTHER_FLAG = 15#5 := rfl
    rw [e14, e15] at x3
    rw [e15] at x4
    have y3 : s3.core.x 15#5 = ext (atSz o).1 (atSz o).2 (s.core.x 14#5) ^^^ s.core.x (regMap temp) := by
      rw [x3]; simp [ROp.eval, h2.x, g1, g2 _ t14]
    refine h s' ?_ ?_ ?_
    · rw [x4]
      simp only [x_wr, y3, IOp.eval, bool64]
      generalize ext (atSz o).1 (atSz o).2 (s.core.x 14#5) = a
      generalize s.core.x (regMap temp) = b
      have : (a ^^^ b).ult (((1#64).setWidth 12).signExtend 64) = decide (a = b) := by
        rw [show ((1#64).setWidth 12).signExtend 64 = 1#64 by decide]
        by_cases hab : a = b
        · subst hab; simp
        · simp only [hab, decide_false, BitVec.ult, decide_eq_false_iff_not]
          have : a ^^^ b ≠ 0#64 := fun h => hab (by simpa using h)
          have : (a ^^^ b).toNat ≠ 0 := fun h => this (BitVec.eq_of_toNat_eq h)
          simp only [BitVec.toNat_ofNat]; omega
      rw [this]
      by_cases hab : a = b <;> simp [hab]
    · intro q q14 q15
      rw [x4]; simp only [x_wr, q15, false_and, if_false]
      rw [x3]; simp only [x_wr, q15, false_and, if_false]
      rw [h2.x, g2 q q14]
    · rw [f4]; show s3.core.f = _; rw [f3]; show s2.core.f = _; rw [h2.f, g3]
  cases hu : (casIns o).2 with
  | none =>
    simp only [List.nil_append]
    have hsg : (atSz o).2 = true := by cases o <;> simp_all [casIns, atSz]
    exact tail s (by simp [ext, hsg, hs hsg]) (fun _ _ => rfl) rfl
  | some u =>
    have hsg : (atSz o).2 = false := by cases o <;> simp_all [casIns, atSz]
    obtain ⟨i, hi, hst, hx⟩ := dec_unsign hu TMP_REG3
    refine wpA_ins hi hst fun s1 h1 => ?_
    rw [hx]
    refine tail _ ?_ ?_ ?_
    · show (s1.core.wr 14#5 _).x 14#5 = _
      simp [h1.x, ext, hsg]
    · intro q hq
      show (s1.core.wr 14#5 _).x q = _
      simp [hq, h1.x]
    · exact h1.f

theorem cas_stored (o : Op1C) {src mem temp : Nat} (ht : temp ≤ 24) (hm : mem ≤ 24) (hsrc : src ≤ 24) (s : ASt)
    (hv : ext (atSz o).1 (atSz o).2 (s.core.x (regMap temp)) = s.core.x (regMap temp)) :
    wpA (ins (XOR ||| RD TMP_REG3 ||| RJ temp ||| RK TMP_ZERO) ++ (ins ((casIns o).1 ||| RD TMP_REG3 ||| RJ mem ||| RK src) ++
        ((match (casIns o).2 with | some u => ins (u ||| RD TMP_REG3 ||| RJ TMP_REG3) | none => []) ++
        (ins (XOR ||| RD OTHER_FLAG ||| RJ TMP_REG3 ||| RK temp) ++ ins (SLTUI ||| RD OTHER_FLAG ||| RJ OTHER_FLAG ||| IMM_I12 1#64))))) s
      (CasOk true (atSz o).1 (atSz o).2 src mem temp s) := by
  obtain ⟨-, -, -, t14, -⟩ := user_ne ht
  obtain ⟨-, -, -, m14, -⟩ := user_ne hm
  obtain ⟨-, -, -, s14, -⟩ := user_ne hsrc
  have e14 : regMap TMP_REG3 = 14#5 := rfl
  refine wpA_ins (dec_XOR _ _ _) rfl fun s1 h1 => ?_
  obtain ⟨a1, a2⟩ := dec_casIns o (d := TMP_REG3) (Ne.symm m14) (Ne.symm s14)
  refine wpA_cas a1 a2 fun s2 h2 => ?_
  have x2 : s2.core.x = _ := h2.x
  have f2 : s2.core.f = _ := h2.f
  simp only [exec, e14] at x2 f2
  have z : s1.core.x (regMap TMP_ZERO) = 0#64 := s1.core.x0
  have k14 : s2.core.x 14#5 = s.core.x (regMap temp) := by
    rw [x2]; simp [ROp.eval, z, h1.x]
  have k : ∀ q, q ≠ 14#5 → s2.core.x q = s.core.x q := by
    intro q hq; rw [x2]; simp [hq, h1.x]
  rw [e14, k14, k _ m14, k _ s14]
  have fin : ∀ s3 : ASt, s3.core.x 14#5 = (ldOp (atSz o).1 true).eval s2.core.mem (s.core.x (regMap mem)) → (∀ q, q ≠ 14#5 → s3.core.x q = s.core.x q) → s3.core.f = s.core.f →
      ∀ (Q : ASt → Log → Prop),
      (∀ s', s'.core.x 15#5 = (if (ldOp (atSz o).1 (atSz o).2).eval s2.core.mem (s.core.x (regMap mem)) = s.core.x (regMap temp) then 1#64 else 0#64) →
        (∀ q, q ≠ 14#5 → q ≠ 15#5 → s'.core.x q = s.core.x q) → s'.core.f = s.core.f → Q s' []) →
      wpA ((match (casIns o).2 with | some u => ins (u ||| RD TMP_REG3 ||| RJ TMP_REG3) | none => []) ++
        (ins (XOR ||| RD OTHER_FLAG ||| RJ TMP_REG3 ||| RK temp) ++ ins (SLTUI ||| RD OTHER_FLAG ||| RJ OTHER_FLAG ||| IMM_I12 1#64))) s3 Q := by
    intro s3 g1 g2 g3 Q hQ
    refine cas_tail o ht s3 ?_ ?_
    · intro s' y1 y2 y3
      rw [g1, ext_ld, g2 _ t14] at y1
      exact hQ s' y1 (fun q q1 q2 => (y2 q q1 q2).trans (g2 q q1)) (y3.trans g3)
    · intro _; rw [g1, sxt_ld]
  have g1 : ∀ c : Core, (c.wr 14#5 ((ldOp (atSz o).1 true).eval s2.core.mem (s.core.x (regMap mem)))).x 14#5 = (ldOp (atSz o).1 true).eval s2.core.mem (s.core.x (regMap mem)) := by
    intro c; simp
  constructor
  · intro he
    refine fin _ (g1 _) (fun q hq => ?_) ?_ _ ?_
    · simp [hq, Core.setMem, k q hq]
    · show s2.core.f = _; rw [f2]; exact h1.f
    · intro s' y1 y2 y3
      have he' := (ld_iff hv _ _).mp he
      exact ⟨⟨s2.core.mem, Or.inl ⟨he', rfl, fun _ => by rw [y1, if_pos he'], (by intro h; cases h)⟩⟩, fun q q1 q2 _ => y2 q q1 q2, y3⟩
  · intro he
    refine fin _ (g1 _) (fun q hq => ?_) ?_ _ ?_
    · simp [hq, k q hq]
    · show s2.core.f = _; rw [f2]; exact h1.f
    · intro s' y1 y2 y3
      have he' : ¬ _ := fun h => he ((ld_iff hv _ _).mpr h)
      exact ⟨⟨s2.core.mem, Or.inr ⟨he', rfl, fun _ => by rw [y1, if_neg he']⟩⟩, fun q q1 q2 _ => y2 q q1 q2, y3⟩

/-- What store conditional leaves. -/
structure ScOk (sz : Sz) (src mem : Nat) (s s' : ASt) (l : Log) : Prop where
  cell : (∃ m a, s.res = some (a, sz) ∧ a = s.core.x (regMap mem) ∧ (ldOp sz true).eval m a = (ldOp sz true).eval s.core.mem a ∧
      l = [(m, (stOp sz).eval m a (s.core.x (regMap src)))] ∧ s'.core.x 15#5 = 1#64) ∨ (l = [] ∧ s'.core.x 15#5 = 0#64)
  kept : ∀ q, q ≠ 15#5 → s'.core.x q = s.core.x q
  f : s'.core.f = s.core.f

theorem sc_ok {sz : Sz} (hsz : sz = .int ∨ sz = .word) {src mem : Nat} (hm : mem ≤ 24) (s : ASt) :
    wpA (ins (ADD_D ||| RD OTHER_FLAG ||| RJ src ||| RK TMP_ZERO) ++ ins ((if sz = .int then SC_W else SC_D) ||| RD OTHER_FLAG ||| RJ mem)) s
      (ScOk sz src mem s) := by
  obtain ⟨-, -, -, -, m15⟩ := user_ne hm
  have e15 : regMap OTHER_FLAG = 15#5 := rfl
  refine wpA_ins (dec_ADD_D _ _ _) rfl fun s1 h1 => ?_
  obtain ⟨a1, a2⟩ := dec_sc sz hsz OTHER_FLAG mem
  have := wpA_sc (ws := []) (s := ⟨exec (.rd3 .add (regMap OTHER_FLAG) (regMap src) (regMap TMP_ZERO)) s1.core, s1.res⟩)
    (Q := ScOk sz src mem s) a1 a2 ?_
  · rwa [List.append_nil] at this
  intro s2 h2
  have x2 : s2.core.x = _ := h2.x
  have f2 : s2.core.f = _ := h2.f
  simp only [exec, e15] at x2 f2
  have z : s1.core.x (regMap TMP_ZERO) = 0#64 := s1.core.x0
  have k15 : s2.core.x 15#5 = s.core.x (regMap src) := by rw [x2]; simp [ROp.eval, z, h1.x]
  have k : ∀ q, q ≠ 15#5 → s2.core.x q = s.core.x q := by intro q hq; rw [x2]; simp [hq, h1.x]
  rw [e15, k15, k _ m15]
  constructor
  · intro hr
    refine wpA_nil fun s' h3 => ?_
    have x3 := h3.x; have f3 := h3.f
    simp only at x3 f3
    -- the reservation was kept all the time
    have r1 : s1.res = some (s.core.x (regMap mem), sz) ∧ (ldOp sz true).eval s2.core.mem (s.core.x (regMap mem)) = (ldOp sz true).eval s1.core.mem (s.core.x (regMap mem)) := by
      rcases h2.2 with h | ⟨h, hc⟩
      · rw [h] at hr; cases hr
      · simp only at h hc
        exact ⟨by rw [← h]; exact hr, hc _ _ (by rw [← h]; exact hr)⟩
    have r0 : s.res = some (s.core.x (regMap mem), sz) ∧ (ldOp sz true).eval s1.core.mem (s.core.x (regMap mem)) = (ldOp sz true).eval s.core.mem (s.core.x (regMap mem)) := by
      rcases h1.2 with h | ⟨h, hc⟩
      · rw [h] at r1; cases r1.1
      · exact ⟨by rw [← h]; exact r1.1, hc _ _ (by rw [← h]; exact r1.1)⟩
    refine ⟨Or.inl ⟨s2.core.mem, _, r0.1, rfl, r1.2.trans r0.2, rfl, by rw [x3]; simp⟩, ?_, ?_⟩
    · intro q hq; rw [x3]; simp [hq, Core.setMem, k q hq]
    · rw [f3]; show s2.core.f = _; rw [f2]; exact h1.f
  · refine wpA_nil fun s' h3 => ?_
    have x3 := h3.x; have f3 := h3.f
    simp only at x3 f3
    refine ⟨Or.inr ⟨rfl, by rw [x3]; simp⟩, ?_, ?_⟩
    · intro q hq; rw [x3]; simp [hq, k q hq]
    · rw [f3]; show s2.core.f = _; rw [f2]; exact h1.f

end Verif.LA
