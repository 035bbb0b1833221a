import Verif.X86.OpEff
import Verif.X86.Ops1

/-! # Moves of 8, 16 and 32 bits (helper lemmas) -/

namespace Verif.X86

variable {win m32 : Bool} {s : St}

/-! ## Opcodes -/

section
variable {pre rex : Byte} {reg : BitVec 4} {l : Loc} {ad : Option (BitVec 64)} {imm : BitVec 64}
theorem x88 : execRM pre rex 0 0x88#8 reg (some l) ad imm s = if byteReg rex reg ∨ byteLoc rex l then none else some (put s 1 (s.r reg) l) := rfl
theorem x89 : execRM pre rex 0 0x89#8 reg (some l) ad imm s = some (put s (opSize pre rex) (s.r reg) l) := rfl
theorem xc6 : execRM pre rex 0 0xc6#8 0#4 (some l) ad imm s = if byteLoc rex l then none else some (put s 1 imm l) := rfl
theorem xc7 : execRM pre rex 0 0xc7#8 0#4 (some l) ad imm s = some (put s (opSize pre rex) imm l) := rfl
theorem x63 : execRM pre rex 0 0x63#8 reg (some l) ad imm s = if opSize pre rex = 8 then some (put s 8 (sext 4 (get s 4 l)) (.reg reg)) else none := rfl
theorem xb6 : execRM pre rex 1 0xb6#8 reg (some l) ad imm s = if byteLoc rex l then none else some (put s (opSize pre rex) (get s 1 l) (.reg reg)) := rfl
theorem xb7 : execRM pre rex 1 0xb7#8 reg (some l) ad imm s = some (put s (opSize pre rex) (get s 2 l) (.reg reg)) := rfl
theorem xbe : execRM pre rex 1 0xbe#8 reg (some l) ad imm s = if byteLoc rex l then none else some (put s (opSize pre rex) (sext 1 (get s 1 l)) (.reg reg)) := rfl
theorem xbf : execRM pre rex 1 0xbf#8 reg (some l) ad imm s = some (put s (opSize pre rex) (sext 2 (get s 2 l)) (.reg reg)) := rfl
end

/-! ## Effects with k bytes of memory -/

/-- s' is s with v written to dst, k bytes if this is memory; the temporaries may have changed. -/
structure Out1 (win : Bool) (s s' : St) (dst : Opd) (k : Nat) (v : BitVec 64) : Prop where
  regs : ∀ q, (∀ d, dst = .reg d → q ≠ num win d) → q ≠ T1 win → q ≠ T2 win → s'.r q = s.r q
  val : ∀ d, dst = .reg d → s'.r (num win d) = v
  mem : s'.m = match dst with | .mem base offs w => wr s.m (ea win s base offs w) k v | _ => s.m

/-- The code can be emitted and has this effect. -/
def Eff1 (win : Bool) (c : Code) (s : St) (dst : Opd) (k : Nat) (v : BitVec 64) (f : Flags) : Prop := ∃ s', Emits c s s' ∧ Out1 win s s' dst k v ∧ s'.f = f

theorem Eff.out {c : Code} {dst : Opd} {v : BitVec 64} {c1 c2 : Bool} {f : Flags} (h : Eff win m32 c s (some dst) v c1 c2 f) : Eff1 win c s dst (NB m32) (trunc m32 v) f := by
  obtain ⟨s', e, r, hf⟩ := h
  refine ⟨s', e, ⟨fun q h1 h2 h3 => r.regs q (fun d e => h1 d (by cases e; rfl)) (fun e => absurd e h2) (fun e => absurd e h3), fun d e => r.val d (by rw [e]), ?_⟩, hf⟩
  rw [r.mem]
  cases dst with
  | mem base offs w => exact (wr_trunc _ _ _).symm
  | _ => rfl

/-- A register is computed, then the rest writes dst. -/
theorem Eff.then1 {c d : Code} {m' : Bool} {t : Nat} {v1 v2 : BitVec 64} {c1 c2 : Bool} {f1 f2 : Flags} {dst : Opd} {k : Nat} (h1 : Eff win m' c s (some (.reg t)) v1 c1 c2 f1) (hd : Good dst)
    (ht : t = TMP_REG1 ∨ t = TMP_REG2 ∨ dst = .reg t) (h2 : ∀ s1, Res win m' s s1 (some (.reg t)) v1 c1 c2 → s1.f = f1 → Eff1 win d s1 dst k v2 f2) : Eff1 win (c +> d) s dst k v2 f2 := by
  obtain ⟨s1, e1, r1, hf1⟩ := h1
  obtain ⟨s2, e2, r2, hf2⟩ := h2 s1 r1 hf1
  refine ⟨s2, e1.cat e2, ⟨fun q x y z => ?_, r2.val, ?_⟩, hf2⟩
  · rw [r2.regs q x y z]
    refine r1.regs q (fun d e => ?_) (fun e => absurd e y) (fun e => absurd e z)
    cases e
    rcases ht with rfl | rfl | rfl
    · exact y
    · exact z
    · exact x _ rfl
  · rw [r2.mem]
    have hm : s1.m = s.m := r1.mem
    cases dst with
    | reg _ => exact hm
    | imm _ => exact hm
    | mem base offs w =>
      have ht : t = 15 ∨ t = 16 := by rcases ht with h | h | h; exact Or.inl h; exact Or.inr h; cases h
      simp only
      rw [hm, r1.ea hd (fun d e => ?_)]
      cases e
      obtain ⟨g1, g2, -⟩ := hd
      exact ⟨by omega, by omega, by simp [uses]; omega⟩

/-- Writing memory after `clob`. -/
theorem out_mem {base offs k : Nat} {w v : BitVec 64} : Out1 win s (put (clob win s (.mem base offs w)) k v (target win s (.mem base offs w))) (.mem base offs w) k v := by
  refine ⟨fun q _ _ h => ?_, fun d e => (by cases e), ?_⟩
  · simp only [target, put]; exact clob_reg fun e => absurd e h
  · simp only [target, put, clob_m]

theorem put_f (t : St) (k : Nat) (v : BitVec 64) (l : Loc) : (put t k v l).f = t.f := by cases l <;> rfl

theorem bt {fl : Ins} (hf : fl.sseOp2 = false) (b : Opd) : btarget win fl s b = target win s b := by cases b <;> simp [btarget, target, hf]

theorem an {fl : Ins} (hf : fl.sseOp1 = false) (r : Nat) : anum win fl r = num win r := by simp only [anum, hf, Bool.false_eq_true, if_false]

/-- An opcode of the first map with a register and flags. -/
theorem ins_step {fl : Ins} (hfl : fl.plain = true) (hs1 : fl.sseOp2 = false) (hp : preOk fl.pref = true) {r : Nat} {b : Opd} (hb : Good b) (hi : b.isImm = false) {op : Byte}
    (ho : plainOp op = true) (hrm : hasRM 0 op = true) (him : ∀ k, immSize fl.pref 0 op k = 0) {s' : St}
    (he : ∀ rex : Byte, rex.getLsbD 3 = (!m32 && !fl.noRexW) → (fl.rex = true → rex ≠ 0#8) →
      execRM fl.pref rex 0 op (num win r) (some (target win s b)) (addrOf (target win s b)) 0#64 (clob win s b) = some s') :
    Emits (ins win m32 fl (.reg r) b [op]) s s' := by
  have hfl' := hfl
  simp only [Ins.plain, Bool.and_eq_true, Bool.not_eq_true'] at hfl'
  obtain ⟨o, h⟩ := emit_reg_some (win := win) (m32 := m32) hfl r hi
  have := reg_step (ib := []) (imm := 0#64) (s := s) (s' := s') h hfl'.1.1.1.1.2 (good_ok hb hi) hp (map := 0) (op := op) (Or.inl rfl) (fun _ => ho) hrm
    (fun rest => by rw [him, List.nil_append, sle_zero]) (fun rex h1 h2 => by rw [an hfl'.2, bt hs1]; exact he rex h1 h2)
  exact ⟨_, by rw [ins, h]; rfl, by simpa [opBytes] using this⟩

/-- An opcode of the second map with a register and flags. -/
theorem ins_step2 {fl : Ins} (hfl : fl.plain = true) (hs1 : fl.sseOp2 = false) (hp : preOk fl.pref = true) {r : Nat} {b : Opd} (hb : Good b) (hi : b.isImm = false) {op : Byte}
    (hrm : hasRM 1 op = true) (him : ∀ k, immSize fl.pref 1 op k = 0) {s' : St}
    (he : ∀ rex : Byte, rex.getLsbD 3 = (!m32 && !fl.noRexW) → (fl.rex = true → rex ≠ 0#8) →
      execRM fl.pref rex 1 op (num win r) (some (target win s b)) (addrOf (target win s b)) 0#64 (clob win s b) = some s') :
    Emits (ins win m32 fl (.reg r) b [0x0f#8, op]) s s' := by
  have hfl' := hfl
  simp only [Ins.plain, Bool.and_eq_true, Bool.not_eq_true'] at hfl'
  obtain ⟨o, h⟩ := emit_reg_some (win := win) (m32 := m32) hfl r hi
  have := reg_step (ib := []) (imm := 0#64) (s := s) (s' := s') h hfl'.1.1.1.1.2 (good_ok hb hi) hp (map := 1) (op := op) (Or.inr rfl) (fun h => by cases h) hrm
    (fun rest => by rw [him, List.nil_append, sle_zero]) (fun rex h1 h2 => by rw [an hfl'.2, bt hs1]; exact he rex h1 h2)
  exact ⟨_, by rw [ins, h]; rfl, by simpa [opBytes] using this⟩

theorem rex_ne {rex : Byte} (h : rex.getLsbD 3 = true) : rex ≠ 0#8 := by rintro rfl; cases h

theorem byteReg_false {rex : Byte} (h : rex ≠ 0#8) (r : BitVec 4) : byteReg rex r = false := by simp [byteReg, h]
theorem byteLoc_false {rex : Byte} (h : rex ≠ 0#8) (l : Loc) : byteLoc rex l = false := by cases l <;> simp [byteLoc, byteReg_false h]

theorem size8 {rex pre : Byte} (h : rex.getLsbD 3 = true) : opSize pre rex = 8 := by simp [opSize, h]
theorem size2 {rex : Byte} (h : rex.getLsbD 3 = false) : opSize 0x66#8 rex = 2 := by unfold opSize; rw [h]; rfl

/-- The k lowest bytes of a register, a constant, or k bytes of memory. -/
def bsv (win : Bool) (k : Nat) (s : St) : Opd → BitVec 64
  | .reg r => s.r (num win r)
  | .imm v => v
  | .mem base offs w => rd s.m (ea win s base offs w) k

/-- The value extended from k bytes. -/
def ext1 (sign : Bool) (k : Nat) (x : BitVec 64) : BitVec 64 := if sign then sext k x else x &&& (BitVec.allOnes 64 >>> (64 - 8 * k))

theorem mask_bit {k i : Nat} (h0 : 0 < k) (hk : k ≤ 8) (x : BitVec 64) : (x &&& (BitVec.allOnes 64 >>> (64 - 8 * k))).getLsbD i = (x.getLsbD i && decide (i < 8 * k)) := by
  rw [BitVec.getLsbD_and, BitVec.getLsbD_ushiftRight, BitVec.getLsbD_allOnes]
  congr 1
  exact decide_eq_decide.2 (by omega)

theorem rd_bit (m : BitVec 64 → Byte) (a : BitVec 64) (k i : Nat) (hi : 8 * k ≤ i) : (rd m a k).getLsbD i = false := by
  induction k generalizing a i with
  | zero => simp [rd]
  | succ k ih =>
    simp only [rd, BitVec.getLsbD_or, BitVec.getLsbD_shiftLeft, BitVec.getLsbD_setWidth]
    rw [ih _ _ (by omega), BitVec.getLsbD_of_ge _ _ (by omega : 8 ≤ i)]
    simp

theorem sext_mask {k : Nat} (h0 : 0 < k) (hk : k ≤ 8) (x : BitVec 64) : sext k (x &&& (BitVec.allOnes 64 >>> (64 - 8 * k))) = sext k x := by
  apply BitVec.eq_of_getLsbD_eq
  intro i hi
  rw [sext_bit h0 hk _ hi, sext_bit h0 hk _ hi, mask_bit h0 hk]
  split
  next h => simp [h]
  next h => simp; omega

/-- Reading k bytes. -/
theorem get_zx {k : Nat} (h0 : 0 < k) (hk : k ≤ 8) {b : Opd} (hi : b.isImm = false) : get (clob win s b) k (target win s b) = ext1 false k (bsv win k s b) := by
  cases b with
  | imm _ => cases hi
  | reg r => rfl
  | mem base offs w =>
    simp only [get, target, clob_m, bsv, ext1, Bool.false_eq_true, if_false]
    apply BitVec.eq_of_getLsbD_eq
    intro i hi
    rw [mask_bit h0 hk]
    by_cases h : i < 8 * k
    · simp [h]
    · rw [rd_bit _ _ _ _ (by omega)]; simp

theorem get_sx {k : Nat} (h0 : 0 < k) (hk : k ≤ 8) {b : Opd} (hi : b.isImm = false) : sext k (get (clob win s b) k (target win s b)) = ext1 true k (bsv win k s b) := by
  rw [get_zx h0 hk hi]
  simp only [ext1, Bool.false_eq_true, if_false, if_true, sext_mask h0 hk]

theorem ext1_bit {sign : Bool} {k i : Nat} (h0 : 0 < k) (hk : k ≤ 8) (x : BitVec 64) (hi : i < 8 * k) : (ext1 sign k x).getLsbD i = x.getLsbD i := by
  cases sign
  · simp only [ext1, Bool.false_eq_true, if_false]; rw [mask_bit h0 hk]; simp [hi]
  · simp only [ext1, if_true]; rw [sext_bit h0 hk _ (by omega), if_pos hi]

theorem wr_bits {m : BitVec 64 → Byte} {a : BitVec 64} {k : Nat} {x y : BitVec 64} (h : ∀ i, i < 8 * k → x.getLsbD i = y.getLsbD i) : wr m a k x = wr m a k y := by
  funext q
  simp only [wr]
  split
  next hq =>
    apply BitVec.eq_of_getLsbD_eq
    intro i hi
    simp only [BitVec.getLsbD_setWidth, BitVec.getLsbD_ushiftRight, hi, decide_true, Bool.true_and]
    exact h _ (by omega)
  next => rfl

theorem Out1.low {s' : St} {base offs k : Nat} {w x y : BitVec 64} (h : Out1 win s s' (.mem base offs w) k x) (hx : ∀ i, i < 8 * k → x.getLsbD i = y.getLsbD i) :
    Out1 win s s' (.mem base offs w) k y := ⟨h.regs, fun d e => (by cases e), by rw [h.mem]; exact wr_bits hx⟩

theorem Eff1.low {c : Code} {f : Flags} {base offs k : Nat} {w x y : BitVec 64} (h : Eff1 win c s (.mem base offs w) k x f) (hx : ∀ i, i < 8 * k → x.getLsbD i = y.getLsbD i) :
    Eff1 win c s (.mem base offs w) k y f := by
  obtain ⟨s', e, o, hf⟩ := h
  exact ⟨s', e, o.low hx, hf⟩

/-! ## The instructions -/

theorem imm1 {pre op : Byte} (h : ¬ (op = 0xa4#8 ∨ op = 0xac#8)) (k : BitVec 3) : immSize pre 1 op k = 0 := by simp [immSize, h]

/-- MOVZX and MOVSX. -/
theorem e_movx {sign : Bool} {k : Nat} {op : Byte} (ho : (k, op) = (1, if sign then 0xbe#8 else 0xb6#8) ∨ (k, op) = (2, if sign then 0xbf#8 else 0xb7#8)) {r : Nat} {b : Opd}
    (hb : Good b) (hi : b.isImm = false) : Eff win false (groupf win false op r b) s (some (.reg r)) (ext1 sign k (bsv win k s b)) false (long b) s.f := by
  have key : ∀ v, (∀ rex : Byte, rex.getLsbD 3 = true → execRM 0#8 rex 1 op (num win r) (some (target win s b)) (addrOf (target win s b)) 0#64 (clob win s b) =
      some (put (clob win s b) 8 v (.reg (num win r)))) → (op ≠ 0xa4#8 ∧ op ≠ 0xac#8 ∧ hasRM 1 op = true) →
      Eff win false (groupf win false op r b) s (some (.reg r)) v false (long b) s.f := by
    intro v he ho
    refine ⟨{ put (clob win s b) (NB false) v (.reg (num win r)) with f := s.f }, ?_, put_dreg win false s b r v s.f, rfl⟩
    refine ins_step2 (fl := { size := 2 }) rfl rfl (by decide) hb hi ho.2.2 (imm1 (by simp [ho])) (fun rex h1 _ => ?_)
    rw [he rex (by simpa using h1)]
    have := clob_f win s b
    congr 1
    rw [← this]
    rfl
  rcases ho with ho | ho <;> cases sign <;> simp only [Prod.mk.injEq, Bool.false_eq_true, if_false, if_true] at ho <;> obtain ⟨rfl, rfl⟩ := ho
  · exact key _ (fun rex h => by rw [xb6, byteLoc_false (rex_ne h), size8 h, get_zx (by decide) (by decide) hi]; rfl) (by decide)
  · exact key _ (fun rex h => by rw [xbe, byteLoc_false (rex_ne h), size8 h, get_sx (by decide) (by decide) hi]; rfl) (by decide)
  · exact key _ (fun rex h => by rw [xb7, size8 h, get_zx (by decide) (by decide) hi]) (by decide)
  · exact key _ (fun rex h => by rw [xbf, size8 h, get_sx (by decide) (by decide) hi]) (by decide)

/-- MOVSXD. -/
theorem e_movsxd {r : Nat} {b : Opd} (hb : Good b) (hi : b.isImm = false) :
    Eff win false (ins win false {} (.reg r) b [0x63#8]) s (some (.reg r)) (ext1 true 4 (bsv win 4 s b)) false (long b) s.f := by
  refine ⟨{ put (clob win s b) (NB false) _ (.reg (num win r)) with f := s.f }, ?_, put_dreg win false s b r _ s.f, rfl⟩
  refine ins_step (fl := {}) rfl rfl (by decide) hb hi (by decide) (by decide) (fun k => by simp [immSize]) (fun rex h1 _ => ?_)
  rw [x63, size8 (by simpa using h1), if_pos rfl, get_sx (by decide) (by decide) hi]
  have := clob_f win s b
  congr 1
  rw [← this]
  rfl

theorem clob_r {r : Nat} (hr1 : 1 ≤ r) (hr2 : r ≤ 15) (b : Opd) : (clob win s b).r (num win r) = s.r (num win r) := clob_reg fun e => absurd e (num_ne_t2 hr1 hr2)

/-- mov [..], r8 -/
theorem e_st8 {r : Nat} (hr1 : 1 ≤ r) (hr2 : r ≤ 15) {base offs : Nat} {w : BitVec 64} (hb : Good (.mem base offs w)) :
    Eff1 win (ins win m32 { rex := true, noRexW := true } (.reg r) (.mem base offs w) [0x88#8]) s (.mem base offs w) 1 (s.r (num win r)) s.f := by
  refine ⟨_, ins_step (fl := { rex := true, noRexW := true }) rfl rfl (by decide) hb rfl (by decide) (by decide) (fun k => by simp [immSize]) (fun rex _ h2 => ?_), out_mem, ?_⟩
  · rw [x88, byteLoc_false (h2 rfl), byteReg_false (h2 rfl), clob_r hr1 hr2]; rfl
  · rw [put_f, clob_f]

/-- mov [..], r16 -/
theorem e_st16 {r : Nat} (hr1 : 1 ≤ r) (hr2 : r ≤ 15) {base offs : Nat} {w : BitVec 64} (hb : Good (.mem base offs w)) :
    Eff1 win (ins win m32 { noRexW := true, pref := 0x66#8 } (.reg r) (.mem base offs w) [0x89#8]) s (.mem base offs w) 2 (s.r (num win r)) s.f := by
  refine ⟨_, ins_step (fl := { noRexW := true, pref := 0x66#8 }) rfl rfl (by decide) hb rfl (by decide) (by decide) (fun k => by simp [immSize]) (fun rex h1 h2 => ?_), out_mem, ?_⟩
  · rw [x89, size2 (by simpa using h1), clob_r hr1 hr2]
  · rw [put_f, clob_f]

/-- mov [..], imm8 and imm16 -/
theorem e_stImm {base offs : Nat} {w v : BitVec 64} (hb : Good (.mem base offs w)) (hv : isHalf v = true) :
    Eff1 win (ins win false { byteArg := true, noRexW := true } (.imm v) (.mem base offs w) [0xc6#8]) s (.mem base offs w) 1 v s.f ∧
    Eff1 win (ins win false { halfArg := true, noRexW := true, pref := 0x66#8 } (.imm v) (.mem base offs w) [0xc7#8]) s (.mem base offs w) 2 v s.f := by
  have some' : ∀ fl : Ins, (fl.byteArg = true ∧ fl.halfArg = false ∨ fl.byteArg = false ∧ fl.halfArg = true) → fl.binIns = false → fl.shiftIns = false → fl.sseOp1 = false → fl.vexExt = false →
      ∃ o, emitX86 win false fl (.imm v) (.mem base offs w) = some o := by
    intro fl h1 h2 h3 h4 h5
    obtain ⟨⟨n, b', rexB⟩, hs⟩ := sizeB_some (win := win) (fl := fl) (prep_imm (win := win) (b := .mem base offs w) rfl)
    unfold emitX86
    rw [show prep win (.mem base offs w) = ((prep win (.mem base offs w)).1, (prep win (.mem base offs w)).2) from rfl]
    rcases h1 with ⟨h1, h1'⟩ | ⟨h1, h1'⟩ <;> simp [hs, h1, h1', h2, h3, h4, h5, hv]
  constructor
  · obtain ⟨o, h⟩ := some' { byteArg := true, noRexW := true } (Or.inl ⟨rfl, rfl⟩) rfl rfl rfl rfl
    refine Eff1.low (x := sext 1 v) ⟨_, ⟨_, by rw [ins, h]; rfl, ?_⟩, out_mem, by rw [put_f, clob_f]⟩ (fun i hi => ?_)
    · refine imm_step (o' := o.op [0xc6#8]) (imm := sext 1 v) (s := s) (op := 0xc6#8) h (good_ok hb rfl) (by decide) (by decide) (by decide) 0#3 rfl (fun rest => ?_) (fun rex hr _ => ?_)
        rfl rfl rfl (by simp [Out.op]) rfl rfl
      · exact sle_toLe (n := 1) (by decide) (by decide) v rest
      · exact xc6
    · rw [sext_bit (by decide) (by decide) _ (by omega), if_pos hi]
  · obtain ⟨o, h⟩ := some' { halfArg := true, noRexW := true, pref := 0x66#8 } (Or.inr ⟨rfl, rfl⟩) rfl rfl rfl rfl
    refine Eff1.low (x := sext 2 v) ⟨_, ⟨_, by rw [ins, h]; rfl, ?_⟩, out_mem, by rw [put_f, clob_f]⟩ (fun i hi => ?_)
    · refine imm_step (o' := o.op [0xc7#8]) (imm := sext 2 v) (s := s) (op := 0xc7#8) h (good_ok hb rfl) (by decide) (by decide) (by decide) 0#3 rfl (fun rest => ?_) (fun rex hr _ => ?_)
        rfl rfl rfl (by simp [Out.op]) rfl rfl
      · exact sle_toLe (n := 2) (by decide) (by decide) v rest
      · have : opSize 0x66#8 rex = 2 := size2 (by simpa using hr)
        rw [show ({ halfArg := true, noRexW := true, pref := 0x66#8 } : Ins).pref = 0x66#8 from rfl]
        exact xc7.trans (by rw [this]; rfl)
    · rw [sext_bit (by decide) (by decide) _ (by omega), if_pos hi]

/-! ## emit_mov_byte, emit_mov_half, emit_mov_int -/

theorem dstR_mem {base offs : Nat} {w : BitVec 64} : dstR (.mem base offs w) = TMP_REG1 := rfl

theorem cat_none (a : Code) : some [] +> a = a := by cases a <;> rfl

/-- A load of k bytes to TMP_REG1, then a store. -/
theorem e_tmp {sign : Bool} {k : Nat} (h0 : 0 < k) (hk : k ≤ 8) {c d : Code} {x : BitVec 64} {c1 c2 : Bool} {base offs : Nat} {w : BitVec 64} (hb : Good (.mem base offs w))
    (h1 : Eff win false c s (some (.reg TMP_REG1)) (ext1 sign k x) c1 c2 s.f) (h2 : ∀ s1, Eff1 win d s1 (.mem base offs w) k (s1.r (num win TMP_REG1)) s1.f) :
    Eff1 win (c +> d) s (.mem base offs w) k x s.f := by
  refine Eff.then1 h1 hb (Or.inl rfl) (fun s1 r1 hf => ?_)
  rw [← hf]
  refine (h2 s1).low (fun i hi => ?_)
  rw [r1.val _ rfl]
  exact ext1_bit h0 hk x hi

theorem out_mem1 {c : Code} {base offs k : Nat} {w x : BitVec 64} {sign : Bool} (h0 : 0 < k) (hk : k ≤ 8) (h : Eff1 win c s (.mem base offs w) k x s.f) :
    Eff1 win c s (.mem base offs w) k (ext1 sign k x) s.f := h.low (fun _ hi => (ext1_bit h0 hk x hi).symm)

theorem e_movByte {sign : Bool} {dst src : Opd} (hd : Good dst) (hdi : dst.isImm = false) (hs : User src) (hv : ∀ v, src = .imm v → isHalf v = true ∧ v = ext1 sign 1 v) :
    Eff1 win (emitMovByte win sign dst src) s dst 1 (ext1 sign 1 (bsv win 1 s src)) s.f := by
  cases src with
  | imm v =>
    cases dst with
    | imm _ => cases hdi
    | reg d =>
      have := Eff.out (e_movImm (win := win) (m32 := false) (s := s) hd rfl (fun _ => (hv v rfl).1))
      rw [show trunc false v = v from rfl, (hv v rfl).2] at this
      obtain ⟨s', e, o, hf⟩ := this
      refine ⟨s', ?_, ⟨o.regs, o.val, o.mem⟩, hf⟩
      simp only [emitMovByte, Opd.isReg, if_true]
      rw [(hv v rfl).2]; exact e
    | mem base offs w => exact out_mem1 (by decide) (by decide) (e_stImm hd (hv v rfl).1).1
  | reg r =>
    cases dst with
    | imm _ => cases hdi
    | reg d =>
      obtain ⟨s', e, o, hf⟩ := Eff.out (e_movx (win := win) (s := s) (sign := sign) (r := d) (Or.inl rfl) hs.good rfl)
      refine ⟨s', ?_, ⟨o.regs, o.val, o.mem⟩, hf⟩
      simp only [emitMovByte, Opd.isMem, Bool.false_eq_true, false_and, if_false, dstR, cat_nil]
      exact e
    | mem base offs w =>
      simp only [emitMovByte, Opd.isMem, Opd.isReg, and_self, if_true, cat_none, Opd.regNo]
      exact out_mem1 (by decide) (by decide) (e_st8 hs.1 (by have := hs.2; omega) hd)
  | mem base' offs' w' =>
    cases dst with
    | imm _ => cases hdi
    | reg d =>
      obtain ⟨s', e, o, hf⟩ := Eff.out (e_movx (win := win) (s := s) (sign := sign) (r := d) (Or.inl rfl) hs.good rfl)
      refine ⟨s', ?_, ⟨o.regs, o.val, o.mem⟩, hf⟩
      simp only [emitMovByte, Opd.isMem, Bool.false_eq_true, false_and, if_false, dstR, cat_nil]
      exact e
    | mem base offs w =>
      simp only [emitMovByte, Opd.isMem, Opd.isReg, Bool.false_eq_true, and_false, if_false, if_true, dstR]
      exact out_mem1 (by decide) (by decide) (e_tmp (by decide) (by decide) hd (e_movx (Or.inl rfl) hs.good rfl) (fun s1 => e_st8 (by decide) (by decide) hd))

theorem e_movHalf {sign : Bool} {dst src : Opd} (hd : Good dst) (hdi : dst.isImm = false) (hs : User src ∨ src = .reg TMP_REG1) (hv : ∀ v, src = .imm v → isHalf v = true ∧ v = ext1 sign 2 v) :
    Eff1 win (emitMovHalf win sign dst src) s dst 2 (ext1 sign 2 (bsv win 2 s src)) s.f := by
  have hg : Good src := by rcases hs with h | rfl; exact h.good; exact good_t1
  cases src with
  | imm v =>
    cases dst with
    | imm _ => cases hdi
    | reg d =>
      have := Eff.out (e_movImm (win := win) (m32 := false) (s := s) hd rfl (fun _ => (hv v rfl).1))
      rw [show trunc false v = v from rfl, (hv v rfl).2] at this
      obtain ⟨s', e, o, hf⟩ := this
      refine ⟨s', ?_, ⟨o.regs, o.val, o.mem⟩, hf⟩
      simp only [emitMovHalf, Opd.isReg, if_true]
      rw [(hv v rfl).2]; exact e
    | mem base offs w => exact out_mem1 (by decide) (by decide) (e_stImm hd (hv v rfl).1).2
  | reg r =>
    cases dst with
    | imm _ => cases hdi
    | reg d =>
      obtain ⟨s', e, o, hf⟩ := Eff.out (e_movx (win := win) (s := s) (sign := sign) (r := d) (Or.inr rfl) hg rfl)
      refine ⟨s', ?_, ⟨o.regs, o.val, o.mem⟩, hf⟩
      simp only [emitMovHalf, Opd.isMem, Bool.false_eq_true, false_and, if_false, dstR, cat_nil]
      exact e
    | mem base offs w =>
      simp only [emitMovHalf, Opd.isMem, Opd.isReg, and_self, if_true, cat_none, Opd.regNo]
      refine out_mem1 (by decide) (by decide) (e_st16 hg.1 ?_ hd)
      rcases hs with h | h
      · have := h.2; omega
      · cases h; decide
  | mem base' offs' w' =>
    cases dst with
    | imm _ => cases hdi
    | reg d =>
      obtain ⟨s', e, o, hf⟩ := Eff.out (e_movx (win := win) (s := s) (sign := sign) (r := d) (Or.inr rfl) hg rfl)
      refine ⟨s', ?_, ⟨o.regs, o.val, o.mem⟩, hf⟩
      simp only [emitMovHalf, Opd.isMem, Bool.false_eq_true, false_and, if_false, dstR, cat_nil]
      exact e
    | mem base offs w =>
      simp only [emitMovHalf, Opd.isMem, Opd.isReg, Bool.false_eq_true, and_false, if_false, if_true, dstR]
      exact out_mem1 (by decide) (by decide) (e_tmp (by decide) (by decide) hd (e_movx (Or.inr rfl) hg rfl) (fun s1 => e_st16 (by decide) (by decide) hd))

theorem opv_bsv (b : Opd) : opv win true s b = trunc true (bsv win 4 s b) := by
  cases b with
  | reg _ => rfl
  | imm _ => rfl
  | mem base offs w =>
    simp only [opv, bsv, NB, if_true, trunc]
    rw [← and_low32]
    apply BitVec.eq_of_getLsbD_eq
    intro i hi
    rw [mask_bit (by decide) (by decide)]
    by_cases h : i < 8 * 4
    · simp [h]
    · rw [rd_bit _ _ _ _ (by omega)]; simp

theorem ext1_trunc (x : BitVec 64) : ext1 false 4 x = trunc true x := and_low32 x

theorem sx32_sext (v : BitVec 64) : sx32 v = sext 4 v := by
  apply BitVec.eq_of_getLsbD_eq
  intro i hi
  rw [sext_bit (by decide) (by decide) _ hi, sx32, BitVec.getLsbD_signExtend, BitVec.msb_setWidth, BitVec.getLsbD_setWidth]
  by_cases h : i < 32
  · simp [h, hi]
  · simp [h, hi]

theorem half_sx (v : BitVec 64) : isHalf (sx32 v) = true := by
  have := (lo_disp (m32 := true) (v := v) (Or.inl rfl)).2
  exact this

theorem e_movInt {sign : Bool} {dst src : Opd} (hd : Dst dst) (hs : User src) :
    Eff1 win (emitMovInt win sign dst src) s dst 4 (ext1 sign 4 (bsv win 4 s src)) s.f := by
  have hdi := hd.imm
  have st : ∀ r base offs w, 1 ≤ r → r ≤ 15 → Good (.mem base offs w) → ∀ t : St, Eff1 win (ins win true {} (.reg r) (.mem base offs w) [0x89#8]) t (.mem base offs w) 4 (t.r (num win r)) t.f := by
    intro r base offs w h1 h2 hb t
    refine (Eff.out (e_store (m32 := true) hb rfl (fun _ => num_ne_t2 h1 h2))).low (fun i hi => ?_)
    rw [← ext1_trunc]
    exact ext1_bit (by decide) (by decide) _ hi
  cases src with
  | imm v =>
    cases dst with
    | imm _ => cases hdi
    | reg d =>
      simp only [emitMovInt]
      by_cases hc : ¬ sign = true ∨ v.setWidth 32 ≤ 0x7fffffff#32
      · rw [if_pos hc]
        obtain ⟨s', e, o, hf⟩ := Eff.out (e_b8 (win := win) (s := s) (r := d) v)
        have hx : trunc true v = ext1 sign 4 v := by
          rw [← ext1_trunc]
          cases sign
          · rfl
          · have hc := hc.resolve_left (by simp)
            simp only [ext1, Bool.false_eq_true, if_false, if_true]
            have hm : v.getLsbD 31 = false := by
              have h2 : (v.setWidth 32).toNat < 2 ^ 31 := by
                have := BitVec.le_def.1 hc; simpa [Nat.lt_succ_iff] using Nat.lt_of_le_of_lt this (by decide : (0x7fffffff#32).toNat < 2 ^ 31)
              have : (v.setWidth 32).getLsbD 31 = false := by
                rw [BitVec.getLsbD, Nat.testBit_lt_two_pow h2]
              rw [BitVec.getLsbD_setWidth] at this
              simpa using this
            apply BitVec.eq_of_getLsbD_eq
            intro i hi
            rw [mask_bit (by decide) (by decide), sext_bit (by decide) (by decide) _ hi]
            by_cases h : i < 8 * 4
            · simp [h]
            · simp only [h, decide_false, Bool.and_false, if_false]; exact hm.symm
        rw [hx] at o
        refine ⟨s', ?_, ⟨o.regs, o.val, o.mem⟩, hf⟩
        have : (if regMap win d ≤ 7#8 then 0#8 else REX_B) = if regMap win d ≥ 8#8 then REX_B else 0#8 := by
          by_cases h : regMap win d ≤ 7#8
          · rw [if_pos h, if_neg (by intro h'; have := BitVec.le_def.1 h; have := BitVec.le_def.1 h'; simp at *; omega)]
          · rw [if_neg h, if_pos (by
              have h' : ¬ (regMap win d).toNat ≤ 7 := fun e => h (BitVec.le_def.2 e)
              exact BitVec.le_def.2 (by show 8 ≤ (regMap win d).toNat; omega))]
        rw [this]; exact e
      · rw [if_neg hc]
        have hsg : sign = true := by by_contra h; exact hc (Or.inl h)
        subst hsg
        obtain ⟨s', e, o, hf⟩ := Eff.out (e_movImm (win := win) (m32 := false) (s := s) hd.good rfl (fun _ => half_sx v))
        rw [show trunc false (sx32 v) = ext1 true 4 v from sx32_sext v] at o
        exact ⟨s', e, ⟨o.regs, o.val, o.mem⟩, hf⟩
    | mem base offs w =>
      have := Eff.out (e_movImm (win := win) (m32 := true) (s := s) hd.good rfl (v := sx32 v) (fun h => by cases h))
      refine this.low (fun i hi => ?_)
      have hi' : i < 8 * 4 := hi
      rw [← ext1_trunc, ext1_bit (by decide) (by decide) _ hi', sx32_sext, ext1_bit (by decide) (by decide) _ hi', sext_bit (by decide) (by decide) _ (by omega), if_pos hi']
      rfl
  | reg r =>
    cases dst with
    | imm _ => cases hdi
    | reg d =>
      simp only [emitMovInt, Opd.isMem, Bool.false_eq_true, false_and, if_false, dstR, cat_nil]
      cases sign
      · obtain ⟨s', e, o, hf⟩ := Eff.out (e_mov (win := win) (m32 := true) (s := s) hd.good rfl hs.good (fun h => by cases h))
        rw [opv_bsv, trunc_trunc, ← ext1_trunc] at o
        exact ⟨s', by simpa using e, ⟨o.regs, o.val, o.mem⟩, hf⟩
      · obtain ⟨s', e, o, hf⟩ := Eff.out (e_movsxd (win := win) (s := s) (r := d) hs.good rfl)
        exact ⟨s', by simpa using e, ⟨o.regs, o.val, o.mem⟩, hf⟩
    | mem base offs w =>
      simp only [emitMovInt, Opd.isMem, Opd.isReg, and_self, if_true, cat_none, Opd.regNo]
      exact out_mem1 (by decide) (by decide) (st r base offs w hs.1 (by have := hs.2; omega) hd.good s)
  | mem base' offs' w' =>
    cases dst with
    | imm _ => cases hdi
    | reg d =>
      simp only [emitMovInt, Opd.isMem, Bool.false_eq_true, false_and, if_false, dstR, cat_nil]
      cases sign
      · obtain ⟨s', e, o, hf⟩ := Eff.out (e_mov (win := win) (m32 := true) (s := s) hd.good rfl hs.good (fun h => by cases h))
        rw [opv_bsv, trunc_trunc, ← ext1_trunc] at o
        exact ⟨s', by simpa using e, ⟨o.regs, o.val, o.mem⟩, hf⟩
      · obtain ⟨s', e, o, hf⟩ := Eff.out (e_movsxd (win := win) (s := s) (r := d) hs.good rfl)
        exact ⟨s', by simpa using e, ⟨o.regs, o.val, o.mem⟩, hf⟩
    | mem base offs w =>
      simp only [emitMovInt, Opd.isMem, Opd.isReg, Bool.false_eq_true, and_false, if_false, if_true, dstR]
      refine out_mem1 (by decide) (by decide) ?_
      cases sign
      · simp only [Bool.false_eq_true, if_false]
        refine Eff.then1 (e_mov (m32 := true) good_t1 rfl hs.good (fun h => by cases h)) hd.good (Or.inl rfl) (fun s1 r1 hf => ?_)
        rw [← hf]
        refine (st _ base offs w (by decide) (by decide) hd.good s1).low (fun i hi => ?_)
        rw [r1.val _ rfl, opv_bsv, trunc_trunc, ← ext1_trunc]
        exact ext1_bit (by decide) (by decide) _ hi
      · simp only [if_true]
        exact e_tmp (by decide) (by decide) hd.good (e_movsxd hs.good rfl) (fun s1 => st _ base offs w (by decide) (by decide) hd.good s1)

end Verif.X86
