import Verif.XProg.Rel
import Verif.X86.FrameEff
import Verif.X86.JumpExec

/-!
# One call of a program that does not transfer control (x86-64)
-/

namespace Verif.XLir
open Verif.X86 Verif.Props
open Verif.Lir (Val wd)

/-- The calls covered: what the argument checks of sljitLir.c accept, with declared registers, without the operand
combinations for which the backend emits wrong code (each is the subject of a `_false` theorem of C46). -/
def InsOk (p : Frame) : Lir.Ins → Prop
  | .op0 o is32 => o = .nop ∨ o = .endbr ∨ o = .skipFrames ∨ (Lir.plain o = false ∧ 2 ≤ p.scr ∧ (o = .lmulUw ∨ o = .lmulSw → is32 = false))
  | .op1 o is32 dst src => DstOk p dst ∧ SrcOk p src ∧ ((C50.IsMove o ∧ (o = .movU32 ∨ o = .movS32 → is32 = false)) ∨
      (¬ C50.IsMove o ∧ ∀ v, src ≠ .imm v))
  | .op2 op dst a b => DstOk p dst ∧ SrcOk p a ∧ SrcOk p b ∧ isOp2 op.code = true ∧ op.flagOk ∧
      (C46.shiftLike op.code = false → ∀ d, xo dst = .reg d → xo dst ≠ xo a → ¬ C46.reads (xo b) d) ∧
      (C46.shiftLike op.code = true → C46.far (xo b) → ∃ d, xo dst = .reg d ∧ (d = 4 ∨ ¬ C46.reads (xo b) d))
  | .op2u op a b => SrcOk p a ∧ SrcOk p b ∧ isOp2 op.code = true ∧ op.flagOk ∧ (C46.shiftLike op.code = true → ¬ C46.far (xo b))
  | .shiftInto _ is32 _ dst a b n => Decl p dst ∧ Decl p a ∧ Decl p b ∧ SrcOk p n ∧ xr dst ≠ xr b ∧
      (∀ u, xo n = .imm u → u.toNat % (if is32 then 32 else 64) = 0 → xr dst = xr a) ∧
      (xr dst ≠ xr a → xr dst ≠ 4 → xr a ≠ xr b ∨ C46.far (xo n) → ¬ C46.reads (xo n) (xr dst)) ∧
      (xr a = 4 → xr a ≠ xr b → xr dst ≠ xr a → xo n ≠ .reg (xr dst))
  | .opFlags code _ _ dst _ => DstOk p dst ∧ (code = .mov ∨ code = .and ∨ code = .or ∨ code = .xor)
  | .select _ _ dst a b => Decl p dst ∧ SrcOk p a ∧ Decl p b
  | .label => True
  | .jump (some type) _ _ => type < 14
  | .jump none _ _ => True
  | .cmp type _ a b _ _ => type < 10 ∧ SrcOk p a ∧ SrcOk p b
  | .ret o is32 src => C50.IsMove o ∧ (o = .movU32 ∨ o = .movS32 → is32 = false) ∧ SrcOk p src
  | .retVoid => True
  | .call as _ _ (.fn _) => as.length ≤ 4 ∧ as.length ≤ p.scr
  | .call as _ _ (.opd src) => as.length ≤ 4 ∧ as.length ≤ p.scr ∧ SrcOk p src

variable {ft : Feat} {p : Frame} {F : Nat} {s1 s : St} {l l' : Lir.LSt}

/-- The state after a call agrees with the interpreter. -/
def After (ft : Feat) (p : Frame) (F : Nat) (s1 : St) (ins : Lir.Ins) (l' : Lir.LSt) (s : St) : Prop :=
  ∃ s', Runs (emit ft p ins) s s' ∧ Inv p F s1 l' s' ∧ FlagsR l' s'.f

theorem runs_of {code : Code} {bs : List Byte} {s s' : St} (h : code = some bs) (hs : Steps bs s s') : Runs code s s' :=
  ⟨bs, h, fun _ _ hb => hs.psteps hb⟩

/-! ## sljit_emit_op2 -/

theorem cin_ok (hf : FlagsR l s.f) {op : RV.Op} {cin : Bool}
    (e : (if op.code = .addc ∨ op.code = .subc then (match l.v with | some (.carry, t) => some t | _ => none) else some false) = some cin) :
    op.code = .addc ∨ op.code = .subc → s.f.cf = some cin := by
  intro h
  rw [if_pos h] at e
  split at e
  · next t hv =>
    have ht := Option.some.inj e; subst ht
    have := hf.v _ _ hv .carry false rfl
    rw [C46.cond_cc _ (by decide)] at this
    change (s.f.cf).map _ = _ at this
    cases hc : s.f.cf <;> rw [hc] at this <;> simpa using this
  · cases e

theorem wd_width (op : RV.Op) : C46.width op = wd op.is32 := by unfold C46.width; cases op.is32 <;> rfl

theorem wd_bits (is32 : Bool) : C50.bitsOf is32 = wd is32 := by cases is32 <;> rfl

theorem wd_if (is32 : Bool) : (if is32 then 32 else 64) = wd is32 := by cases is32 <;> rfl

theorem binary_ok (hf : FlagsR l s.f) {op : RV.Op} {x y : BitVec (wd op.is32)} {r : BitVec (wd op.is32) × Bool} (er : Lir.binary op l x y = some r) :
    ∃ cin, (op.code = .addc ∨ op.code = .subc → s.f.cf = some cin) ∧ r = (RV.val op.code x y cin, RV.flagVal op.code op.flag x y cin) := by
  obtain ⟨cin, e1, e2⟩ := Option.bind_eq_some_iff.mp er
  split at e2
  · cases e2
  exact ⟨cin, cin_ok hf e1, (Option.some.inj e2).symm⟩

/-- sljit_emit_op2. -/
theorem exec_op2 (hp : Regs p) (h : Inv p F s1 l s) (hf : FlagsR l s.f) {op : RV.Op} {dst a b : RV.Opd} (hok : InsOk p (.op2 op dst a b))
    (e : Lir.exec (priv p F (s1.r 4#4)) (.op2 op dst a b) l = some l') : After ft p F s1 (.op2 op dst a b) l' s := by
  obtain ⟨hd, ha, hb, hop, hfl, h3, h4⟩ := hok
  obtain ⟨x, ex, e⟩ := Option.bind_eq_some_iff.mp e
  obtain ⟨y, ey, e⟩ := Option.bind_eq_some_iff.mp e
  obtain ⟨r, er, e⟩ := Option.bind_eq_some_iff.mp e
  obtain ⟨cin, hc, rfl⟩ := binary_ok hf er
  obtain ⟨bs, s', g1, g2, g3, g4⟩ := C46.c46_op2_partial (win := false) hop hfl (xo_dest hp hd) (xo_src hp ha) (xo_src hp hb) h3 h4 s cin hc
  rw [wd_width, read_ok h ha ex, read_ok h hb ey] at g3 g4
  obtain ⟨w1, w2, w3⟩ := writeB_ok h hp g3 hd (l0 := l.setFlags op _ _) rfl rfl e
  exact ⟨s', runs_of g1 g2, w1, FlagsR.set g4 w2 w3⟩

/-- sljit_emit_op2u. -/
theorem exec_op2u (hp : Regs p) (h : Inv p F s1 l s) (hf : FlagsR l s.f) {op : RV.Op} {a b : RV.Opd} (hok : InsOk p (.op2u op a b))
    (e : Lir.exec (priv p F (s1.r 4#4)) (.op2u op a b) l = some l') : After ft p F s1 (.op2u op a b) l' s := by
  obtain ⟨ha, hb, hop, hfl, h4⟩ := hok
  obtain ⟨x, ex, e⟩ := Option.bind_eq_some_iff.mp e
  obtain ⟨y, ey, e⟩ := Option.bind_eq_some_iff.mp e
  obtain ⟨r, er, e⟩ := Option.bind_eq_some_iff.mp e
  obtain ⟨cin, hc, rfl⟩ := binary_ok hf er
  obtain ⟨bs, s', g1, g2, g3, g4⟩ := C46.c46_op2u_partial (win := false) hop hfl (xo_src hp ha) (xo_src hp hb) h4 s cin hc
  rw [wd_width, read_ok h ha ex, read_ok h hb ey] at g3 g4
  have el := Option.some.inj e
  refine ⟨s', runs_of g1 g2, keep_ok h hp (fun q h1 h2 => g3.keep q h1 h2 (by rintro ⟨⟩)) (g3.same (by rintro _ _ _ ⟨⟩)) (by rw [← el]; rfl) (by rw [← el]; rfl), ?_⟩
  exact FlagsR.set g4 (by rw [← el]; rfl) (by rw [← el]; rfl)

/-! ## Flags in a destination -/

/-- sljit_emit_op_flags. -/
theorem exec_opFlags (hp : Regs p) (h : Inv p F s1 l s) (hf : FlagsR l s.f) {code : RV.OpC} {is32 setZ : Bool} {dst : RV.Opd} {type : Nat}
    (hok : InsOk p (.opFlags code is32 setZ dst type)) (e : Lir.exec (priv p F (s1.r 4#4)) (.opFlags code is32 setZ dst type) l = some l') :
    After ft p F s1 (.opFlags code is32 setZ dst type) l' s := by
  obtain ⟨hd, hc⟩ := hok
  obtain ⟨t, et, e⟩ := Option.bind_eq_some_iff.mp e
  have hs := (hf.says et).2
  have hbit : ∀ w, (if t then 1#w else 0#w) = BitVec.ofNat w t.toNat := fun w => by cases t <;> rfl
  unfold After
  simp only [emit]
  by_cases hm : code = .mov
  · subst hm
    simp only [if_true] at e ⊢
    obtain ⟨bs, s', g1, g2, g3, g4⟩ := C50.c50_flags_mov (win := false) is32 (xo_dest hp hd) (jt type) (neg type) s t hs
    rw [wd_bits, hbit] at g3
    obtain ⟨w1, w2, w3⟩ := writeB_ok h hp g3 hd rfl rfl e
    exact ⟨s', runs_of g1 g2, w1, hf.same w2 w3 g4⟩
  · rw [if_neg hm] at e
    rw [if_neg hm]
    obtain ⟨old, eo, e⟩ := Option.bind_eq_some_iff.mp e
    have hc' := hc.resolve_left hm
    obtain ⟨bs, s', g1, g2, g3, g4⟩ := C50.c50_flags_op (win := false) (op := ⟨code, is32, setZ, .none⟩) hc'
      (by rcases hc' with rfl | rfl | rfl <;> simp [RV.Op.flagOk]) (xo_dest hp hd) (jt type) (neg type) s t hs
    dsimp only at g3 g4
    rw [wd_bits, read_ok h hd.src eo, hbit] at g3 g4
    have hv : RV.val code old (BitVec.ofNat _ t.toNat) false = Lir.mix code old t := by
      rcases hc' with rfl | rfl | rfl <;> rfl
    rw [hv] at g3
    obtain ⟨w1, w2, w3⟩ := writeB_ok h hp g3 hd
      (l0 := { l with z := if setZ then some (decide (Lir.mix code old t = 0)) else none, v := none }) rfl rfl e
    exact ⟨s', runs_of g1 g2, w1, FlagsR.set g4 (by rw [w2, hv]; rfl) (by rw [w3]; rfl)⟩

/-- sljit_emit_select. -/
theorem exec_select (hp : Regs p) (h : Inv p F s1 l s) (hf : FlagsR l s.f) {type : Nat} {is32 : Bool} {dst b : Nat} {a : RV.Opd}
    (hok : InsOk p (.select type is32 dst a b)) (e : Lir.exec (priv p F (s1.r 4#4)) (.select type is32 dst a b) l = some l') :
    After ft p F s1 (.select type is32 dst a b) l' s := by
  obtain ⟨hd, ha, hb⟩ := hok
  obtain ⟨t, et, e⟩ := Option.bind_eq_some_iff.mp e
  obtain ⟨x, ex, e⟩ := Option.bind_eq_some_iff.mp e
  obtain ⟨y, ey, e⟩ := Option.bind_eq_some_iff.mp e
  have hd' : DstOk p (.reg dst) := hd
  have hb' : SrcOk p (.reg b) := hb
  obtain ⟨bs, s', g1, g2, g3, g4⟩ := C50.c50_select (win := false) is32 (xo_dest hp hd') (xo_src hp hb') (xo_src hp ha) (jt type) (neg type) s t (hf.says et).2
  have r1 := read_ok h ha ex
  have r2 : C46.value false s (wd is32) (.reg (xr b)) = y := read_ok h hb' ey
  rw [wd_bits, r1, r2] at g3
  obtain ⟨w1, w2, w3⟩ := writeB_ok (dst := .reg dst) h hp g3 hd' rfl rfl e
  exact ⟨s', runs_of g1 g2, w1, hf.same w2 w3 g4⟩

/-! ## sljit_emit_shift_into -/

theorem into_eq {w : Nat} (left : Bool) (x y : BitVec w) {n : Nat} (hn : n < w) :
    C46.into left x y n = BitVec.ofNat w (Lir.into w left x.toNat y.toNat n) := by
  apply BitVec.eq_of_getLsbD_eq
  intro i hi
  cases left with
  | true =>
    simp only [C46.into, Lir.into, if_true, BitVec.getLsbD_or, BitVec.getLsbD_shiftLeft, BitVec.getLsbD_ushiftRight, BitVec.getLsbD_ofNat, hi, decide_true, Bool.true_and,
      Nat.testBit_mod_two_pow, Nat.testBit_div_two_pow, Nat.testBit_mul_two_pow]
    rw [Nat.mul_comm x.toNat, Nat.testBit_two_pow_mul_add _ y.isLt]
    have e1 : n ≤ i + w := by omega
    simp only [e1, decide_true, Bool.true_and]
    by_cases h : i < n
    · have e2 : i + w - n < w := by omega
      have e3 : 1 + (w - 1 - n + i) = i + w - n := by omega
      simp [h, e2, e3, BitVec.testBit_toNat]
    · have e2 : ¬ i + w - n < w := by omega
      have e3 : i + w - n - w = i - n := by omega
      rw [BitVec.getLsbD_of_ge y _ (by omega)]
      simp [h, e2, e3, BitVec.testBit_toNat]
  | false =>
    simp only [C46.into, Lir.into, Bool.false_eq_true, if_false, BitVec.getLsbD_or, BitVec.getLsbD_shiftLeft, BitVec.getLsbD_ushiftRight, BitVec.getLsbD_ofNat, hi, decide_true, Bool.true_and,
      Nat.testBit_mod_two_pow, Nat.testBit_div_two_pow]
    rw [Nat.mul_comm y.toNat, Nat.testBit_two_pow_mul_add _ x.isLt]
    by_cases h : i + n < w
    · have e2 : i < w - 1 - n ∨ i - (w - 1 - n) < 1 := by omega
      have e3 : n + i = i + n := by omega
      rcases e2 with e2 | e2 <;> simp [h, e2, e3, BitVec.testBit_toNat]
    · have e2 : ¬ i < w - 1 - n := by omega
      have e3 : ¬ i - (w - 1 - n) < 1 := by omega
      have e4 : i - (w - 1 - n) - 1 = i + n - w := by omega
      have e5 : i - (w - 1 - n) < w := by omega
      rw [BitVec.getLsbD_of_ge x _ (by omega)]
      simp only [e2, e3, e4, e5, h, decide_true, decide_false, Bool.not_false, Bool.true_and, Bool.false_or, if_false, BitVec.testBit_toNat]

theorem exec_shiftInto (hp : Regs p) (h : Inv p F s1 l s) {left is32 nz : Bool} {dst a b : Nat} {n : RV.Opd}
    (hok : InsOk p (.shiftInto left is32 nz dst a b n)) (e : Lir.exec (priv p F (s1.r 4#4)) (.shiftInto left is32 nz dst a b n) l = some l') :
    After ft p F s1 (.shiftInto left is32 nz dst a b n) l' s := by
  obtain ⟨hd, ha, hb, hn, hne, k4, k5, k6⟩ := hok
  obtain ⟨x, ex, e⟩ := Option.bind_eq_some_iff.mp e
  obtain ⟨y, ey, e⟩ := Option.bind_eq_some_iff.mp e
  obtain ⟨z, ez, e⟩ := Option.bind_eq_some_iff.mp e
  split at e
  · cases e
  have hd' : DstOk p (.reg dst) := hd
  have ha' : SrcOk p (.reg a) := ha
  have hb' : SrcOk p (.reg b) := hb
  obtain ⟨bs, s', g1, g2, g3⟩ := C46.c46_shift_into_partial (win := false) (m32 := is32) (left := left) (xo_dest hp hd') (xo_src hp ha') (xo_src hp hb') (xo_src hp hn) hne k4 k5 k6 s
  have r1 : C46.value false s (wd is32) (.reg (xr a)) = x := read_ok h ha' ex
  have r2 : C46.value false s (wd is32) (.reg (xr b)) = y := read_ok h hb' ey
  rw [wd_if, r1, r2, read_ok h hn ez, into_eq left x y (Nat.mod_lt _ (by cases is32 <;> decide))] at g3
  obtain ⟨w1, w2, w3⟩ := writeB_ok (dst := .reg dst) h hp g3 hd' (l0 := l.noFlags) rfl rfl e
  exact ⟨s', runs_of g1 g2, w1, (FlagsR.none l s'.f).same w2 w3 rfl⟩

/-! ## sljit_emit_op0 -/

theorem ofNat_of {w : Nat} {x : BitVec w} {n : Nat} (h : x.toNat = n) : x = BitVec.ofNat w n := by
  subst h; simp

theorem ofInt_of {w : Nat} {x : BitVec w} {n : Int} (h : x.toInt = n) : x = BitVec.ofInt w n := by
  subst h; exact BitVec.ofInt_toInt.symm

theorem setWidth64 (a : BitVec 64) : a.setWidth (C50.bitsOf false) = a := BitVec.setWidth_eq (n := 64) a

theorem toInt_min {w : Nat} (x : BitVec w) (h : 0 < w) : x.toInt = -2 ^ (w - 1) ↔ x = BitVec.intMin w := by
  constructor
  · intro e
    rw [← BitVec.ofInt_toInt (x := x), e, ← BitVec.ofInt_toInt (x := BitVec.intMin w), BitVec.toInt_intMin_of_pos h]
  · rintro rfl
    exact BitVec.toInt_intMin_of_pos h

theorem lmul_u {a b a' b' : BitVec 64} (h : b'.toNat * 2 ^ 64 + a'.toNat = a.toNat * b.toNat) :
    a' = BitVec.ofNat 64 (a.toNat * b.toNat) ∧ b' = BitVec.ofNat 64 (a.toNat * b.toNat / 2 ^ 64) := by
  have := a'.isLt
  rw [← h]
  refine ⟨?_, ?_⟩
  · apply BitVec.eq_of_toNat_eq
    rw [BitVec.toNat_ofNat]; omega
  · rw [show (b'.toNat * 2 ^ 64 + a'.toNat) / 2 ^ 64 = b'.toNat by omega]
    exact (BitVec.ofNat_toNat 64 b' |>.trans (BitVec.setWidth_eq b')).symm

theorem lmul_s {a b a' b' : BitVec 64} (h : b'.toInt * 2 ^ 64 + a'.toNat = a.toInt * b.toInt) :
    a' = BitVec.ofInt 64 (a.toInt * b.toInt) ∧ b' = BitVec.ofInt 64 (a.toInt * b.toInt / 2 ^ 64) := by
  have := a'.isLt
  rw [← h]
  refine ⟨?_, ?_⟩
  · apply BitVec.eq_of_toNat_eq
    rw [BitVec.toNat_ofInt]; omega
  · rw [show (b'.toInt * 2 ^ 64 + (a'.toNat : Int)) / 2 ^ 64 = b'.toInt by omega]
    exact BitVec.ofInt_toInt.symm

theorem pair_ok {o : RV.Op0} {is32 : Bool} {x y : BitVec (wd is32)} {ab : BitVec (wd is32) × BitVec (wd is32)} (e : Lir.pair o x y = some ab)
    (h32 : o = .lmulUw ∨ o = .lmulSw → is32 = false) {a b : BitVec 64} (hx : a.setWidth (wd is32) = x) (hy : b.setWidth (wd is32) = y) :
    C50.Op0Ok o is32 a b ∧ ∀ a' b', C50.Op0Spec o is32 a b a' b' → a'.setWidth (wd is32) = ab.1 ∧ b'.setWidth (wd is32) = ab.2 := by
  have hmin : ∀ z : BitVec (wd is32), z.toInt = -2 ^ (wd is32 - 1) ↔ z = BitVec.intMin _ := fun z => toInt_min z (by cases is32 <;> decide)
  cases o <;> simp only [Lir.pair] at e <;> try (cases e; done)
  case lmulUw =>
    have := h32 (Or.inl rfl); subst this
    have hx' : a = x := (BitVec.setWidth_eq (n := 64) a).symm.trans hx
    have hy' : b = y := (BitVec.setWidth_eq (n := 64) b).symm.trans hy
    subst hx' hy'
    cases e
    exact ⟨rfl, fun a' b' h => ⟨(BitVec.setWidth_eq (n := 64) a').trans (lmul_u h).1, (BitVec.setWidth_eq (n := 64) b').trans (lmul_u h).2⟩⟩
  case lmulSw =>
    have := h32 (Or.inr rfl); subst this
    have hx' : a = x := (BitVec.setWidth_eq (n := 64) a).symm.trans hx
    have hy' : b = y := (BitVec.setWidth_eq (n := 64) b).symm.trans hy
    subst hx' hy'
    cases e
    exact ⟨rfl, fun a' b' h => ⟨(BitVec.setWidth_eq (n := 64) a').trans (lmul_s h).1, (BitVec.setWidth_eq (n := 64) b').trans (lmul_s h).2⟩⟩
  all_goals
    simp only [C50.Op0Ok, C50.Op0Spec]
    have hb := wd_bits is32
    generalize C50.bitsOf is32 = n at hb ⊢
    subst hb
    rw [hx, hy]
  case divmodUw =>
    split at e
    · cases e
    next hz =>
    cases e
    exact ⟨fun q => hz (by rw [q]; rfl), fun a' b' h => ⟨ofNat_of h.1, ofNat_of h.2⟩⟩
  case divUw =>
    split at e
    · cases e
    next hz =>
    cases e
    exact ⟨fun q => hz (by rw [q]; rfl), fun a' b' h => ⟨ofNat_of h.1, by rw [h.2]; exact hy⟩⟩
  case divmodSw =>
    split at e
    · cases e
    next hz =>
    rw [not_or] at hz
    cases e
    exact ⟨⟨fun q => hz.1 (by rw [q]; simp), fun q => hz.2 ⟨(hmin x).mpr q.1, q.2⟩⟩, fun a' b' h => ⟨ofInt_of h.1, ofInt_of h.2⟩⟩
  case divSw =>
    split at e
    · cases e
    next hz =>
    rw [not_or] at hz
    cases e
    exact ⟨⟨fun q => hz.1 (by rw [q]; simp), fun q => hz.2 ⟨(hmin x).mpr q.1, q.2⟩⟩, fun a' b' h => ⟨ofInt_of h.1, by rw [h.2]; exact hy⟩⟩

theorem holds_set {is32 : Bool} {x : BitVec (wd is32)} {y : BitVec 64} (h : y.setWidth (wd is32) = x) : Holds (Val.of is32 x) y := by
  subst h
  cases is32
  · exact (BitVec.setWidth_eq (n := 64) y).symm
  · rfl

theorem exec_op0 (hp : Regs p) (h : Inv p F s1 l s) {o : RV.Op0} {is32 : Bool} (hok : InsOk p (.op0 o is32))
    (e : Lir.exec (priv p F (s1.r 4#4)) (.op0 o is32) l = some l') : After ft p F s1 (.op0 o is32) l' s := by
  simp only [Lir.exec] at e
  split at e
  · next hpl =>
    rw [← Option.some.inj e]
    refine ⟨s, ?_, keep_ok h hp (fun _ _ _ => rfl) rfl rfl rfl, FlagsR.none _ _⟩
    have hok : o = .nop ∨ o = .endbr ∨ o = .skipFrames := by
      rcases hok with q | q | q | ⟨q, -⟩
      · exact Or.inl q
      · exact Or.inr (Or.inl q)
      · exact Or.inr (Or.inr q)
      · rw [q] at hpl; cases hpl
    rcases hok with rfl | rfl | rfl
    · exact ⟨_, rfl, fun c a hb => PSteps.one (nop_step (p := ⟨s, a⟩) hb)⟩
    · exact ⟨_, rfl, fun c a hb => by rw [show a + BitVec.ofNat 64 ([] : List Byte).length = a by simp]; exact .refl _⟩
    · exact ⟨_, rfl, fun c a hb => by rw [show a + BitVec.ofNat 64 ([] : List Byte).length = a by simp]; exact .refl _⟩
  · next hpl =>
    have hok : 2 ≤ p.scr ∧ (o = .lmulUw ∨ o = .lmulSw → is32 = false) := by
      rcases hok with rfl | rfl | rfl | ⟨-, q⟩
      · exact absurd rfl hpl
      · exact absurd rfl hpl
      · exact absurd rfl hpl
      · exact q
    obtain ⟨hsc, h32⟩ := hok
    have d1 : SrcOk p (.reg 1) := Or.inl ⟨by decide, by omega⟩
    have d2 : SrcOk p (.reg 2) := Or.inl ⟨by decide, by omega⟩
    obtain ⟨x, ex, e⟩ := Option.bind_eq_some_iff.mp e
    obtain ⟨y, ey, e⟩ := Option.bind_eq_some_iff.mp e
    obtain ⟨ab, ep, e⟩ := Option.bind_eq_some_iff.mp e
    have r1 := read_ok h d1 ex
    have r2 := read_ok h d2 ey
    change (s.r (C46.mreg false 1)).setWidth _ = x at r1
    change (s.r (C46.mreg false 2)).setWidth _ = y at r2
    obtain ⟨k1, k2⟩ := pair_ok ep h32 r1 r2
    obtain ⟨bs, s', g1, g2, g3, g4, g5⟩ := C50.c50_op0_partial (win := false) k1 (by rintro ⟨⟩)
    obtain ⟨k3, k4⟩ := k2 _ _ g5
    have hh1 := holds_set k3
    have hh2 := holds_set k4
    rw [← Option.some.inj e]
    refine ⟨s', runs_of g1 g2, ⟨body_of h hp (fun q h1 h2 hne => ?_) fun q _ => by rw [g3], ?_, ?_⟩, ?_⟩
    · refine g4 q ?_ h2
      have a1 := hne 1 d1
      have a2 := hne 2 d2
      change 1 ≠ q at a1
      change 2 ≠ q at a2
      omega
    · intro q hq w hw
      simp only [Lir.LSt.set, Lir.LSt.noFlags] at hw
      by_cases q2 : q = 2
      · rw [if_pos q2] at hw; rw [q2, ← Option.some.inj hw]; exact hh2
      rw [if_neg q2] at hw
      by_cases q1 : q = 1
      · rw [if_pos q1] at hw; rw [q1, ← Option.some.inj hw]; exact hh1
      rw [if_neg q1] at hw
      have hb := xr_use hp hq
      have n1 : xr q ≠ 1 := fun e => q1 (xr_inj hp hq (Or.inl d1) e)
      have n2 : xr q ≠ 2 := fun e => q2 (xr_inj hp hq (Or.inl d2) e)
      rw [g4 (xr q) (by omega) hb.2]
      exact h.reg q hq w hw
    · intro a ha
      rw [g3]; exact h.mem a ha
    · exact ⟨by rintro t ⟨⟩, by rintro g t ⟨⟩⟩

/-! ## sljit_emit_op1 -/

theorem src_ok (h : Inv p F s1 l s) {is32 : Bool} {o : RV.Opd} (ho : SrcOk p o) {x : BitVec (wd is32)} (e : Lir.read (priv p F (s1.r 4#4)) is32 l o = some x) :
    (C50.source false (wd is32) s (xo o)).setWidth (wd is32) = x := by
  cases is32
  · exact (BitVec.setWidth_eq (n := 64) _).trans (read64_ok h ho e)
  · exact readN_ok h (by decide) ho (Lir.read_readN e)

theorem zx_low {n : Nat} (hn : n ≤ 64) (x : BitVec n) : (x.setWidth 64).setWidth n = x :=
  (BitVec.setWidth_setWidth_of_le x hn).trans (BitVec.setWidth_eq x)

theorem sx_low {n k : Nat} (hk : k ≤ 64) (x : BitVec n) : (x.signExtend 64).setWidth k = x.signExtend k := by
  apply BitVec.eq_of_getLsbD_eq
  intro i hi
  have h64 : i < 64 := by omega
  simp only [BitVec.getLsbD_setWidth, BitVec.getLsbD_signExtend, hi, h64, decide_true, Bool.true_and]

theorem sx_self {n : Nat} (hn : n ≤ 64) (x : BitVec n) : (x.signExtend 64).setWidth n = x := by
  rw [sx_low hn]; exact BitVec.signExtend_eq x

theorem holds_zx {n : Nat} (hn : n ≤ 32) (is32 : Bool) (x : BitVec n) : Holds (Val.of is32 (x.setWidth _)) (x.setWidth 64) := by
  apply holds_set
  exact BitVec.setWidth_setWidth_of_le x (by cases is32 <;> decide)

theorem holds_sx {n : Nat} (is32 : Bool) (x : BitVec n) : Holds (Val.of is32 (x.signExtend _)) (x.signExtend 64) := by
  apply holds_set
  exact sx_low (by cases is32 <;> decide) x

theorem bits_res {is32 : Bool} (x : BitVec (wd is32)) : C50.bitsOf is32 = 64 ∨ (C50.bitsOf is32 = 32 ∧ ∃ y, Val.of is32 x = .i y) := by
  rw [wd_bits]; exact wd_res x

/-- A move: the value and the bits that reach memory. -/
theorem unary_move (h : Inv p F s1 l s) {o : RV.Op1C} {is32 : Bool} {dst src : RV.Opd} (hs : SrcOk p src) (ho : C50.IsMove o)
    (h32 : o = .movU32 ∨ o = .movS32 → is32 = false)
    (e : Lir.unary (priv p F (s1.r 4#4)) o is32 l dst src = some l') :
    Wide (C50.width o is32) ∧ ∃ u, Holds u (C50.moved o (C50.source false (C50.width o is32) s (xo src))) ∧
      (C50.resultWidth o is32 = 64 ∨ (C50.resultWidth o is32 = 32 ∧ ∃ y, u = .i y)) ∧
      Lir.writeN (priv p F (s1.r 4#4)) (C50.width o is32) l dst u ((C50.moved o (C50.source false (C50.width o is32) s (xo src))).setWidth _) = some l' := by
  simp only [C50.IsMove, List.mem_cons, List.not_mem_nil, or_false] at ho
  have fin : ∀ {n : Nat} {v : BitVec 64} {u : Val} {x : BitVec n} {k : Nat},
      Lir.writeN (priv p F (s1.r 4#4)) n l dst u x = some l' → Holds u v → (k = 64 ∨ (k = 32 ∧ ∃ y, u = .i y)) → v.setWidth n = x →
      ∃ u, Holds u v ∧ (k = 64 ∨ (k = 32 ∧ ∃ y, u = .i y)) ∧ Lir.writeN (priv p F (s1.r 4#4)) n l dst u (v.setWidth n) = some l' :=
    fun hw hu hk hx => ⟨_, hu, hk, by rw [hx]; exact hw⟩
  rcases ho with rfl | rfl | rfl | rfl | rfl | rfl | rfl | rfl | rfl <;> obtain ⟨x, ex, e⟩ := Option.bind_eq_some_iff.mp e <;>
    refine ⟨by simp [C50.width, Wide], ?_⟩
  · have hv := read64_ok h hs ex
    exact fin (n := 64) e hv (Or.inl rfl) ((BitVec.setWidth_eq _).trans hv)
  · have hv := readN_ok h (by decide) hs ex
    exact fin (n := 8) e (by rw [← hv]; exact holds_zx (by decide) is32 _) (bits_res _) (by rw [← hv]; exact zx_low (by decide) _)
  · have hv := readN_ok h (by decide) hs ex
    exact fin (n := 8) e (by rw [← hv]; exact holds_sx is32 _) (bits_res _) (by rw [← hv]; exact sx_self (by decide) _)
  · have hv := readN_ok h (by decide) hs ex
    exact fin (n := 16) e (by rw [← hv]; exact holds_zx (by decide) is32 _) (bits_res _) (by rw [← hv]; exact zx_low (by decide) _)
  · have hv := readN_ok h (by decide) hs ex
    exact fin (n := 16) e (by rw [← hv]; exact holds_sx is32 _) (bits_res _) (by rw [← hv]; exact sx_self (by decide) _)
  · have hv := readN_ok h (by decide) hs ex
    exact fin (n := 32) e (by rw [← hv]; rfl) (Or.inl (by rw [h32 (Or.inl rfl)]; rfl)) (by rw [← hv]; exact zx_low (by decide) _)
  · have hv := readN_ok h (by decide) hs ex
    exact fin (n := 32) e (by rw [← hv]; rfl) (Or.inl (by rw [h32 (Or.inr rfl)]; rfl)) (by rw [← hv]; exact sx_self (by decide) _)
  · have hv := readN_ok h (by decide) hs ex
    exact fin (n := 32) e hv (Or.inr ⟨rfl, _, rfl⟩) hv
  · have hv := read64_ok h hs ex
    exact fin (n := 64) e hv (Or.inl rfl) ((BitVec.setWidth_eq _).trans hv)

theorem cnt_low (is32 : Bool) (n : Nat) : (BitVec.ofNat 64 n).setWidth (wd is32) = BitVec.ofNat _ n := by
  apply BitVec.eq_of_toNat_eq
  rw [BitVec.toNat_setWidth, BitVec.toNat_ofNat, BitVec.toNat_ofNat]
  cases is32
  · exact Nat.mod_mod _ _
  · change n % 2 ^ 64 % 2 ^ 32 = n % 2 ^ 32
    omega

/-- sljit_emit_op1. -/
theorem exec_op1 (hp : Regs p) (h : Inv p F s1 l s) (hf : FlagsR l s.f) {o : RV.Op1C} {is32 : Bool} {dst src : RV.Opd}
    (hok : InsOk p (.op1 o is32 dst src)) (e : Lir.exec (priv p F (s1.r 4#4)) (.op1 o is32 dst src) l = some l') :
    After ft p F s1 (.op1 o is32 dst src) l' s := by
  obtain ⟨hd, hs, ⟨ho, h32⟩ | ⟨ho, hi⟩⟩ := hok
  · obtain ⟨bs, s', g1, g2, g3, g4⟩ := C50.c50_mov (win := false) ft ho is32 (xo_dest hp hd) (xo_src hp hs) s
    obtain ⟨hn, u, hu, hk, hw⟩ := unary_move h hs ho h32 e
    obtain ⟨w1, w2, w3⟩ := write_ok h hp hn (wr_of1 g3) hd rfl rfl hw hu hk rfl
    exact ⟨s', runs_of g1 g2, w1, hf.same w2 w3 g4⟩
  obtain ⟨bs, s', v, g1, g2, g3, g4⟩ := C50.c50_op1 (win := false) ft ho is32 (xo_dest hp hd) (xo_src hp hs)
    (by cases src <;> first | (rintro v ⟨⟩; done) | exact absurd rfl (hi _)) s
  refine ⟨s', runs_of g1 g2, ?_⟩
  have g4 := wr_of1 g4
  have fin : ∀ {n k : Nat} (hn : Wide n) {u : Val} {x : BitVec n}, Wr n k s s' (xo dst) v →
      Lir.writeN (priv p F (s1.r 4#4)) n l.noFlags dst u x = some l' → Holds u v → (k = 64 ∨ (k = 32 ∧ ∃ y, u = .i y)) → v.setWidth n = x →
      Inv p F s1 l' s' ∧ FlagsR l' s'.f := by
    intro n k hn u x hr hw hu hk hx
    obtain ⟨w1, w2, w3⟩ := write_ok h hp hn hr hd (l0 := l.noFlags) rfl rfl hw hu hk hx
    exact ⟨w1, (FlagsR.none l s'.f).same w2 w3 rfl⟩
  have hwd : C50.width .clz is32 = wd is32 ∧ C50.width .ctz is32 = wd is32 ∧ C50.width .rev is32 = wd is32 := by cases is32 <;> exact ⟨rfl, rfl, rfl⟩
  have hrw : C50.resultWidth .clz is32 = wd is32 ∧ C50.resultWidth .ctz is32 = wd is32 ∧ C50.resultWidth .rev is32 = wd is32 := by
    cases is32 <;> exact ⟨rfl, rfl, rfl⟩
  cases o <;> try (exfalso; apply ho; unfold C50.IsMove; simp; done)
  · obtain ⟨x, ex, e⟩ := Option.bind_eq_some_iff.mp e
    have hv := src_ok h hs ex
    rw [hwd.1] at g3 g4
    rw [hrw.1] at g4
    obtain ⟨n, rfl, g3⟩ := g3
    rw [wd_bits, hv] at g3
    rw [Lir.zeros_eq g3.1 g3.2.1 g3.2.2] at e
    exact fin (wd_wide _) g4 e (holds_set (cnt_low _ _)) (wd_res _) (cnt_low _ _)
  · obtain ⟨x, ex, e⟩ := Option.bind_eq_some_iff.mp e
    have hv := src_ok h hs ex
    rw [hwd.2.1] at g3 g4
    rw [hrw.2.1] at g4
    obtain ⟨n, rfl, g3⟩ := g3
    rw [wd_bits, hv] at g3
    rw [Lir.zeros_eq g3.1 g3.2.1 g3.2.2] at e
    exact fin (wd_wide _) g4 e (holds_set (cnt_low _ _)) (wd_res _) (cnt_low _ _)
  · cases is32
    · obtain ⟨x, ex, e⟩ := Option.bind_eq_some_iff.mp e
      have hr := Lir.rev_ok (n := 8) g3 (src_ok h hs ex)
      exact fin (n := 64) (wd_wide false) g4 e (holds_set (is32 := false) hr) (Or.inl rfl) hr
    · obtain ⟨x, ex, e⟩ := Option.bind_eq_some_iff.mp e
      have hr := Lir.rev_ok (n := 4) g3 (src_ok h hs ex)
      exact fin (n := 32) (wd_wide true) g4 e (holds_set (is32 := true) hr) (Or.inr ⟨rfl, _, rfl⟩) hr
  · obtain ⟨x, ex, e⟩ := Option.bind_eq_some_iff.mp e
    have hr := Lir.rev_ok (n := 2) g3.1 (readN_ok h (by decide) hs ex)
    exact fin (n := 16) (by decide) g4 e (by rw [g3.2, show v.setWidth 16 = _ from hr]; exact holds_zx (by decide) is32 _) (bits_res _) hr
  · obtain ⟨x, ex, e⟩ := Option.bind_eq_some_iff.mp e
    have hr := Lir.rev_ok (n := 2) g3.1 (readN_ok h (by decide) hs ex)
    exact fin (n := 16) (by decide) g4 e (by rw [g3.2, show v.setWidth 16 = _ from hr]; exact holds_sx is32 _) (bits_res _) hr
  · obtain ⟨x, ex, e⟩ := Option.bind_eq_some_iff.mp e
    have hr := Lir.rev_ok (n := 4) g3.1 (readN_ok h (by decide) hs ex)
    exact fin (n := 32) (by decide) g4 e (g3.2.trans (congrArg (BitVec.setWidth 64) hr)) (Or.inl rfl) hr
  · obtain ⟨x, ex, e⟩ := Option.bind_eq_some_iff.mp e
    have hr := Lir.rev_ok (n := 4) g3.1 (readN_ok h (by decide) hs ex)
    exact fin (n := 32) (by decide) g4 e (g3.2.trans (congrArg (BitVec.signExtend 64) hr)) (Or.inl rfl) hr

/-- Every call that does not transfer control and is not a label. -/
theorem exec_ok (hp : Regs p) (h : Inv p F s1 l s) (hf : FlagsR l s.f) {ins : Lir.Ins} (hok : InsOk p ins) (hl : ins ≠ .label)
    (e : Lir.exec (priv p F (s1.r 4#4)) ins l = some l') : After ft p F s1 ins l' s := by
  cases ins with
  | op0 o is32 => exact exec_op0 hp h hok e
  | op1 o is32 dst src => exact exec_op1 hp h hf hok e
  | op2 op dst a b => exact exec_op2 hp h hf hok e
  | op2u op a b => exact exec_op2u hp h hf hok e
  | shiftInto left is32 nz dst a b n => exact exec_shiftInto hp h hok e
  | opFlags code is32 setZ dst type => exact exec_opFlags hp h hf hok e
  | select type is32 dst a b => exact exec_select hp h hf hok e
  | label => exact absurd rfl hl
  | _ => cases e

end Verif.XLir
