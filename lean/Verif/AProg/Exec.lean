import Verif.AProg.Rel
import Verif.A64.JumpWords

/-!
# One call of a program that does not transfer control (ARM64)
-/

namespace Verif.ALir
open Verif.A64 hiding cond moved DstOk
open Verif.Props
open Verif.Imm.Arm64 (regMap)
open Verif.Lir (Val wd)
open Verif.XLir (neg Holds Wide holds_low holds_of holds_val wd_res wd_low wd_wide into_eq ofNat_of ofInt_of toInt_min lmul_u lmul_s
  holds_set zx_low sx_low sx_self holds_zx holds_sx cnt_low)

/-- The calls covered: what the argument checks of sljitLir.c accept, with declared registers.  Not covered are the memory barrier, a shift
for which the backend emits wrong code (`C47.c47_shift_into_false`), and additions (subtractions) with carry where the last operation with flags
was not an addition (subtraction): see `C55.c55_addc_after_sub_false`.  `st` is the flag state of the compiler. -/
def InsOk (p : Frame) (st : FState) : Lir.Ins → Prop
  | .op0 o is32 => o = .nop ∨ o = .endbr ∨ o = .skipFrames ∨ (Lir.plain o = false ∧ 2 ≤ p.scr ∧ (o = .lmulUw ∨ o = .lmulSw → is32 = false))
  | .op1 o is32 dst src => DstOk p dst ∧ SrcOk p src ∧ ((C47.IsMove o ∧ (o = .movU32 ∨ o = .movS32 → is32 = false)) ∨
      (¬ C47.IsMove o ∧ ∀ v, src ≠ .imm v))
  | .op2 op dst a b => DstOk p dst ∧ SrcOk p a ∧ SrcOk p b ∧ C47.IsOp2 op.code ∧ op.flagOk ∧ (op.code = .addc → st = .add) ∧ (op.code = .subc → st = .sub)
  | .op2u op a b => SrcOk p a ∧ SrcOk p b ∧ C47.IsOp2 op.code ∧ op.flagOk ∧ (op.code = .addc → st = .add) ∧ (op.code = .subc → st = .sub)
  | .shiftInto _ is32 _ dst a b n => Decl p dst ∧ Decl p a ∧ Decl p b ∧ SrcOk p n ∧ ar p dst ≠ ar p b ∧
      ∀ v, ao p n = .imm v → v.toNat % C47.bitsOf is32 = 0 → ar p dst = ar p a ∨ ar p a = ar p b
  | .opFlags code _ _ dst _ => DstOk p dst ∧ (code = .mov ∨ code = .and ∨ code = .or ∨ code = .xor)
  | .select _ _ dst a b => Decl p dst ∧ SrcOk p a ∧ Decl p b
  | .label => True
  | .jump (some type) _ _ => type < 14
  | .jump none _ _ => True
  | .cmp type _ a b _ _ => type < 10 ∧ SrcOk p a ∧ SrcOk p b
  | .ret o is32 src => C47.IsMove o ∧ (o = .movU32 ∨ o = .movS32 → is32 = false) ∧ SrcOk p src
  | .retVoid => True
  | .call as _ _ (.fn _) => as.length ≤ 4 ∧ as.length ≤ p.scr
  | .call as _ _ (.opd src) => as.length ≤ 4 ∧ as.length ≤ p.scr ∧ SrcOk p src ∧ ∀ v, src = .imm v → v.toNat % 4 = 0

/-- Execution of the instructions of a call, wherever they are. -/
def Runs (code : Code) (s s' : St) : Prop :=
  ∃ ws, code = some ws ∧ ∀ (c : IMem) (a : BitVec 64) v, WordsAt c a ws → PSteps c ⟨s, v, a⟩ ⟨s', v, a + BitVec.ofNat 64 (4 * ws.length)⟩

variable {st : FState} {p : Frame} {F : Nat} {m1 : MSt} {s : St} {l l' : Lir.LSt}

/-- The state after a call agrees with the interpreter. -/
def After (p : Frame) (F : Nat) (m1 : MSt) (st : FState) (ins : Lir.Ins) (l' : Lir.LSt) (s : St) : Prop :=
  ∃ s', Runs (emit p st ins) s s' ∧ Inv p F m1 l' s' ∧ FlagsR (next p st ins) l' s'

theorem runs_of {code : Code} {ws : List (BitVec 32)} {s s' : St} (h : code = some ws) (hs : runs ws s = some s') : Runs code s s' :=
  ⟨ws, h, fun _ a v hb => psteps_runs ws (p := ⟨s, v, a⟩) hb hs⟩

/-! ## sljit_emit_op2 -/

theorem cin_ok (hf : FlagsR st l s) {op : RV.Op} {cin : Bool} (h1 : op.code = .addc → st = .add) (h2 : op.code = .subc → st = .sub)
    (e : (if op.code = .addc ∨ op.code = .subc then (match l.v with | some (.carry, t) => some t | _ => none) else some false) = some cin) :
    C47.CarryIs op s cin := by
  have key : op.code = .addc ∨ op.code = .subc → C47.Holds st .carry false s cin := by
    intro h
    rw [if_pos h] at e
    split at e
    · next t hv =>
      have ht := Option.some.inj e; subst ht
      have := hf.v _ _ hv .carry false rfl
      rwa [Bool.xor_false] at this
    · cases e
  exact ⟨fun h => h1 h ▸ key (Or.inl h), fun h => h2 h ▸ key (Or.inr h)⟩

theorem wd_bits (is32 : Bool) : C47.bitsOf is32 = wd is32 := by cases is32 <;> rfl

theorem binary_ok (hf : FlagsR st l s) {op : RV.Op} (h1 : op.code = .addc → st = .add) (h2 : op.code = .subc → st = .sub)
    {x y : BitVec (wd op.is32)} {r : BitVec (wd op.is32) × Bool} (er : Lir.binary op l x y = some r) :
    ∃ cin, C47.CarryIs op s cin ∧ r = (RV.val op.code x y cin, RV.flagVal op.code op.flag x y cin) := by
  obtain ⟨cin, e1, e2⟩ := Option.bind_eq_some_iff.mp er
  split at e2
  · cases e2
  exact ⟨cin, cin_ok hf h1 h2 e1, (Option.some.inj e2).symm⟩

/-- sljit_emit_op2. -/
theorem exec_op2 (hp : Regs p) (h : Inv p F m1 l s) (hf : FlagsR st l s) {op : RV.Op} {dst a b : RV.Opd} (hok : InsOk p st (.op2 op dst a b))
    (e : Lir.exec (priv p F (m1.s.r 31#5)) (.op2 op dst a b) l = some l') : After p F m1 st (.op2 op dst a b) l' s := by
  obtain ⟨hd, ha, hb, hop, hfl, h3, h4⟩ := hok
  obtain ⟨x, ex, e⟩ := Option.bind_eq_some_iff.mp e
  obtain ⟨y, ey, e⟩ := Option.bind_eq_some_iff.mp e
  obtain ⟨r, er, e⟩ := Option.bind_eq_some_iff.mp e
  obtain ⟨cin, hc, rfl⟩ := binary_ok hf h3 h4 er
  obtain ⟨bs, s', g1, g2, g3, g4⟩ := C47.c47_op2 hop hfl (ao_dest hp hd) (ao_src hp ha) (ao_src hp hb) s cin hc
  rw [wd_bits, read_ok hp h ha ex, read_ok hp h hb ey] at g3 g4
  obtain ⟨w1, w2, w3⟩ := writeB_ok h hp g3 (fun _ => rfl) hd (l0 := l.setFlags op _ _) rfl rfl e
  exact ⟨s', runs_of g1 g2, w1, FlagsR.set g4 st w2 w3⟩

/-- sljit_emit_op2u. -/
theorem exec_op2u (hp : Regs p) (h : Inv p F m1 l s) (hf : FlagsR st l s) {op : RV.Op} {a b : RV.Opd} (hok : InsOk p st (.op2u op a b))
    (e : Lir.exec (priv p F (m1.s.r 31#5)) (.op2u op a b) l = some l') : After p F m1 st (.op2u op a b) l' s := by
  obtain ⟨ha, hb, hop, hfl, h3, h4⟩ := hok
  obtain ⟨x, ex, e⟩ := Option.bind_eq_some_iff.mp e
  obtain ⟨y, ey, e⟩ := Option.bind_eq_some_iff.mp e
  obtain ⟨r, er, e⟩ := Option.bind_eq_some_iff.mp e
  obtain ⟨cin, hc, rfl⟩ := binary_ok hf h3 h4 er
  obtain ⟨bs, s', g1, g2, g3, g4⟩ := C47.c47_op2u hop hfl (ao_src hp ha) (ao_src hp hb) s cin hc
  rw [wd_bits, read_ok hp h ha ex, read_ok hp h hb ey] at g3 g4
  have el := Option.some.inj e
  refine ⟨s', runs_of g1 g2, keep_ok h hp (fun q h1 h2 => g3.keep q h1 h2 (by rintro ⟨⟩)) (g3.same (by rintro _ _ _ ⟨⟩)) (by rw [← el]; rfl) (by rw [← el]; rfl), ?_⟩
  exact FlagsR.set g4 st (by rw [← el]; rfl) (by rw [← el]; rfl)

/-! ## Flags in a destination -/

/-- sljit_emit_op_flags. -/
theorem exec_opFlags (hp : Regs p) (h : Inv p F m1 l s) (hf : FlagsR st l s) {code : RV.OpC} {is32 setZ : Bool} {dst : RV.Opd} {type : Nat}
    (hok : InsOk p st (.opFlags code is32 setZ dst type)) (e : Lir.exec (priv p F (m1.s.r 31#5)) (.opFlags code is32 setZ dst type) l = some l') :
    After p F m1 st (.opFlags code is32 setZ dst type) l' s := by
  obtain ⟨hd, hc⟩ := hok
  obtain ⟨t, et, e⟩ := Option.bind_eq_some_iff.mp e
  have hs := (hf.says et).2
  have hbit : ∀ w, (if t then 1#w else 0#w) = BitVec.ofNat w t.toNat := fun w => by cases t <;> rfl
  unfold After
  simp only [emit]
  by_cases hm : code = .mov
  · subst hm
    simp only [if_true] at e ⊢
    obtain ⟨bs, s', g1, g2, g3, g4⟩ := C47.c47_flags_mov is32 (ao_dest hp hd) st (jt type) (neg type) s t hs
    have hv : ((if t then 1#64 else 0#64 : BitVec 64).setWidth 64).setWidth (wd is32) = BitVec.ofNat _ t.toNat := by cases t <;> cases is32 <;> rfl
    obtain ⟨w1, w2, w3⟩ := write_ok h hp (wd_wide is32) (wr_of (m := wd is32) (Nat.le_refl 64) g3 (fun _ => by rw [wd_bits])) hd rfl rfl e (holds_set hv) (Or.inl rfl) hv
    exact ⟨s', runs_of g1 g2, w1, hf.same w2 w3 g4⟩
  · rw [if_neg hm] at e
    rw [if_neg hm]
    obtain ⟨old, eo, e⟩ := Option.bind_eq_some_iff.mp e
    have hc' := hc.resolve_left hm
    obtain ⟨bs, s', g1, g2, g3, g4⟩ := C47.c47_flags_op (op := ⟨code, is32, setZ, .none⟩) hc'
      (by rcases hc' with rfl | rfl | rfl <;> simp [RV.Op.flagOk]) (ao_dest hp hd) st (jt type) (neg type) s t hs
    dsimp only at g3 g4
    rw [wd_bits, read_ok hp h hd.src eo, hbit] at g3 g4
    have hv : RV.val code old (BitVec.ofNat _ t.toNat) false = Lir.mix code old t := by
      rcases hc' with rfl | rfl | rfl <;> rfl
    rw [hv] at g3
    obtain ⟨w1, w2, w3⟩ := writeB_ok h hp g3 (fun _ => rfl) hd
      (l0 := { l with z := if setZ then some (decide (Lir.mix code old t = 0)) else none, v := none }) rfl rfl e
    have hst : next p st (.opFlags code is32 setZ dst type) = stateAfter code st := by rcases hc' with rfl | rfl | rfl <;> rfl
    exact ⟨s', runs_of g1 g2, w1, hst ▸ FlagsR.set g4 st (by rw [w2, hv]; rfl) (by rw [w3]; rfl)⟩

/-- sljit_emit_select. -/
theorem exec_select (hp : Regs p) (h : Inv p F m1 l s) (hf : FlagsR st l s) {type : Nat} {is32 : Bool} {dst b : Nat} {a : RV.Opd}
    (hok : InsOk p st (.select type is32 dst a b)) (e : Lir.exec (priv p F (m1.s.r 31#5)) (.select type is32 dst a b) l = some l') :
    After p F m1 st (.select type is32 dst a b) l' s := by
  obtain ⟨hd, ha, hb⟩ := hok
  obtain ⟨t, et, e⟩ := Option.bind_eq_some_iff.mp e
  obtain ⟨x, ex, e⟩ := Option.bind_eq_some_iff.mp e
  obtain ⟨y, ey, e⟩ := Option.bind_eq_some_iff.mp e
  have hd' : DstOk p (.reg dst) := hd
  have hb' : SrcOk p (.reg b) := hb
  obtain ⟨bs, s', g1, g2, g3, g4⟩ := C47.c47_select is32 (ao_dest hp hd') (ao_src hp hb') (ao_src hp ha) st (jt type) (neg type) s t (hf.says et).2
  have r1 := read_ok hp h ha ex
  have r2 : C47.value (wd is32) s (.reg (ar p b)) = y := read_ok hp h hb' ey
  rw [wd_bits, r1, r2] at g3
  obtain ⟨w1, w2, w3⟩ := writeB_ok (dst := .reg dst) h hp g3 (fun _ => rfl) hd' rfl rfl e
  exact ⟨s', runs_of g1 g2, w1, hf.same w2 w3 g4⟩

/-! ## sljit_emit_shift_into -/

theorem exec_shiftInto (hp : Regs p) (h : Inv p F m1 l s) {left is32 nz : Bool} {dst a b : Nat} {n : RV.Opd}
    (hok : InsOk p st (.shiftInto left is32 nz dst a b n)) (e : Lir.exec (priv p F (m1.s.r 31#5)) (.shiftInto left is32 nz dst a b n) l = some l') :
    After p F m1 st (.shiftInto left is32 nz dst a b n) l' s := by
  obtain ⟨hd, ha, hb, hn, hne, k4⟩ := hok
  obtain ⟨x, ex, e⟩ := Option.bind_eq_some_iff.mp e
  obtain ⟨y, ey, e⟩ := Option.bind_eq_some_iff.mp e
  obtain ⟨z, ez, e⟩ := Option.bind_eq_some_iff.mp e
  split at e
  · cases e
  next hnz =>
  have hd' : DstOk p (.reg dst) := hd
  have ha' : SrcOk p (.reg a) := ha
  have hb' : SrcOk p (.reg b) := hb
  have rz := read_ok hp h hn ez
  obtain ⟨bs, s', g1, g2, g3⟩ := C47.c47_shift_into_partial is32 left nz (ao_dest hp hd') (ao_src hp ha') (ao_src hp hb') (ao_src hp hn) hne k4 s
    (by rw [wd_bits, rz]; intro q q'; exact hnz (by simp [q, q']))
  have r1 : C47.value (wd is32) s (.reg (ar p a)) = x := read_ok hp h ha' ex
  have r2 : C47.value (wd is32) s (.reg (ar p b)) = y := read_ok hp h hb' ey
  rw [wd_bits, r1, r2, rz, show C47.into left x y (z.toNat % wd is32) = _ from into_eq left x y (Nat.mod_lt _ (by cases is32 <;> decide))] at g3
  obtain ⟨w1, w2, w3⟩ := writeB_ok (dst := .reg dst) h hp g3 (fun q => absurd rfl (q _)) hd' (l0 := l.noFlags) rfl rfl e
  exact ⟨s', runs_of g1 g2, w1, (FlagsR.none _ l s').same w2 w3 rfl⟩

/-! ## sljit_emit_op0 -/

theorem pair_ok {o : RV.Op0} {is32 : Bool} {x y : BitVec (wd is32)} {ab : BitVec (wd is32) × BitVec (wd is32)} (e : Lir.pair o x y = some ab)
    (h32 : o = .lmulUw ∨ o = .lmulSw → is32 = false) {a b : BitVec 64} (hx : a.setWidth (wd is32) = x) (hy : b.setWidth (wd is32) = y) :
    ∀ a' b', C47.Op0Spec o is32 a b a' b' → a'.setWidth (wd is32) = ab.1 ∧ b'.setWidth (wd is32) = ab.2 := by
  have hmin : ∀ z : BitVec (wd is32), z.toInt = -2 ^ (wd is32 - 1) ↔ z = BitVec.intMin _ := fun z => toInt_min z (by cases is32 <;> decide)
  cases o <;> simp only [Lir.pair] at e <;> try (cases e; done)
  case lmulUw =>
    have := h32 (Or.inl rfl); subst this
    have hx' : a = x := (BitVec.setWidth_eq (n := 64) a).symm.trans hx
    have hy' : b = y := (BitVec.setWidth_eq (n := 64) b).symm.trans hy
    subst hx' hy'
    cases e
    exact fun a' b' h => ⟨(BitVec.setWidth_eq (n := 64) a').trans (lmul_u h).1, (BitVec.setWidth_eq (n := 64) b').trans (lmul_u h).2⟩
  case lmulSw =>
    have := h32 (Or.inr rfl); subst this
    have hx' : a = x := (BitVec.setWidth_eq (n := 64) a).symm.trans hx
    have hy' : b = y := (BitVec.setWidth_eq (n := 64) b).symm.trans hy
    subst hx' hy'
    cases e
    exact fun a' b' h => ⟨(BitVec.setWidth_eq (n := 64) a').trans (lmul_s h).1, (BitVec.setWidth_eq (n := 64) b').trans (lmul_s h).2⟩
  all_goals
    simp only [C47.Op0Spec]
    have hb := wd_bits is32
    generalize C47.bitsOf is32 = n at hb ⊢
    subst hb
    rw [hx, hy]
  case divmodUw =>
    split at e
    · cases e
    next hz =>
    cases e
    exact fun a' b' h => have h := h (fun q => hz (by rw [q]; rfl)); ⟨ofNat_of h.1, ofNat_of h.2⟩
  case divUw =>
    split at e
    · cases e
    next hz =>
    cases e
    exact fun a' b' h => have h := h (fun q => hz (by rw [q]; rfl)); ⟨ofNat_of h.1, by rw [h.2]; exact hy⟩
  case divmodSw =>
    split at e
    · cases e
    next hz =>
    rw [not_or] at hz
    cases e
    exact fun a' b' h => have h := h (fun q => hz.1 (by rw [q]; simp)) (fun q => hz.2 ⟨(hmin x).mpr q.1, q.2⟩); ⟨ofInt_of h.1, ofInt_of h.2⟩
  case divSw =>
    split at e
    · cases e
    next hz =>
    rw [not_or] at hz
    cases e
    exact fun a' b' h => have h := h (fun q => hz.1 (by rw [q]; simp)) (fun q => hz.2 ⟨(hmin x).mpr q.1, q.2⟩); ⟨ofInt_of h.1, by rw [h.2]; exact hy⟩

theorem exec_op0 (hp : Regs p) (h : Inv p F m1 l s) {o : RV.Op0} {is32 : Bool} (hok : InsOk p st (.op0 o is32))
    (e : Lir.exec (priv p F (m1.s.r 31#5)) (.op0 o is32) l = some l') : After p F m1 st (.op0 o is32) l' s := by
  simp only [Lir.exec] at e
  split at e
  · next hpl =>
    rw [← Option.some.inj e]
    refine ⟨s, ?_, keep_ok h hp (fun _ _ _ => rfl) rfl rfl rfl, FlagsR.none _ _ _⟩
    have hok : o = .nop ∨ o = .endbr ∨ o = .skipFrames := by
      rcases hok with q | q | q | ⟨q, -⟩
      · exact Or.inl q
      · exact Or.inr (Or.inl q)
      · exact Or.inr (Or.inr q)
      · rw [q] at hpl; cases hpl
    rcases hok with rfl | rfl | rfl
    · exact ⟨[NOP], rfl, fun c a v hb => PSteps.one (pstep_ctl (p := ⟨s, v, a⟩) (k := .nop) hb.1 (by decide +kernel))⟩
    · exact runs_of (ws := []) rfl rfl
    · exact runs_of (ws := []) rfl rfl
  · next hpl =>
    have hok : 2 ≤ p.scr ∧ (o = .lmulUw ∨ o = .lmulSw → is32 = false) := by
      rcases hok with rfl | rfl | rfl | ⟨-, q⟩
      · exact absurd rfl hpl
      · exact absurd rfl hpl
      · exact absurd rfl hpl
      · exact q
    obtain ⟨hsc, h32⟩ := hok
    have d1 : SrcOk p (.reg 1) := Or.inl ⟨by decide, by omega⟩
    have d2 : SrcOk p (.reg 2) := Or.inl ⟨by decide, by omega⟩
    obtain ⟨x, ex, e⟩ := Option.bind_eq_some_iff.mp e
    obtain ⟨y, ey, e⟩ := Option.bind_eq_some_iff.mp e
    obtain ⟨ab, ep, e⟩ := Option.bind_eq_some_iff.mp e
    have r1 := read_ok hp h d1 ex
    have r2 := read_ok hp h d2 ey
    have a1 : ar p 1 = 1 := by have := hp.sav; unfold ar; rw [if_neg (by decide), if_neg (by omega)]
    have a2 : ar p 2 = 2 := by have := hp.sav; unfold ar; rw [if_neg (by decide), if_neg (by omega)]
    simp only [ao, a1, a2] at r1 r2
    change (s.r (regMap 1)).setWidth _ = x at r1
    change (s.r (regMap 2)).setWidth _ = y at r2
    have k2 := pair_ok ep h32 r1 r2
    obtain ⟨bs, s', g1, g2, g3, -, g4, g5⟩ := C47.c47_op0 (o := o) ⟨fun q => hpl (by rw [q]; rfl), fun q => hpl (by rw [q]; rfl)⟩ is32 s
    obtain ⟨k3, k4⟩ := k2 _ _ g5
    have hh1 := holds_set k3
    have hh2 := holds_set k4
    rw [← Option.some.inj e]
    refine ⟨s', runs_of (show emit p st (.op0 o is32) = some bs from (if_neg fun q => hpl (by rw [q]; rfl)).trans g1) g2, ⟨body_of h hp (fun q h1 h2 hne => ?_) fun q _ => by rw [g3], ?_, ?_⟩, ?_⟩
    · refine g4 q ?_ h2
      have b1 := hne 1 d1
      have b2 := hne 2 d2
      omega
    · intro q hq w hw
      simp only [Lir.LSt.set, Lir.LSt.noFlags] at hw
      by_cases q2 : q = 2
      · rw [if_pos q2] at hw; rw [q2, ← Option.some.inj hw, mval_decl hp d2, a2]; exact hh2
      rw [if_neg q2] at hw
      by_cases q1 : q = 1
      · rw [if_pos q1] at hw; rw [q1, ← Option.some.inj hw, mval_decl hp d1, a1]; exact hh1
      rw [if_neg q1] at hw
      have hb := ar_use hp hq
      have n1 : ar p q ≠ 1 := fun e => q1 (ar_inj hp hq (Or.inl d1) (e.trans a1.symm))
      have n2 : ar p q ≠ 2 := fun e => q2 (ar_inj hp hq (Or.inl d2) (e.trans a2.symm))
      rw [mval, g4 (ar p q) (by omega) hb.2]
      exact h.reg q hq w hw
    · intro a ha
      rw [g3]; exact h.mem a ha
    · exact ⟨by rintro t ⟨⟩, by rintro g t ⟨⟩⟩

/-! ## sljit_emit_op1 -/

theorem src_ok (hp : Regs p) (h : Inv p F m1 l s) {is32 : Bool} {o : RV.Opd} (ho : SrcOk p o) {x : BitVec (wd is32)} (e : Lir.read (priv p F (m1.s.r 31#5)) is32 l o = some x) :
    (C47.source (wd is32) s (ao p o)).setWidth (wd is32) = x := by
  cases is32
  · exact (BitVec.setWidth_eq (n := 64) _).trans (read64_ok hp h ho e)
  · exact readN_ok hp h (by decide) ho (Lir.read_readN e)

theorem bits_res {is32 : Bool} (x : BitVec (wd is32)) : C47.bitsOf is32 = 64 ∨ (C47.bitsOf is32 = 32 ∧ ∃ y, Val.of is32 x = .i y) := by
  rw [wd_bits]; exact wd_res x

/-- A move: the value and the bits that reach memory. -/
theorem unary_move (hp : Regs p) (h : Inv p F m1 l s) {o : RV.Op1C} {is32 : Bool} {dst src : RV.Opd} (hs : SrcOk p src) (ho : C47.IsMove o)
    (h32 : o = .movU32 ∨ o = .movS32 → is32 = false)
    (e : Lir.unary (priv p F (m1.s.r 31#5)) o is32 l dst src = some l') :
    Wide (C47.width o is32) ∧ ∃ u, Holds u (C47.moved o (C47.source (C47.width o is32) s (ao p src))) ∧
      (C47.resultWidth o is32 = 64 ∨ (C47.resultWidth o is32 = 32 ∧ ∃ y, u = .i y)) ∧
      Lir.writeN (priv p F (m1.s.r 31#5)) (C47.width o is32) l dst u ((C47.moved o (C47.source (C47.width o is32) s (ao p src))).setWidth _) = some l' := by
  simp only [C47.IsMove, List.mem_cons, List.not_mem_nil, or_false] at ho
  have fin : ∀ {n : Nat} {v : BitVec 64} {u : Val} {x : BitVec n} {k : Nat},
      Lir.writeN (priv p F (m1.s.r 31#5)) n l dst u x = some l' → Holds u v → (k = 64 ∨ (k = 32 ∧ ∃ y, u = .i y)) → v.setWidth n = x →
      ∃ u, Holds u v ∧ (k = 64 ∨ (k = 32 ∧ ∃ y, u = .i y)) ∧ Lir.writeN (priv p F (m1.s.r 31#5)) n l dst u (v.setWidth n) = some l' :=
    fun hw hu hk hx => ⟨_, hu, hk, by rw [hx]; exact hw⟩
  rcases ho with rfl | rfl | rfl | rfl | rfl | rfl | rfl | rfl | rfl <;> obtain ⟨x, ex, e⟩ := Option.bind_eq_some_iff.mp e <;>
    refine ⟨by simp [C47.width, Wide], ?_⟩
  · have hv := read64_ok hp h hs ex
    exact fin (n := 64) e hv (Or.inl rfl) ((BitVec.setWidth_eq _).trans hv)
  · have hv := readN_ok hp h (by decide) hs ex
    exact fin (n := 8) e (by rw [← hv]; exact holds_zx (by decide) is32 _) (bits_res _) (by rw [← hv]; exact zx_low (by decide) _)
  · have hv := readN_ok hp h (by decide) hs ex
    exact fin (n := 8) e (by rw [← hv]; exact holds_sx is32 _) (bits_res _) (by rw [← hv]; exact sx_self (by decide) _)
  · have hv := readN_ok hp h (by decide) hs ex
    exact fin (n := 16) e (by rw [← hv]; exact holds_zx (by decide) is32 _) (bits_res _) (by rw [← hv]; exact zx_low (by decide) _)
  · have hv := readN_ok hp h (by decide) hs ex
    exact fin (n := 16) e (by rw [← hv]; exact holds_sx is32 _) (bits_res _) (by rw [← hv]; exact sx_self (by decide) _)
  · have hv := readN_ok hp h (by decide) hs ex
    exact fin (n := 32) e (by rw [← hv]; rfl) (Or.inl (by rw [h32 (Or.inl rfl)]; rfl)) (by rw [← hv]; exact zx_low (by decide) _)
  · have hv := readN_ok hp h (by decide) hs ex
    exact fin (n := 32) e (by rw [← hv]; rfl) (Or.inl (by rw [h32 (Or.inr rfl)]; rfl)) (by rw [← hv]; exact sx_self (by decide) _)
  · have hv := readN_ok hp h (by decide) hs ex
    exact fin (n := 32) e hv (Or.inr ⟨rfl, _, rfl⟩) hv
  · have hv := read64_ok hp h hs ex
    exact fin (n := 64) e hv (Or.inl rfl) ((BitVec.setWidth_eq _).trans hv)

/-- sljit_emit_op1. -/
theorem exec_op1 (hp : Regs p) (h : Inv p F m1 l s) (hf : FlagsR st l s) {o : RV.Op1C} {is32 : Bool} {dst src : RV.Opd}
    (hok : InsOk p st (.op1 o is32 dst src)) (e : Lir.exec (priv p F (m1.s.r 31#5)) (.op1 o is32 dst src) l = some l') :
    After p F m1 st (.op1 o is32 dst src) l' s := by
  obtain ⟨hd, hs, ⟨ho, h32⟩ | ⟨ho, hi⟩⟩ := hok
  · obtain ⟨bs, s', g1, g2, g3⟩ := C47.c47_mov ho is32 (ao_dest hp hd) (ao_src hp hs) s
    obtain ⟨hn, u, hu, hk, hw⟩ := unary_move hp h hs ho h32 e
    obtain ⟨w1, w2, w3⟩ := write_ok h hp hn (wr_of1 g3) hd rfl rfl hw hu hk rfl
    exact ⟨s', runs_of g1 g2, w1, hf.same w2 w3 g3.flags⟩
  obtain ⟨bs, s', v, g1, g2, g3, g4⟩ := C47.c47_op1 ho is32 (ao_dest hp hd) (ao_src hp hs)
    (by cases src with
      | imm v => exact absurd rfl (hi v)
      | reg r => rintro v ⟨⟩
      | mem b i w => obtain ⟨B, I, W, q⟩ := ao_mem p b i w; rw [q]; rintro v ⟨⟩) s
  refine ⟨s', runs_of g1 g2, ?_⟩
  have g4 := wr_of1 g4
  have fin : ∀ {n k : Nat} (hn : Wide n) {u : Val} {x : BitVec n}, Wr n k s s' (ao p dst) v →
      Lir.writeN (priv p F (m1.s.r 31#5)) n l.noFlags dst u x = some l' → Holds u v → (k = 64 ∨ (k = 32 ∧ ∃ y, u = .i y)) → v.setWidth n = x →
      Inv p F m1 l' s' ∧ FlagsR st l' s' := by
    intro n k hn u x hr hw hu hk hx
    obtain ⟨w1, w2, w3⟩ := write_ok h hp hn hr hd (l0 := l.noFlags) rfl rfl hw hu hk hx
    exact ⟨w1, (FlagsR.none _ l s').same w2 w3 rfl⟩
  have hwd : C47.width .clz is32 = wd is32 ∧ C47.width .ctz is32 = wd is32 ∧ C47.width .rev is32 = wd is32 := by cases is32 <;> exact ⟨rfl, rfl, rfl⟩
  have hrw : C47.resultWidth .clz is32 = wd is32 ∧ C47.resultWidth .ctz is32 = wd is32 ∧ C47.resultWidth .rev is32 = wd is32 := by
    cases is32 <;> exact ⟨rfl, rfl, rfl⟩
  cases o <;> try (exfalso; apply ho; unfold C47.IsMove; simp; done)
  · obtain ⟨x, ex, e⟩ := Option.bind_eq_some_iff.mp e
    have hv := src_ok hp h hs ex
    rw [hwd.1] at g3 g4
    rw [hrw.1] at g4
    obtain ⟨n, rfl, g3⟩ := g3
    rw [wd_bits, hv] at g3
    rw [Lir.zeros_eq g3.1 g3.2.1 g3.2.2] at e
    exact fin (wd_wide _) g4 e (holds_set (cnt_low _ _)) (wd_res _) (cnt_low _ _)
  · obtain ⟨x, ex, e⟩ := Option.bind_eq_some_iff.mp e
    have hv := src_ok hp h hs ex
    rw [hwd.2.1] at g3 g4
    rw [hrw.2.1] at g4
    obtain ⟨n, rfl, g3⟩ := g3
    rw [wd_bits, hv] at g3
    rw [Lir.zeros_eq g3.1 g3.2.1 g3.2.2] at e
    exact fin (wd_wide _) g4 e (holds_set (cnt_low _ _)) (wd_res _) (cnt_low _ _)
  · cases is32
    · obtain ⟨x, ex, e⟩ := Option.bind_eq_some_iff.mp e
      have hr := Lir.rev_ok (n := 8) g3 (src_ok hp h hs ex)
      exact fin (n := 64) (wd_wide false) g4 e (holds_set (is32 := false) hr) (Or.inl rfl) hr
    · obtain ⟨x, ex, e⟩ := Option.bind_eq_some_iff.mp e
      have hr := Lir.rev_ok (n := 4) g3 (src_ok hp h hs ex)
      exact fin (n := 32) (wd_wide true) g4 e (holds_set (is32 := true) hr) (Or.inr ⟨rfl, _, rfl⟩) hr
  · obtain ⟨x, ex, e⟩ := Option.bind_eq_some_iff.mp e
    have hr := Lir.rev_ok (n := 2) g3.1 (readN_ok hp h (by decide) hs ex)
    exact fin (n := 16) (by decide) g4 e (by rw [g3.2, show v.setWidth 16 = _ from hr]; exact holds_zx (by decide) is32 _) (bits_res _) hr
  · obtain ⟨x, ex, e⟩ := Option.bind_eq_some_iff.mp e
    have hr := Lir.rev_ok (n := 2) g3.1 (readN_ok hp h (by decide) hs ex)
    exact fin (n := 16) (by decide) g4 e (by rw [g3.2, show v.setWidth 16 = _ from hr]; exact holds_sx is32 _) (bits_res _) hr
  · obtain ⟨x, ex, e⟩ := Option.bind_eq_some_iff.mp e
    have hr := Lir.rev_ok (n := 4) g3.1 (readN_ok hp h (by decide) hs ex)
    exact fin (n := 32) (by decide) g4 e (g3.2.trans (congrArg (BitVec.setWidth 64) hr)) (Or.inl rfl) hr
  · obtain ⟨x, ex, e⟩ := Option.bind_eq_some_iff.mp e
    have hr := Lir.rev_ok (n := 4) g3.1 (readN_ok hp h (by decide) hs ex)
    exact fin (n := 32) (by decide) g4 e (g3.2.trans (congrArg (BitVec.signExtend 64) hr)) (Or.inl rfl) hr

/-- Every call that does not transfer control and is not a label. -/
theorem exec_ok (hp : Regs p) (h : Inv p F m1 l s) (hf : FlagsR st l s) {ins : Lir.Ins} (hok : InsOk p st ins) (hl : ins ≠ .label)
    (e : Lir.exec (priv p F (m1.s.r 31#5)) ins l = some l') : After p F m1 st ins l' s := by
  cases ins with
  | op0 o is32 => exact exec_op0 hp h hok e
  | op1 o is32 dst src => exact exec_op1 hp h hf hok e
  | op2 op dst a b => exact exec_op2 hp h hf hok e
  | op2u op a b => exact exec_op2u hp h hf hok e
  | shiftInto left is32 nz dst a b n => exact exec_shiftInto hp h hok e
  | opFlags code is32 setZ dst type => exact exec_opFlags hp h hf hok e
  | select type is32 dst a b => exact exec_select hp h hf hok e
  | label => exact absurd rfl hl
  | _ => cases e

end Verif.ALir
