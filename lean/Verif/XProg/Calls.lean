import Verif.Prog.CallLemmas
import Verif.XProg.Linked

/-!
# Calls of functions (x86-64, System V)
-/

namespace Verif.XLir
open Verif.X86 Verif.Props
open Verif.Lir (Val Mem Contract within nlab)

/-! ## The calling convention -/

/-- A function has returned to its caller: it is at the return address, which is still where it was, with the value in rax, the stack pointer behind the return address and
the callee saved registers as at entry (`s0`); memory outside of `pr` is `m`, memory inside of `pr` has not changed but for the `D` bytes below the stack pointer. -/
structure Returned (pr : BitVec 64 → Bool) (D : Nat) (s0 : St) (v : Option Val) (m : Mem) (t : PSt) : Prop where
  pc : t.pc = rd s0.m (s0.r 4#4) 8
  value : ∀ u, v = some u → Holds u (t.s.r 0#4)
  sp : t.s.r 4#4 = s0.r 4#4 + 8#64
  saved : ∀ q ∈ C51.calleeSaved false, t.s.r q = s0.r q
  mem : ∀ q, pr q = false → t.s.m q = m q
  keep : ∀ q, pr q = true → within (s0.r 4#4 - BitVec.ofNat 64 D) D q = false → t.s.m q = s0.m q

/-- The machine code at the address `a` does what the contract says, for a caller which follows the calling convention: arguments in rdi, rsi, rdx, rcx (the upper half of
a register with a 32 bit argument is undefined), the return address at the stack pointer, the stack pointer aligned to 16 bytes above it, `D` bytes below which nobody
else uses. -/
def Realises (c : IMem) (a : BitVec 64) (X : Contract) : Prop := ∀ (s0 : St) (pr : BitVec 64 → Bool) (D : Nat) (vals : List Val) (m : Mem) (v : Option Val) (m' : Mem),
  D + 8 < 2 ^ 64 → (s0.r 4#4).toNat % 16 = 8 → (∀ q, within (s0.r 4#4 - BitVec.ofNat 64 D) D q = true → pr q = true) →
  (∀ q, within (s0.r 4#4) 8 q = true → pr q = true) → (∀ n u, n < 4 → vals[n]? = some u → Holds u (s0.r (C51.argReg false n))) → (∀ q, pr q = false → s0.m q = m q) →
  X pr (s0.r 4#4) D vals m v m' → ∃ t, PSteps c ⟨s0, a⟩ t ∧ Returned pr D s0 v m' t

/-! ## Instructions -/

theorem mov_reg (s : St) {d r : Nat} (hd : Good (.reg d)) (hr : Good (.reg r)) :
    ∃ s', Runs (emitMov false false (.reg d) (.reg r)) s s' ∧ s'.r (num false d) = s.r (num false r) ∧ (∀ q, q ≠ num false d → s'.r q = s.r q) ∧ s'.m = s.m := by
  obtain ⟨s', h1, h2, -⟩ := e_mov (win := false) (m32 := false) (s := s) hd rfl hr (fun h => by cases h)
  refine ⟨s', h1.runs, h2.val d rfl, fun q hq => h2.regs q (fun d' e => ?_) (fun _ => rfl) (fun _ => rfl), h2.mem⟩
  cases e; exact hq

theorem callReg_flds : ∀ k : BitVec 3, fld (0xd0#8 ||| k.setWidth 8) 6 2 = 3#2 ∧ fld (0xd0#8 ||| k.setWidth 8) 3 3 = 2#3 ∧ fld (0xd0#8 ||| k.setWidth 8) 0 3 = k := by decide

theorem callReg_step {r : Nat} (hr : r ≤ 16) : ∃ bs, emitCallReg r = some bs ∧ ∀ (c : IMem) (q : PSt), BytesAt c q.pc bs →
    step c q = some ⟨q.s.push (q.pc + BitVec.ofNat 64 bs.length), q.s.r (num false r)⟩ := by
  obtain ⟨h1, h2, h3⟩ := callReg_flds (low false r)
  refine ⟨_, callReg_code ⟨r, by omega⟩, fun c q hb => ?_⟩
  simp only at hb ⊢
  have hn := num_eq false r
  have h4 : ¬ (2#3 = 4#3) := by decide
  cases hh : high false r with
  | false =>
    rw [hh] at hb hn
    rw [hn]
    refine step_ctl (k := .callReg (ext false (low false r))) hb (by simp) (fun rest => ff_exec0 _) (fun rest => ?_) rfl
    simp only [Bool.false_eq_true, if_false, List.nil_append, List.cons_append, ctl, show ¬ (0xff#8 = 0xeb#8) by decide, show ¬ (0xff#8 = 0xe9#8) by decide, show ¬ (0xff#8 = 0xe8#8) by decide,
      show ¬ (0xff#8 = 0x90#8) by decide, show ¬ (0xff#8 = 0xc3#8) by decide, show ¬ (fld 0xff#8 4 4 = 7#4) by decide, show ¬ (0xff#8 = 0x0f#8) by decide, show ¬ (fld 0xff#8 4 4 = 4#4) by decide,
      ctlRex, h1, h2, h3, h4, and_false, and_self, if_true]
    rfl
  | true =>
    rw [hh] at hb hn
    rw [hn]
    refine step_ctl (k := .callReg (ext true (low false r))) hb (by simp) (fun rest => ff_exec (by decide) _) (fun rest => ?_) rfl
    simp only [if_true, List.nil_append, List.cons_append, ctl, show ¬ (0x41#8 = 0xeb#8) by decide, show ¬ (0x41#8 = 0xe9#8) by decide, show ¬ (0x41#8 = 0xe8#8) by decide,
      show ¬ (0x41#8 = 0x90#8) by decide, show ¬ (0x41#8 = 0xc3#8) by decide, show ¬ (fld 0x41#8 4 4 = 7#4) by decide, show ¬ (0x41#8 = 0x0f#8) by decide, show fld 0x41#8 4 4 = 4#4 by decide, if_false,
      ctlRex, h1, h2, h3, h4, and_false, and_self]
    rfl

/-- What call_with_args does: arguments are in the registers of the calling convention, the address of the function has not been lost. -/
structure Ready (n : Nat) (s s' : St) : Prop where
  keep : ∀ q, q ≠ 2#4 → q ≠ 7#4 → q ≠ 9#4 → s'.r q = s.r q
  args : ∀ k, k < n → s'.r (C51.argReg false k) = s.r (C46.mreg false (xr (1 + k)))
  m : s'.m = s.m

theorem callArgs_ok (s : St) {n : Nat} (hn : n ≤ 4) (r : Nat) : ∃ s', Runs (callArgs n r).1 s s' ∧ Ready n s s' ∧
    (1 ≤ r → r ≤ 16 → r ≠ 14 → r ≠ TMP_REG1 → s'.r (num false (callArgs n r).2) = s.r (num false r)) := by
  have n3 : num false 3 = 7#4 := by decide
  have n1 : num false 1 = 0#4 := by decide
  have nt : num false TMP_REG1 = 2#4 := by decide
  have key : ∀ k, k < 4 → (C51.argReg false k = [7#4, 6#4, 2#4, 1#4].getD k 0#4 ∧ C46.mreg false (xr (1 + k)) = [0#4, 6#4, 7#4, 1#4].getD k 0#4) := by decide
  unfold callArgs
  split
  · next h0 => exact ⟨s, Runs.nil s, ⟨fun _ _ _ _ => rfl, fun k hk => by omega, rfl⟩, fun _ _ _ _ => rfl⟩
  · next h0 =>
    split
    · next h3 =>
      obtain ⟨s1, a1, a2, a3, a4⟩ := mov_reg s (d := TMP_REG1) (r := 3) ⟨by decide, by decide, by decide⟩ ⟨by decide, by decide, by decide⟩
      obtain ⟨s2, b1, b2, b3, b4⟩ := mov_reg s1 (d := 3) (r := 1) ⟨by decide, by decide, by decide⟩ ⟨by decide, by decide, by decide⟩
      rw [n3, n1] at b2
      rw [nt, n3] at a2
      rw [nt] at a3
      rw [n3] at b3
      have e2 : s2.r 2#4 = s.r 7#4 := (b3 _ (by decide)).trans a2
      refine ⟨s2, a1.cat b1, ⟨fun q h1 h2 _ => (b3 q h2).trans (a3 q h1), fun k hk => ?_, b4.trans a4⟩, fun r1 r2 r3 r4 => ?_⟩
      · obtain ⟨k1, k2⟩ := key k (by omega)
        rw [k1, k2]
        match k, (show k < 4 by omega) with
        | 0, _ => exact b2.trans (a3 _ (by decide))
        | 1, _ => exact (b3 _ (by decide)).trans (a3 _ (by decide))
        | 2, _ => exact e2
        | 3, _ => exact (b3 _ (by decide)).trans (a3 _ (by decide))
      · show s2.r (num false (if r = 3 then TMP_REG1 else r)) = _
        split
        · next e => rw [nt, e2, e, n3]
        · next e =>
          rw [b3 _ (by rw [← n3]; exact num_ne r1 r2 (by decide) (by decide) e), a3 _ (by rw [← nt]; exact num_ne r1 r2 (by decide) (by decide) r4)]
    · next h3 =>
      obtain ⟨s2, b1, b2, b3, b4⟩ := mov_reg s (d := 3) (r := 1) ⟨by decide, by decide, by decide⟩ ⟨by decide, by decide, by decide⟩
      rw [n3, n1] at b2
      rw [n3] at b3
      refine ⟨s2, b1, ⟨fun q h1 h2 _ => b3 q h2, fun k hk => ?_, b4⟩, fun r1 r2 r3 r4 => ?_⟩
      · obtain ⟨k1, k2⟩ := key k (by omega)
        rw [k1, k2]
        match k, (show k < 2 by omega) with
        | 0, _ => exact b2
        | 1, _ => exact b3 _ (by decide)
      · show s2.r (num false r) = _
        exact b3 _ (by rw [← n3]; exact num_ne r1 r2 (by decide) (by decide) (by omega))

variable {ft : Feat} {p : Frame} {args : List Bool} {P : List Lir.Ins} {L : XLir.Loc} {s0 s1 : St} {t : PSt}

/-! ## The call instruction -/

/-- The machine is at the function which is called. -/
structure Called (ft : Feat) (p : Frame) (L : XLir.Loc) (pre rest : List Lir.Ins) (n : Nat) (a : BitVec 64) (t t' : PSt) : Prop where
  steps : PSteps L.c t t'
  pc : t'.pc = a
  keep : ∀ q, q ≠ 2#4 → q ≠ 7#4 → q ≠ 9#4 → q ≠ 4#4 → t'.s.r q = t.s.r q
  args : ∀ k, k < n → t'.s.r (C51.argReg false k) = t.s.r (C46.mreg false (xr (1 + k)))
  sp : t'.s.r 4#4 = t.s.r 4#4 - 8#64
  m : ∀ q, 8 ≤ (q - (t.s.r 4#4 - 8#64)).toNat → t'.s.m q = t.s.m q
  ret : L.has (rest.flatMap (itemsT L.u ft p)) (rd t'.s.m (t'.s.r 4#4) 8) (nlab pre)

/-- Argument registers are neither TMP_REG2 nor the stack pointer. -/
theorem arg_ne : ∀ k, k < 4 → C51.argReg false k ≠ 9#4 ∧ C51.argReg false k ≠ 4#4 := by decide

/-- After a piece of code which prepares the arguments. -/
theorem Called.before {pre rest : List Lir.Ins} {n : Nat} {a : BitVec 64} {t' u : PSt} (hn : n ≤ 4) (hs : PSteps L.c t u) (hr : Ready n t.s u.s)
    (h1 : PSteps L.c u t') (h2 : t'.pc = a) (h3 : ∀ q, q ≠ 9#4 → q ≠ 4#4 → t'.s.r q = u.s.r q) (h4 : t'.s.r 4#4 = u.s.r 4#4 - 8#64) {ra : BitVec 64}
    (h5 : t'.s.m = wr u.s.m (u.s.r 4#4 - 8#64) 8 ra) (h6 : L.has (rest.flatMap (itemsT L.u ft p)) ra (nlab pre)) : Called ft p L pre rest n a t t' := by
  have esp : u.s.r 4#4 = t.s.r 4#4 := hr.keep _ (by decide) (by decide) (by decide)
  refine ⟨hs.trans h1, h2, fun q a1 a2 a3 a4 => (h3 q a3 a4).trans (hr.keep q a1 a2 a3), fun k hk => ?_, by rw [h4, esp], fun q hq => ?_, ?_⟩
  · obtain ⟨k1, k2⟩ := arg_ne k (by omega)
    rw [h3 _ k1 k2, hr.args k hk]
  · rw [h5, wr_out (by rw [esp]; exact hq), hr.m]
  · rw [h4, h5, rd_wr]; exact h6

/-- A call through a jump record. -/
theorem called_jump {pre rest : List Lir.Ins} {n : Nat} (hn : n ≤ 4) {rew : Bool} {tg : Tgt} {bs : List Byte} (hbs : (callArgs n 0).1 = some bs)
    (h : L.has (piece bs ++ Item.jump ⟨38, rew, tg⟩ :: rest.flatMap (itemsT L.u ft p)) t.pc (nlab pre)) :
    ∃ t', Called ft p L pre rest n (tgtOf L.laddr tg) t t' := by
  obtain ⟨ca, ja, h⟩ := h
  rw [List.append_assoc] at h
  obtain ⟨c1, c2⟩ := placed_piece h
  obtain ⟨s', ⟨bs', e1, e2⟩, e3, -⟩ := callArgs_ok t.s hn 0
  obtain rfl : bs = bs' := Option.some.inj (hbs.symm.trans e1)
  obtain ⟨k, x, ja', -, hj, -, hnext⟩ := c2
  have hj := hj ⟨s', t.pc + BitVec.ofNat 64 bs.length⟩ rfl
  rw [JumpDoes, if_neg (show ¬ (38 < 36) by decide), if_neg (show ¬ (38 = 36) by decide)] at hj
  obtain ⟨t', g1, g2, g3, -, g4, g5⟩ := hj
  have n9 : num false TMP_REG2 = 9#4 := by decide
  rw [n9] at g3
  exact ⟨t', Called.before hn (e2 L.c t.pc c1) e3 g1 g2 g3 g4 g5 ⟨ca, ja', hnext⟩⟩

/-- A call through a register, after some instructions. -/
theorem called_reg {pre rest : List Lir.Ins} {n : Nat} (hn : n ≤ 4) {r : Nat} (hr : r ≤ 16) {code : Code} {s' : St} {a : BitVec 64} (hs : Runs code t.s s') (hrd : Ready n t.s s')
    (ha : s'.r (num false r) = a)
    (h : L.has (((code +> emitCallReg r).map piece).getD [] ++ rest.flatMap (itemsT L.u ft p)) t.pc (nlab pre)) : ∃ t', Called ft p L pre rest n a t t' := by
  obtain ⟨bs, e1, e2⟩ := hs
  obtain ⟨cs, e3, e4⟩ := callReg_step hr
  obtain ⟨ca, ja, h⟩ := h
  rw [e1, e3, List.append_assoc] at h
  obtain ⟨c1, c2⟩ := placed_piece (bs := bs ++ cs) h
  obtain ⟨b1, b2⟩ := BytesAt.append.mp c1
  refine ⟨_, Called.before hn (e2 L.c t.pc b1) hrd (PSteps.step (e4 L.c _ b2) (.refl _)) ha (fun q _ h4 => ?_) ?_ rfl ⟨ca, ja, ?_⟩⟩
  · simp only [St.push, St.set, h4, if_false]
  · simp only [St.push, St.set, if_true]
  · rw [BitVec.add_assoc, ← BitVec.ofNat_add, ← List.length_append]; exact c2

theorem call_ok (hA : At ft p args P L s0 s1) {as : List Bool} {ret : Option Bool} {rew : Bool} {who : Lir.Callee} {pre rest : List Lir.Ins} {l : Lir.LSt}
    (hP : P = pre ++ .call as ret rew who :: rest) (hpl : L.has ((Lir.Ins.call as ret rew who :: rest).flatMap (itemsT L.u ft p)) t.pc (nlab pre))
    (hi : Inv p (p.total false) s1 l t.s)
    {env : Nat → BitVec 64} (henv : ∀ f, env f = tgtOf L.laddr (L.u.fn f)) {a : BitVec 64}
    (ha : who.addr (priv p (p.total false) (s1.r 4#4)) env l = some a) : ∃ t', Called ft p L pre rest as.length a t t' := by
  have hp := Regs.of hA.legal
  have hok := hA.ins (.call as ret rew who) (by rw [hP]; exact List.mem_append_right _ List.mem_cons_self)
  rw [List.flatMap_cons] at hpl
  have jmp : ∀ {rew : Bool} {tg : Tgt}, as.length ≤ 4 → L.has (((callArgs as.length 0).1.map fun bs => piece bs ++ [Item.jump ⟨38, rew, tg⟩]).getD [] ++ rest.flatMap (itemsT L.u ft p)) t.pc (nlab pre) →
      ∃ t', Called ft p L pre rest as.length (tgtOf L.laddr tg) t t' := by
    intro rew tg hn h
    obtain ⟨bs, e⟩ := callArgs_some as.length (r := 0)
    refine called_jump hn (rew := rew) e ?_
    rw [e] at h
    simpa using h
  cases who with
  | fn f =>
    rw [show a = tgtOf L.laddr (L.u.fn f) by rw [← henv]; exact (Option.some.inj ha).symm]
    exact jmp hok.1 hpl
  | opd src =>
    obtain ⟨hn, -, hs⟩ := hok
    have hval : C46.value false t.s 64 (xo src) = a := read_ok hi hs ha
    have hsrc := xo_src hp hs
    change L.has ((emitIcall as.length (xo src)).getD [] ++ _) _ _ at hpl
    generalize xo src = o at hval hsrc hpl
    cases o with
    | imm v =>
      obtain rfl : v = a := by rw [← hval]; exact (BitVec.setWidth_eq _).symm
      exact jmp (tg := .addr v) hn hpl
    | reg r =>
      obtain ⟨s', g1, g2, g3⟩ := callArgs_ok t.s hn r
      have hr := hsrc.2
      refine called_reg hn (callArgs_reg (by omega)) g1 g2 ?_ hpl
      rw [g3 hsrc.1 (by omega) (by omega) (by unfold TMP_REG1; omega), ← hval]
      exact (BitVec.setWidth_eq _).symm
    | mem b i w =>
      obtain ⟨s2, r1, r2, -⟩ := e_mov (win := false) (m32 := false) (s := t.s) (dst := .reg TMP_REG2) (src := .mem b i w) ⟨by decide, by decide, by decide⟩ rfl hsrc (fun e => by cases e)
      obtain ⟨s', g1, g2, g3⟩ := callArgs_ok s2 hn TMP_REG2
      have n9 : num false TMP_REG2 = 9#4 := by decide
      have hk : ∀ q, q ≠ 9#4 → s2.r q = t.s.r q := fun q hq => r2.regs q (fun d e => by cases e; rw [n9]; exact hq) (fun _ => rfl) (fun e => absurd e (by rw [show T2 false = 9#4 by decide]; exact hq))
      have hm : s2.m = t.s.m := r2.mem
      refine called_reg hn (r := (callArgs as.length TMP_REG2).2) (callArgs_reg (by decide)) (r1.runs.cat g1) ⟨fun q a1 a2 a3 => (g2.keep q a1 a2 a3).trans (hk q a3), fun k hk' => ?_, g2.m.trans hm⟩ ?_ ?_
      · rw [g2.args k hk', hk _ ?_]
        have : ∀ k, k < 4 → C46.mreg false (xr (1 + k)) ≠ 9#4 := by decide
        exact this k (by omega)
      · rw [g3 (by decide) (by decide) (by decide) (by decide), r2.val _ rfl, ← hval]
        have := C46.value_lo false t.s false (.mem b i w)
        exact this.symm
      · rw [cat_assoc]; exact hpl

end Verif.XLir
