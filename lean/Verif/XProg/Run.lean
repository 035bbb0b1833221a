import Verif.XProg.Total
import Verif.XProg.Link
import Verif.Prog.Whole

/-!
# Steps of a program and steps of the machine (x86-64)
-/

namespace Verif.XLir
open Verif.X86 Verif.Props
open Verif.Lir (Val wd nlab after_split nlab_snoc)

variable {u : Ctx} {ft : Feat} {p : Frame} {args : List Bool}

theorem Regs.of (h : C51.Legal false p false args) : Regs p := by
  have h1 := h.sav
  have h2 := h.scr
  exact ⟨by simp only [C51.lastSaved, Bool.false_eq_true, if_false] at h1; omega, h2⟩

/-! ## Items -/

theorem ret_some (h : C51.Legal false p false args) (ft : Feat) {ins : Lir.Ins} (hok : InsOk p ins)
    (hr : ins = .retVoid ∨ ∃ o is32 src, ins = .ret o is32 src) : ∃ bs, emit ft p ins = some bs ∧ bs ≠ [] := by
  obtain ⟨s1, -, he, hs, hu⟩ := C51.entered h ones
  have hb : C51.Body false p (p.total false) s1 s1 := ⟨rfl, fun _ _ _ _ => rfl, fun _ _ _ => rfl⟩
  have ne : ∀ {a : Code} {bs}, (a +> some [0xc3#8]) = some bs → bs ≠ [] := by
    rintro a bs e rfl
    cases a <;> simp [cat] at e
  rcases hr with rfl | ⟨o, is32, src, rfl⟩
  · obtain ⟨_, ⟨bs, e, -⟩, -⟩ := C51.return_void h he hs hu hb
    exact ⟨bs, e, ne e⟩
  · obtain ⟨ho, h32, hsrc⟩ := hok
    obtain ⟨_, ⟨bs, e, -⟩, -⟩ := C51.return_value ft h ho is32 (xo_src (Regs.of h) hsrc) he hs hu hb
    have e' := e
    unfold emitReturn emitReturnVoid at e'
    rw [← cat_assoc] at e'
    exact ⟨bs, e, ne e'⟩

/-! ## Calls of other functions -/

theorem callArgs_some (n : Nat) {r : Nat} : ∃ bs, (callArgs n r).1 = some bs := by
  have h1 : (emitMov false false (.reg TMP_REG1) (.reg 3)).isSome = true := by decide +kernel
  have h2 : (emitMov false false (.reg 3) (.reg 1)).isSome = true := by decide +kernel
  obtain ⟨b1, e1⟩ := Option.isSome_iff_exists.mp h1
  obtain ⟨b2, e2⟩ := Option.isSome_iff_exists.mp h2
  unfold callArgs
  split
  · exact ⟨_, rfl⟩
  · split
    · exact ⟨b1 ++ b2, by rw [e1, e2]; rfl⟩
    · exact ⟨b2, e2⟩

theorem callReg_code : ∀ r : _root_.Fin 17, emitCallReg r.val = some ((if high false r.val then [0x41#8] else []) ++ [0xff#8, 0xd0#8 ||| (low false r.val).setWidth 8]) := by decide +kernel

theorem callReg_some {r : Nat} (h : r ≤ 16) : ∃ bs, emitCallReg r = some bs := ⟨_, callReg_code ⟨r, by omega⟩⟩

theorem callArgs_reg {n r : Nat} (h : r ≤ 16) : (callArgs n r).2 ≤ 16 := by
  unfold callArgs
  split
  · exact h
  · split
    · show (if r = 3 then TMP_REG1 else r) ≤ 16
      split
      · decide
      · exact h
    · exact h

theorem icall_some (n : Nat) {o : Opd} (h : C46.Src o) : ∃ is, emitIcall n o = some is := by
  cases o with
  | imm v =>
    obtain ⟨bs, e⟩ := callArgs_some n (r := 0)
    exact ⟨_, by simp only [emitIcall, e, Option.map_some]; rfl⟩
  | reg r =>
    obtain ⟨bs, e⟩ := callArgs_some n (r := r)
    obtain ⟨cs, e'⟩ := callReg_some (callArgs_reg (n := n) (r := r) (by have := h.2; omega))
    exact ⟨_, by simp only [emitIcall, e, e', cat, Option.map_some]; rfl⟩
  | mem b i w =>
    obtain ⟨bs, e⟩ := callArgs_some n (r := TMP_REG2)
    obtain ⟨cs, e'⟩ := callReg_some (callArgs_reg (n := n) (r := TMP_REG2) (by decide))
    obtain ⟨t, ⟨ds, e2, -⟩, -⟩ := e_mov (win := false) (m32 := false) (s := ones) (dst := .reg TMP_REG2) (src := .mem b i w) ⟨by decide, by decide, by decide⟩ rfl h (fun e => by cases e)
    exact ⟨_, by simp only [emitIcall, e, e', e2, cat, Option.map_some]; rfl⟩

/-- The items of a call that has some. -/
def itemsT (u : Ctx) (ft : Feat) (p : Frame) (ins : Lir.Ins) : List Item := (items u ft p ins).getD []

theorem emit_ok (h : C51.Legal false p false args) (ft : Feat) {ins : Lir.Ins} (hok : InsOk p ins) : ∃ bs, emit ft p ins = some bs := by
  by_cases hr : ins = .retVoid ∨ ∃ o is32 src, ins = .ret o is32 src
  · obtain ⟨bs, e, -⟩ := ret_some h ft hok hr
    exact ⟨bs, e⟩
  · exact emit_some (Regs.of h) ft hok ⟨fun o is32 src e => hr (Or.inr ⟨o, is32, src, e⟩), fun e => hr (Or.inl e)⟩

theorem items_some (h : C51.Legal false p false args) (ft : Feat) {ins : Lir.Ins} (hok : InsOk p ins) : items u ft p ins = some (itemsT u ft p ins) := by
  have : ∃ is, items u ft p ins = some is := by
    have plain := emit_ok h ft hok
    cases ins with
    | label => exact ⟨_, rfl⟩
    | jump type rew k => cases type <;> exact ⟨_, rfl⟩
    | call as ret rew who =>
      cases who with
      | fn k => exact Option.isSome_iff_exists.mp (by simp only [items]; obtain ⟨bs, e⟩ := callArgs_some as.length (r := 0); rw [e]; rfl)
      | opd src => exact icall_some _ (xo_src (Regs.of h) hok.2.2)
    | cmp type is32 a b rew k =>
      obtain ⟨bs, e⟩ := cmp_some (Regs.of h) (type := type) (is32 := is32) hok.2.1 hok.2.2
      exact ⟨_, by simp only [items, e, Option.map_some]; rfl⟩
    | _ => obtain ⟨bs, e⟩ := plain; exact ⟨_, by simp only [items, e, Option.map_some]; rfl⟩
  obtain ⟨is, e⟩ := this
  rw [itemsT, e]; rfl

theorem comp_eq (h : C51.Legal false p false args) (ft : Feat) : ∀ {P : List Lir.Ins}, (∀ i ∈ P, InsOk p i) → comp u ft p P = some (P.flatMap (itemsT u ft p))
  | [], _ => rfl
  | i :: P, hP => by
    rw [comp, items_some h ft (hP i List.mem_cons_self), comp_eq h ft fun i hi => hP i (List.mem_cons_of_mem _ hi)]
    rfl

theorem labels_append (a b : List Item) : Prog.labels (a ++ b) = Prog.labels a + Prog.labels b := by
  induction a with
  | nil => simp [Prog.labels]
  | cons i is ih => cases i <;> simp only [List.cons_append, Prog.labels, ih] <;> omega

theorem labels_piece (bs : List Byte) : Prog.labels (piece bs) = 0 := by unfold piece; split <;> rfl

theorem labels_items (u : Ctx) (ft : Feat) (p : Frame) (ins : Lir.Ins) : Prog.labels (itemsT u ft p ins) = if ins = .label then 1 else 0 := by
  have pl : ∀ c : Code, Prog.labels ((c.map piece).getD []) = 0 := by
    intro c; cases c
    · rfl
    · exact labels_piece _
  cases ins with
  | jump t r k => cases t <;> rfl
  | cmp type is32 a b rew k =>
    simp only [itemsT, items]
    cases (emitCmp type is32 (xo a) (xo b)).1
    · rfl
    · simp [labels_append, labels_piece, Prog.labels]
  | label => rfl
  | call as ret rew who =>
    cases who with
    | fn k =>
      simp only [itemsT, items]
      cases (callArgs as.length 0).1
      · rfl
      · simp [labels_append, labels_piece, Prog.labels]
    | opd src =>
      simp only [itemsT, items]
      cases xo src with
      | imm v =>
        simp only [emitIcall]
        cases (callArgs as.length 0).1
        · rfl
        · simp [labels_append, labels_piece, Prog.labels]
      | reg r => exact pl _
      | mem b i w => exact pl _
  | _ => exact pl _

theorem labels_comp (u : Ctx) (ft : Feat) (p : Frame) : ∀ P : List Lir.Ins, Prog.labels (P.flatMap (itemsT u ft p)) = nlab P
  | [] => rfl
  | i :: P => by
    rw [List.flatMap_cons, labels_append, labels_items, labels_comp u ft p P, nlab, nlab, List.countP_cons]
    by_cases h : i = .label <;> simp [h]; omega

/-! ## Code in memory -/

variable {c : IMem} {off a0 : BitVec 64} {laddr : List (BitVec 64)} {fin : BitVec 64}

theorem placed_piece {bs : List Byte} {is : List Item} {a : BitVec 64} {li : Nat} {ca : List (BitVec 64)} {ja : List Nat}
    (h : Placed c false off a0 laddr (piece bs ++ is) a li ca ja fin) :
    BytesAt c a bs ∧ Placed c false off a0 laddr is (a + BitVec.ofNat 64 bs.length) li ca ja fin := by
  unfold piece at h
  split at h
  · next he =>
    subst he
    exact ⟨by simp [BytesAt], by simpa using h⟩
  · exact h

theorem placed_suffix : ∀ (xs : List Item) {is : List Item} {a : BitVec 64} {li : Nat} {ca : List (BitVec 64)} {ja : List Nat},
    Placed c false off a0 laddr (xs ++ is) a li ca ja fin → ∃ a' ca' ja', Placed c false off a0 laddr is a' (li + Prog.labels xs) ca' ja' fin
  | [], _, a, _, ca, ja, h => ⟨a, ca, ja, h⟩
  | .bytes bs :: xs, _, _, _, _, _, h => placed_suffix xs h.2
  | .const bs :: xs, _, _, _, _, _, ⟨_, _, _, h⟩ => placed_suffix xs h
  | .label :: xs, _, _, li, _, _, h => by
    obtain ⟨a', ca', ja', q⟩ := placed_suffix xs h.2
    exact ⟨a', ca', ja', by rw [Prog.labels, show li + (Prog.labels xs + 1) = li + 1 + Prog.labels xs by omega]; exact q⟩
  | .alabel al :: xs, _, _, li, _, _, ⟨_, _, _, _, h⟩ => by
    obtain ⟨a', ca', ja', q⟩ := placed_suffix xs h
    exact ⟨a', ca', ja', by rw [Prog.labels, show li + (Prog.labels xs + 1) = li + 1 + Prog.labels xs by omega]; exact q⟩
  | .jump j :: xs, _, _, _, _, _, ⟨_, _, _, _, _, _, h⟩ => placed_suffix xs h
  | .mov r t :: xs, _, _, _, _, _, ⟨_, _, _, _, _, h⟩ => placed_suffix xs h

/-! ## Simulation -/

/-- After the function has returned: at the return address of its caller, with the value in rax (the lower half if it is a 32 bit
value), the stack pointer behind the return address and the callee saved registers as they were at entry (`s0`); memory, but for the part
of the stack frame that was private to the code generator, is what the program left; the return address is still on the stack. -/
structure Final (p : Frame) (F : Nat) (s0 : St) (v : Option Val) (m : BitVec 64 → BitVec 8) (t : PSt) : Prop where
  pc : t.pc = rd s0.m (s0.r 4#4) 8
  value : ∀ u, v = some u → Holds u (t.s.r 0#4)
  sp : t.s.r 4#4 = s0.r 4#4 + 8#64
  saved : ∀ q ∈ C51.calleeSaved false, t.s.r q = s0.r q
  mem : ∀ a, priv p F (s0.r 4#4 - BitVec.ofNat 64 F) a = false → t.s.m a = m a
  top : ∀ a, (a - s0.r 4#4).toNat < 8 → t.s.m a = s0.m a

/-- Where the body of a function is: its context, the items behind it; the code memory with the result of code generation. -/
structure Loc where
  u : Ctx
  tail : List Item
  c : IMem
  off : BitVec 64
  a0 : BitVec 64
  laddr : List (BitVec 64)
  fin : BitVec 64

/-- The items are at the address `a`, after `li` labels of the function. -/
def Loc.has (L : Loc) (is : List Item) (a : BitVec 64) (li : Nat) : Prop := ∃ ca ja, Placed L.c false L.off L.a0 L.laddr (is ++ L.tail) a (L.u.lb + li) ca ja L.fin

/-- A function in memory; the stack frame was made in the state `s0`, `s1` is the state after it. -/
structure At (ft : Feat) (p : Frame) (args : List Bool) (P : List Lir.Ins) (L : Loc) (s0 s1 : St) : Prop where
  legal : C51.Legal false p false args
  ins : ∀ ins ∈ P, InsOk p ins
  placed : ∃ a, L.has (P.flatMap (itemsT L.u ft p)) a 0
  entered : C51.Entered false p false args (p.total false) s0 s1
  slots : Slots false s0.r s1.m (s0.r 4#4) (p.regs false)
  upper : ∀ q, p.total false ≤ (q - s1.r 4#4).toNat → s1.m q = s0.m q

/-- The machine state belongs to the configuration of the program. -/
def Sim (ft : Feat) (p : Frame) (P : List Lir.Ins) (L : Loc) (s0 s1 : St) : Lir.Conf → PSt → Prop
  | .run rest l, t => (∃ pre, P = pre ++ rest ∧ L.has (rest.flatMap (itemsT L.u ft p)) t.pc (nlab pre) ∧
      FlagsR l t.s.f) ∧ Inv p (p.total false) s1 l t.s
  | .done v m, t => Final p (p.total false) s0 v m t

variable {P : List Lir.Ins} {L : Loc} {s0 s1 : St} {t : PSt}

/-- A jump to a label. -/
theorem goto_ok (hA : At ft p args P L s0 s1) {k : Nat} {r : List Lir.Ins} (e : Lir.after k P = some r) {l : Lir.LSt} {t' : PSt}
    (hpc : t'.pc = L.laddr.getD (L.u.lb + k) 0#64) (hi : Inv p (p.total false) s1 l.noFlags t'.s) :
    Sim ft p P L s0 s1 (.run r l.noFlags) t' := by
  obtain ⟨pre, h1, h2⟩ := after_split P k r e
  obtain ⟨a, ca, ja, hpl⟩ := hA.placed
  rw [h1, List.flatMap_append, List.append_assoc] at hpl
  obtain ⟨a', ca', ja', q⟩ := placed_suffix _ hpl
  rw [labels_comp, Nat.add_zero, h2] at q
  obtain ⟨q1, q2⟩ := q
  refine ⟨⟨pre ++ [.label], by rw [h1]; simp, ⟨ca', ja', ?_⟩, FlagsR.none _ _⟩, hi⟩
  have en : nlab (pre ++ [.label]) = k + 1 := by simp only [nlab, List.countP_append] at h2 ⊢; simp [h2]
  rw [en, hpc, List.getD_eq_getElem?_getD, q1]
  exact q2

/-- The next call. -/
theorem next_ok {ins : Lir.Ins} {rest pre : List Lir.Ins} (hP : P = pre ++ ins :: rest) (hl : ins ≠ .label) {l : Lir.LSt} {t' : PSt}
    (hpl : L.has (rest.flatMap (itemsT L.u ft p)) t'.pc (nlab pre))
    (hf : FlagsR l t'.s.f) (hi : Inv p (p.total false) s1 l t'.s) : Sim ft p P L s0 s1 (.run rest l) t' :=
  ⟨⟨pre ++ [ins], by simp [hP], by rw [nlab_snoc hl]; exact hpl, hf⟩, hi⟩

/-- A call that does not transfer control. -/
theorem plain_ok (hA : At ft p args P L s0 s1) {ins : Lir.Ins} {rest : List Lir.Ins} {l l' : Lir.LSt}
    (hs : Sim ft p P L s0 s1 (.run (ins :: rest) l) t) (hl : ins ≠ .label)
    (e : Lir.exec (priv p (p.total false) (s1.r 4#4)) ins l = some l') (hit : items L.u ft p ins = (emit ft p ins).map piece) :
    ∃ t', PSteps L.c t t' ∧ Sim ft p P L s0 s1 (.run rest l') t' := by
  obtain ⟨⟨pre, hP, ⟨ca, ja, hpl⟩, hf⟩, hi⟩ := hs
  have hok := hA.ins ins (by rw [hP]; simp)
  obtain ⟨s', ⟨bs, r0, r1⟩, r2, r3⟩ := exec_ok (ft := ft) (Regs.of hA.legal) hi hf hok hl e
  rw [List.flatMap_cons, itemsT, hit, r0, List.append_assoc] at hpl
  obtain ⟨c1, c2⟩ := placed_piece (bs := bs) hpl
  exact ⟨⟨s', t.pc + BitVec.ofNat 64 bs.length⟩, r1 L.c t.pc c1, next_ok hP hl ⟨ca, ja, c2⟩ r3 r2⟩

theorem goes_inv (hp : Regs p) {F : Nat} {l l' : Lir.LSt} {s s' : St} (h : Inv p F s1 l s) (hq : ∀ q, q ∉ [num false TMP_REG2] → s'.r q = s.r q)
    (hm : s'.m = s.m) (e1 : l'.reg = l.reg) (e2 : l'.mem = l.mem) : Inv p F s1 l' s' := by
  refine keep_ok h hp (fun q h1 h2 => hq _ ?_) hm e1 e2
  simp only [List.mem_singleton]
  exact num_ne_t2 (win := false) h1 (by omega)

/-- The return address does not change. -/
theorem At.top (hA : At ft p args P L s0 s1) {l : Lir.LSt} {s : St} (hi : Inv p (p.total false) s1 l s) {a : BitVec 64} (ha : (a - s0.r 4#4).toNat < 8) : s.m a = s0.m a := by
  obtain ⟨f1, f2, -⟩ := C51.frameSize hA.legal
  have e : a - s1.r 4#4 = (a - s0.r 4#4) + BitVec.ofNat 64 (p.total false) := by
    rw [hA.entered.sp]
    apply BitVec.eq_of_toNat_eq
    simp only [BitVec.toNat_sub, BitVec.toNat_add, BitVec.toNat_ofNat]; omega
  have e2 : (a - s1.r 4#4).toNat = (a - s0.r 4#4).toNat + p.total false := by
    rw [e, BitVec.toNat_add, BitVec.toNat_ofNat]; omega
  rw [hi.body.mem a (by omega) (by omega), hA.upper a (by omega)]

/-- One call of the program is carried out by the machine. -/
theorem step_ok (hA : At ft p args P L s0 s1) {k k' : Lir.Conf} (hs : Sim ft p P L s0 s1 k t)
    (e : Lir.step (priv p (p.total false) (s1.r 4#4)) P k = some k') : ∃ t', PSteps L.c t t' ∧ Sim ft p P L s0 s1 k' t' := by
  have hp := Regs.of hA.legal
  have sp1 : s1.r 4#4 = s0.r 4#4 - BitVec.ofNat 64 (p.total false) := hA.entered.sp
  cases k with
  | done v m => cases e
  | run rest l =>
    cases rest with
    | nil => cases e
    | cons ins rest =>
      have plain : ∀ {l'}, (Lir.exec (priv p (p.total false) (s1.r 4#4)) ins l).map (Lir.Conf.run rest) = some l' → ins ≠ .label →
          items L.u ft p ins = (emit ft p ins).map piece → ∃ t', PSteps L.c t t' ∧ Sim ft p P L s0 s1 l' t' := by
        intro l' e hl hit
        obtain ⟨l'', e1, e2⟩ := Option.map_eq_some_iff.mp e
        rw [← e2]
        exact plain_ok hA hs hl e1 hit
      have cond : ∀ {type : Nat} {k : Nat} {pre : List Lir.Ins} {l1 l2 : Lir.LSt} {b : Bool} {u : PSt} {rew : Bool} {r' : Lir.Conf}, P = pre ++ ins :: rest → ins ≠ .label →
          L.has (Item.jump ⟨type, rew, .label (L.u.lb + k)⟩ :: rest.flatMap (itemsT L.u ft p)) u.pc (nlab pre) →
          type < 14 → taken type u.s.f = some b → Inv p (p.total false) s1 l1 u.s → l2.reg = l1.reg → l2.mem = l1.mem → FlagsR l2 u.s.f →
          (if b then (Lir.after k P).map fun r => Lir.Conf.run r l1.noFlags else some (.run rest l2)) = some r' →
          ∃ t', PSteps L.c u t' ∧ Sim ft p P L s0 s1 r' t' := by
        intro type k pre l1 l2 b u rew r' hP hl ⟨ca, ja, hpl⟩ ht hb hi e1 e2 hf e
        obtain ⟨n, x, ja', -, hj, -, hnext⟩ := hpl
        have hj := hj u rfl
        rw [JumpDoes, if_pos (show type < JUMP by omega)] at hj
        obtain ⟨t', g1, g2, g3, g4, g5, -⟩ := hj b hb
        cases b with
        | true =>
          obtain ⟨r, e3, e4⟩ := Option.map_eq_some_iff.mp e
          rw [← e4]
          exact ⟨t', g1, goto_ok hA e3 g2 (goes_inv hp hi g3 g4 rfl rfl)⟩
        | false =>
          rw [← Option.some.inj e]
          have g2' : t'.pc = u.pc + BitVec.ofNat 64 n := g2
          rw [← g2'] at hnext
          exact ⟨t', g1, next_ok hP hl ⟨ca, ja', hnext⟩ (hf.same rfl rfl g5) (goes_inv hp hi g3 g4 e1 e2)⟩
      cases ins with
      | call => cases e
      | op0 => exact plain e (by simp) rfl
      | op1 => exact plain e (by simp) rfl
      | op2 => exact plain e (by simp) rfl
      | op2u => exact plain e (by simp) rfl
      | shiftInto => exact plain e (by simp) rfl
      | opFlags => exact plain e (by simp) rfl
      | select => exact plain e (by simp) rfl
      | label =>
        obtain ⟨⟨pre, hP, ⟨ca, ja, hpl⟩, hf⟩, hi⟩ := hs
        have e' := Option.some.inj e
        rw [← e']
        refine ⟨t, .refl _, ⟨pre ++ [.label], by simp [hP], ⟨ca, ja, ?_⟩, FlagsR.none _ _⟩, ⟨hi.body, hi.reg, hi.mem⟩⟩
        rw [show nlab (pre ++ [.label]) = nlab pre + 1 by simp [nlab, List.countP_append]]
        exact hpl.2
      | jump type rew k =>
        obtain ⟨⟨pre, hP, ⟨ca, ja, hpl⟩, hf⟩, hi⟩ := hs
        cases type with
        | none =>
          obtain ⟨r, e1, e2⟩ := Option.map_eq_some_iff.mp e
          rw [← e2]
          obtain ⟨n, x, ja', -, hj, -, -⟩ := hpl
          have hj := hj t rfl
          rw [JumpDoes, if_neg (Nat.lt_irrefl 36), if_pos rfl] at hj
          obtain ⟨t', g1, g2, g3, g4, g5, -⟩ := hj
          exact ⟨t', g1, goto_ok hA e1 g2 (goes_inv hp hi g3 g4 rfl rfl)⟩
        | some type =>
          obtain ⟨b, et, e⟩ := Option.bind_eq_some_iff.mp e
          obtain ⟨ht, hc⟩ := hf.says et
          exact cond hP (by simp) ⟨ca, ja, hpl⟩ ht (by rw [taken_cond ht]; exact hc) hi rfl rfl hf e
      | cmp type is32 a b rew k =>
        obtain ⟨⟨pre, hP, ⟨ca, ja, hpl⟩, hf⟩, hi⟩ := hs
        obtain ⟨ht, ha, hb⟩ := hA.ins _ (by rw [hP]; exact List.mem_append_right _ List.mem_cons_self)
        obtain ⟨x, ex, e⟩ := Option.bind_eq_some_iff.mp e
        obtain ⟨y, ey, e⟩ := Option.bind_eq_some_iff.mp e
        obtain ⟨s', ⟨bs, r0, r1⟩, r2, r3⟩ := cmp_ok hp hi ht ha hb ex ey
        rw [List.flatMap_cons, itemsT, items, r0] at hpl
        simp only [Option.map_some, Option.getD_some, List.append_assoc] at hpl
        obtain ⟨c1, c2⟩ := placed_piece hpl
        have := cmp_lt ht is32 (xo a) (xo b)
        obtain ⟨t', q1, q2⟩ := cond (u := ⟨s', t.pc + BitVec.ofNat 64 bs.length⟩) (l1 := l) (l2 := l.noFlags) hP (by simp) ⟨ca, ja, c2⟩ (by omega) r3
          ⟨r2.body, r2.reg, r2.mem⟩ rfl rfl (FlagsR.none _ _) e
        exact ⟨t', (r1 L.c t.pc c1).trans q1, q2⟩
      | ret o is32 src =>
        obtain ⟨⟨pre, hP, ⟨ca, ja, hpl⟩, hf⟩, hi⟩ := hs
        obtain ⟨ho, h32, hsrc⟩ := hA.ins _ (by rw [hP]; exact List.mem_append_right _ List.mem_cons_self)
        obtain ⟨v, e1, e2⟩ := Option.map_eq_some_iff.mp e
        rw [← e2]
        obtain ⟨l', e3, e4⟩ := Option.bind_eq_some_iff.mp e1
        obtain ⟨-, u, hu, hk, hw⟩ := unary_move hi hsrc ho h32 e3
        obtain ⟨s3, ⟨bs, r0, r1⟩, r2, -, r3⟩ := C51.return_value ft hA.legal ho is32 (xo_src hp hsrc) hA.entered hA.slots hA.upper hi.body
        rw [List.flatMap_cons, itemsT, show items L.u ft p (.ret o is32 src) = (emit ft p (.ret o is32 src)).map piece from rfl, show emit ft p (.ret o is32 src) = some bs from r0, List.append_assoc] at hpl
        obtain ⟨c1, -⟩ := placed_piece (bs := bs) hpl
        refine ⟨⟨s3, _⟩, r1 L.c t.pc c1, rfl, ?_, r2.sp, fun q hq => r2.saved q hq (fun k hk => ?_), fun a ha => ?_, fun a ha => ?_⟩
        · intro w ew
          have := Option.some.inj hw
          rw [← this] at e4
          simp only [Lir.LSt.set, if_true] at e4
          rw [← Option.some.inj ew, ← Option.some.inj e4]
          exact holds_of hu r3 hk
        · rw [hA.legal.kept rfl] at hk; omega
        · show s3.m a = _
          rw [r2.mem]; exact hi.mem a (by rw [sp1]; exact ha)
        · show s3.m a = _
          rw [r2.mem]; exact hA.top hi ha
      | retVoid =>
        obtain ⟨⟨pre, hP, ⟨ca, ja, hpl⟩, hf⟩, hi⟩ := hs
        have e' := Option.some.inj e
        rw [← e']
        obtain ⟨s3, ⟨bs, r0, r1⟩, r2, -⟩ := C51.return_void hA.legal hA.entered hA.slots hA.upper hi.body
        rw [List.flatMap_cons, itemsT, show items L.u ft p .retVoid = (emit ft p .retVoid).map piece from rfl, show emit ft p .retVoid = some bs from r0, List.append_assoc] at hpl
        obtain ⟨c1, -⟩ := placed_piece (bs := bs) hpl
        refine ⟨⟨s3, _⟩, r1 L.c t.pc c1, rfl, by rintro u ⟨⟩, r2.sp, fun q hq => r2.saved q hq (fun k hk => ?_), fun a ha => ?_, fun a ha => ?_⟩
        · rw [hA.legal.kept rfl] at hk; omega
        · show s3.m a = _
          rw [r2.mem]; exact hi.mem a (by rw [sp1]; exact ha)
        · show s3.m a = _
          rw [r2.mem]; exact hA.top hi ha

/-- Any number of calls. -/
theorem steps_ok (hA : At ft p args P L s0 s1) {k k' : Lir.Conf} (e : Lir.Steps (priv p (p.total false) (s1.r 4#4)) P k k') :
    ∀ t, Sim ft p P L s0 s1 k t → ∃ t', PSteps L.c t t' ∧ Sim ft p P L s0 s1 k' t' := by
  induction e with
  | refl k => exact fun t ht => ⟨t, .refl _, ht⟩
  | step h _ ih =>
    intro t ht
    obtain ⟨t1, g1, g2⟩ := step_ok hA ht h
    obtain ⟨t2, g3, g4⟩ := ih t1 g2
    exact ⟨t2, g1.trans g3, g4⟩

end Verif.XLir
