import Verif.AProg.Total
import Verif.AProg.Link
import Verif.Prog.Whole
import Verif.Prog.CallLemmas

/-!
# Steps of a program and steps of the machine (ARM64)
-/

namespace Verif.ALir
open Verif.A64 hiding cond moved DstOk
open Verif.Props
open Verif.Imm.Arm64 (regMap)
open Verif.Lir (Val wd nlab after_split nlab_snoc)
open Verif.XLir (neg Holds holds_of)

variable {u : Ctx} {p : Frame} {args : List Bool}

/-! ## Items -/

/-- The items of a call that has some. -/
def itemsT (u : Ctx) (p : Frame) (st : FState) (ins : Lir.Ins) : List Item := (items u p st ins).getD []

/-- The items of a sequence of calls. -/
def compT (u : Ctx) (p : Frame) : FState → List Lir.Ins → List Item
  | _, [] => []
  | st, ins :: is => itemsT u p st ins ++ compT u p (next p st ins) is

/-- Every call is covered. -/
def AllOk (p : Frame) : FState → List Lir.Ins → Prop
  | _, [] => True
  | st, ins :: is => InsOk p st ins ∧ AllOk p (next p st ins) is

theorem stOf_append : ∀ (a : List Lir.Ins) (st : FState) (b : List Lir.Ins), stOf p st (a ++ b) = stOf p (stOf p st a) b
  | [], _, _ => rfl
  | i :: a, st, b => stOf_append a (next p st i) b

theorem compT_append : ∀ (a : List Lir.Ins) (st : FState) (b : List Lir.Ins), compT u p st (a ++ b) = compT u p st a ++ compT u p (stOf p st a) b
  | [], _, _ => rfl
  | i :: a, st, b => by
    rw [List.cons_append, compT, compT_append a (next p st i) b, compT, List.append_assoc]; rfl

theorem AllOk.mid : ∀ (a : List Lir.Ins) {st : FState} {i : Lir.Ins} {b : List Lir.Ins}, AllOk p st (a ++ i :: b) → InsOk p (stOf p st a) i
  | [], _, _, _, h => h.1
  | _ :: a, _, _, _, h => AllOk.mid a h.2

theorem ret_some (hp : Regs p) {st : FState} {o : RV.Op1C} {is32 : Bool} {src : RV.Opd} (hok : InsOk p st (.ret o is32 src)) :
    ∃ ws, emit p st (.ret o is32 src) = some ws := by
  obtain ⟨ho, h32, hsrc⟩ := hok
  show ∃ ws, emitReturn p o is32 (ao p src) = some ws
  obtain ⟨is, t, et, -⟩ := C47.c47_mov ho is32 (dst := .reg R0) ⟨by decide, by decide⟩ (ao_src hp hsrc) ones
  unfold emitReturn
  split
  · exact ⟨_, rfl⟩
  · rw [et]; exact ⟨_, rfl⟩

theorem emit_ok (hp : Regs p) (st : FState) {ins : Lir.Ins} (hok : InsOk p st ins) : ∃ bs, emit p st ins = some bs := by
  by_cases hr : ∃ o is32 src, ins = .ret o is32 src
  · obtain ⟨o, is32, src, rfl⟩ := hr
    exact ret_some hp hok
  · exact emit_some hp st hok fun o is32 src e => hr ⟨o, is32, src, e⟩

theorem icall_some (hp : Regs p) {src : RV.Opd} (h : SrcOk p src) : ∃ is, emitIcall (ao p src) = some is := by
  have hs := ao_src hp h
  cases ha : ao p src with
  | reg r => exact ⟨_, rfl⟩
  | imm v => exact ⟨_, rfl⟩
  | mem b i w =>
    rw [ha] at hs
    obtain ⟨ws, s', e1, -⟩ := load_run (t := ⟨3, false, false⟩) (by decide) (fun _ => rfl) rfl (C47.src_usr hs) (Or.inl rfl) ones
    exact ⟨_, by simp only [emitIcall, e1, Option.map_some]; rfl⟩

theorem items_some (hp : Regs p) (st : FState) {ins : Lir.Ins} (hok : InsOk p st ins) : items u p st ins = some (itemsT u p st ins) := by
  have : ∃ is, items u p st ins = some is := by
    have plain := emit_ok hp st hok
    cases ins with
    | label => exact ⟨_, rfl⟩
    | jump type rew k => cases type <;> exact ⟨_, rfl⟩
    | cmp type is32 a b rew k =>
      obtain ⟨bs, e⟩ := cmp_some hp (type := type) (is32 := is32) hok.2.1 hok.2.2
      exact ⟨_, by simp only [items, e, Option.map_some]; rfl⟩
    | call as ret rew who =>
      cases who with
      | fn f => exact ⟨_, rfl⟩
      | opd src => exact icall_some hp hok.2.2.1
    | _ => obtain ⟨bs, e⟩ := plain; exact ⟨_, by simp only [items, e, Option.map_some]; rfl⟩
  obtain ⟨is, e⟩ := this
  rw [itemsT, e]; rfl

theorem comp_eq (hp : Regs p) : ∀ {P : List Lir.Ins} (st : FState), AllOk p st P → comp u p st P = some (compT u p st P)
  | [], _, _ => rfl
  | i :: P, st, hP => by
    rw [comp, items_some hp st hP.1, comp_eq hp _ hP.2]
    rfl

theorem labels_append (a b : List Item) : Prog.labels (a ++ b) = Prog.labels a + Prog.labels b := by
  induction a with
  | nil => simp [Prog.labels]
  | cons i is ih => cases i <;> simp only [List.cons_append, Prog.labels, ih] <;> omega

theorem labels_piece (bs : List (BitVec 32)) : Prog.labels (piece bs) = 0 := by unfold piece; split <;> rfl

theorem labels_items (u : Ctx) (p : Frame) (st : FState) (ins : Lir.Ins) : Prog.labels (itemsT u p st ins) = if ins = .label then 1 else 0 := by
  have pl : ∀ c : Code, Prog.labels ((c.map piece).getD []) = 0 := by
    intro c; cases c
    · rfl
    · exact labels_piece _
  cases ins with
  | jump t r k => cases t <;> rfl
  | cmp type is32 a b rew k =>
    simp only [itemsT, items]
    cases (emitCmp type is32 (ao p a) (ao p b)).1
    · rfl
    · simp [labels_append, labels_piece, Prog.labels]
  | label => rfl
  | retVoid => exact labels_piece _
  | call as ret rew who =>
    cases who with
    | fn f => rfl
    | opd src =>
      simp only [itemsT, items, emitIcall]
      cases ao p src with
      | reg r => rfl
      | imm v => rfl
      | mem b i w =>
        show Prog.labels (((emitOpMem ⟨3, false, false⟩ TMP_REG1 b i w TMP_REG1).map fun ws => [Item.code (ws ++ [BLR ||| Verif.Imm.Arm64.RN TMP_REG1])]).getD []) = 0
        cases emitOpMem ⟨3, false, false⟩ TMP_REG1 b i w TMP_REG1 <;> rfl
  | _ => exact pl _

theorem labels_comp (u : Ctx) (p : Frame) : ∀ (P : List Lir.Ins) (st : FState), Prog.labels (compT u p st P) = nlab P
  | [], _ => rfl
  | i :: P, st => by
    rw [compT, labels_append, labels_items, labels_comp u p P, nlab, nlab, List.countP_cons]
    by_cases h : i = .label <;> simp [h]; omega

/-! ## Code in memory -/

variable {c : IMem} {off a0 : BitVec 64} {laddr : List (BitVec 64)} {fin : BitVec 64}

theorem placed_piece {ws : List (BitVec 32)} {is : List Item} {a : BitVec 64} {li : Nat} {ca : List (BitVec 64)} {ja : List Nat}
    (h : Placed c off a0 laddr (piece ws ++ is) a li ca ja fin) :
    WordsAt c a ws ∧ Placed c off a0 laddr is (a + BitVec.ofNat 64 (4 * ws.length)) li ca ja fin := by
  unfold piece at h
  split at h
  · next he =>
    subst he
    exact ⟨trivial, by simpa using h⟩
  · exact h

theorem placed_suffix : ∀ (xs : List Item) {is : List Item} {a : BitVec 64} {li : Nat} {ca : List (BitVec 64)} {ja : List Nat},
    Placed c off a0 laddr (xs ++ is) a li ca ja fin → ∃ a' ca' ja', Placed c off a0 laddr is a' (li + Prog.labels xs) ca' ja' fin
  | [], _, a, _, ca, ja, h => ⟨a, ca, ja, h⟩
  | .code bs :: xs, _, _, _, _, _, h => placed_suffix xs h.2
  | .const bs :: xs, _, _, _, _, _, ⟨_, _, _, h⟩ => placed_suffix xs h
  | .label :: xs, _, _, li, _, _, h => by
    obtain ⟨a', ca', ja', q⟩ := placed_suffix xs h.2
    exact ⟨a', ca', ja', by rw [Prog.labels, show li + (Prog.labels xs + 1) = li + 1 + Prog.labels xs by omega]; exact q⟩
  | .alabel al :: xs, _, _, li, _, _, ⟨_, _, _, _, h⟩ => by
    obtain ⟨a', ca', ja', q⟩ := placed_suffix xs h
    exact ⟨a', ca', ja', by rw [Prog.labels, show li + (Prog.labels xs + 1) = li + 1 + Prog.labels xs by omega]; exact q⟩
  | .jump j :: xs, _, _, _, _, _, ⟨_, _, _, _, _, _, h⟩ => placed_suffix xs h
  | .mov r t :: xs, _, _, _, _, _, ⟨_, _, _, _, _, h⟩ => placed_suffix xs h

/-! ## Simulation -/

/-- After the function has returned: at the return address of its caller (x30 at entry), with the value in x0 (the lower half if it is a
32 bit value), the stack pointer, the frame pointer and the callee saved registers x19-x28 and d8-d15 as they were at entry (`m0`); memory, but for
the part of the stack frame that was private to the code generator, is what the program left. -/
structure Final (p : Frame) (F : Nat) (m0 : MSt) (v : Option Val) (m : BitVec 64 → BitVec 8) (t : PSt) : Prop where
  pc : t.pc = m0.s.r 30#5
  value : ∀ u, v = some u → Holds u (t.s.r 0#5)
  sp : t.s.r 31#5 = m0.s.r 31#5
  fp : t.s.r 29#5 = m0.s.r 29#5
  saved : ∀ j, 19 ≤ j → j ≤ 28 → t.s.r (BitVec.ofNat 5 j) = m0.s.r (BitVec.ofNat 5 j)
  vsaved : ∀ j, 8 ≤ j → j ≤ 15 → t.v (BitVec.ofNat 5 j) = m0.v (BitVec.ofNat 5 j)
  mem : ∀ a, priv p F (m0.s.r 31#5 - BitVec.ofNat 64 F) a = false → t.s.m a = m a

/-- The part of the stack frame which the body must not change: the vector registers of the caller (the others are not used, or changed by calls). -/
def VKeep (p : Frame) (m1 : MSt) (v : BitVec 5 → BitVec 64) : Prop := ∀ r, 23 ≤ r → p.fscr < r → r + p.fsav ≤ 30 → v (fregMap r) = m1.v (fregMap r)

/-- Where the body of a function is: its context, the flag state of the compiler in front of it, the items behind it; the code memory with the result of code generation. -/
structure Loc where
  u : Ctx
  st0 : FState
  tail : List Item
  c : IMem
  off : BitVec 64
  a0 : BitVec 64
  laddr : List (BitVec 64)
  fin : BitVec 64

/-- The items are at the address `a`, after `li` labels of the function. -/
def Loc.has (L : Loc) (is : List Item) (a : BitVec 64) (li : Nat) : Prop := ∃ ca ja, Placed L.c L.off L.a0 L.laddr (is ++ L.tail) a (L.u.lb + li) ca ja L.fin

/-- A function in memory; the stack frame was made in the state `m0`, `m1` is the state after it. -/
structure At (p : Frame) (args : List Bool) (P : List Lir.Ins) (L : Loc) (m0 m1 : MSt) : Prop where
  legal : C54.Legal p false args
  regs : Regs p
  ins : AllOk p L.st0 P
  placed : ∃ a, L.has (compT L.u p L.st0 P) a 0
  al : C54.Aligned m0
  entered : C54.Entered p false args p.total m0 m1
  slots : ∀ x ∈ p.slots, rd m1.s.m (m0.sp - BitVec.ofNat 64 x.dist) 8 = m0.get x.vec x.hw

/-- The machine state belongs to the configuration of the program. -/
def Sim (p : Frame) (P : List Lir.Ins) (L : Loc) (m0 m1 : MSt) : Lir.Conf → PSt → Prop
  | .run rest l, t => (∃ pre, P = pre ++ rest ∧ L.has (compT L.u p (stOf p L.st0 pre) rest) t.pc (nlab pre) ∧
      FlagsR (stOf p L.st0 pre) l t.s) ∧ VKeep p m1 t.v ∧ Inv p p.total m1 l t.s
  | .done v m, t => Final p p.total m0 v m t

variable {P : List Lir.Ins} {L : Loc} {m0 m1 : MSt} {t : PSt}

/-- A jump to a label. -/
theorem goto_ok (hA : At p args P L m0 m1) {k : Nat} {r : List Lir.Ins} (e : Lir.after k P = some r) {l : Lir.LSt} {t' : PSt}
    (hpc : t'.pc = L.laddr.getD (L.u.lb + k) 0#64) (hv : VKeep p m1 t'.v) (hi : Inv p p.total m1 l.noFlags t'.s) :
    Sim p P L m0 m1 (.run r l.noFlags) t' := by
  obtain ⟨pre, h1, h2⟩ := after_split P k r e
  obtain ⟨a, ca, ja, hpl⟩ := hA.placed
  rw [h1, compT_append, List.append_assoc] at hpl
  obtain ⟨a', ca', ja', q⟩ := placed_suffix _ hpl
  rw [labels_comp, Nat.add_zero, h2] at q
  obtain ⟨q1, q2⟩ := q
  refine ⟨⟨pre ++ [.label], by rw [h1]; simp, ⟨ca', ja', ?_⟩, FlagsR.none _ _ _⟩, hv, hi⟩
  have en : nlab (pre ++ [.label]) = k + 1 := by simp only [nlab, List.countP_append] at h2 ⊢; simp [h2]
  rw [en, hpc, List.getD_eq_getElem?_getD, q1, stOf_append]
  exact q2

/-- The next call. -/
theorem next_ok {ins : Lir.Ins} {rest pre : List Lir.Ins} (hP : P = pre ++ ins :: rest) (hl : ins ≠ .label) {l : Lir.LSt} {t' : PSt}
    (hpl : L.has (compT L.u p (next p (stOf p L.st0 pre) ins) rest) t'.pc (nlab pre))
    (hv : VKeep p m1 t'.v) (hf : FlagsR (next p (stOf p L.st0 pre) ins) l t'.s) (hi : Inv p p.total m1 l t'.s) : Sim p P L m0 m1 (.run rest l) t' := by
  have e : stOf p L.st0 (pre ++ [ins]) = next p (stOf p L.st0 pre) ins := by rw [stOf_append]; rfl
  exact ⟨⟨pre ++ [ins], by simp [hP], by rw [nlab_snoc hl, e]; exact hpl, by rw [e]; exact hf⟩, hv, hi⟩

/-- A call that does not transfer control. -/
theorem plain_ok (hA : At p args P L m0 m1) {ins : Lir.Ins} {rest : List Lir.Ins} {l l' : Lir.LSt}
    (hs : Sim p P L m0 m1 (.run (ins :: rest) l) t) (hl : ins ≠ .label)
    (e : Lir.exec (priv p p.total (m1.s.r 31#5)) ins l = some l') (hit : ∀ st, items L.u p st ins = (emit p st ins).map piece) :
    ∃ t', PSteps L.c t t' ∧ Sim p P L m0 m1 (.run rest l') t' := by
  obtain ⟨⟨pre, hP, ⟨ca, ja, hpl⟩, hf⟩, hv, hi⟩ := hs
  have hok : InsOk p (stOf p L.st0 pre) ins := AllOk.mid pre (by have := hA.ins; rwa [hP] at this)
  obtain ⟨s', ⟨ws, r0, r1⟩, r2, r3⟩ := exec_ok hA.regs hi hf hok hl e
  rw [compT, itemsT, hit, r0, List.append_assoc] at hpl
  obtain ⟨c1, c2⟩ := placed_piece (ws := ws) hpl
  exact ⟨⟨s', t.v, t.pc + BitVec.ofNat 64 (4 * ws.length)⟩, r1 L.c t.pc t.v c1, next_ok hP hl ⟨ca, ja, c2⟩ hv r3 r2⟩

theorem goes_inv (hp : Regs p) {F : Nat} {l l' : Lir.LSt} {s s' : St} (h : Inv p F m1 l s) (hq : ∀ q, q ∉ [10#5] → s'.r q = s.r q)
    (hm : s'.m = s.m) (e1 : l'.reg = l.reg) (e2 : l'.mem = l.mem) : Inv p F m1 l' s' := by
  refine keep_ok h hp (fun q h1 h2 => hq _ ?_) hm e1 e2
  simp only [List.mem_singleton]
  exact (usp_map h1 h2).2.1

/-- One call of the program is carried out by the machine. -/
theorem step_ok (hA : At p args P L m0 m1) {k k' : Lir.Conf} (hs : Sim p P L m0 m1 k t)
    (e : Lir.step (priv p p.total (m1.s.r 31#5)) P k = some k') : ∃ t', PSteps L.c t t' ∧ Sim p P L m0 m1 k' t' := by
  have hp := hA.regs
  have sp1 : m1.s.r 31#5 = m0.s.r 31#5 - BitVec.ofNat 64 p.total := hA.entered.sp
  cases k with
  | done v m => cases e
  | run rest l =>
    cases rest with
    | nil => cases e
    | cons ins rest =>
      have plain : ∀ {l'}, (Lir.exec (priv p p.total (m1.s.r 31#5)) ins l).map (Lir.Conf.run rest) = some l' → ins ≠ .label →
          (∀ st, items L.u p st ins = (emit p st ins).map piece) → ∃ t', PSteps L.c t t' ∧ Sim p P L m0 m1 l' t' := by
        intro l' e hl hit
        obtain ⟨l'', e1, e2⟩ := Option.map_eq_some_iff.mp e
        rw [← e2]
        exact plain_ok hA hs hl e1 hit
      have cond : ∀ {skip : Skip} {k : Nat} {pre : List Lir.Ins} {l1 l2 : Lir.LSt} {b : Bool} {u : PSt} {rew : Bool} {r' : Lir.Conf}, P = pre ++ ins :: rest → ins ≠ .label →
          L.has (Item.jump ⟨some skip, false, rew, .label (L.u.lb + k)⟩ :: compT L.u p (next p (stOf p L.st0 pre) ins) rest) u.pc (nlab pre) →
          taken ⟨some skip, false, rew, .label (L.u.lb + k)⟩ u.s = b → VKeep p m1 u.v → Inv p p.total m1 l1 u.s → l2.reg = l1.reg → l2.mem = l1.mem →
          FlagsR (next p (stOf p L.st0 pre) ins) l2 u.s →
          (if b then (Lir.after k P).map fun r => Lir.Conf.run r l1.noFlags else some (.run rest l2)) = some r' →
          ∃ t', PSteps L.c u t' ∧ Sim p P L m0 m1 r' t' := by
        intro skip k pre l1 l2 b u rew r' hP hl hpl hb hv hi e1 e2 hf e
        obtain ⟨ca, ja, n, x, ja', -, hj, -, hnext⟩ := hpl
        have hj := hj u rfl
        rw [JumpDoes, if_neg (by simp), hb] at hj
        obtain ⟨t', g1, g2, g3, g4, g5, g6, -⟩ := hj
        cases b with
        | true =>
          obtain ⟨r, e3, e4⟩ := Option.map_eq_some_iff.mp e
          rw [← e4]
          exact ⟨t', g1, goto_ok hA e3 g2 (g6 ▸ hv) (goes_inv hp hi g3 g4 rfl rfl)⟩
        | false =>
          rw [← Option.some.inj e]
          have g2' : t'.pc = u.pc + BitVec.ofNat 64 (4 * n) := g2
          rw [← g2'] at hnext
          exact ⟨t', g1, next_ok hP hl ⟨ca, ja', hnext⟩ (g6 ▸ hv) (hf.same rfl rfl g5) (goes_inv hp hi g3 g4 e1 e2)⟩
      cases ins with
      | call => cases e
      | op0 => exact plain e (by simp) (fun _ => rfl)
      | op1 => exact plain e (by simp) (fun _ => rfl)
      | op2 => exact plain e (by simp) (fun _ => rfl)
      | op2u => exact plain e (by simp) (fun _ => rfl)
      | shiftInto => exact plain e (by simp) (fun _ => rfl)
      | opFlags => exact plain e (by simp) (fun _ => rfl)
      | select => exact plain e (by simp) (fun _ => rfl)
      | label =>
        obtain ⟨⟨pre, hP, ⟨ca, ja, hpl⟩, hf⟩, hv, hi⟩ := hs
        have e' := Option.some.inj e
        rw [← e']
        refine ⟨t, .refl _, ⟨pre ++ [.label], by simp [hP], ⟨ca, ja, ?_⟩, FlagsR.none _ _ _⟩, hv, ⟨hi.body, hi.reg, hi.mem⟩⟩
        rw [show nlab (pre ++ [.label]) = nlab pre + 1 by simp [nlab, List.countP_append], stOf_append]
        exact hpl.2
      | jump type rew k =>
        obtain ⟨⟨pre, hP, ⟨ca, ja, hpl⟩, hf⟩, hv, hi⟩ := hs
        cases type with
        | none =>
          obtain ⟨r, e1, e2⟩ := Option.map_eq_some_iff.mp e
          rw [← e2]
          obtain ⟨n, x, ja', -, hj, -, -⟩ := hpl
          have hj := hj t rfl
          rw [JumpDoes, if_neg (by simp)] at hj
          obtain ⟨t', g1, g2, g3, g4, g5, g6, -⟩ := hj
          exact ⟨t', g1, goto_ok hA e1 g2 (g6 ▸ hv) (goes_inv hp hi g3 g4 rfl rfl)⟩
        | some type =>
          obtain ⟨b, et, e⟩ := Option.bind_eq_some_iff.mp e
          obtain ⟨ht, hc⟩ := hf.says et
          refine cond hP (by simp) ⟨ca, ja, hpl⟩ ?_ hv hi rfl rfl hf e
          show (!A64.cond (ccOf (stOf p L.st0 pre) type) t.s.f) = b
          rw [show A64.cond (ccOf (stOf p L.st0 pre) type) t.s.f = !b from hc, Bool.not_not]
      | cmp type is32 a b rew k =>
        obtain ⟨⟨pre, hP, ⟨ca, ja, hpl⟩, hf⟩, hv, hi⟩ := hs
        have hok : InsOk p (stOf p L.st0 pre) (.cmp type is32 a b rew k) := AllOk.mid pre (by have := hA.ins; rwa [hP] at this)
        obtain ⟨ht, ha, hb⟩ := hok
        obtain ⟨x, ex, e⟩ := Option.bind_eq_some_iff.mp e
        obtain ⟨y, ey, e⟩ := Option.bind_eq_some_iff.mp e
        obtain ⟨s', ⟨ws, r0, r1⟩, r2, r3⟩ := cmp_ok hp hi ht ha hb ex ey
        rw [compT, itemsT, items, r0, List.append_assoc] at hpl
        simp only [Option.map_some, Option.getD_some, List.append_assoc] at hpl
        obtain ⟨c1, c2⟩ := placed_piece hpl
        obtain ⟨t', q1, q2⟩ := cond (u := ⟨s', t.v, t.pc + BitVec.ofNat 64 (4 * ws.length)⟩) (l1 := l) (l2 := l.noFlags) hP (by simp) ⟨ca, ja, c2⟩ (r3 _ _ _) hv
          ⟨r2.body, r2.reg, r2.mem⟩ rfl rfl (FlagsR.none _ _ _) e
        exact ⟨t', (r1 L.c t.pc t.v c1).trans q1, q2⟩
      | ret o is32 src =>
        obtain ⟨⟨pre, hP, ⟨ca, ja, hpl⟩, hf⟩, hv, hi⟩ := hs
        have hok : InsOk p (stOf p L.st0 pre) (.ret o is32 src) := AllOk.mid pre (by have := hA.ins; rwa [hP] at this)
        obtain ⟨ho, h32, hsrc⟩ := hok
        obtain ⟨v, e1, e2⟩ := Option.map_eq_some_iff.mp e
        rw [← e2]
        obtain ⟨l', e3, e4⟩ := Option.bind_eq_some_iff.mp e1
        obtain ⟨-, u, hu, hk, hw⟩ := unary_move hp hi hsrc ho h32 e3
        obtain ⟨m3, ⟨ws, r0, r1⟩, r2, -, r3⟩ := C54.return_value hA.legal ho is32 (ao_src hp hsrc) hA.al hA.entered hA.slots (m2 := ⟨t.s, t.v⟩) ⟨hi.body.sp, hi.body.regs, hv, hi.body.mem⟩
        rw [compT, itemsT, show items L.u p (stOf p L.st0 pre) (.ret o is32 src) = (emit p (stOf p L.st0 pre) (.ret o is32 src)).map piece from rfl, show emit p (stOf p L.st0 pre) (.ret o is32 src) = some ws from r0, List.append_assoc] at hpl
        obtain ⟨c1, -⟩ := placed_piece (ws := ws) hpl
        have r1 := r1 L.c t.pc c1
        refine ⟨⟨m3.s, m3.v, _⟩, r1, rfl, ?_, r2.sp, r2.fp, fun j h1 h2 => r2.saved j h1 h2 (fun k hk => ?_), r2.vsaved, fun a ha => ?_⟩
        · intro w ew
          have := Option.some.inj hw
          rw [← this] at e4
          simp only [Lir.LSt.set, if_true] at e4
          rw [← Option.some.inj ew, ← Option.some.inj e4]
          exact holds_of hu r3 hk
        · rw [hA.legal.kept rfl] at hk; omega
        · show m3.s.m a = _
          rw [r2.mem]; exact hi.mem a (by rw [sp1]; exact ha)
      | retVoid =>
        obtain ⟨⟨pre, hP, ⟨ca, ja, hpl⟩, hf⟩, hv, hi⟩ := hs
        have e' := Option.some.inj e
        rw [← e']
        obtain ⟨m3, ⟨ws, r0, r1⟩, r2, -⟩ := C54.return_void hA.legal hA.al hA.entered hA.slots (m2 := ⟨t.s, t.v⟩) ⟨hi.body.sp, hi.body.regs, hv, hi.body.mem⟩
        rw [compT, itemsT, show items L.u p (stOf p L.st0 pre) .retVoid = (emit p (stOf p L.st0 pre) .retVoid).map piece from rfl, show emit p (stOf p L.st0 pre) .retVoid = some ws from r0, List.append_assoc] at hpl
        obtain ⟨c1, -⟩ := placed_piece (ws := ws) hpl
        have r1 := r1 L.c t.pc c1
        refine ⟨⟨m3.s, m3.v, _⟩, r1, rfl, by rintro u ⟨⟩, r2.sp, r2.fp, fun j h1 h2 => r2.saved j h1 h2 (fun k hk => ?_), r2.vsaved, fun a ha => ?_⟩
        · rw [hA.legal.kept rfl] at hk; omega
        · show m3.s.m a = _
          rw [r2.mem]; exact hi.mem a (by rw [sp1]; exact ha)

/-- Any number of calls. -/
theorem steps_ok (hA : At p args P L m0 m1) {k k' : Lir.Conf} (e : Lir.Steps (priv p p.total (m1.s.r 31#5)) P k k') :
    ∀ t, Sim p P L m0 m1 k t → ∃ t', PSteps L.c t t' ∧ Sim p P L m0 m1 k' t' := by
  induction e with
  | refl k => exact fun t ht => ⟨t, .refl _, ht⟩
  | step h _ ih =>
    intro t ht
    obtain ⟨t1, g1, g2⟩ := step_ok hA ht h
    obtain ⟨t2, g3, g4⟩ := ih t1 g2
    exact ⟨t2, g1.trans g3, g4⟩

end Verif.ALir
