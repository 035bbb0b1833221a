import Verif.Prog.Exec
import Verif.Prog.Link
import Verif.Prog.Even

/-!
# Steps of a program and steps of the machine (RV64)
-/

namespace Verif.Lir
open Verif.RV Verif.Props Verif.Props.Rv

theorem comp_append (u : Ctx) (cfg : Cfg) (p : Frame) : ∀ (P Q : List Ins) (mul : Bool),
    comp u cfg p mul (P ++ Q) = comp u cfg p mul P ++ comp u cfg p (mulAfter mul P) Q
  | [], _, _ => rfl
  | i :: P, Q, mul => by simp only [List.cons_append, comp, comp_append u cfg p P Q, List.append_assoc, mulAfter, List.foldl_cons]

theorem labels_append (a b : List Item) : Prog.labels (a ++ b) = Prog.labels a + Prog.labels b := by
  induction a with
  | nil => simp [Prog.labels]
  | cons i is ih => cases i <;> simp only [List.cons_append, Prog.labels, ih] <;> omega

theorem labels_piece (e : Emit) : Prog.labels (piece e) = 0 := by unfold piece; split <;> rfl

theorem labels_items (u : Ctx) (cfg : Cfg) (p : Frame) (mul : Bool) (ins : Ins) : Prog.labels (items u cfg p mul ins) = if ins = .label then 1 else 0 := by
  cases ins with
  | jump t r k => cases t <;> rfl
  | cmp => simp [items, labels_append, labels_piece, Prog.labels]
  | label => rfl
  | call as ret rew who =>
    cases who with
    | fn f => rfl
    | opd src => cases src <;> rfl
  | _ => simp [items, labels_piece]

theorem labels_comp (u : Ctx) (cfg : Cfg) (p : Frame) : ∀ (P : List Ins) (mul : Bool), Prog.labels (comp u cfg p mul P) = nlab P
  | [], _ => rfl
  | i :: P, mul => by
    rw [comp, labels_append, labels_items, labels_comp u cfg p P, nlab, nlab, List.countP_cons]
    by_cases h : i = .label <;> simp [h]; omega

theorem after_split : ∀ (P : List Ins) (k : Nat) (r : List Ins), after k P = some r → ∃ pre, P = pre ++ .label :: r ∧ nlab pre = k
  | [], k, r, e => by simp [after] at e
  | i :: P, k, r, e => by
    by_cases hi : i = .label
    · subst hi
      cases k with
      | zero => exact ⟨[], by rw [← Option.some.inj e]; rfl, rfl⟩
      | succ k =>
        obtain ⟨pre, h1, h2⟩ := after_split P k r e
        exact ⟨.label :: pre, by rw [h1]; rfl, by simp only [nlab, List.countP_cons] at h2 ⊢; simp [h2]⟩
    · have : after k (i :: P) = after k P := by cases i <;> first | exact absurd rfl hi | (cases k <;> rfl)
      rw [this] at e
      obtain ⟨pre, h1, h2⟩ := after_split P k r e
      exact ⟨i :: pre, by rw [h1]; rfl, by simp only [nlab, List.countP_cons] at h2 ⊢; simp [h2, hi]⟩

theorem placed_piece {code : Code} {off : BitVec 64} {laddr : List (BitVec 64)} {e : Emit} {is : List Item} {a : BitVec 64} {li : Nat}
    {ca : List (BitVec 64)} {fin : BitVec 64} (h : Placed code off laddr (piece e ++ is) a li ca fin) :
    CodeAt code a e ∧ Placed code off laddr is (a + BitVec.ofNat 64 (2 * e.length)) li ca fin := by
  unfold piece at h
  split at h
  · next he =>
    subst he
    exact ⟨trivial, by simpa using h⟩
  · exact h

/-- After the function has returned: to its caller, with the value in a0, the stack pointer and the callee saved registers as they were at
entry (`s0`); memory, but for the part of the stack frame that was private to the code generator, is what the program left. -/
structure Final (p : Frame) (s0 : St) (v : Option Val) (m : BitVec 64 → BitVec 8) (s : St) : Prop where
  pc : s.pc = s0.rd 1#5 &&& ~~~1#64
  value : ∀ u, v = some u → s.rd 10#5 = rep u
  sp : s.rd 2#5 = s0.rd 2#5
  saved : ∀ q ∈ C30.calleeSaved, q ∉ C30.keptRegs p.kept → s.rd q = s0.rd q
  fsaved : ∀ q ∈ C30.calleeSaved, s.f q = s0.f q
  mem : ∀ a, priv p (s0.rd 2#5 - BitVec.ofNat 64 p.total) a = false → s.mem a = m a

/-- Where the body of a function is: its context, the flag state of the compiler in front of it, the items behind it; the code memory with the result of code generation. -/
structure Loc where
  u : Ctx
  mul0 : Bool
  tail : List Item
  code : Code
  off : BitVec 64
  laddr : List (BitVec 64)
  fin : BitVec 64

/-- The items are at the address `a`, after `li` labels of the function. -/
def Loc.has (L : Loc) (is : List Item) (a : BitVec 64) (li : Nat) : Prop := ∃ ca, Placed L.code L.off L.laddr (is ++ L.tail) a (L.u.lb + li) ca L.fin

/-- A function in memory. -/
structure At (cfg : Cfg) (p : Frame) (P : List Ins) (L : Loc) (s0 s1 : St) : Prop where
  ok : p.Ok
  ins : ∀ ins ∈ P, Ins.Ok cfg p ins
  placed : ∃ a, L.has (comp L.u cfg p L.mul0 P) a 0
  sp : s1.rd 2#5 = s0.rd 2#5 - BitVec.ofNat 64 p.total
  retVoid : ∀ s2, C30.Body p s1 s2 → CodeAt L.code s2.pc (emitReturnVoid cfg p) →
    ∃ s3, RV.Steps L.code s2 s3 ∧ s3.pc = s0.rd 1#5 &&& ~~~1#64 ∧ s3.rd 1#5 = s0.rd 1#5 ∧ C30.Restored p s0 s2 s3
  ret : ∀ o is32 src, C24.IsMove o → Src src → ∀ s2, C30.Body p s1 s2 → CodeAt L.code s2.pc (emitReturn cfg p o is32 src) →
    ∃ s3, RV.Steps L.code s2 s3 ∧ s3.pc = s0.rd 1#5 &&& ~~~1#64 ∧
      s3.rd 10#5 = C24.moved o (C24.value1 (C24.width o is32) false s2 src) ∧
      s3.rd 2#5 = s0.rd 2#5 ∧ (∀ q ∈ C30.calleeSaved, q ∉ C30.keptRegs p.kept → s3.rd q = s0.rd q) ∧ (∀ q ∈ C30.calleeSaved, s3.f q = s0.f q) ∧
      (∀ q ∈ C30.keptRegs p.kept, s3.rd q = s2.rd q) ∧ s3.mem = s2.mem

/-- The machine state belongs to the configuration of the program. -/
def Sim (cfg : Cfg) (p : Frame) (P : List Ins) (L : Loc) (s0 s1 : St) : Conf → St → Prop
  | .run rest l, s => (∃ pre, P = pre ++ rest ∧ L.has (comp L.u cfg p (mulAfter L.mul0 pre) rest) s.pc (nlab pre) ∧
      Flags (mulAfter L.mul0 pre) l s) ∧ Inv p s1 l s
  | .done v m, s => Final p s0 v m s

variable {cfg : Cfg} {p : Frame} {P : List Ins} {L : Loc} {s0 s1 s : St}

/-- A jump to a label. -/
theorem goto_ok (hA : At cfg p P L s0 s1) {k : Nat} {r : List Ins} (e : after k P = some r) {l : LSt} {s' : St}
    (hpc : s'.pc = L.laddr.getD (L.u.lb + k) 0#64) (hi : Inv p s1 l.noFlags s') :
    Sim cfg p P L s0 s1 (.run r l.noFlags) s' := by
  obtain ⟨pre, h1, h2⟩ := after_split P k r e
  obtain ⟨a, ca, hpl⟩ := hA.placed
  rw [h1, comp_append, List.append_assoc] at hpl
  obtain ⟨a', ca', q⟩ := placed_suffix _ hpl
  rw [labels_comp, Nat.add_zero, h2] at q
  obtain ⟨q1, q2⟩ := q
  refine ⟨⟨pre ++ [.label], by rw [h1]; simp, ⟨ca', ?_⟩, Flags.none _ _ _⟩, hi⟩
  have em : mulAfter L.mul0 (pre ++ [.label]) = mulNext (mulAfter L.mul0 pre) .label := by simp [mulAfter]
  have en : nlab (pre ++ [.label]) = k + 1 := by simp only [nlab, List.countP_append] at h2 ⊢; simp [h2]
  rw [em, en, hpc, q1]
  exact q2

theorem same_inv {l : LSt} {s' : St} (hp : p.Ok) (h : Inv p s1 l s) (hs : C28.Same s s') {l' : LSt} (e1 : l'.reg = l.reg) (e2 : l'.mem = l.mem) :
    Inv p s1 l' s' :=
  keep_ok h hp (fun r hr => hs.1 _ (user_ne hr.2).1 (user_ne hr.2).2.2.1 (user_ne hr.2).2.2.2.1) hs.2.2 hs.2.1 e1 e2

theorem mulAfter_snoc (mul : Bool) (pre : List Ins) (i : Ins) : mulAfter mul (pre ++ [i]) = mulNext (mulAfter mul pre) i := by simp [mulAfter]

theorem nlab_snoc {pre : List Ins} {i : Ins} (h : i ≠ .label) : nlab (pre ++ [i]) = nlab pre := by simp [nlab, List.countP_append, h]

/-- The next call. -/
theorem next_ok {ins : Ins} {rest pre : List Ins} (hP : P = pre ++ ins :: rest) (hl : ins ≠ .label) {l : LSt} {s' : St}
    (hpl : L.has (comp L.u cfg p (mulNext (mulAfter L.mul0 pre) ins) rest) s'.pc (nlab pre))
    (hf : Flags (mulNext (mulAfter L.mul0 pre) ins) l s') (hi : Inv p s1 l s') : Sim cfg p P L s0 s1 (.run rest l) s' :=
  ⟨⟨pre ++ [ins], by simp [hP], by rw [mulAfter_snoc, nlab_snoc hl]; exact hpl, by rw [mulAfter_snoc]; exact hf⟩, hi⟩

/-- A call that does not transfer control. -/
theorem plain_ok (hA : At cfg p P L s0 s1) {ins : Ins} {rest : List Ins} {l l' : LSt}
    (hs : Sim cfg p P L s0 s1 (.run (ins :: rest) l) s) (hl : ins ≠ .label) (e : exec (priv p (s1.rd 2#5)) ins l = some l')
    (hit : ∀ mul, items L.u cfg p mul ins = piece (emit cfg p mul ins)) :
    ∃ s', RV.Steps L.code s s' ∧ Sim cfg p P L s0 s1 (.run rest l') s' := by
  obtain ⟨⟨pre, hP, ⟨ca, hpl⟩, hf⟩, hi⟩ := hs
  have hok := hA.ins ins (by rw [hP]; simp)
  rw [comp, hit, List.append_assoc] at hpl
  obtain ⟨c1, c2⟩ := placed_piece hpl
  obtain ⟨s', r1, r2, r3, r4⟩ := exec_ok hA.ok hi hf hok hl e L.code c1
  rw [← r2] at c2
  exact ⟨s', r1, next_ok hP hl ⟨ca, c2⟩ r4 r3⟩

theorem says_skips {mul : Bool} {type : Nat} {t : Bool} {l : LSt} (hf : Flags mul l s) (e : cond l type = some t) : (jumpBr type).skips s = !t :=
  C29.c29_jump mul type t s (hf.says e)

theorem jump_same {j : JInfo} {t : BitVec 64} {n : Nat} (hj : JumpDoes L.code j t n s) (hc : j.call = false) :
    ∃ s', RV.Steps L.code s s' ∧ s'.pc = (if j.br.skips s then s.pc + BitVec.ofNat 64 (2 * n) else t) ∧ C28.Same s s' := by
  obtain ⟨s', h1, h2, -, h3, h4, h5⟩ := hj
  exact ⟨s', h1, h2, fun q _ q6 q7 => h3 q q6 q7 (by rw [hc]; simp), h4, h5⟩

theorem Flags.of_same {mul : Bool} {l : LSt} {s' : St} (h : Flags mul l s) (hs : C28.Same s s') : Flags mul l s' := by
  have e5 := hs.1 5#5 (by decide) (by decide) (by decide)
  have e28 := hs.1 28#5 (by decide) (by decide) (by decide)
  exact h.same rfl rfl (by unfold zeroFlag; rw [e5]) (by unfold varFlag; rw [e28]) (by intro b; unfold carryFlag; rw [e28])

theorem holds_rel {w : Nat} (type : Nat) (a b : BitVec w) : holds type a b = true ↔ C28.rel type a b := by
  unfold holds C28.rel
  split <;> simp

theorem cmp_holds {l : LSt} (h : Inv p s1 l s) {type : Nat} {is32 : Bool} {a b : Opd} (ha : Src a) (hb : Src b) {x y : BitVec (wd is32)}
    (ex : read (priv p (s1.rd 2#5)) is32 l a = some x) (ey : read (priv p (s1.rd 2#5)) is32 l b = some y) :
    C28.holds is32 type s a b ↔ holds type x y = true := by
  have val : ∀ {o : Opd} {z : BitVec (wd is32)}, Src o → read (priv p (s1.rd 2#5)) is32 l o = some z →
      (is32 = false → C28.value64 s o = (z.setWidth 64)) ∧ (is32 = true → C28.value32 s o = z.setWidth 32) := by
    intro o z ho ez
    have hv := value_ok h ho ez false
    refine ⟨?_, ?_⟩
    · rintro rfl
      have : C28.value64 s o = C24.value1 (wd false) false s o := by cases o <;> rfl
      rw [this, ← hv]; exact (BitVec.setWidth_eq (n := 64) _).symm.trans (BitVec.setWidth_eq (n := 64) _).symm
    · rintro rfl
      have : C28.value32 s o = (C24.value1 (wd true) false s o).setWidth 32 := by
        cases o with
        | mem b i w =>
          show ld32 _ _ = ((ld32 s.mem _).setWidth 64).setWidth 32
          rw [BitVec.setWidth_setWidth_of_le _ (by decide)]; exact (BitVec.setWidth_eq _).symm
        | _ => rfl
      rw [this, ← hv]; exact (BitVec.setWidth_eq (n := 32) _).symm
  rw [holds_rel, C28.holds]
  cases is32
  · simp only [Bool.false_eq_true, if_false]
    rw [(val ha ex).1 rfl, (val hb ey).1 rfl, show BitVec.setWidth 64 x = x from BitVec.setWidth_eq (n := 64) x,
      show BitVec.setWidth 64 y = y from BitVec.setWidth_eq (n := 64) y]
    exact Iff.rfl
  · simp only [if_true]
    rw [(val ha ex).2 rfl, (val hb ey).2 rfl, show BitVec.setWidth 32 x = x from BitVec.setWidth_eq (n := 32) x,
      show BitVec.setWidth 32 y = y from BitVec.setWidth_eq (n := 32) y]
    exact Iff.rfl

theorem ok32 {l : LSt} (h : Inv p s1 l s) {type k : Nat} {rew : Bool} {a b : Opd} (hok : Ins.Ok cfg p (.cmp type true a b rew k)) {x y : BitVec (wd true)}
    (ex : read (priv p (s1.rd 2#5)) true l a = some x) (ey : read (priv p (s1.rd 2#5)) true l b = some y) : C28.Ok32 type s a b := by
  obtain ⟨-, ha, hb, h32⟩ := hok
  rcases h32 rfl with ⟨a1, a2, b1, b2⟩ | ⟨t6, a1, a2, b1, b2⟩
  · left
    have sg : ∀ {o : Opd} {z : BitVec (wd true)}, Src o → read (priv p (s1.rd 2#5)) true l o = some z → (∀ c i w, o ≠ .mem c i w) →
        (∀ v, o = .imm v → v = (v.setWidth 32).signExtend 64) → C28.Signed s o := by
      intro o z ho ez m1 m2
      cases o with
      | reg r => exact (read_ok h ho ez).2.1 rfl
      | imm v => exact m2 v rfl
      | mem c i w => exact absurd rfl (m1 c i w)
    exact ⟨sg ha ex a1 a2, sg hb ey b1 b2⟩
  · right
    have us : ∀ {o : Opd}, (∀ r, o ≠ .reg r) → (∀ v, o = .imm v → v.toNat < 2 ^ 32) → C28.Unsigned s o := by
      intro o m1 m2
      cases o with
      | reg r => exact absurd rfl (m1 r)
      | imm v => exact m2 v rfl
      | mem c i w => trivial
    exact ⟨t6, us a1 a2, us b1 b2⟩

/-- One call of the program is carried out by the machine. -/
theorem step_ok (hA : At cfg p P L s0 s1) {c c' : Conf} (hs : Sim cfg p P L s0 s1 c s)
    (e : step (priv p (s1.rd 2#5)) P c = some c') : ∃ s', RV.Steps L.code s s' ∧ Sim cfg p P L s0 s1 c' s' := by
  cases c with
  | done v m => cases e
  | run rest l =>
    cases rest with
    | nil => cases e
    | cons ins rest =>
      have plain : ∀ {l'}, (exec (priv p (s1.rd 2#5)) ins l).map (Conf.run rest) = some l' → ins ≠ .label →
          (∀ mul, items L.u cfg p mul ins = piece (emit cfg p mul ins)) → ∃ s', RV.Steps L.code s s' ∧ Sim cfg p P L s0 s1 l' s' := by
        intro l' e hl hit
        obtain ⟨l'', e1, e2⟩ := Option.map_eq_some_iff.mp e
        rw [← e2]
        exact plain_ok hA hs hl e1 hit
      cases ins with
      | call => cases e
      | op0 => exact plain e (by simp) fun _ => rfl
      | op1 => exact plain e (by simp) fun _ => rfl
      | op2 => exact plain e (by simp) fun _ => rfl
      | op2u => exact plain e (by simp) fun _ => rfl
      | shiftInto => exact plain e (by simp) fun _ => rfl
      | opFlags => exact plain e (by simp) fun _ => rfl
      | select => exact plain e (by simp) fun _ => rfl
      | label =>
        obtain ⟨⟨pre, hP, ⟨ca, hpl⟩, hf⟩, hi⟩ := hs
        have e' := Option.some.inj e
        rw [← e']
        refine ⟨s, .refl _, ⟨pre ++ [.label], by simp [hP], ⟨ca, ?_⟩, Flags.none _ _ _⟩, ⟨hi.body, hi.reg, hi.mem⟩⟩
        rw [mulAfter_snoc, show nlab (pre ++ [.label]) = nlab pre + 1 by simp [nlab, List.countP_append]]
        exact hpl.2
      | jump type rew k =>
        obtain ⟨⟨pre, hP, ⟨ca, hpl⟩, hf⟩, hi⟩ := hs
        cases type with
        | none =>
          obtain ⟨r, e1, e2⟩ := Option.map_eq_some_iff.mp e
          rw [← e2]
          obtain ⟨n, hj, -, -⟩ := hpl
          obtain ⟨s', g1, g2, g3⟩ := jump_same (hj s rfl) rfl
          exact ⟨s', g1, goto_ok hA e1 g2 (same_inv hA.ok hi g3 rfl rfl)⟩
        | some type =>
          obtain ⟨t, et, e⟩ := Option.bind_eq_some_iff.mp e
          obtain ⟨n, hj, -, hnext⟩ := hpl
          obtain ⟨s', g1, g2, g3⟩ := jump_same (hj s rfl) rfl
          simp only [says_skips hf et] at g2
          cases t with
          | true =>
            obtain ⟨r, e1, e2⟩ := Option.map_eq_some_iff.mp e
            rw [← e2]
            exact ⟨s', g1, goto_ok hA e1 g2 (same_inv hA.ok hi g3 rfl rfl)⟩
          | false =>
            have e' := Option.some.inj e
            rw [← e']
            have g2' : s'.pc = s.pc + BitVec.ofNat 64 (2 * n) := g2
            rw [← g2'] at hnext
            exact ⟨s', g1, next_ok hP (by simp) ⟨ca, hnext⟩ (hf.of_same g3) (same_inv hA.ok hi g3 rfl rfl)⟩
      | cmp type is32 a b rew k =>
        obtain ⟨⟨pre, hP, ⟨ca, hpl⟩, hf⟩, hi⟩ := hs
        have hok := hA.ins _ (by rw [hP]; exact List.mem_append_right _ List.mem_cons_self)
        obtain ⟨x, ex, e⟩ := Option.bind_eq_some_iff.mp e
        obtain ⟨y, ey, e⟩ := Option.bind_eq_some_iff.mp e
        rw [comp, List.append_assoc] at hpl
        obtain ⟨next, hnext, hrun⟩ := C28.c28_placed cfg type is32 a b rew (.label (L.u.lb + k)) _ L.code L.off L.laddr s.pc _ ca L.fin hok.2.1 hok.2.2.1 hpl
        obtain ⟨s', g1, g2, g3, g4⟩ := hrun s rfl (by rintro rfl; exact ok32 hi hok ex ey)
        rw [cmp_holds hi hok.2.1 hok.2.2.1 ex ey] at g3 g4
        by_cases hh : holds type x y = true
        · rw [if_pos hh] at e
          obtain ⟨r, e1, e2⟩ := Option.map_eq_some_iff.mp e
          rw [← e2]
          exact ⟨s', g1, goto_ok hA e1 (g3 hh) (same_inv hA.ok hi g2 rfl rfl)⟩
        · rw [if_neg hh] at e
          have e' := Option.some.inj e
          rw [← e']
          rw [← g4 hh] at hnext
          exact ⟨s', g1, next_ok hP (by simp) ⟨ca, hnext⟩ (Flags.none _ _ _) (same_inv hA.ok hi g2 rfl rfl)⟩
      | ret o is32 src =>
        obtain ⟨⟨pre, hP, ⟨ca, hpl⟩, hf⟩, hi⟩ := hs
        obtain ⟨ho, hsrc⟩ := hA.ins _ (by rw [hP]; exact List.mem_append_right _ List.mem_cons_self)
        obtain ⟨v, e1, e2⟩ := Option.map_eq_some_iff.mp e
        rw [← e2]
        obtain ⟨l', e3, e4⟩ := Option.bind_eq_some_iff.mp e1
        obtain ⟨-, u, hu, hw⟩ := unary_move hi hsrc ho e3
        rw [comp, List.append_assoc] at hpl
        obtain ⟨c1, -⟩ := placed_piece hpl
        obtain ⟨s3, g1, g2, g3, g4, g5, g6, -, g7⟩ := hA.ret o is32 src ho hsrc s hi.body c1
        refine ⟨s3, g1, g2, ?_, g4, g5, g6, ?_⟩
        · intro w ew
          rw [g3, hu]
          have := Option.some.inj hw
          rw [← this] at e4
          simp only [LSt.set, if_true] at e4
          rw [← Option.some.inj ew, ← Option.some.inj e4]
        · intro a ha
          rw [g7]; exact hi.mem a (by rw [hA.sp]; exact ha)
      | retVoid =>
        obtain ⟨⟨pre, hP, ⟨ca, hpl⟩, hf⟩, hi⟩ := hs
        have e' := Option.some.inj e
        rw [← e']
        rw [comp, List.append_assoc] at hpl
        obtain ⟨c1, -⟩ := placed_piece hpl
        obtain ⟨s3, g1, g2, -, g3⟩ := hA.retVoid s hi.body c1
        refine ⟨s3, g1, g2, by rintro u ⟨⟩, g3.sp, g3.saved, g3.fsaved, ?_⟩
        intro a ha
        rw [g3.mem]; exact hi.mem a (by rw [hA.sp]; exact ha)

/-- Any number of calls. -/
theorem steps_ok (hA : At cfg p P L s0 s1) {c c' : Conf} (e : Steps (priv p (s1.rd 2#5)) P c c') :
    ∀ s, Sim cfg p P L s0 s1 c s → ∃ s', RV.Steps L.code s s' ∧ Sim cfg p P L s0 s1 c' s' := by
  induction e with
  | refl c => exact fun s hs => ⟨s, .refl _, hs⟩
  | step h t ih =>
    intro s hs
    obtain ⟨s', g1, g2⟩ := step_ok hA hs h
    obtain ⟨s'', g3, g4⟩ := ih s' g2
    exact ⟨s'', g1.trans g3, g4⟩

end Verif.Lir
