import Verif.RISCV.AtomicProof
import Verif.Props.C29
import Verif.Props.C72

/-!
# C73: sljit_emit_atomic_load and sljit_emit_atomic_store on RV64

The contract is the one of C72 (`C72.value`, `C72.update`, `C72.Done`, `C72.NotDone`); on RISC-V the condition ATOMIC_STORED is that OTHER_FLAG (x28) is zero.
-/

namespace Verif.Props.C73
open Verif.RV hiding Done
open Verif.Props.C72 (value update Done NotDone)
open Verif.Props.Rv (UserReg user_34 user_inj Dst Result Dst.ok)

/-- A register of the application. -/
def reg (s : ThSt) (r : Nat) : BitVec 64 := s.st.rd (regMap r)

/-- The code can be executed to its end, and every execution does what is said, whatever other threads do. -/
def Always (e : List (BitVec 16)) (s : ThSt) (Q : ThSt → Verif.LA.Log → Prop) : Prop := (∃ s' l, ExecA e s s' l) ∧ ∀ s' l, ExecA e s s' l → Q s' l

/-- Apart from the registers of `ws`, nothing has changed (x3 and x4 are the global and the thread pointer). -/
def Kept (ws : List Nat) (s s' : ThSt) : Prop :=
  (∀ r, UserReg r → r ∉ ws → reg s' r = reg s r) ∧ s'.st.rd 3#5 = s.st.rd 3#5 ∧ s'.st.rd 4#5 = s.st.rd 4#5 ∧ s'.st.f = s.st.f

/-- The types which are available. -/
def size : Op1C → Option Sz
  | .mov | .movP => some .word
  | .movS32 | .mov32 => some .int
  | _ => none

/-- What a thread still knows after lr: the cell has not been changed. -/
def Reserved (o : Op1C) (a v : BitVec 64) (s : ThSt) : Prop := s.res = none ∨ (∃ sz, size o = some sz ∧ s.res = some (a, sz)) ∧ value o s.st.mem a = v

theorem user_ne0 {r : Nat} (h : UserReg r) : regMap r ≠ 0#5 := by
  have key : ∀ a : _root_.Fin 25, a.1 ≠ 0 → regMap a.1 ≠ 0#5 := by decide +kernel
  exact key ⟨r, by have := h.2; omega⟩ (by have := h.1; simp; omega)

theorem value_eq {o : Op1C} {sz : Sz} (h : size o = some sz) (m : BitVec 64 → BitVec 8) (a : BitVec 64) : (ldOp sz true).eval m a = value o m a := by
  cases o <;> simp only [size, Option.some.injEq, reduceCtorEq] at h <;> subst h <;> rfl
theorem update_eq {o : Op1C} {sz : Sz} (h : size o = some sz) (m : BitVec 64 → BitVec 8) (a v : BitVec 64) : (stOp sz).eval m a v = update o m a v := by
  cases o <;> simp only [size, Option.some.injEq, reduceCtorEq] at h <;> subst h <;> rfl
theorem size_ok {o : Op1C} {sz : Sz} (h : size o = some sz) : sz = .int ∨ sz = .word := by
  cases o <;> simp only [size, Option.some.injEq, reduceCtorEq] at h <;> subst h <;> simp

theorem load_eq {atomic useCas : Bool} {o : Op1C} {dst mem : Nat} {e} (he : emitAtomicLoad atomic useCas o dst mem = some e) :
    ∃ sz, size o = some sz ∧ e = w32 (LR ||| (f3sz sz).setWidth 32 <<< 12 ||| RD dst ||| RS1 mem) := by
  unfold emitAtomicLoad at he
  split_ifs at he
  cases o <;> simp only [Option.some.injEq, reduceCtorEq] at he <;> subst he
  · exact ⟨_, rfl, rfl⟩
  · exact ⟨_, rfl, rfl⟩
  · exact ⟨_, rfl, rfl⟩
  · exact ⟨_, rfl, rfl⟩
theorem store_eq {atomic useCas : Bool} {o : Op1C} {src mem : Nat} {e} (he : emitAtomicStore atomic useCas o src mem = some e) :
    ∃ sz, size o = some sz ∧ e = w32 (SC ||| (f3sz sz).setWidth 32 <<< 12 ||| RD OTHER_FLAG ||| RS1 mem ||| RS2 src) := by
  unfold emitAtomicStore at he
  split_ifs at he
  cases o <;> simp only [Option.some.injEq, reduceCtorEq] at he <;> subst he
  · exact ⟨_, rfl, rfl⟩
  · exact ⟨_, rfl, rfl⟩
  · exact ⟨_, rfl, rfl⟩
  · exact ⟨_, rfl, rfl⟩

/-- **C73, availability.**  When the load form is allowed, its store form is allowed and vice versa; the forms are those of `size`. -/
theorem c73_available (atomic useCas : Bool) (o : Op1C) (dst src mem mem' : Nat) :
    (emitAtomicLoad atomic useCas o dst mem).isSome = (emitAtomicStore atomic useCas o src mem').isSome ∧
    ((emitAtomicLoad atomic useCas o dst mem).isSome = true ↔ atomic = true ∧ useCas = false ∧ (size o).isSome = true) := by
  cases atomic <;> cases useCas <;> cases o <;> exact ⟨rfl, by simp [emitAtomicLoad, size]⟩

/-- What a load does. -/
structure LoadSpec (o : Op1C) (dst mem : Nat) (s s' : ThSt) (l : Verif.LA.Log) : Prop where
  log : l = []
  val : ∃ m, reg s' dst = value o m (reg s mem)
  kept : Kept [dst] s s'
  flags : s'.st.rd 5#5 = s.st.rd 5#5 ∧ s'.st.rd 28#5 = s.st.rd 28#5
  res : Reserved o (reg s mem) (reg s' dst) s'

/-- **C73, the load.**  The register gets the value which the cell has at some moment; no other register, no flag and no memory changes.  The cell is
reserved: as long as the reservation lasts, it has this value. -/
theorem c73_load (atomic useCas : Bool) (o : Op1C) (dst mem : Nat) (e : List (BitVec 16)) (s : ThSt) (hd : UserReg dst)
    (he : emitAtomicLoad atomic useCas o dst mem = some e) : Always e s (LoadSpec o dst mem s) := by
  obtain ⟨sz, hsz, rfl⟩ := load_eq he
  obtain ⟨a1, a2⟩ := dec_lr (size_ok hsz) dst mem
  refine ⟨⟨_, _, (exec_one a2).mpr ⟨_, _, .refl _, .lr a1, .refl _⟩⟩, ?_⟩
  intro s' l hx
  obtain ⟨s1, s2, h1, h2, h3⟩ := (exec_one a2).mp hx
  cases h2 with
  | scOk hd' => rw [a1] at hd'; cases hd'
  | scFail _ hd' => rw [a1] at hd'; cases hd'
  | lr hd' =>
    rw [a1] at hd'
    cases hd'
    have n := user_ne hd.2
    have n34 := user_34 dst hd
    have k : ∀ q, q ≠ regMap dst → s'.st.rd q = s.st.rd q := by
      intro q hq
      rw [h3.rd]
      simp only [rd_adv, rd_wr, hq, if_false, h1.rd]
      simp
      intro h; subst h; exact (s.st.core.x0).symm
    have hv : reg s' dst = value o s1.st.mem (reg s mem) := by
      unfold reg
      rw [h3.rd, ← value_eq hsz]
      simp [rd_adv, rd_wr, user_ne0 hd, h1.rd]
    refine ⟨rfl, ⟨_, hv⟩, ⟨fun r hr hn => k _ fun h => hn (by simp [user_inj _ _ hr hd h]), k _ (Ne.symm n34.1), k _ (Ne.symm n34.2), by rw [h3.f]; exact h1.f⟩,
      ⟨k _ (Ne.symm n.2.1), k _ (Ne.symm n.2.2.2.2)⟩, ?_⟩
    rcases h3.2 with h | ⟨h, hc⟩
    · exact Or.inl h
    · refine Or.inr ⟨⟨sz, hsz, by rw [h]; simp [reg, h1.rd]⟩, ?_⟩
      have := hc _ _ rfl
      rw [hv, ← value_eq hsz, ← value_eq hsz]
      unfold reg
      rw [← h1.rd]
      exact this

/-- What a store does: `v` is the loaded value. -/
def ScSpec (o : Op1C) (src mem : Nat) (v : BitVec 64) (s s' : ThSt) (l : Verif.LA.Log) : Prop :=
  Kept [] s s' ∧ s'.st.rd 5#5 = s.st.rd 5#5 ∧ (Done o (reg s mem) v (reg s src) l ∧ s'.st.rd 28#5 = 0#64 ∨ NotDone l ∧ s'.st.rd 28#5 ≠ 0#64)

/-- **C73, the store.**  It takes place in one step, only when the cell has kept the loaded value, and OTHER_FLAG is zero exactly when it did.  All registers keep
their values, temp_reg included. -/
theorem c73_store (atomic useCas : Bool) (o : Op1C) (src mem : Nat) (e : List (BitVec 16)) (v : BitVec 64) (s : ThSt) (hv : Reserved o (reg s mem) v s)
    (he : emitAtomicStore atomic useCas o src mem = some e) : Always e s (ScSpec o src mem v s) := by
  obtain ⟨sz, hsz, rfl⟩ := store_eq he
  obtain ⟨a1, a2⟩ := dec_sc (size_ok hsz) OTHER_FLAG mem src
  refine ⟨⟨_, _, (exec_one a2).mpr ⟨_, _, .refl _, .scFail 1#64 a1 (by decide), .refl _⟩⟩, ?_⟩
  intro s' l hx
  obtain ⟨s1, s2, h1, h2, h3⟩ := (exec_one a2).mp hx
  have e28 : regMap OTHER_FLAG = 28#5 := rfl
  have fin : (∀ q, q ≠ 28#5 → s'.st.rd q = s.st.rd q) → s'.st.f = s.st.f → Kept [] s s' ∧ s'.st.rd 5#5 = s.st.rd 5#5 := by
    intro k kf
    exact ⟨⟨fun r hr _ => k _ (user_ne hr.2).2.2.2.2, k _ (by decide), k _ (by decide), kf⟩, k _ (by decide)⟩
  cases h2 with
  | lr hd' => rw [a1] at hd'; cases hd'
  | scOk hd' hr =>
    rw [a1] at hd'
    cases hd'
    obtain ⟨f1, f2⟩ := fin (by
      intro q hq
      rw [h3.rd]
      simp only [rd_adv, rd_wr, e28, hq, if_false]
      have : ∀ m : BitVec 64 → BitVec 8, ({ s1.st with mem := m } : St).rd q = s1.st.rd q := fun _ => rfl
      simp only [this, h1.rd]
      by_cases h : q = 0#5
      · subst h; simpa using (s.st.core.x0).symm
      · simp [h]) (by rw [h3.f]; exact h1.f)
    refine ⟨f1, f2, Or.inl ⟨⟨s1.st.mem, ?_, ?_⟩, ?_⟩⟩
    · rcases h1.2 with h | ⟨h, hc⟩
      · rw [h] at hr; cases hr
      · rw [h, h1.rd] at hr
        rcases hv with g | ⟨-, g⟩
        · rw [g] at hr; cases hr
        · rw [← g, ← value_eq hsz, ← value_eq hsz]
          exact hc _ _ hr
    · rw [h1.rd, h1.rd, ← update_eq hsz]; rfl
    · rw [h3.rd]; simp [rd_adv, rd_wr, e28]
  | scFail code hd' hc =>
    rw [a1] at hd'
    cases hd'
    obtain ⟨f1, f2⟩ := fin (by
      intro q hq
      rw [h3.rd]
      simp only [rd_adv, rd_wr, e28, hq, if_false, h1.rd]
      simp
      intro h; subst h; exact (s.st.core.x0).symm) (by rw [h3.f]; exact h1.f)
    refine ⟨f1, f2, Or.inr ⟨(by intro p hp; simp at hp), ?_⟩⟩
    rw [h3.rd]; simpa [rd_adv, rd_wr, e28] using hc

/-- **C73, progress.**  As long as the cell is reserved, the store can succeed. -/
theorem c73_succeeds (atomic useCas : Bool) (o : Op1C) (src mem : Nat) (e : List (BitVec 16)) (s : ThSt) (sz : Sz) (hsz : size o = some sz)
    (hr : s.res = some (reg s mem, sz)) (he : emitAtomicStore atomic useCas o src mem = some e) :
    ∃ s', ExecA e s s' [(s.st.mem, update o s.st.mem (reg s mem) (reg s src))] ∧ s'.st.rd 28#5 = 0#64 := by
  obtain ⟨sz', hsz', rfl⟩ := store_eq he
  rw [hsz] at hsz'
  cases hsz'
  obtain ⟨a1, a2⟩ := dec_sc (size_ok hsz) OTHER_FLAG mem src
  have h := StepA.scOk (s := s) a1 hr
  rw [update_eq hsz] at h
  exact ⟨_, (exec_one a2).mpr ⟨_, _, .refl _, h, .refl _⟩, by simp [rd_adv, rd_wr, show regMap OTHER_FLAG = 28#5 from rfl]⟩

/-- Between the load and the store the own thread computes without memory operations. -/
def Between (o : Op1C) (a : BitVec 64) (s s' : ThSt) : Prop :=
  s'.res = none ∨ s'.res = s.res ∧ (s.res ≠ none → value o s'.st.mem a = value o s.st.mem a)

/-- **C73, read-modify-write.**  A load, a computation and a store of the same type at the same address: the store replaces the loaded value in one step, or it
does not change the memory; OTHER_FLAG says which. -/
theorem c73_rmw (atomic useCas : Bool) (o : Op1C) (dst mem src mem' : Nat) (e1 e2 : List (BitVec 16)) (s s1 s2 s3 : ThSt) (l1 l2 : Verif.LA.Log) (hd : UserReg dst)
    (he1 : emitAtomicLoad atomic useCas o dst mem = some e1) (he2 : emitAtomicStore atomic useCas o src mem' = some e2)
    (h1 : ExecA e1 s s1 l1) (hb : Between o (reg s mem) s1 s2) (ha : reg s2 mem' = reg s mem) (h2 : ExecA e2 s2 s3 l2) :
    l1 = [] ∧ (∃ m, reg s1 dst = value o m (reg s mem)) ∧ ScSpec o src mem' (reg s1 dst) s2 s3 l2 := by
  have g := (c73_load atomic useCas o dst mem e1 s hd he1).2 _ _ h1
  refine ⟨g.log, g.val, (c73_store atomic useCas o src mem' e2 _ s2 ?_ he2).2 _ _ h2⟩
  rw [ha]
  rcases hb with hb | ⟨hb1, hb2⟩
  · exact Or.inl hb
  · rcases g.res with h | ⟨⟨sz, k1, k2⟩, h'⟩
    · exact Or.inl (hb1.trans h)
    · exact Or.inr ⟨⟨sz, k1, by rw [hb1, k2]⟩, by rw [hb2 (by rw [k2]; simp), h']⟩

/-- **C73, conditional jumps.**  A jump with SLJIT_ATOMIC_STORED (14) or SLJIT_ATOMIC_NOT_STORED (15) reads the outcome of the store, whatever the failure code is. -/
theorem c73_jump (s : St) : (jumpBr 14).skips s = !decide (s.rd 28#5 = 0#64) ∧ (jumpBr 15).skips s = decide (s.rd 28#5 = 0#64) := by
  constructor
  · refine jumpBr_skips (by decide) ?_
    simp [CondIs, inverted]
  · have := jumpBr_skips (s := s) (type := 15) (t := !decide (s.rd 28#5 = 0#64)) (by decide) (by simp [CondIs, inverted])
    rw [this, Bool.not_not]

/-- **C73, sljit_emit_op_flags.**  SLJIT_MOV of SLJIT_ATOMIC_STORED or SLJIT_ATOMIC_NOT_STORED gives 1 or 0 when the failure code of sc is 1, the only one which
is defined now.  Missing from the full statement: other failure codes (`c73_flag_false`). -/
theorem c73_flag_partial (cfg : Cfg) (is32 setZ not : Bool) (dst : Opd) (s : St) (hd : Dst dst) (h : s.rd 28#5 = 0#64 ∨ s.rd 28#5 = 1#64) :
    ∃ s', run (emitOpFlags cfg .mov is32 setZ true dst (if not then 15 else 14)) s = some s' ∧
      Result is32 dst (C29.bit (decide (s.rd 28#5 = 0#64) != not)) s s' ∧ s'.rd 5#5 = s.rd 5#5 ∧ s'.rd 28#5 = s.rd 28#5 := by
  have hF : FlagIs s.core true (if not then 15 else 14) (decide (s.rd 28#5 = 0#64) != not) := by
    have e : s.core.x 28#5 = s.rd 28#5 := rfl
    unfold FlagIs
    cases not <;> rw [if_neg (by decide), if_neg (by decide), if_neg (by decide), e] <;> rcases h with h | h <;> rw [h] <;> decide
  obtain ⟨s', h1, h2, h3, h4⟩ := emitOpFlags_mov (cfg := cfg) (is32 := is32) (setZ := setZ) hd.ok.1 hd.ok.2 (by cases not <;> decide) hF s rfl
  exact ⟨s', h1, Rv.Result.of (op := ⟨.mov, is32, false, .none⟩) (Or.inl hd) h2, h3, h4⟩

/-- A thread after an sc which failed with the code 2. -/
def failed : ThSt := ⟨(C29.demo.wr 28#5 2#64).adv 4#64, none⟩

/-- **C73 is violated** when sc fails with a code other than 1 ("portable software should only assume the failure code will be non-zero"): OTHER_FLAG holds
the code itself, and sljit_emit_op_flags only inverts its lowest bit.  After the code 2, SLJIT_MOV of SLJIT_ATOMIC_STORED gives 3, which is not zero: a failed
store is reported as successful. -/
theorem c73_flag_false : ¬ ∀ (cfg : Cfg) (o : Op1C) (src mem dst : Nat) (e : List (BitVec 16)) (s s' : ThSt) (l : Verif.LA.Log), UserReg dst →
    emitAtomicStore true false o src mem = some e → s.res = none → ExecA e s s' l →
    ∃ t, run (emitOpFlags cfg .mov false false true (.reg dst) 14) s'.st = some t ∧ (t.rd (regMap dst) = 0#64 ↔ NotDone l) := by
  intro h
  obtain ⟨a1, a2⟩ := dec_sc (sz := .word) (Or.inr rfl) OTHER_FLAG 1 3
  obtain ⟨t, h1, h2⟩ := h C29.cfg0 .mov 3 1 1 _ ⟨C29.demo, none⟩ failed [] (by decide) rfl rfl
    ((exec_one a2).mpr ⟨_, _, .refl _, .scFail 2#64 a1 (by decide), .refl _⟩)
  have e : (run (emitOpFlags C29.cfg0 .mov false false true (.reg 1) 14) failed.st).map (fun s => s.rd (regMap 1)) = some 3#64 := by decide +kernel
  rw [h1] at e
  simp only [Option.map_some, Option.some.injEq] at e
  rw [e] at h2
  exact absurd (h2.mpr (by intro p hp; simp at hp)) (by decide)

/-! ## Concrete cases -/

/-- A thread before a load. -/
def start : ThSt := ⟨C29.demo, none⟩
/-- The code of a 32 bit load and store. -/
def ldCode : List (BitVec 16) := (emitAtomicLoad true false .movS32 2 1).getD []
@[inherit_doc ldCode] def stCode : List (BitVec 16) := (emitAtomicStore true false .movS32 3 1).getD []

/-- The 32 bit load of the register 2 from [register 1] meets the hypotheses. -/
example : Always ldCode start (LoadSpec .movS32 2 1 start) := c73_load true false .movS32 2 1 _ start (by decide) rfl

/-- A reserved cell: the store may succeed, and it may fail. -/
example (s : ThSt) (h : s.res = some (reg s 1, .int)) : ∃ s' l s'' l', ExecA stCode s s' l ∧ s'.st.rd 28#5 = 0#64 ∧ l ≠ [] ∧ ExecA stCode s s'' l' ∧ s''.st.rd 28#5 ≠ 0#64 := by
  obtain ⟨s', h1, h2⟩ := c73_succeeds true false .movS32 3 1 stCode s .int rfl h rfl
  obtain ⟨a1, a2⟩ := dec_sc (sz := .int) (Or.inl rfl) OTHER_FLAG 1 3
  exact ⟨s', _, _, _, h1, h2, by simp, (exec_one a2).mpr ⟨_, _, .refl _, .scFail 1#64 a1 (by decide), .refl _⟩,
    by simp [rd_adv, rd_wr, show regMap OTHER_FLAG = 28#5 from rfl]⟩

/-- Both kinds of state of `c73_flag_partial` exist. -/
example : C29.demo.rd 28#5 = 0#64 ∧ (C29.demo.wr 28#5 1#64).rd 28#5 = 1#64 := by decide +kernel

end Verif.Props.C73
