import Verif.Loong.AtomicProof
import Verif.Props.C70

/-!
# C72: sljit_emit_atomic_load and sljit_emit_atomic_store on LoongArch64

Other threads may change the memory before and after every instruction.  The contract (sljitLir.h:2330-2376) is stated with the value of a memory cell
(`value`, `update`), the registers of the application and the log of the memory updates of the own thread.
-/

namespace Verif.Props.C72
open Verif.RV (ld8 ld16 ld32 ld64 st8 st16 st32 st64 Op1C)
open Verif.Imm.Loong (regMap)
open Verif.LA (Mem Log ASt ExecA Use emitAtomicLoad emitAtomicStore)
open Verif.Props.C62 (UserReg zeroFlag varFlag)

/-- The value of a memory cell as an operation of the type sees it (sljitLir.h:1168-1194). -/
def value : Op1C → Mem → BitVec 64 → BitVec 64
  | .movU8, m, a => (ld8 m a).setWidth 64
  | .movS8, m, a => (ld8 m a).signExtend 64
  | .movU16, m, a => (ld16 m a).setWidth 64
  | .movS16, m, a => (ld16 m a).signExtend 64
  | .movU32, m, a => (ld32 m a).setWidth 64
  | .movS32, m, a | .mov32, m, a => (ld32 m a).signExtend 64
  | _, m, a => ld64 m a

/-- The memory after a register is written to the cell. -/
def update : Op1C → Mem → BitVec 64 → BitVec 64 → Mem
  | .movU8, m, a, v | .movS8, m, a, v => st8 m a (v.setWidth 8)
  | .movU16, m, a, v | .movS16, m, a, v => st16 m a (v.setWidth 16)
  | .movU32, m, a, v | .movS32, m, a, v | .mov32, m, a, v => st32 m a (v.setWidth 32)
  | _, m, a, v => st64 m a v

/-- A register of the application. -/
def reg (s : ASt) (r : Nat) : BitVec 64 := s.core.x (regMap r)
/-- The stack pointer and the thread pointer. -/
def fixed (s : ASt) : BitVec 64 × BitVec 64 := (s.core.x 2#5, s.core.x 21#5)

/-- The code can be executed to its end, and every execution does what is said, whatever other threads do. -/
def Always (e : List (BitVec 32)) (s : ASt) (Q : ASt → Log → Prop) : Prop := (∃ s' l, ExecA e s s' l) ∧ ∀ s' l, ExecA e s s' l → Q s' l

/-- Apart from the registers of `ws`, nothing has changed. -/
def Kept (ws : List Nat) (s s' : ASt) : Prop :=
  (∀ r, UserReg r → r ∉ ws → reg s' r = reg s r) ∧ fixed s' = fixed s ∧ s'.core.f = s.core.f

/-- Load linked and store conditional are used. -/
def LL (amcas : Bool) (use : Use) : Prop := use = .ls ∨ amcas = false

/-- What a thread still knows after ll: the cell has not been changed. -/
def Reserved (o : Op1C) (a v : BitVec 64) (s : ASt) : Prop := s.res = none ∨ s.res = some (a, (Verif.LA.atSz o).1) ∧ value o s.core.mem a = v

/-! ## The spec and the model -/

theorem value_eq (o : Op1C) (m : Mem) (a : BitVec 64) : (Verif.RV.ldOp (Verif.LA.atSz o).1 (Verif.LA.atSz o).2).eval m a = value o m a := by
  cases o <;> rfl
theorem update_eq (o : Op1C) (m : Mem) (a v : BitVec 64) : (Verif.RV.stOp (Verif.LA.atSz o).1).eval m a v = update o m a v := by
  cases o <;> rfl

theorem user_ne0 {r : Nat} (h : UserReg r) : regMap r ≠ 0#5 := by
  have key : ∀ a : Fin 25, a.1 ≠ 0 → regMap a.1 ≠ 0#5 := by decide +kernel
  exact key ⟨r, by have := h.2; omega⟩ (by have := h.1; simp; omega)

theorem ext_value {o : Op1C} {v : BitVec 64} (h : ∃ m a, v = value o m a) : Verif.LA.ext (Verif.LA.atSz o).1 (Verif.LA.atSz o).2 v = v := by
  obtain ⟨m, a, rfl⟩ := h
  rw [← value_eq, ← Verif.LA.ext_ld]
  unfold Verif.LA.ext
  generalize (Verif.RV.ldOp (Verif.LA.atSz o).1 true).eval m a = x
  generalize (Verif.LA.atSz o).1 = sz
  cases (Verif.LA.atSz o).2
  · simp only [Bool.false_eq_true, if_false]
    rw [← Verif.LA.zxt_sxt sz (Verif.LA.zxt sz x), Verif.LA.sxt_zxt, Verif.LA.zxt_sxt]
  · simp only [if_true]
    rw [← Verif.LA.sxt_zxt sz (Verif.LA.sxt sz x), Verif.LA.zxt_sxt, Verif.LA.sxt_zxt]

/-! ## Theorems -/

/-- **C72, availability.**  When the load form is allowed, its store form is allowed and vice versa. -/
theorem c72_available (amcas : Bool) (use : Use) (stored : Bool) (o : Op1C) (dst src mem mem' temp : Nat) :
    (emitAtomicLoad amcas use o dst mem).isSome = (emitAtomicStore amcas use stored o src mem' temp).isSome := by
  cases amcas <;> cases use <;> cases stored <;> cases o <;> rfl

/-- What a load does. -/
structure LoadSpec (amcas : Bool) (use : Use) (o : Op1C) (dst mem : Nat) (s s' : ASt) (l : Log) : Prop where
  log : l = []
  val : ∃ m, reg s' dst = value o m (reg s mem)
  kept : Kept [dst] s s'
  zero : zeroFlag s'.core ↔ zeroFlag s.core
  var : varFlag s'.core ↔ varFlag s.core
  res : LL amcas use → Reserved o (reg s mem) (reg s' dst) s'

/-- **C72, the load.**  The register gets the value which the cell has at some moment during the execution; no other register, no flag and no memory
changes.  With load linked, the cell is reserved: as long as the reservation lasts, the cell has this value. -/
theorem c72_load (amcas : Bool) (use : Use) (o : Op1C) (dst mem : Nat) (e : List (BitVec 32)) (s : ASt) (hd : UserReg dst)
    (he : emitAtomicLoad amcas use o dst mem = some e) :
    Always e s (LoadSpec amcas use o dst mem s) := by
  have n := Verif.LA.user_ne hd.2
  have nf := C62.user_fixed dst hd
  have fin : ∀ {ls : Bool}, (LL amcas use → ls = true ∧ (Verif.LA.atSz o).2 = true) →
      Verif.LA.wpA e s (Verif.LA.LoadOk ls (Verif.LA.atSz o).1 (Verif.LA.atSz o).2 dst mem s) → Always e s (LoadSpec amcas use o dst mem s) := by
    intro ls hls h
    refine Verif.LA.wpA_mono h fun s' l g => ⟨g.log, ?_, ⟨fun r hr hn => g.kept _ fun hh => hn (by simp [C62.user_inj _ _ hr hd hh]), ?_, g.f⟩, ?_, ?_, fun hl => ?_⟩
    · obtain ⟨m, hm⟩ := g.val
      exact ⟨m, by rw [← value_eq]; exact hm⟩
    · simp only [fixed, g.kept _ (Ne.symm nf.1), g.kept _ (Ne.symm nf.2)]
    · simp only [zeroFlag, g.kept _ (Ne.symm n.2.1)]
    · simp only [varFlag, g.kept _ (Ne.symm n.2.2.2.2)]
    · obtain ⟨l1, l2⟩ := hls hl
      rcases g.res l1 with h | ⟨h1, h2⟩
      · exact Or.inl h
      · refine Or.inr ⟨h1, ?_⟩
        rw [← value_eq, l2]; exact h2
  unfold emitAtomicLoad at he
  split_ifs at he with h1 h2
  · cases o <;> simp only [Option.some.injEq, reduceCtorEq] at he <;> subst he
    · exact fin (ls := true) (fun _ => ⟨rfl, rfl⟩) (Verif.LA.ll_ok (sz := .word) (Or.inr rfl) (user_ne0 hd) s)
    · exact fin (ls := true) (fun _ => ⟨rfl, rfl⟩) (Verif.LA.ll_ok (sz := .int) (Or.inl rfl) (user_ne0 hd) s)
    · exact fin (ls := true) (fun _ => ⟨rfl, rfl⟩) (Verif.LA.ll_ok (sz := .int) (Or.inl rfl) (user_ne0 hd) s)
    · exact fin (ls := true) (fun _ => ⟨rfl, rfl⟩) (Verif.LA.ll_ok (sz := .word) (Or.inr rfl) (user_ne0 hd) s)
  · simp only [Option.some.injEq] at he
    subst he
    refine fin (ls := false) (fun h => absurd h h1) (Verif.LA.ld_ok (o := o) ?_ (user_ne0 hd) s)
    cases o
    case movS8 => exact Verif.LA.dec_LD_B _ _ _
    case movU8 => exact Verif.LA.dec_LD_BU _ _ _
    case movS16 => exact Verif.LA.dec_LD_H _ _ _
    case movU16 => exact Verif.LA.dec_LD_HU _ _ _
    case mov32 => exact Verif.LA.dec_LD_W _ _ _
    case movS32 => exact Verif.LA.dec_LD_W _ _ _
    case movU32 => exact Verif.LA.dec_LD_WU _ _ _
    all_goals exact Verif.LA.dec_LD_D _ _ _

/-- The update takes place: in one step, and the cell had the value `v` until then. -/
def Done (o : Op1C) (a v new : BitVec 64) (l : Log) : Prop := ∃ m, value o m a = v ∧ l = [(m, update o m a new)]
/-- The own thread changes nothing. -/
def NotDone (l : Log) : Prop := ∀ p ∈ l, p.2 = p.1

/-- **C72, compare and swap.**  With amcas, sljit_emit_atomic_store and SLJIT_SET_ATOMIC_STORED looks at the cell in one step: it is updated exactly when it
has the value in temp_reg, and the flag says whether it was.  All registers keep their values, temp_reg included; a preceding load is not needed. -/
theorem c72_cas (use : Use) (o : Op1C) (src mem temp : Nat) (e : List (BitVec 32)) (s : ASt) (hu : use ≠ .ls) (hs : UserReg src) (hm : UserReg mem) (ht : UserReg temp)
    (hv : ∃ m a, reg s temp = value o m a) (he : emitAtomicStore true use true o src mem temp = some e) :
    Always e s fun s' l => Kept [] s s' ∧ ∃ m, (value o m (reg s mem) = reg s temp → l = [(m, update o m (reg s mem) (reg s src))] ∧ varFlag s'.core) ∧
      (value o m (reg s mem) ≠ reg s temp → l = [(m, m)] ∧ ¬ varFlag s'.core) := by
  unfold emitAtomicStore at he
  rw [if_neg (by simp [hu])] at he
  simp only [if_true, Option.some.injEq] at he
  subst he
  refine Verif.LA.wpA_mono (Verif.LA.cas_stored o ht.2 hm.2 hs.2 s (ext_value hv)) fun s' l g => ⟨⟨?_, ?_, g.f⟩, ?_⟩
  · intro r hr _
    have n := Verif.LA.user_ne hr.2
    exact g.kept _ n.2.2.2.1 n.2.2.2.2 (by intro h; cases h)
  · simp only [fixed, g.kept 2#5 (by decide) (by decide) (by intro h; cases h), g.kept 21#5 (by decide) (by decide) (by intro h; cases h)]
  · obtain ⟨m, hc⟩ := g.cell
    refine ⟨m, ?_⟩
    rw [value_eq, update_eq] at hc
    rcases hc with ⟨h1, h2, h3, -⟩ | ⟨h1, h2, h3⟩
    · refine ⟨fun _ => ⟨h2, ?_⟩, fun hn => absurd h1 hn⟩
      simp [varFlag, h3 rfl]
    · refine ⟨fun hn => absurd hn h1, fun _ => ⟨h2, ?_⟩⟩
      simp [varFlag, h3 rfl]

/-- **C72, compare and swap without a flag.**  As above, but temp_reg gets the old value: when the cell is updated, temp_reg keeps its value unless the type is an
unsigned one and the top bit of the value is set (`c72_temp_false`).  Missing from the full statement: exactly this case. -/
theorem c72_cas_noflag_partial (use : Use) (o : Op1C) (src mem temp : Nat) (e : List (BitVec 32)) (s : ASt) (hu : use ≠ .ls) (hs : UserReg src) (hm : UserReg mem)
    (ht : UserReg temp) (hts : temp ≠ src) (htm : temp ≠ mem) (hv : ∃ m a, reg s temp = value o m a)
    (he : emitAtomicStore true use false o src mem temp = some e) :
    Always e s fun s' l => Kept [temp] s s' ∧ ∃ m, (value o m (reg s mem) = reg s temp → l = [(m, update o m (reg s mem) (reg s src))] ∧
        ((o = .movU8 → (reg s temp).toNat < 2 ^ 7) → (o = .movU16 → (reg s temp).toNat < 2 ^ 15) → (o = .movU32 → (reg s temp).toNat < 2 ^ 31) → reg s' temp = reg s temp)) ∧
      (value o m (reg s mem) ≠ reg s temp → l = [(m, m)]) := by
  unfold emitAtomicStore at he
  rw [if_neg (by simp [hu])] at he
  simp only [Bool.false_eq_true, if_false, Option.some.injEq] at he
  subst he
  have hx := ext_value hv
  refine Verif.LA.wpA_mono (Verif.LA.cas_plain o (user_ne0 ht) (fun h => htm (C62.user_inj _ _ ht hm h)) (fun h => hts (C62.user_inj _ _ ht hs h)) s hx)
    fun s' l g => ⟨⟨?_, ?_, g.f⟩, ?_⟩
  · intro r hr hn
    have n := Verif.LA.user_ne hr.2
    exact g.kept _ n.2.2.2.1 n.2.2.2.2 fun _ h => hn (by simp [C62.user_inj _ _ hr ht h])
  · have nf := C62.user_fixed temp ht
    simp only [fixed, g.kept 2#5 (by decide) (by decide) fun _ => Ne.symm nf.1, g.kept 21#5 (by decide) (by decide) fun _ => Ne.symm nf.2]
  · obtain ⟨m, hc⟩ := g.cell
    refine ⟨m, ?_⟩
    rw [value_eq, update_eq] at hc
    rcases hc with ⟨h1, h2, -, h4⟩ | ⟨h1, h2, -⟩
    · refine ⟨fun _ => ⟨h2, fun b1 b2 b3 => ?_⟩, fun hn => absurd h1 hn⟩
      have h5 : reg s' temp = _ := h4 rfl
      rw [h5]
      change Verif.LA.sxt _ (reg s temp) = reg s temp
      change Verif.LA.ext _ _ (reg s temp) = reg s temp at hx
      generalize reg s temp = v at hx b1 b2 b3
      have small : ∀ k : Nat, k + 1 ≤ 64 → v.toNat < 2 ^ k → (v.setWidth (k + 1)).signExtend 64 = v := by
        intro k hk hb
        apply BitVec.eq_of_toNat_eq
        have p : 2 ^ (k + 1) ≤ 2 ^ 64 := Nat.pow_le_pow_right (by decide) hk
        rw [BitVec.signExtend_eq_setWidth_of_msb_false]
        · simp only [BitVec.toNat_setWidth]
          rw [Nat.mod_eq_of_lt (a := v.toNat) (by rw [Nat.pow_succ]; omega), Nat.mod_eq_of_lt v.isLt]
        · rw [BitVec.msb_eq_false_iff_two_mul_lt, BitVec.toNat_setWidth, Nat.mod_eq_of_lt (by rw [Nat.pow_succ]; omega), Nat.pow_succ]
          omega
      cases o
      case movU8 => exact small 7 (by decide) (b1 rfl)
      case movU16 => exact small 15 (by decide) (b2 rfl)
      case movU32 => exact small 31 (by decide) (b3 rfl)
      all_goals exact hx
    · exact ⟨fun hn => absurd hn h1, fun _ => h2⟩

/-- What a store conditional does: `v` is the loaded value. -/
def ScSpec (o : Op1C) (src mem : Nat) (v : BitVec 64) (s s' : ASt) (l : Log) : Prop :=
  Kept [] s s' ∧ (Done o (reg s mem) v (reg s src) l ∧ varFlag s'.core ∨ NotDone l ∧ ¬ varFlag s'.core)

/-- **C72, store conditional.**  The store takes place in one step, only when the cell has kept the loaded value, and the flag says whether it did.  All registers keep
their values. -/
theorem c72_sc (amcas : Bool) (use : Use) (stored : Bool) (o : Op1C) (src mem temp : Nat) (e : List (BitVec 32)) (v : BitVec 64) (s : ASt) (hl : LL amcas use)
    (hs : UserReg src) (hm : UserReg mem) (hv : Reserved o (reg s mem) v s) (he : emitAtomicStore amcas use stored o src mem temp = some e) :
    Always e s (ScSpec o src mem v s) := by
  have fin : (Verif.LA.atSz o).2 = true → Verif.LA.wpA e s (Verif.LA.ScOk (Verif.LA.atSz o).1 src mem s) → Always e s (ScSpec o src mem v s) := by
    intro hsg h
    refine Verif.LA.wpA_mono h fun s' l g => ⟨⟨fun r hr _ => g.kept _ (Verif.LA.user_ne hr.2).2.2.2.2, ?_, g.f⟩, ?_⟩
    · simp only [fixed, g.kept 2#5 (by decide), g.kept 21#5 (by decide)]
    · have ve := value_eq o
      rw [hsg] at ve
      rcases g.cell with ⟨m, a, r1, r2, r3, r4, r5⟩ | ⟨r1, r2⟩
      · subst r2
        refine Or.inl ⟨⟨m, ?_, by rw [← update_eq]; exact r4⟩, by simp [varFlag, r5]⟩
        rcases hv with h | ⟨-, h⟩
        · rw [h] at r1; cases r1
        · rw [← h, ← ve, ← ve]; exact r3
      · subst r1
        exact Or.inr ⟨(by intro p hp; simp at hp), by simp [varFlag, r2]⟩
  unfold emitAtomicStore at he
  rw [if_pos (show use = .ls ∨ amcas = false from hl)] at he
  split_ifs at he with h2
  cases o <;> simp only [Option.some.injEq, reduceCtorEq] at he <;> subst he
  · exact fin rfl (Verif.LA.sc_ok (sz := .word) (Or.inr rfl) hm.2 s)
  · exact fin rfl (Verif.LA.sc_ok (sz := .int) (Or.inl rfl) hm.2 s)
  · exact fin rfl (Verif.LA.sc_ok (sz := .int) (Or.inl rfl) hm.2 s)
  · exact fin rfl (Verif.LA.sc_ok (sz := .word) (Or.inr rfl) hm.2 s)

/-- **C72, the conditions.**  After a store, SLJIT_ATOMIC_STORED (14) and SLJIT_ATOMIC_NOT_STORED (15) are what the flag says, in the sense of C65 and C70: the
theorems `c65_mov`, `c65_logic` and `c70_jump_partial` apply to sljit_emit_op_flags and sljit_emit_jump. -/
theorem c72_says (s : ASt) (t : Bool) (h : varFlag s.core ↔ t = true) : C65.Says s.core false 14 t ∧ C65.Says s.core false 15 (!t) := by
  refine ⟨⟨by decide, ?_⟩, ⟨by decide, ?_⟩⟩ <;> rw [if_neg (by decide)] <;> refine ⟨?_, by simp, by simp⟩ <;> rw [h] <;> simp

/-- **C72, sljit_emit_op_flags** after a store conditional: SLJIT_MOV gives 1 when the cell was replaced, and 0 otherwise. -/
theorem c72_sc_flag (amcas : Bool) (use : Use) (stored : Bool) (o : Op1C) (src mem temp : Nat) (e : List (BitVec 32)) (v : BitVec 64) (s s' : ASt) (l : Log) (hl : LL amcas use)
    (hs : UserReg src) (hm : UserReg mem) (hv : Reserved o (reg s mem) v s) (he : emitAtomicStore amcas use stored o src mem temp = some e) (hx : ExecA e s s' l)
    (is32 setZ : Bool) (dst : Verif.RV.Opd) (hd : C62.Dst dst) :
    ∃ c t, Verif.LA.run (Verif.LA.emitOpFlags .mov is32 setZ true dst 14) s'.core = some c ∧ C62.Result is32 dst (if t then 1#64 else 0#64) s'.core c ∧
      (t = true → Done o (reg s mem) v (reg s src) l) ∧ (t = false → NotDone l) := by
  have key : ∃ t : Bool, (varFlag s'.core ↔ t = true) ∧ (t = true → Done o (reg s mem) v (reg s src) l) ∧ (t = false → NotDone l) := by
    rcases ((c72_sc amcas use stored o src mem temp e v s hl hs hm hv he).2 _ _ hx).2 with ⟨h1, h2⟩ | ⟨h1, h2⟩
    · exact ⟨true, by simp [h2], fun _ => h1, fun h => by cases h⟩
    · exact ⟨false, by simp [h2], (fun h => by cases h), fun _ => h1⟩
  obtain ⟨t, k1, k2, k3⟩ := key
  obtain ⟨c, h1, h2, -⟩ := C65.c65_mov is32 setZ false dst 14 t s'.core hd (c72_says s' t k1).1
  exact ⟨c, t, h1, h2, k2, k3⟩

/-- Between the load and the store the own thread computes without memory operations: other threads may change the memory, which ends a reservation unless the
cell has still the same value. -/
def Between (o : Op1C) (a : BitVec 64) (s s' : ASt) : Prop :=
  s'.res = none ∨ s'.res = s.res ∧ (s.res ≠ none → value o s'.core.mem a = value o s.core.mem a)

/-- **C72, read-modify-write.**  A load, a computation and a store of the same type at the same address: the store replaces the loaded value in one step, or it
does not change the memory; the flag says which. -/
theorem c72_rmw (amcas : Bool) (use : Use) (o : Op1C) (dst mem src mem' temp : Nat) (e1 e2 : List (BitVec 32)) (s s1 s2 s3 : ASt) (l1 l2 : Log)
    (hd : UserReg dst) (hs : UserReg src) (hm' : UserReg mem') (ht : UserReg temp)
    (he1 : emitAtomicLoad amcas use o dst mem = some e1) (he2 : emitAtomicStore amcas use true o src mem' temp = some e2)
    (h1 : ExecA e1 s s1 l1) (hb : Between o (reg s mem) s1 s2) (ha : reg s2 mem' = reg s mem) (hv : use ≠ .ls → reg s2 temp = reg s1 dst) (h2 : ExecA e2 s2 s3 l2) :
    l1 = [] ∧ (∃ m, reg s1 dst = value o m (reg s mem)) ∧ Kept [] s2 s3 ∧
      (Done o (reg s mem) (reg s1 dst) (reg s2 src) l2 ∧ varFlag s3.core ∨ NotDone l2 ∧ ¬ varFlag s3.core) := by
  obtain ⟨g1, g2, -, -, -, g4⟩ := (c72_load amcas use o dst mem e1 s hd he1).2 _ _ h1
  refine ⟨g1, g2, ?_⟩
  by_cases hl : LL amcas use
  · rw [← ha]
    show ScSpec o src mem' (reg s1 dst) s2 s3 l2
    refine (c72_sc amcas use true o src mem' temp e2 (reg s1 dst) s2 hl hs hm' ?_ he2).2 _ _ h2
    rcases hb with hb | ⟨hb1, hb2⟩
    · exact Or.inl hb
    · rcases g4 hl with h | ⟨h, h'⟩
      · exact Or.inl (hb1.trans h)
      · exact Or.inr ⟨by rw [hb1, h, ha], by rw [ha, hb2 (by rw [h]; simp), h']⟩
  · have hu : use ≠ .ls := fun h => hl (Or.inl h)
    have hc : amcas = true := by cases amcas; exact absurd (Or.inr rfl) hl; rfl
    subst hc
    have hv := hv hu
    obtain ⟨m0, hm0⟩ := g2
    obtain ⟨k, m, c1, c2⟩ := (c72_cas use o src mem' temp e2 s2 hu hs hm' ht ⟨m0, _, hv.trans hm0⟩ he2).2 _ _ h2
    refine ⟨k, ?_⟩
    rw [ha, hv] at c1 c2
    by_cases h : value o m (reg s mem) = reg s1 dst
    · exact Or.inl ⟨⟨m, h, (c1 h).1⟩, (c1 h).2⟩
    · refine Or.inr ⟨?_, (c2 h).2⟩
      rw [(c2 h).1]
      intro p hp
      simp only [List.mem_singleton] at hp
      rw [hp]

/-- **C72, progress of store conditional.**  As long as the cell is reserved, the store can succeed. -/
theorem c72_sc_succeeds (amcas : Bool) (use : Use) (stored : Bool) (o : Op1C) (src mem temp : Nat) (e : List (BitVec 32)) (s : ASt) (hl : LL amcas use)
    (hm : UserReg mem) (hr : s.res = some (reg s mem, (Verif.LA.atSz o).1)) (he : emitAtomicStore amcas use stored o src mem temp = some e) :
    ∃ s', ExecA e s s' [(s.core.mem, update o s.core.mem (reg s mem) (reg s src))] ∧ varFlag s'.core := by
  obtain ⟨-, -, -, -, m15⟩ := Verif.LA.user_ne hm.2
  have key : ∀ sz, (sz = .int ∨ sz = .word) → (Verif.LA.atSz o).1 = sz → ∃ s', ExecA
      (Verif.LA.ins (Verif.LA.ADD_D ||| Verif.Imm.Loong.RD Verif.LA.OTHER_FLAG ||| Verif.Imm.Loong.RJ src ||| Verif.LA.RK Verif.LA.TMP_ZERO) ++
        Verif.LA.ins ((if sz = .int then Verif.LA.SC_W else Verif.LA.SC_D) ||| Verif.Imm.Loong.RD Verif.LA.OTHER_FLAG ||| Verif.Imm.Loong.RJ mem)) s s'
      [(s.core.mem, update o s.core.mem (reg s mem) (reg s src))] ∧ varFlag s'.core := by
    intro sz hsz hz
    obtain ⟨a1, a2⟩ := Verif.LA.dec_sc sz hsz Verif.LA.OTHER_FLAG mem
    let c1 := Verif.LA.exec (.rd3 .add (regMap Verif.LA.OTHER_FLAG) (regMap src) (regMap Verif.LA.TMP_ZERO)) s.core
    have k15 : c1.x 15#5 = reg s src := by
      show (s.core.wr 15#5 (s.core.x (regMap src) + s.core.x 0#5)).x 15#5 = _
      rw [Verif.LA.x_wr, s.core.x0]; simp [reg]
    have km : c1.x (regMap mem) = reg s mem := by
      show (s.core.wr 15#5 _).x (regMap mem) = _
      rw [Verif.LA.x_wr, if_neg (fun h => m15 h.1)]; rfl
    have h1 : Verif.LA.StepA _ s ⟨c1, s.res⟩ [] := Verif.LA.StepA.ins (Verif.LA.dec_ADD_D Verif.LA.OTHER_FLAG src Verif.LA.TMP_ZERO)
    have h2 := Verif.LA.StepA.scOk (s := ⟨c1, s.res⟩) a1 a2 (by rw [hr, hz]; simp only [BitVec.add_zero]; rw [km])
    simp only [BitVec.add_zero] at h2
    rw [show c1.x (regMap Verif.LA.OTHER_FLAG) = reg s src from k15, km, show c1.mem = s.core.mem from rfl, ← hz, update_eq] at h2
    rw [← hz] at *
    refine ⟨_, .cons (.refl _) h1 (.cons (.refl _) h2 (.nil (.refl _))), ?_⟩
    show (Verif.LA.Core.wr _ 15#5 1#64).x 15#5 ≠ 0#64
    rw [Verif.LA.x_wr]; simp
  unfold emitAtomicStore at he
  rw [if_pos (show use = .ls ∨ amcas = false from hl)] at he
  split_ifs at he with h2
  cases o <;> simp only [Option.some.injEq, reduceCtorEq] at he <;> subst he
  · exact key .word (Or.inr rfl) rfl
  · exact key .int (Or.inl rfl) rfl
  · exact key .int (Or.inl rfl) rfl
  · exact key .word (Or.inr rfl) rfl

/-! ## The defect, and concrete cases -/

/-- A thread: R0, R1 and R2, and a memory where all bytes are `b`. -/
def demo (r0 r1 r2 : BitVec 64) (b : BitVec 8) : ASt where
  core := ⟨fun q => if q = regMap 1 then r0 else if q = regMap 2 then r1 else if q = regMap 3 then r2 else 0#64, fun _ => 0#64, fun _ => b,
    by rw [if_neg (by decide), if_neg (by decide), if_neg (by decide)]⟩
  res := none

/-- **C72 is false for temp_reg.**  "The temp_reg register preserves its value, if the memory store is successful" (sljitLir.h:2365-2366), but for SLJIT_MOV_U8
without SLJIT_SET_ATOMIC_STORED the byte 0x80 is replaced, and temp_reg changes from 0x80 to 0xffffffffffffff80. -/
theorem c72_temp_false : ∃ e s s' m, emitAtomicStore true .any false .movU8 1 2 3 = some e ∧ (∃ m a, reg s 3 = value .movU8 m a) ∧
    ExecA e s s' [(m, update .movU8 m (reg s 2) (reg s 1))] ∧ value .movU8 m (reg s 2) = reg s 3 ∧ reg s 3 = 0x80#64 ∧ reg s' 3 = 0xffffffffffffff80#64 := by
  obtain ⟨a1, a2⟩ := Verif.LA.dec_casIns .movU8 (d := 3) (j := 2) (k := 1) (by decide) (by decide)
  have h := Verif.LA.StepA.casEq (s := demo 5#64 0x1000#64 0x80#64 0x80#8) a1 a2 (by decide +kernel)
  refine ⟨_, demo 5#64 0x1000#64 0x80#64 0x80#8, _, _, rfl, ⟨fun _ => 0x80#8, 0#64, by decide +kernel⟩, .cons (.refl _) h (.nil (.refl _)), by decide +kernel, by decide +kernel, ?_⟩
  show (Verif.LA.Core.wr _ (regMap 3) _).x (regMap 3) = _
  rw [Verif.LA.x_wr]
  decide +kernel

/-- A read-modify-write on a word which other threads leave alone succeeds with ll and sc. -/
example : ∃ e1 e2 s1 s3, emitAtomicLoad false .any .mov 1 2 = some e1 ∧ emitAtomicStore false .any true .mov 3 2 1 = some e2 ∧
    ExecA e1 (demo 0#64 0x1000#64 7#64 0x11#8) s1 [] ∧ reg s1 1 = 0x1111111111111111#64 ∧
    ExecA e2 s1 s3 [(s1.core.mem, update .mov s1.core.mem 0x1000#64 7#64)] ∧ varFlag s3.core := by
  obtain ⟨a1, a2⟩ := Verif.LA.dec_ll .word (Or.inr rfl) 1 2
  have h := Verif.LA.StepA.ll (s := demo 0#64 0x1000#64 7#64 0x11#8) a1 a2
  obtain ⟨s3, h3, h4⟩ := c72_sc_succeeds false .any true .mov 3 2 1 _ (Or.inr rfl) ⟨by decide, by decide⟩ (s := ⟨(demo 0#64 0x1000#64 7#64 0x11#8).core.wr (regMap 1)
    ((Verif.RV.ldOp .word true).eval (demo 0#64 0x1000#64 7#64 0x11#8).core.mem ((demo 0#64 0x1000#64 7#64 0x11#8).core.x (regMap 2) + 0#64)),
    some ((demo 0#64 0x1000#64 7#64 0x11#8).core.x (regMap 2) + 0#64, .word)⟩) (by decide +kernel) rfl
  refine ⟨_, _, _, s3, rfl, rfl, .cons (.refl _) h (.nil (.refl _)), by decide +kernel, ?_, h4⟩
  have e1 : reg ⟨(demo 0#64 0x1000#64 7#64 0x11#8).core.wr (regMap 1)
    ((Verif.RV.ldOp .word true).eval (demo 0#64 0x1000#64 7#64 0x11#8).core.mem ((demo 0#64 0x1000#64 7#64 0x11#8).core.x (regMap 2) + 0#64)),
    some ((demo 0#64 0x1000#64 7#64 0x11#8).core.x (regMap 2) + 0#64, .word)⟩ 2 = 0x1000#64 := by decide +kernel
  have e2 : reg ⟨(demo 0#64 0x1000#64 7#64 0x11#8).core.wr (regMap 1)
    ((Verif.RV.ldOp .word true).eval (demo 0#64 0x1000#64 7#64 0x11#8).core.mem ((demo 0#64 0x1000#64 7#64 0x11#8).core.x (regMap 2) + 0#64)),
    some ((demo 0#64 0x1000#64 7#64 0x11#8).core.x (regMap 2) + 0#64, .word)⟩ 3 = 7#64 := by decide +kernel
  rw [e1, e2] at h3
  exact h3

/-- Compare and swap of a halfword with the top bit set: it is updated when no other thread interferes, as it still has its value. -/
example : ∃ e, emitAtomicStore true .cas true .movU16 1 2 3 = some e ∧ (∃ m a, reg (demo 5#64 0x1000#64 0xfefe#64 0xfe#8) 3 = value .movU16 m a) ∧
    ∃ s' l, ExecA e (demo 5#64 0x1000#64 0xfefe#64 0xfe#8) s' l := by
  have hv : ∃ m a, reg (demo 5#64 0x1000#64 0xfefe#64 0xfe#8) 3 = value .movU16 m a := ⟨fun _ => 0xfe#8, 0#64, by decide +kernel⟩
  exact ⟨_, rfl, hv, (c72_cas .cas .movU16 1 2 3 _ _ (by decide) ⟨by decide, by decide⟩ ⟨by decide, by decide⟩ ⟨by decide, by decide⟩ hv rfl).1⟩

end Verif.Props.C72
