import Verif.X86.AtomicProof
import Verif.Props.C50

/-!
# C77: sljit_emit_atomic_load and sljit_emit_atomic_store on x86-64

Other threads may change the memory before and after every instruction.  The contract (sljitLir.h:2314-2376) is stated with the value of a memory cell
(`value`, `update`), the registers of the application and the log of the memory updates of the own thread.
-/

namespace Verif.Props.C77
open Verif.X86 (St XMem XLog ExecX Feat rd wr num emitAtomicLoad emitAtomicStore)
open Verif (RV.Op1C)

/-! ## Specification -/

/-- The types of an atomic operation (sljitLir.h:2343): SLJIT_MOV to SLJIT_MOV_P. -/
def Typed (o : RV.Op1C) : Prop := o ∈ [RV.Op1C.mov, .movU8, .movS8, .movU16, .movS16, .movU32, .movS32, .mov32, .movP]
instance (o : RV.Op1C) : Decidable (Typed o) := by unfold Typed; infer_instance
/-- The unsigned ones. -/
def Unsigned (o : RV.Op1C) : Prop := o ≠ .movS8 ∧ o ≠ .movS16 ∧ o ≠ .movS32

/-- The bytes of a memory cell (sljitLir.h:1168-1194). -/
def size : RV.Op1C → Nat
  | .movU8 | .movS8 => 1
  | .movU16 | .movS16 => 2
  | .movU32 | .movS32 | .mov32 => 4
  | _ => 8

/-- The value of a memory cell, and the memory after a register is written to the cell. -/
def value (o : RV.Op1C) (m : XMem) (a : BitVec 64) : BitVec 64 := rd m a (size o)
@[inherit_doc value] def update (o : RV.Op1C) (m : XMem) (a v : BitVec 64) : XMem := wr m a (size o) v
/-- The value of the type which is in a register. -/
def cut (o : RV.Op1C) (v : BitVec 64) : BitVec 64 := (v.setWidth (8 * size o)).setWidth 64

/-- Registers of the application, and SLJIT_TMP_DEST_REG (15). -/
def UserReg (r : Nat) : Prop := 1 ≤ r ∧ r ≤ 13 ∨ r = 15
/-- The value of a register. -/
def reg (win : Bool) (s : St) (r : Nat) : BitVec 64 := s.r (num win r)

/-- The code can be executed to its end, and every execution does what is said, whatever other threads do. -/
def Always (e : List (BitVec 8)) (s : St) (Q : St → XLog → Prop) : Prop := (∃ s' l, ExecX e s s' l) ∧ ∀ s' l, ExecX e s s' l → Q s' l

/-- Apart from the registers of `ws`, the registers of the application, the stack pointer (14) and SLJIT_TMP_DEST_REG keep their values. -/
def Kept (win : Bool) (ws : List Nat) (s s' : St) : Prop := ∀ r, 1 ≤ r → r ≤ 15 → r ∉ ws → reg win s' r = reg win s r

/-- The condition SLJIT_ATOMIC_STORED is `b` and SLJIT_ATOMIC_NOT_STORED is its negation: get_jump_code gives them the codes of SLJIT_EQUAL and SLJIT_NOT_EQUAL
(sljitNativeX86_common.c:603-613). -/
def Flag (s : St) (b : Bool) : Prop := ∀ neg, C46.cond (Verif.X86.jumpCode .equal neg) s.f = some (b ^^ neg)

/-! ## The spec and the model -/

theorem size_eq (o : RV.Op1C) : Verif.X86.atBytes o = size o := by cases o <;> rfl

theorem size_le (o : RV.Op1C) : 0 < size o ∧ size o ≤ 8 := by cases o <;> decide

theorem flag_z {s : St} {b : Bool} (h : s.f.zf = some b) : Flag s b := by
  intro neg; rw [C46.cond_z, h]; rfl

theorem cut_low (o : RV.Op1C) (v : BitVec 64) : Verif.X86.lowN (size o) v = cut o v := by
  apply BitVec.eq_of_getLsbD_eq
  intro i hi
  rw [Verif.X86.lowN, Verif.X86.mask_bit (size_le o).1 (size_le o).2]
  simp only [cut, BitVec.getLsbD_setWidth, hi, decide_true, Bool.true_and]
  rw [Bool.and_comm]

/-! ## Theorems -/

/-- **C77, availability.**  The load and the store are available for the same types, the unsigned ones, unless SLJIT_ATOMIC_USE_LS is required; then the code can
be generated. -/
theorem c77_available (ft : Feat) (win ls : Bool) (o : RV.Op1C) (dst src mem mem' temp : Nat) (ho : Typed o) :
    ((∃ e, emitAtomicLoad ft win ls o dst mem = some (some e)) ↔ Unsigned o ∧ ls = false) ∧
    ((∃ e, emitAtomicStore win ls o src mem' temp = some (some e)) ↔ Unsigned o ∧ ls = false) ∧
    (¬ (Unsigned o ∧ ls = false) → emitAtomicLoad ft win ls o dst mem = none ∧ emitAtomicStore win ls o src mem' temp = none) := by
  by_cases h : ls = true ∨ o = .movS8 ∨ o = .movS16 ∨ o = .movS32
  · have hn : ¬ (Unsigned o ∧ ls = false) := by
      rintro ⟨⟨h1, h2, h3⟩, h4⟩
      rcases h with h | h | h | h
      · rw [h4] at h; cases h
      · exact h1 h
      · exact h2 h
      · exact h3 h
    have e1 : emitAtomicLoad ft win ls o dst mem = none := if_pos h
    have e2 : emitAtomicStore win ls o src mem' temp = none := if_pos h
    rw [e1, e2]
    exact ⟨⟨fun ⟨_, h⟩ => (by cases h), fun h => absurd h hn⟩, ⟨fun ⟨_, h⟩ => (by cases h), fun h => absurd h hn⟩, fun _ => ⟨rfl, rfl⟩⟩
  · have hy : Unsigned o ∧ ls = false := by
      refine ⟨⟨fun e => h (Or.inr (Or.inl e)), fun e => h (Or.inr (Or.inr (Or.inl e))), fun e => h (Or.inr (Or.inr (Or.inr e)))⟩, ?_⟩
      cases ls
      · rfl
      · exact absurd (Or.inl rfl) h
    have e1 : ∃ c, emitAtomicLoad ft win ls o dst mem = some c := ⟨_, if_neg h⟩
    have e2 : ∃ c, emitAtomicStore win ls o src mem' temp = some c := ⟨_, if_neg h⟩
    obtain ⟨c1, e1⟩ := e1
    obtain ⟨c2, e2⟩ := e2
    obtain ⟨b1, rfl⟩ := Verif.X86.load_some ho e1
    obtain ⟨b2, rfl⟩ := Verif.X86.store_some e2
    exact ⟨⟨fun _ => hy, fun _ => ⟨_, e1⟩⟩, ⟨fun _ => hy, fun _ => ⟨_, e2⟩⟩, fun hn => absurd hy hn⟩

/-- What a load does. -/
structure LoadSpec (win : Bool) (o : RV.Op1C) (dst mem : Nat) (s s' : St) (l : XLog) : Prop where
  log : l = []
  val : ∃ m, reg win s' dst = value o m (reg win s mem)
  kept : Kept win [dst] s s'
  flags : s'.f = s.f

/-- **C77, the load.**  The register gets the value which the cell has at some moment during the execution; no other register, no flag and no memory changes. -/
theorem c77_load (ft : Feat) (win ls : Bool) (o : RV.Op1C) (dst mem : Nat) (e : List (BitVec 8)) (s : St) (ho : Typed o) (hd : UserReg dst) (hm : UserReg mem)
    (he : emitAtomicLoad ft win ls o dst mem = some (some e)) : Always e s (LoadSpec win o dst mem s) := by
  have hd' := Verif.X86.Ux.le hd
  have hm' := Verif.X86.Ux.le hm
  refine Verif.X86.wpX_mono (Verif.X86.load_ok ho (by omega) he s) fun s' l g => ⟨g.log, ?_, fun r h1 h2 hn => g.kept _ ?_, g.f⟩
  · obtain ⟨m, hv⟩ := g.val
    rw [size_eq] at hv
    exact ⟨m, hv⟩
  · exact Verif.X86.numX_inj ⟨h1, by omega⟩ hd' (by simpa using hn)

/-- What a store does: it looks at the cell in one step, and replaces the value if it is the one in temp_reg. -/
structure CasSpec (win : Bool) (o : RV.Op1C) (src mem temp : Nat) (s s' : St) (l : XLog) : Prop where
  kept : Kept win [temp] s s'
  cell : ∃ m, (value o m (reg win s mem) = cut o (reg win s temp) → l = [(m, update o m (reg win s mem) (reg win s src))] ∧ cut o (reg win s' temp) = cut o (reg win s temp) ∧
      (cut o (reg win s temp) = reg win s temp → reg win s' temp = reg win s temp) ∧ Flag s' true) ∧
    (value o m (reg win s mem) ≠ cut o (reg win s temp) → l = [(m, m)] ∧ Flag s' false)

/-- **C77, the store.**  The cell is replaced exactly when it has the value in temp_reg, and the flag says whether it was.  temp_reg keeps its value when the cell is
replaced, and all other registers keep theirs in any case.  A preceding load is not needed; only the part of temp_reg which belongs to the type is examined. -/
theorem c77_store (win ls : Bool) (o : RV.Op1C) (src mem temp : Nat) (e : List (BitVec 8)) (s : St) (ho : Typed o) (hs : UserReg src) (hm : UserReg mem) (ht : UserReg temp)
    (he : emitAtomicStore win ls o src mem temp = some (some e)) : Always e s (CasSpec win o src mem temp s) := by
  have ht' := Verif.X86.Ux.le ht
  refine Verif.X86.wpX_mono (Verif.X86.store_ok ho hs hm ht he s) fun s' l g => ⟨fun r h1 h2 hn => ?_, ?_⟩
  · exact g.kept _ (Verif.X86.numX_inj ⟨h1, by omega⟩ ht' (by simpa using hn)) (Verif.X86.numX_inj ⟨h1, by omega⟩ ⟨by decide, by decide⟩ (by show r ≠ 16; omega))
  · obtain ⟨m, hc⟩ := g.cell
    refine ⟨m, ?_⟩
    rw [size_eq, cut_low] at hc
    rcases hc with ⟨h1, h2, h3, h4⟩ | ⟨h1, h2, h4⟩
    · refine ⟨fun _ => ⟨h2, ?_, fun hk => ?_, flag_z h4⟩, fun hn => absurd h1 hn⟩
      · rcases h3 with h3 | ⟨h5, h3⟩
        · exact congrArg (cut o) h3
        · rw [← h5, cut_low] at h3
          show cut o (s'.r (num win temp)) = _
          rw [h3]
          show ((((reg win s temp).setWidth (8 * size o)).setWidth 64).setWidth (8 * size o)).setWidth 64 = _
          have := (size_le o).2
          rw [BitVec.setWidth_setWidth_of_le _ (show 8 * size o ≤ 64 by omega), BitVec.setWidth_eq]
          rfl
      · rcases h3 with h3 | ⟨h5, h3⟩
        · exact h3
        · rw [← h5, cut_low] at h3
          exact h3.trans hk
    · exact ⟨fun hn => absurd hn h1, fun _ => ⟨h2, flag_z h4⟩⟩

/-- The update takes place: in one step, and the cell had the value `v` until then. -/
def Done (o : RV.Op1C) (a v new : BitVec 64) (l : XLog) : Prop := ∃ m, value o m a = v ∧ l = [(m, update o m a new)]
/-- The own thread changes nothing. -/
def NotDone (l : XLog) : Prop := ∀ p ∈ l, p.2 = p.1

theorem cut_value (o : RV.Op1C) (m : XMem) (a : BitVec 64) : cut o (value o m a) = value o m a := by
  apply BitVec.eq_of_getLsbD_eq
  intro i hi
  simp only [cut, BitVec.getLsbD_setWidth, hi, decide_true, Bool.true_and]
  by_cases h : i < 8 * size o
  · simp [h]
  · rw [show (value o m a).getLsbD i = false from Verif.X86.rd_bit m a (size o) i (by omega)]; simp

/-- **C77, read-modify-write.**  A load, any computation and a store of the same type at the same address: the store replaces the loaded value in one step, or it
does not change the memory; the flag says which.  When it does, temp_reg keeps its value. -/
theorem c77_rmw (ft : Feat) (win ls : Bool) (o : RV.Op1C) (dst mem src mem' temp : Nat) (e1 e2 : List (BitVec 8)) (s s1 s2 s3 : St) (l1 l2 : XLog) (ho : Typed o)
    (hd : UserReg dst) (hm : UserReg mem) (hs : UserReg src) (hm' : UserReg mem') (ht : UserReg temp)
    (he1 : emitAtomicLoad ft win ls o dst mem = some (some e1)) (he2 : emitAtomicStore win ls o src mem' temp = some (some e2))
    (h1 : ExecX e1 s s1 l1) (ha : reg win s2 mem' = reg win s mem) (hv : cut o (reg win s2 temp) = reg win s1 dst) (h2 : ExecX e2 s2 s3 l2) :
    l1 = [] ∧ (∃ m, reg win s1 dst = value o m (reg win s mem)) ∧ Kept win [temp] s2 s3 ∧
      (Done o (reg win s mem) (reg win s1 dst) (reg win s2 src) l2 ∧ cut o (reg win s3 temp) = reg win s1 dst ∧ Flag s3 true ∨ NotDone l2 ∧ Flag s3 false) := by
  obtain ⟨g1, g2, -, -⟩ := (c77_load ft win ls o dst mem e1 s ho hd hm he1).2 _ _ h1
  obtain ⟨k, m, c1, c2⟩ := (c77_store win ls o src mem' temp e2 s2 ho hs hm' ht he2).2 _ _ h2
  refine ⟨g1, g2, k, ?_⟩
  rw [ha, hv] at c1 c2
  by_cases h : value o m (reg win s mem) = reg win s1 dst
  · obtain ⟨d1, d2, -, d3⟩ := c1 h
    exact Or.inl ⟨⟨m, h, d1⟩, d2, d3⟩
  · refine Or.inr ⟨?_, (c2 h).2⟩
    rw [(c2 h).1]
    intro p hp
    simp only [List.mem_singleton] at hp
    rw [hp]

/-- **C77, the value of a load fits** the condition of `c77_rmw` when it is copied to temp_reg. -/
theorem c77_copy (ft : Feat) (win ls : Bool) (o : RV.Op1C) (dst mem temp : Nat) (e : List (BitVec 8)) (s s1 s2 : St) (l : XLog) (ho : Typed o) (hd : UserReg dst) (hm : UserReg mem)
    (he : emitAtomicLoad ft win ls o dst mem = some (some e)) (h : ExecX e s s1 l) (hc : reg win s2 temp = reg win s1 dst) : cut o (reg win s2 temp) = reg win s1 dst := by
  obtain ⟨-, ⟨m, hv⟩, -, -⟩ := (c77_load ft win ls o dst mem e s ho hd hm he).2 _ _ h
  rw [hc, hv, cut_value]

/-- **C77, the conditions.**  What the flag says after the store is what sljit_emit_op_flags with SLJIT_MOV stores, for SLJIT_ATOMIC_STORED and SLJIT_ATOMIC_NOT_STORED (`neg`). -/
theorem c77_flag (win : Bool) (s : St) (b : Bool) (h : Flag s b) (neg mov32 : Bool) (dst : Verif.X86.Opd) (hd : C46.Dest dst) :
    ∃ bs s', Verif.X86.emitFlagsMov win mov32 dst .equal neg = some bs ∧ Verif.X86.Steps bs s s' ∧
      C46.Written win s s' (some dst) (if b ^^ neg then 1#(C50.bitsOf mov32) else 0#_) ∧ s'.f = s.f :=
  C50.c50_flags_mov mov32 hd .equal neg s _ (h neg)

/-- **C77, sljit_emit_select** on the conditions. -/
theorem c77_select (win : Bool) (s : St) (b : Bool) (h : Flag s b) (neg is32 : Bool) (dst src2 : Nat) (src1 : Verif.X86.Opd) (hd : C46.Dest (.reg dst)) (h2 : C46.Src (.reg src2)) (h1 : C46.Src src1) :
    ∃ bs s', Verif.X86.emitSelect win is32 .equal neg dst src1 src2 = some bs ∧ Verif.X86.Steps bs s s' ∧
      C46.Written win s s' (some (.reg dst)) (if b ^^ neg then C46.value win s (C50.bitsOf is32) src1 else C46.value win s _ (.reg src2)) ∧ s'.f = s.f :=
  C50.c50_select is32 hd h2 h1 .equal neg s _ (h neg)

/-! ## Concrete cases -/

/-- R0, R1 and R2 on Linux, and a memory where all bytes are `b`. -/
def demo (r0 r1 r2 : BitVec 64) (b : BitVec 8) : St :=
  ⟨fun q => if q = num false 1 then r0 else if q = num false 2 then r1 else if q = num false 3 then r2 else 0#64, fun _ => b, ⟨none, none, none, none⟩⟩

/-- temp_reg is R2, the address and the new value change places with R0: a store of a halfword with R0 as source. -/
example : ∃ e, emitAtomicStore false false .movU16 1 2 3 = some (some e) ∧ e.length = 15 ∧
    ∃ s' l, ExecX e (demo 5#64 0x1000#64 0xfefe#64 0xfe#8) s' l ∧ CasSpec false .movU16 1 2 3 (demo 5#64 0x1000#64 0xfefe#64 0xfe#8) s' l := by
  obtain ⟨e, he⟩ := (c77_available ⟨false, false⟩ false false .movU16 1 1 2 2 3 (by decide)).2.1.2 (by unfold Unsigned; decide)
  obtain ⟨⟨s', l, hx⟩, h⟩ := c77_store false false .movU16 1 2 3 e (demo 5#64 0x1000#64 0xfefe#64 0xfe#8) (by decide) (Or.inl ⟨by decide, by decide⟩) (Or.inl ⟨by decide, by decide⟩) (Or.inl ⟨by decide, by decide⟩) he
  have hl : (emitAtomicStore false false .movU16 1 2 3).map (·.map List.length) = some (some 15) := by decide +kernel
  rw [he] at hl
  exact ⟨e, he, by simpa using hl, s', l, hx, h _ _ hx⟩

/-- Without other threads the cell of this example is replaced. -/
example : value .movU16 (demo 5#64 0x1000#64 0xfefe#64 0xfe#8).m (reg false (demo 5#64 0x1000#64 0xfefe#64 0xfe#8) 2) = cut .movU16 (reg false (demo 5#64 0x1000#64 0xfefe#64 0xfe#8) 3) := by decide +kernel

/-- A load of a byte. -/
example : ∃ e, emitAtomicLoad ⟨false, false⟩ false false .movU8 1 2 = some (some e) ∧ ∃ s' l, ExecX e (demo 5#64 0x1000#64 7#64 0xfe#8) s' l ∧ LoadSpec false .movU8 1 2 (demo 5#64 0x1000#64 7#64 0xfe#8) s' l := by
  obtain ⟨e, he⟩ := (c77_available ⟨false, false⟩ false false .movU8 1 1 2 2 3 (by decide)).1.2 (by unfold Unsigned; decide)
  obtain ⟨⟨s', l, hx⟩, h⟩ := c77_load ⟨false, false⟩ false false .movU8 1 2 e (demo 5#64 0x1000#64 7#64 0xfe#8) (by decide) (Or.inl ⟨by decide, by decide⟩) (Or.inl ⟨by decide, by decide⟩) he
  exact ⟨e, he, s', l, hx, h _ _ hx⟩

end Verif.Props.C77
