import Verif.A64.AtomicProof
import Verif.Props.C47

/-!
# C76: sljit_emit_atomic_load and sljit_emit_atomic_store on ARM64

Other threads may change the memory before and after every instruction.  The contract (sljitLir.h:2325-2376) is stated with the value of a memory cell
(`value`, `update`), the registers of the application and the log of the memory updates of the own thread.
-/

namespace Verif.Props.C76
open Verif.A64 (rd wr AMem ALog ASt ExecA AUse emitAtomicLoad emitAtomicStore getCcAt)
open Verif.Imm.Arm64 (regMap)
open Verif (RV.Op1C)

/-! ## Specification -/

/-- The bytes of a memory cell (sljitLir.h:1168-1194). -/
def size : RV.Op1C → Nat
  | .movU8 | .movS8 => 1
  | .movU16 | .movS16 => 2
  | .movU32 | .movS32 | .mov32 => 4
  | _ => 8

/-- The value of a memory cell, and the memory after a register is written to the cell; all the types which are available are unsigned. -/
def value (o : RV.Op1C) (m : AMem) (a : BitVec 64) : BitVec 64 := rd m a (size o)
@[inherit_doc value] def update (o : RV.Op1C) (m : AMem) (a v : BitVec 64) : AMem := wr m a v (size o)

/-- Registers of the application. -/
def UserReg (r : Nat) : Prop := 1 ≤ r ∧ r ≤ 26
/-- The value of a register. -/
def reg (s : ASt) (r : Nat) : BitVec 64 := s.st.r (regMap r)
/-- The part of a register which has a meaning: for SLJIT_MOV32 the low 32 bits. -/
def cut (o : RV.Op1C) (v : BitVec 64) : BitVec 64 := if o = .mov32 then (v.setWidth 32).setWidth 64 else v

/-- The code can be executed to its end, and every execution does what is said, whatever other threads do. -/
def Always (e : List (BitVec 32)) (s : ASt) (Q : ASt → ALog → Prop) : Prop := (∃ s' l, ExecA e s s' l) ∧ ∀ s' l, ExecA e s s' l → Q s' l

/-- Apart from the registers of `ws`, the registers of the application and the stack pointer (27) keep their values. -/
def Kept (ws : List Nat) (s s' : ASt) : Prop := ∀ r, 1 ≤ r → r ≤ 27 → r ∉ ws → reg s' r = reg s r

/-- Load exclusive and store exclusive are used. -/
def LL (feat : Bool) (use : AUse) : Prop := use = .ls ∨ feat = false

/-- What a thread still knows after a load exclusive: the cell has not been changed. -/
def Reserved (o : RV.Op1C) (a v : BitVec 64) (s : ASt) : Prop := s.res = none ∨ s.res = some (a, Verif.A64.atSize o) ∧ value o s.st.m a = v

/-- The condition SLJIT_ATOMIC_STORED is `b`, as the instructions with the inverse of the condition code of get_cc find it, and SLJIT_ATOMIC_NOT_STORED is its
negation (compare C47.Holds). -/
def Flag (s : ASt) (b : Bool) : Prop := ∀ neg, Verif.A64.cond (getCcAt neg) s.st.f = !(b ^^ neg)

/-- The types of an atomic operation. -/
def Unsigned (o : RV.Op1C) : Prop := o ≠ .movS8 ∧ o ≠ .movS16 ∧ o ≠ .movS32

/-! ## The spec and the model -/

theorem bytes_eq (o : RV.Op1C) : Verif.A64.bytes (Verif.A64.atSize o) = size o := by cases o <;> rfl

theorem flag_z {s : ASt} {b : Bool} (h : s.st.f.z = b) : Flag s b := by
  have key : ∀ (f : Verif.A64.Flags) (neg : Bool), Verif.A64.cond (getCcAt neg) f = !(f.z ^^ neg) := by
    intro f neg
    cases neg
    · show (!f.z) = _; cases f.z <;> rfl
    · show f.z = _; cases f.z <;> rfl
  intro neg; rw [key, h]

theorem cut_low {o : RV.Op1C} (v : BitVec 64) {m : AMem} {a : BitVec 64} (h : cut o v = value o m a) : Verif.A64.low (Verif.A64.atSize o) v = cut o v := by
  have hl := Verif.A64.low_rd (Verif.A64.atSize o) m a
  rw [bytes_eq] at hl
  by_cases ho : o = .mov32
  · subst ho; rfl
  · have hc : cut o v = v := if_neg ho
    rw [hc] at h ⊢
    rw [h]; exact hl

/-! ## Theorems -/

/-- **C76, availability.**  The load and the store are available for the same types and options: for the unsigned ones, without SLJIT_ATOMIC_USE_CAS unless the
processor has compare and swap. -/
theorem c76_available (feat : Bool) (use : AUse) (stored : Bool) (o : RV.Op1C) (dst src mem mem' temp : Nat) :
    ((emitAtomicLoad feat use o dst mem).isSome ↔ Unsigned o ∧ ¬ (feat = false ∧ use = .cas)) ∧
    ((emitAtomicStore feat use stored o src mem' temp).isSome ↔ Unsigned o ∧ ¬ (feat = false ∧ use = .cas)) := by
  cases feat <;> cases use <;> cases o <;> simp [emitAtomicLoad, emitAtomicStore, Verif.A64.emitCas, Unsigned]

/-- What a load does. -/
structure LoadSpec (feat : Bool) (use : AUse) (o : RV.Op1C) (dst mem : Nat) (s s' : ASt) (l : ALog) : Prop where
  log : l = []
  val : ∃ m, reg s' dst = value o m (reg s mem)
  kept : Kept [dst] s s'
  flags : s'.st.f = s.st.f
  res : LL feat use → Reserved o (reg s mem) (reg s' dst) s'

/-- **C76, the load.**  The register gets the value which the cell has at some moment during the execution; no other register, no flag and no memory
changes.  With load exclusive, the cell is marked: as long as the mark lasts, the cell has this value. -/
theorem c76_load (feat : Bool) (use : AUse) (o : RV.Op1C) (dst mem : Nat) (e : List (BitVec 32)) (s : ASt) (hd : UserReg dst)
    (he : emitAtomicLoad feat use o dst mem = some e) : Always e s (LoadSpec feat use o dst mem s) := by
  have n := Verif.A64.ur_map hd
  have fin : ∀ {ls : Bool}, (LL feat use → ls = true) → Verif.A64.wpA e s (Verif.A64.LoadOk ls (Verif.A64.atSize o) dst mem s) → Always e s (LoadSpec feat use o dst mem s) := by
    intro ls hls h
    refine Verif.A64.wpA_mono h fun s' l g => ⟨g.log, ?_, fun r h1 h2 hn => g.kept _ ?_, g.f, fun hl => ?_⟩
    · obtain ⟨m, hm⟩ := g.val
      rw [bytes_eq] at hm
      exact ⟨m, hm⟩
    · exact Verif.A64.map_inj ⟨h1, h2⟩ ⟨hd.1, by have := hd.2; omega⟩ (by simpa using hn)
    · have := g.res (hls hl)
      rw [bytes_eq] at this
      exact this
  have hw := Verif.A64.load_words he
  by_cases hp : feat = true ∧ use ≠ .ls
  · rw [if_pos hp] at hw
    subst hw
    refine fin (ls := false) (fun hl => ?_) (Verif.A64.ldr_ok _ n.2.2.2 s)
    rcases hl with h | h
    · exact absurd h hp.2
    · rw [hp.1] at h; cases h
  · rw [if_neg hp] at hw
    subst hw
    exact fin (ls := true) (fun _ => rfl) (Verif.A64.ldxr_ok _ n.2.2.2 s)

/-- The update takes place: in one step, and the cell had the value `v` until then. -/
def Done (o : RV.Op1C) (a v new : BitVec 64) (l : ALog) : Prop := ∃ m, value o m a = v ∧ l = [(m, update o m a new)]
/-- The own thread changes nothing. -/
def NotDone (l : ALog) : Prop := ∀ p ∈ l, p.2 = p.1

/-- What a compare and swap does: it looks at the cell in one step, and replaces the value if it is the one in temp_reg. -/
structure CasSpec (stored : Bool) (o : RV.Op1C) (src mem temp : Nat) (s s' : ASt) (l : ALog) : Prop where
  kept : Kept [temp] s s'
  flags : stored = false → s'.st.f = s.st.f
  cell : ∃ m, (value o m (reg s mem) = cut o (reg s temp) → l = [(m, update o m (reg s mem) (reg s src))] ∧ cut o (reg s' temp) = cut o (reg s temp) ∧ (stored = true → Flag s' true)) ∧
    (value o m (reg s mem) ≠ cut o (reg s temp) → l = [(m, m)] ∧ (stored = true → Flag s' false))

/-- **C76, compare and swap.**  The cell is replaced exactly when it has the value in temp_reg, and with SLJIT_SET_ATOMIC_STORED the flag says whether it was.  temp_reg
keeps its value when the cell is replaced, and all other registers keep theirs in any case.  temp_reg must contain a value of the type; a preceding load is not needed. -/
theorem c76_cas (use : AUse) (stored : Bool) (o : RV.Op1C) (src mem temp : Nat) (e : List (BitVec 32)) (s : ASt) (hu : use ≠ .ls) (hs : UserReg src) (hm : UserReg mem) (ht : UserReg temp)
    (hv : ∃ m a, cut o (reg s temp) = value o m a) (he : emitAtomicStore true use stored o src mem temp = some e) :
    Always e s (CasSpec stored o src mem temp s) := by
  have ns := Verif.A64.ur_map hs
  have nm := Verif.A64.ur_map hm
  have nt := Verif.A64.ur_map ht
  obtain ⟨m0, a0, hv⟩ := hv
  have hl := cut_low _ hv
  have hv' : (Verif.A64.atSize o).toNat < 2 → Verif.A64.low (Verif.A64.atSize o) (reg s temp) = reg s temp := by
    intro hz
    rw [hl]
    refine if_neg ?_
    rintro rfl
    revert hz; decide
  rw [Verif.A64.cas_words hu he]
  refine Verif.A64.wpA_mono (Verif.A64.cas_ok stored (Verif.A64.atSize o) ⟨ns.2.1, ns.2.2.2⟩ nm.2.1 ⟨nt.2.1, nt.2.2.2⟩ s hv') fun s' l g => ⟨fun r h1 h2 hn => ?_, g.f, ?_⟩
  · exact g.kept _ (Verif.A64.usp_map h1 h2).2.1 (Verif.A64.map_inj ⟨h1, h2⟩ ⟨ht.1, by have := ht.2; omega⟩ (by simpa using hn))
  · obtain ⟨m, hc⟩ := g.cell
    refine ⟨m, ?_⟩
    rw [bytes_eq] at hc
    change (value o m (reg s mem) = Verif.A64.low _ (reg s temp) ∧ l = [(m, update o m (reg s mem) (reg s src))] ∧ reg s' temp = Verif.A64.low _ (reg s temp) ∧ _) ∨
      (value o m (reg s mem) ≠ Verif.A64.low _ (reg s temp) ∧ _) at hc
    rw [hl] at hc
    rcases hc with ⟨h1, h2, h3, h4⟩ | ⟨h1, h2, h4⟩
    · refine ⟨fun _ => ⟨h2, ?_, fun h => flag_z (h4 h)⟩, fun hn => absurd h1 hn⟩
      rw [h3]
      unfold cut
      split
      · rw [BitVec.setWidth_setWidth_of_le (BitVec.setWidth 32 (reg s temp)) (by decide : 32 ≤ 64), BitVec.setWidth_eq]
      · rfl
    · exact ⟨fun hn => absurd hn h1, fun _ => ⟨h2, fun h => flag_z (h4 h)⟩⟩

/-- What a store exclusive does: `v` is the loaded value. -/
structure ScSpec (stored : Bool) (o : RV.Op1C) (src mem : Nat) (v : BitVec 64) (s s' : ASt) (l : ALog) : Prop where
  kept : Kept [] s s'
  flags : stored = false → s'.st.f = s.st.f
  cell : Done o (reg s mem) v (reg s src) l ∧ (stored = true → Flag s' true) ∨ NotDone l ∧ (stored = true → Flag s' false)

/-- **C76, store exclusive.**  The store takes place in one step, only when the cell has kept the loaded value, and with SLJIT_SET_ATOMIC_STORED the flag says whether it did.
All registers keep their values. -/
theorem c76_sc (feat : Bool) (use : AUse) (stored : Bool) (o : RV.Op1C) (src mem temp : Nat) (e : List (BitVec 32)) (v : BitVec 64) (s : ASt) (hl : LL feat use)
    (hs : UserReg src) (hm : UserReg mem) (hv : Reserved o (reg s mem) v s) (he : emitAtomicStore feat use stored o src mem temp = some e) :
    Always e s (ScSpec stored o src mem v s) := by
  have ns := Verif.A64.ur_map hs
  have nm := Verif.A64.ur_map hm
  rw [Verif.A64.sc_words hl he]
  refine Verif.A64.wpA_mono (Verif.A64.sc_ok stored (Verif.A64.atSize o) ⟨ns.2.1, ns.2.2.2⟩ nm.2.1 s) fun s' l g => ⟨fun r h1 h2 _ => g.kept _ (Verif.A64.usp_map h1 h2).2.1, g.f, ?_⟩
  have hc := g.cell
  rw [bytes_eq] at hc
  rcases hc with ⟨m, r1, r2, r3, r4⟩ | ⟨r1, r2⟩
  · refine Or.inl ⟨⟨m, ?_, r3⟩, fun h => flag_z (r4 h)⟩
    rcases hv with h | ⟨-, h⟩
    · rw [h] at r1; cases r1
    · rw [← h]; exact r2
  · subst r1
    exact Or.inr ⟨(by intro p hp; simp at hp), fun h => flag_z (r2 h)⟩

/-- Between the load and the store the own thread computes without memory operations: other threads may change the memory, which ends a reservation unless the
cell has still the same value. -/
def Between (o : RV.Op1C) (a : BitVec 64) (s s' : ASt) : Prop :=
  s'.res = none ∨ s'.res = s.res ∧ (s.res ≠ none → value o s'.st.m a = value o s.st.m a)

/-- **C76, read-modify-write.**  A load, a computation and a store of the same type at the same address: the store replaces the loaded value in one step, or it
does not change the memory; the flag says which.  When it does, temp_reg keeps its value. -/
theorem c76_rmw (feat : Bool) (use : AUse) (o : RV.Op1C) (dst mem src mem' temp : Nat) (e1 e2 : List (BitVec 32)) (s s1 s2 s3 : ASt) (l1 l2 : ALog)
    (hd : UserReg dst) (hs : UserReg src) (hm' : UserReg mem') (ht : UserReg temp)
    (he1 : emitAtomicLoad feat use o dst mem = some e1) (he2 : emitAtomicStore feat use true o src mem' temp = some e2)
    (h1 : ExecA e1 s s1 l1) (hb : Between o (reg s mem) s1 s2) (ha : reg s2 mem' = reg s mem) (hv : cut o (reg s2 temp) = cut o (reg s1 dst)) (h2 : ExecA e2 s2 s3 l2) :
    l1 = [] ∧ (∃ m, reg s1 dst = value o m (reg s mem)) ∧ Kept [temp] s2 s3 ∧
      (Done o (reg s mem) (reg s1 dst) (reg s2 src) l2 ∧ cut o (reg s3 temp) = cut o (reg s2 temp) ∧ Flag s3 true ∨ NotDone l2 ∧ Flag s3 false) := by
  obtain ⟨g1, g2, -, -, g4⟩ := (c76_load feat use o dst mem e1 s hd he1).2 _ _ h1
  refine ⟨g1, g2, ?_⟩
  by_cases hl : LL feat use
  · have hr : Reserved o (reg s2 mem') (reg s1 dst) s2 := by
      rcases hb with hb | ⟨hb1, hb2⟩
      · exact Or.inl hb
      · rcases g4 hl with h | ⟨h, h'⟩
        · exact Or.inl (hb1.trans h)
        · exact Or.inr ⟨by rw [hb1, h, ha], by rw [ha, hb2 (by rw [h]; simp), h']⟩
    obtain ⟨k1, -, k2⟩ := (c76_sc feat use true o src mem' temp e2 (reg s1 dst) s2 hl hs hm' hr he2).2 _ _ h2
    refine ⟨fun r a b _ => k1 r a b (by simp), ?_⟩
    rw [ha] at k2
    rcases k2 with ⟨h, h'⟩ | ⟨h, h'⟩
    · exact Or.inl ⟨h, by rw [k1 temp ht.1 (by have := ht.2; omega) (by simp)], h' rfl⟩
    · exact Or.inr ⟨h, h' rfl⟩
  · have hu : use ≠ .ls := fun h => hl (Or.inl h)
    have hc : feat = true := by cases feat; exact absurd (Or.inr rfl) hl; rfl
    subst hc
    obtain ⟨m0, hm0⟩ := g2
    have hcv : cut o (reg s1 dst) = reg s1 dst := by
      unfold cut
      split
      · next ho =>
        subst ho
        rw [hm0]
        exact Verif.A64.low_rd 2#2 m0 (reg s mem)
      · rfl
    rw [hcv] at hv
    obtain ⟨k, -, m, c1, c2⟩ := (c76_cas use true o src mem' temp e2 s2 hu hs hm' ht ⟨m0, _, hv.trans hm0⟩ he2).2 _ _ h2
    refine ⟨k, ?_⟩
    rw [ha, hv] at c1
    rw [ha, hv] at c2
    rw [hv]
    by_cases h : value o m (reg s mem) = reg s1 dst
    · obtain ⟨d1, d2, d3⟩ := c1 h
      exact Or.inl ⟨⟨m, h, d1⟩, d2, d3 rfl⟩
    · refine Or.inr ⟨?_, (c2 h).2 rfl⟩
      rw [(c2 h).1]
      intro p hp
      simp only [List.mem_singleton] at hp
      rw [hp]

/-- **C76, the conditions.**  What the flag says after the store is what sljit_emit_op_flags with SLJIT_MOV stores, for SLJIT_ATOMIC_STORED and SLJIT_ATOMIC_NOT_STORED (`neg`). -/
theorem c76_flag (s : ASt) (b : Bool) (h : Flag s b) (neg mov32 : Bool) (dst : Verif.A64.Opd) (hd : C47.Dest dst) :
    ∃ is s', Verif.A64.emitFlagsMov mov32 dst (getCcAt neg) = some is ∧ Verif.A64.runs is s.st = some s' ∧
      C47.Written s.st s' (some dst) (C47.bitsOf mov32 / 8) (if b ^^ neg then 1#64 else 0#64) ∧ s'.f = s.st.f := by
  have e : ∀ st, Verif.A64.getCc st .equal neg = getCcAt neg := by intro st; cases neg <;> rfl
  have := C47.c47_flags_mov mov32 hd .none .equal neg s.st (b ^^ neg) (by unfold C47.Holds; rw [e]; exact h neg)
  rw [e] at this
  exact this

/-- **C76, sljit_emit_select** on the conditions. -/
theorem c76_select (s : ASt) (b : Bool) (h : Flag s b) (neg is32 : Bool) (dst src2 : Nat) (src1 : Verif.A64.Opd) (hd : C47.Dest (.reg dst)) (h2 : C47.Src (.reg src2)) (h1 : C47.Src src1) :
    ∃ is s', Verif.A64.emitSelect is32 dst src1 src2 (getCcAt neg) = some is ∧ Verif.A64.runs is s.st = some s' ∧
      C47.Written s.st s' (some (.reg dst)) (C47.bitsOf is32 / 8) (if b ^^ neg then C47.value (C47.bitsOf is32) s.st src1 else C47.value _ s.st (.reg src2)) ∧ s'.f = s.st.f := by
  have e : ∀ st, Verif.A64.getCc st .equal neg = getCcAt neg := by intro st; cases neg <;> rfl
  have := C47.c47_select is32 hd h2 h1 .none .equal neg s.st (b ^^ neg) (by unfold C47.Holds; rw [e]; exact h neg)
  rw [e] at this
  exact this

/-- **C76, progress of store exclusive.**  As long as the cell is marked, the store can succeed. -/
theorem c76_sc_succeeds (feat : Bool) (use : AUse) (o : RV.Op1C) (src mem temp : Nat) (e : List (BitVec 32)) (s : ASt) (hl : LL feat use) (hs : UserReg src)
    (hm : UserReg mem) (hr : s.res = some (reg s mem, Verif.A64.atSize o)) (he : emitAtomicStore feat use true o src mem temp = some e) :
    ∃ s', ExecA e s s' [(s.st.m, update o s.st.m (reg s mem) (reg s src))] ∧ Flag s' true := by
  have ns := Verif.A64.ur_map hs
  have nm := Verif.A64.ur_map hm
  rw [Verif.A64.sc_words hl he]
  have h1 := Verif.A64.StepA.stxrOk (s := s) (Verif.A64.dec_stxr (Verif.A64.atSize o) (r := Verif.A64.TMP_REG2) (n := mem) (t := src) (fun h => ns.2.1 h.symm) (fun h => nm.2.1 h.symm)) hr
  rw [bytes_eq, Verif.A64.x_ne ns.2.2.2] at h1
  have h2 := fun x : ASt => Verif.A64.StepA.ins (s := x) (Verif.A64.s_subs0 x.st) (Verif.A64.subs0_m x.st)
  refine ⟨_, .cons (.refl _) h1 (.cons (.refl _) (h2 _) (.nil (.refl _))), flag_z ?_⟩
  show (Verif.A64.subs0 _).f.z = true
  rw [Verif.A64.subs0_z, Verif.A64.setX_ne _ _ (by decide)]
  rw [show regMap Verif.A64.TMP_REG2 = 10#5 from rfl, Verif.A64.set_self]
  exact decide_eq_true rfl

/-! ## Concrete cases -/

/-- A thread: R0, R1 and R2, and a memory where all bytes are `b`. -/
def demo (r0 r1 r2 : BitVec 64) (b : BitVec 8) : ASt where
  st := ⟨fun q => if q = regMap 1 then r0 else if q = regMap 2 then r1 else if q = regMap 3 then r2 else 0#64, fun _ => b, ⟨false, false, false, false⟩⟩
  res := none

/-- Compare and swap of a halfword with the top bit set: it is replaced when no other thread interferes. -/
example : ∃ e, emitAtomicStore true .cas true .movU16 1 2 3 = some e ∧ (∃ m a, cut .movU16 (reg (demo 5#64 0x1000#64 0xfefe#64 0xfe#8) 3) = value .movU16 m a) ∧
    ∃ s' l, ExecA e (demo 5#64 0x1000#64 0xfefe#64 0xfe#8) s' l ∧ CasSpec true .movU16 1 2 3 (demo 5#64 0x1000#64 0xfefe#64 0xfe#8) s' l := by
  have hv : ∃ m a, cut .movU16 (reg (demo 5#64 0x1000#64 0xfefe#64 0xfe#8) 3) = value .movU16 m a := ⟨fun _ => 0xfe#8, 0#64, by decide +kernel⟩
  obtain ⟨⟨s', l, hx⟩, h⟩ := c76_cas .cas true .movU16 1 2 3 _ _ (by decide) ⟨by decide, by decide⟩ ⟨by decide, by decide⟩ ⟨by decide, by decide⟩ hv rfl
  exact ⟨_, rfl, hv, s', l, hx, h _ _ hx⟩

/-- A read-modify-write on a word which other threads leave alone succeeds with load and store exclusive. -/
example : ∃ e1 e2 s1 s3, emitAtomicLoad false .any .mov 1 2 = some e1 ∧ emitAtomicStore false .any true .mov 3 2 1 = some e2 ∧
    ExecA e1 (demo 0#64 0x1000#64 7#64 0x11#8) s1 [] ∧ reg s1 1 = 0x1111111111111111#64 ∧
    ExecA e2 s1 s3 [(s1.st.m, update .mov s1.st.m 0x1000#64 7#64)] ∧ Flag s3 true := by
  have h := Verif.A64.StepA.ldxr (s := demo 0#64 0x1000#64 7#64 0x11#8) (Verif.A64.dec_ldxr 3#2 2 1)
  obtain ⟨s3, h3, h4⟩ := c76_sc_succeeds false .any .mov 3 2 1 _ (⟨(demo 0#64 0x1000#64 7#64 0x11#8).st.setX (regMap 1) (rd (fun _ => 0x11#8) 0x1000#64 8), some (0x1000#64, 3#2)⟩)
    (Or.inr rfl) ⟨by decide, by decide⟩ ⟨by decide, by decide⟩ (by decide +kernel) rfl
  refine ⟨_, _, _, s3, rfl, rfl, .cons (.refl _) h (.nil (.refl _)), by decide +kernel, ?_, h4⟩
  have e1 : reg (⟨(demo 0#64 0x1000#64 7#64 0x11#8).st.setX (regMap 1) (rd (fun _ => 0x11#8) 0x1000#64 8), some (0x1000#64, 3#2)⟩ : ASt) 2 = 0x1000#64 := by decide +kernel
  have e2 : reg (⟨(demo 0#64 0x1000#64 7#64 0x11#8).st.setX (regMap 1) (rd (fun _ => 0x11#8) 0x1000#64 8), some (0x1000#64, 3#2)⟩ : ASt) 3 = 7#64 := by decide +kernel
  rw [e1, e2] at h3
  exact h3

end Verif.Props.C76
