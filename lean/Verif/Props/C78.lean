import Verif.A64.OpAddr
import Verif.AProg.Run
import Verif.Props.C47
import Verif.Props.C53
import Verif.Props.C74

/-!
# C78: sljit_emit_op_addr with all destinations and operations on ARM64, through code generation

`emitOpAddr` gives the pieces of the program, `generate` is sljit_generate_code (C53), and `Placed` says where the pieces are in instruction memory.
-/

namespace Verif.Props.C78
open Verif.A64 hiding cond moved
open Verif.Imm.Arm64 (regMap)
open Verif.Props.C47 (Dest Written value)
open Verif.Props.C74 (AddrOp wanted)

/-- The pieces of the operation (`emitOpAddr` only looks whether it is SLJIT_ADD_ABS_ADDR). -/
def pieces (o : AddrOp) (dst : Opd) (t : Tgt) : Option (List Item) := emitOpAddr (decide (o = .addAbs)) dst t

/-- What the operation does, when it starts at `a` and ends at `a'`: the destination gets the address or is increased by it; other registers of the user, the stack
pointer, other memory, flags and vector registers are kept. -/
def Stores (c : IMem) (o : AddrOp) (dst : Opd) (addr a a' : BitVec 64) : Prop :=
  ∀ p : PSt, p.pc = a → ∃ p', PSteps c p p' ∧ p'.pc = a' ∧ Written p.s p'.s (some dst) 8 (wanted o (value 64 p.s dst) addr) ∧ p'.s.f = p.s.f ∧ p'.v = p.v

theorem dest_ok {dst : Opd} (h : Dest dst) : Dst1 dst := by
  cases dst with
  | imm _ => exact h
  | reg r => exact h
  | mem b o w => exact h

theorem map_inj {a b : Nat} (ha : 1 ≤ a ∧ a ≤ 27) (hb : 1 ≤ b ∧ b ≤ 27) (h : a ≠ b) : regMap a ≠ regMap b := by
  have key : ∀ a : _root_.Fin 28, ∀ b : _root_.Fin 28, 1 ≤ a.val → 1 ≤ b.val → a ≠ b → regMap a.val ≠ regMap b.val := by decide +kernel
  exact key ⟨a, by omega⟩ ⟨b, by omega⟩ ha.1 hb.1 (by simpa using h)

theorem map_tmp {a : Nat} (ha : 1 ≤ a ∧ a ≤ 27) : regMap a ≠ 9#5 ∧ regMap a ≠ 10#5 := by
  have key : ∀ a : _root_.Fin 28, 1 ≤ a.val → regMap a.val ≠ 9#5 ∧ regMap a.val ≠ 10#5 := by decide +kernel
  exact key ⟨a, by omega⟩ ha.1

theorem written {s s' : St} {dst : Opd} {v : BitVec 64} (hd : Dest dst) (h : Fin1 s s' dst true 8 v) : Written s s' (some dst) 8 v := by
  refine ⟨fun q h1 h2 hn => h.keep _ (map_tmp ⟨h1, h2⟩).1 (map_tmp ⟨h1, h2⟩).2 ?_, ?_, ?_, ?_⟩
  · rintro d rfl
    have hd' : 1 ≤ d ∧ d ≤ 26 := hd
    exact map_inj ⟨h1, h2⟩ ⟨hd'.1, by omega⟩ (fun e => hn (by rw [e]))
  · rintro d ⟨⟩
    exact h.reg d rfl
  · rintro b o w ⟨⟩
    rw [h.mem b o w rfl, BitVec.setWidth_eq]
    rfl
  · intro hn
    exact h.same fun b o w e => hn b o w (by rw [e])

theorem val_eq {s : St} {dst : Opd} : val1 8 s dst = value 64 s dst := by
  cases dst with
  | reg r => exact (BitVec.setWidth_eq _).symm
  | imm v => exact (BitVec.setWidth_eq _).symm
  | mem b o w => exact (BitVec.setWidth_eq _).symm

theorem stores {c : IMem} {off a0 : BitVec 64} {laddr ca : List (BitVec 64)} {ja : List Nat} {o : AddrOp} {dst : Opd} {t : Tgt} {its is : List Item} {a fin : BitVec 64} {li : Nat}
    (hd : Dest dst) (hi : pieces o dst t = some its) (h : Placed c off a0 laddr (its ++ is) a li ca ja fin) :
    ∃ a' ja', Placed c off a0 laddr is a' li ca ja' fin ∧ Stores c o dst (tgtOf laddr t) a a' := by
  obtain ⟨its', e, k⟩ := emitOpAddr_ok (c := c) (off := off) (a0 := a0) (laddr := laddr) (fin := fin) (add := decide (o = .addAbs)) (t := t) (dest_ok hd)
  rw [pieces, e] at hi
  cases hi
  obtain ⟨a', ja', h1, h2⟩ := k h
  refine ⟨a', ja', h1, fun p hp => ?_⟩
  obtain ⟨p', r1, r2, r3, r4⟩ := h2 p hp
  refine ⟨p', r1, r2, ?_, r4.f, r3⟩
  have e : (if decide (o = AddrOp.addAbs) = true then val1 8 p.s dst + tgtOf laddr t else tgtOf laddr t) = wanted o (value 64 p.s dst) (tgtOf laddr t) := by
    rw [val_eq]
    cases o <;> rfl
  rw [e] at r4
  exact written hd r4

/-- **C78 (the pieces)**: code is emitted for every operation, destination and target. -/
theorem c78_emitted (o : AddrOp) (dst : Opd) (t : Tgt) (hd : Dest dst) : ∃ its, pieces o dst t = some its := by
  obtain ⟨its, e, -⟩ := emitOpAddr_ok (c := fun _ => 0#32) (off := 0#64) (a0 := 0#64) (laddr := []) (fin := 0#64) (add := decide (o = .addAbs)) (t := t) (dest_ok hd)
  exact ⟨its, e⟩

/-- **C78 (constant targets)**, partial: wherever sljit_emit_op_addr is in a program, the generated code stores the target set by sljit_set_target into the
destination, or adds it, and continues with the code emitted after it.  Missing: as for C53, programs which end with a conditional jump. -/
theorem c78_addr_partial (items before its after : List Item) (o : AddrOp) (dst : Opd) (addr : BitVec 64) (base off : BitVec 64)
    (hp : Prog.Ok (Prog.labels items) items) (hr : A64.Room items base off) (hs : pieces o dst (.addr addr) = some its) (hi : items = before ++ (its ++ after)) (hd : Dest dst) :
    ∃ r, generate items base off = some r ∧ ∀ c, WordsAt c (base + off) r.code → ∃ a a' ca ja ja',
      Placed c off (base + off) r.laddr (its ++ after) a (Prog.labels before) ca ja (base + off + BitVec.ofNat 64 (4 * r.code.length)) ∧
      Placed c off (base + off) r.laddr after a' (Prog.labels before) ca ja' (base + off + BitVec.ofNat 64 (4 * r.code.length)) ∧ Stores c o dst addr a a' := by
  obtain ⟨r, h1, -, -, h4⟩ := C53.c53_partial items base off hp hr
  refine ⟨r, h1, fun c hc => ?_⟩
  obtain ⟨a, ca, ja, pj⟩ := ALir.placed_suffix before (hi ▸ h4 c hc)
  rw [Nat.zero_add] at pj
  obtain ⟨a', ja', k1, k2⟩ := stores hd hs pj
  exact ⟨a, a', ca, ja, ja', pj, k1, k2⟩

/-- **C78 (labels)**, partial: for a label set by sljit_set_label, the address is the one where the code emitted after the label is.  Missing: as for
`c78_addr_partial`. -/
theorem c78_label_partial (items before its after before' after' : List Item) (l : Item) (o : AddrOp) (dst : Opd) (base off : BitVec 64)
    (hp : Prog.Ok (Prog.labels items) items) (hr : A64.Room items base off) (hl : items = before' ++ l :: after') (hlab : l = .label ∨ ∃ al, l = .alabel al)
    (hs : pieces o dst (.label (Prog.labels before')) = some its) (hi : items = before ++ (its ++ after)) (hd : Dest dst) :
    ∃ r, generate items base off = some r ∧ ∀ c, WordsAt c (base + off) r.code → ∃ a a' al ca ja ja' cl jl,
      Placed c off (base + off) r.laddr (its ++ after) a (Prog.labels before) ca ja (base + off + BitVec.ofNat 64 (4 * r.code.length)) ∧
      Placed c off (base + off) r.laddr after a' (Prog.labels before) ca ja' (base + off + BitVec.ofNat 64 (4 * r.code.length)) ∧
      Placed c off (base + off) r.laddr after' al (Prog.labels before' + 1) cl jl (base + off + BitVec.ofNat 64 (4 * r.code.length)) ∧ Stores c o dst al a a' := by
  obtain ⟨r, h1, -, -, h4⟩ := C53.c53_partial items base off hp hr
  refine ⟨r, h1, fun c hc => ?_⟩
  obtain ⟨a, ca, ja, pj⟩ := ALir.placed_suffix before (hi ▸ h4 c hc)
  obtain ⟨al, cl, jl, pl⟩ := ALir.placed_suffix before' (hl ▸ h4 c hc)
  rw [Nat.zero_add] at pj pl
  obtain ⟨a', ja', k1, k2⟩ := stores hd hs pj
  have key : ∀ b, r.laddr[Prog.labels before']? = some b → tgtOf r.laddr (.label (Prog.labels before')) = b := by
    intro b hb
    simp only [tgtOf, List.getD_eq_getElem?_getD, hb, Option.getD_some]
  rcases hlab with rfl | ⟨k, rfl⟩
  · obtain ⟨q1, q2⟩ := pl
    exact ⟨a, a', al, ca, ja, ja', cl, jl, pj, k1, q2, by rw [← key _ q1]; exact k2⟩
  · obtain ⟨b, q1, -, -, q2⟩ := pl
    exact ⟨a, a', b, ca, ja, ja', cl, jl, pj, k1, q2, by rw [← key _ q1]; exact k2⟩

/-! ## A program which meets the conditions -/

/-- The address of a label in front is added to a memory cell whose displacement needs a temporary register. -/
def its : List Item := (pieces .addAbs (.mem 1 0 0x12345#64) (.label 0)).getD []
@[inherit_doc its] def items : List Item := [.code [NOP], .label, .code [NOP]] ++ (its ++ [.code [NOP]])

theorem its_eq : pieces .addAbs (.mem 1 0 0x12345#64) (.label 0) = some its := by
  obtain ⟨x, e⟩ := c78_emitted .addAbs (.mem 1 0 0x12345#64) (.label 0) ⟨by decide, by decide, by decide⟩
  rw [its, e]; rfl

theorem items_ok : Prog.Ok (Prog.labels items) items ∧ A64.Room items 0x10000#64 0x7f0000000000#64 ∧ its.length = 3 := by decide +kernel

example : ∃ r, generate items 0x10000#64 0x7f0000000000#64 = some r ∧ ∀ c, WordsAt c 0x7f0000010000#64 r.code → ∃ a a' al, Stores c .addAbs (.mem 1 0 0x12345#64) al a a' := by
  obtain ⟨r, h1, h2⟩ := c78_label_partial items [.code [NOP], .label, .code [NOP]] its [.code [NOP]] [.code [NOP]] (.code [NOP] :: (its ++ [.code [NOP]])) .label .addAbs (.mem 1 0 0x12345#64)
    0x10000#64 0x7f0000000000#64 items_ok.1 items_ok.2.1 rfl (.inl rfl) its_eq rfl ⟨by decide, by decide, by decide⟩
  refine ⟨r, h1, fun c hc => ?_⟩
  obtain ⟨a, a', al, -, -, -, -, -, -, -, -, h⟩ := h2 c hc
  exact ⟨a, a', al, h⟩

end Verif.Props.C78
