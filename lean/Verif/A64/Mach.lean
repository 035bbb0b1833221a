import Verif.A64.Arch

/-!
# A64 with a program counter (architecture side)

Instructions are fetched from an instruction memory (the executable mapping; code does not modify itself), one word at a time.  The integer
instructions are those of `Verif.A64.Arch`; this file adds branches (B, BL, B.cond, CBZ, CBNZ, BR, BLR, RET), ADR and ADRP, NOP, and the
loads and stores of pairs and with write-back which sljit uses for stack frames, as the Arm Architecture Reference Manual (DDI 0487) describes
them.  Nothing here comes from sljit.  The program counter is not checked for alignment.
-/

namespace Verif.A64
open Verif.Imm.A64 (fld)

/-- Instruction memory: the word at an address. -/
abbrev IMem := BitVec 64 → BitVec 32

/-- The machine state, the low halves of the vector registers, and the address of the next instruction. -/
structure PSt where
  s : St
  v : BitVec 5 → BitVec 64
  pc : BitVec 64

/-- Control instructions and addresses; displacements are relative to the instruction. -/
inductive Ctl where
  | b (link : Bool) (d : BitVec 64)
  | bcond (c : BitVec 4) (d : BitVec 64)
  | cbz (sf nz : Bool) (rt : BitVec 5) (d : BitVec 64)
  | br (link : Bool) (rn : BitVec 5)
  | adr (page : Bool) (d : BitVec 64) (rd : BitVec 5)
  | nop
  deriving DecidableEq, Repr

/-- Decoding them (C6.2: B, BL, B.cond, CBZ, CBNZ, ADR, ADRP, BR, BLR, RET, NOP). -/
def ctl (w : BitVec 32) : Option Ctl :=
  if fld w 26 5 = 0b00101#5 then some (.b (bit w 31) ((fld w 0 26 ++ 0#2 : BitVec 28).signExtend 64))
  else if fld w 24 8 = 0x54#8 then
    if bit w 4 then none else some (.bcond (fld w 0 4) ((fld w 5 19 ++ 0#2 : BitVec 21).signExtend 64))
  else if fld w 25 6 = 0b011010#6 then some (.cbz (bit w 31) (bit w 24) (fld w 0 5) ((fld w 5 19 ++ 0#2 : BitVec 21).signExtend 64))
  else if fld w 24 5 = 0b10000#5 then
    let i : BitVec 21 := fld w 5 19 ++ fld w 29 2
    some (.adr (bit w 31) (if bit w 31 then (i ++ 0#12 : BitVec 33).signExtend 64 else i.signExtend 64) (fld w 0 5))
  else if fld w 10 22 = 0x3587c0#22 ∧ fld w 0 5 = 0#5 then some (.br false (fld w 5 5))
  else if fld w 10 22 = 0x358fc0#22 ∧ fld w 0 5 = 0#5 then some (.br true (fld w 5 5))
  else if fld w 10 22 = 0x3597c0#22 ∧ fld w 0 5 = 0#5 then some (.br false (fld w 5 5))
  else if w = 0xd503201f#32 then some .nop
  else none

/-- The effect of a control instruction. -/
def ctlExec (c : Ctl) (p : PSt) : PSt :=
  let next := p.pc + 4#64
  match c with
  | .b link d => { p with s := if link then p.s.setX 30#5 next else p.s, pc := p.pc + d }
  | .bcond c d => { p with pc := if cond c p.s.f then p.pc + d else next }
  | .cbz sf nz rt d => { p with pc := if decide (lo sf (p.s.x rt) = 0#_) != nz then p.pc + d else next }
  | .br link rn => { p with s := if link then p.s.setX 30#5 next else p.s, pc := p.s.x rn }
  | .adr page d rd => { p with s := p.s.setX rd ((if page then p.pc &&& ~~~0xfff#64 else p.pc) + d), pc := next }
  | .nop => { p with pc := next }

/-- How the base register takes part in a transfer: an offset only, the new base is the address (pre), the old base is the address (post). -/
inductive Idx | offset | pre | post deriving DecidableEq, Repr

/-- Transfers of one or two 64 bit registers, general or vector (low half). -/
structure Xfer where
  load : Bool
  vec : Bool
  idx : Idx
  off : BitVec 64
  rn : BitVec 5
  rt : BitVec 5
  rt2 : Option (BitVec 5)
  deriving DecidableEq, Repr

/-- The addressing modes of pairs. -/
def xferIdx (k : BitVec 3) : Option Idx :=
  if k = 1#3 then some .post else if k = 2#3 then some .offset else if k = 3#3 then some .pre else none

/-- Decoding them (C6.2: LDP, STP, LDR and STR immediate with write-back; C7.2: LDP, STP, LDR and STR of vector registers). -/
def xfer (w : BitVec 32) : Option Xfer :=
  if fld w 27 3 = 5#3 ∧ fld w 30 2 = (if bit w 26 then 1#2 else 2#2) then
    (xferIdx (fld w 23 3)).map fun i => ⟨bit w 22, bit w 26, i, (fld w 15 7 ++ 0#3 : BitVec 10).signExtend 64, fld w 5 5, fld w 0 5, some (fld w 10 5)⟩
  else if fld w 23 9 = 0x1fa#9 then some ⟨bit w 22, true, .offset, (fld w 10 12 ++ 0#3 : BitVec 15).setWidth 64, fld w 5 5, fld w 0 5, none⟩
  else if fld w 23 9 = 0x1f0#9 ∧ bit w 21 = false ∧ bit w 10 = true then
    some ⟨bit w 22, false, if bit w 11 then .pre else .post, (fld w 12 9).signExtend 64, fld w 5 5, fld w 0 5, none⟩
  else none

/-- Reading and writing a transferred register. -/
def PSt.get (p : PSt) (vec : Bool) (r : BitVec 5) : BitVec 64 := if vec then p.v r else p.s.x r
@[inherit_doc PSt.get] def PSt.put (p : PSt) (vec : Bool) (r : BitVec 5) (x : BitVec 64) : PSt :=
  if vec then { p with v := fun q => if q = r then x else p.v q } else { p with s := p.s.setX r x }

/-- The effect of a transfer.  Refused: a stack pointer which is not a multiple of 16 as the base, and the combinations which the manual calls
CONSTRAINED UNPREDICTABLE (a pair loaded to one register, write-back to a transferred register). -/
def xferExec (x : Xfer) (p : PSt) : Option PSt :=
  let base := p.s.r x.rn
  let a := if x.idx = .post then base else base + x.off
  let wb : PSt → PSt := fun q => if x.idx = .offset then q else { q with s := q.s.set x.rn (base + x.off) }
  if x.rn = 31#5 ∧ base &&& 15#64 ≠ 0#64 then none
  else if x.idx ≠ .offset ∧ x.vec = false ∧ x.rn ≠ 31#5 ∧ (x.rt = x.rn ∨ x.rt2 = some x.rn) then none
  else if x.load then
    match x.rt2 with
    | none => some (wb { p.put x.vec x.rt (rd p.s.m a 8) with pc := p.pc + 4#64 })
    | some t => if t = x.rt then none else
      some (wb { (p.put x.vec x.rt (rd p.s.m a 8)).put x.vec t (rd p.s.m (a + 8#64) 8) with pc := p.pc + 4#64 })
  else
    let m := wr p.s.m a (p.get x.vec x.rt) 8
    let m := match x.rt2 with
      | none => m
      | some t => wr m (a + 8#64) (p.get x.vec t) 8
    some (wb { p with s := { p.s with m := m }, pc := p.pc + 4#64 })

/-- One instruction.  The three decoders accept different words (`ctl_not`, `xfer_not` in MachLemmas.lean). -/
def pstep (c : IMem) (p : PSt) : Option PSt :=
  let w := c p.pc
  match ctl w with
  | some k => some (ctlExec k p)
  | none =>
    match xfer w with
    | some x => xferExec x p
    | none => (step w p.s).map fun s => { p with s := s, pc := p.pc + 4#64 }

/-- Any number of instructions. -/
inductive PSteps (c : IMem) : PSt → PSt → Prop
  | refl (p) : PSteps c p p
  | step {p q r} : pstep c p = some q → PSteps c q r → PSteps c p r

theorem PSteps.trans {c : IMem} {p q r : PSt} (h : PSteps c p q) (h' : PSteps c q r) : PSteps c p r := by
  induction h with
  | refl => exact h'
  | step e _ ih => exact .step e (ih h')

theorem PSteps.one {c : IMem} {p q : PSt} (h : pstep c p = some q) : PSteps c p q := .step h (.refl _)

/-- The words are in the instruction memory. -/
def WordsAt (c : IMem) : BitVec 64 → List (BitVec 32) → Prop
  | _, [] => True
  | a, w :: ws => c a = w ∧ WordsAt c (a + 4#64) ws

end Verif.A64
