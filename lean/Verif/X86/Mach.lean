import Verif.X86.Steps

/-!
# A machine with an instruction pointer (specification)

Instructions are fetched from an instruction memory (the executable mapping; code does not modify itself).  The integer
instructions are those of `Verif.X86.Arch`; the control instructions below are from the same reference (JMP, Jcc, CALL, RET,
NOP and LEA with a RIP relative operand).
-/

namespace Verif.X86

/-- Instruction memory. -/
abbrev IMem := BitVec 64 → Byte

/-- The machine state and the address of the next instruction. -/
structure PSt where
  s : St
  pc : BitVec 64

/-- n bytes of the instruction memory. -/
def fetch (c : IMem) (a : BitVec 64) : Nat → List Byte
  | 0 => []
  | n + 1 => c a :: fetch c (a + 1#64) n

/-- Control instructions; displacements are sign extended and relative to the end of the instruction. -/
inductive Ctl where
  | jmp (d : BitVec 64) | jcc (k : BitVec 4) (d : BitVec 64) | call (d : BitVec 64)
  | jmpReg (r : BitVec 4) | callReg (r : BitVec 4)
  | lea (r : BitVec 4) (d : BitVec 64)
  | nop | ret
  deriving DecidableEq

/-- With a REX prefix: FF /4, FF /2 on a register, and LEA r64, [rip + d]. -/
def ctlRex (rex : Byte) : List Byte → Option (Ctl × List Byte)
  | op :: m :: bs =>
    let r := ext (rex.getLsbD 0) (fld m 0 3)
    if op = 0xff#8 ∧ fld m 6 2 = 3#2 ∧ fld m 3 3 = 4#3 then some (.jmpReg r, bs)
    else if op = 0xff#8 ∧ fld m 6 2 = 3#2 ∧ fld m 3 3 = 2#3 then some (.callReg r, bs)
    else if op = 0x8d#8 ∧ fld m 6 2 = 0#2 ∧ fld m 0 3 = 5#3 ∧ rex.getLsbD 3 = true then
      (sle' 4 bs).map fun (d, r) => (.lea (ext (rex.getLsbD 2) (fld m 3 3)) d, r)
    else none
  | _ => none

/-- Decoding a control instruction. -/
def ctl : List Byte → Option (Ctl × List Byte)
  | [] => none
  | b :: bs =>
    if b = 0xeb#8 then (sle' 1 bs).map fun (d, r) => (.jmp d, r)
    else if b = 0xe9#8 then (sle' 4 bs).map fun (d, r) => (.jmp d, r)
    else if b = 0xe8#8 then (sle' 4 bs).map fun (d, r) => (.call d, r)
    else if b = 0x90#8 then some (.nop, bs)
    else if b = 0xc3#8 then some (.ret, bs)
    else if fld b 4 4 = 7#4 then (sle' 1 bs).map fun (d, r) => (.jcc (fld b 0 4) d, r)
    else if b = 0x0f#8 then
      match bs with
      | c :: bs => if fld c 4 4 = 8#4 then (sle' 4 bs).map fun (d, r) => (.jcc (fld c 0 4) d, r) else none
      | [] => none
    else if fld b 4 4 = 4#4 then ctlRex b bs
    else ctlRex 0#8 (b :: bs)

/-- Pushing a return address. -/
def St.push (s : St) (v : BitVec 64) : St :=
  { s.set 4#4 (s.r 4#4 - 8#64) with m := wr s.m (s.r 4#4 - 8#64) 8 v }

/-- The effect of a control instruction, `n` being the address of the next instruction. -/
def ctlExec (c : Ctl) (s : St) (n : BitVec 64) : Option PSt :=
  match c with
  | .jmp d => some ⟨s, n + d⟩
  | .jcc k d => (ccF k s.f).map fun t => ⟨s, if t then n + d else n⟩
  | .call d => some ⟨s.push n, n + d⟩
  | .jmpReg r => some ⟨s, s.r r⟩
  | .callReg r => some ⟨s.push n, s.r r⟩
  | .lea r d => some ⟨s.set r (n + d), n⟩
  | .nop => some ⟨s, n⟩
  | .ret => some ⟨s.set 4#4 (s.r 4#4 + 8#64), rd s.m (s.r 4#4) 8⟩

/-- One instruction (instructions have at most 15 bytes).  The opcodes of the two tables are different (`ctl0_exec`, `ctl1_exec`, `ff_exec`, `lea_exec` in MachLemmas.lean). -/
def step (c : IMem) (p : PSt) : Option PSt :=
  let bs := fetch c p.pc 15
  match (parse bs).bind fun (i, r) => (exec i p.s).map fun s => PSt.mk s (p.pc + BitVec.ofNat 64 (15 - r.length)) with
  | some p' => some p'
  | none => (ctl bs).bind fun (k, r) => ctlExec k p.s (p.pc + BitVec.ofNat 64 (15 - r.length))

/-- Any number of instructions. -/
inductive PSteps (c : IMem) : PSt → PSt → Prop
  | refl (p) : PSteps c p p
  | step {p q r} : step c p = some q → PSteps c q r → PSteps c p r

theorem PSteps.trans {c : IMem} {p q r : PSt} (h : PSteps c p q) (h' : PSteps c q r) : PSteps c p r := by
  induction h with
  | refl => exact h'
  | step e _ ih => exact .step e (ih h')

theorem PSteps.one {c : IMem} {p q : PSt} (h : X86.step c p = some q) : PSteps c p q := .step h (.refl _)

/-- The bytes are in the instruction memory. -/
def BytesAt (c : IMem) : BitVec 64 → List Byte → Prop
  | _, [] => True
  | a, b :: bs => c a = b ∧ BytesAt c (a + 1#64) bs

end Verif.X86
