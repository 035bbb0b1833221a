/-
Register copies on the machines whose calling convention differs from sljit's own register order: MIPS64, PPC64, x86-64 and
32 bit ARM with VFP.  Only the copy instructions which the argument shuffles emit are decoded; every other word is refused.
Registers are modelled by 32 bit halves, since an F32 copy moves only one of them.
-/

namespace Verif.Calls

/-- A half of a machine register: `g n hi` of general register n, `f n hi` of floating point register n.  On ARM `f n false`
is s(2n), `f n true` is s(2n+1), and only `g n false` exists. -/
inductive Loc where
  | g (n : Nat) (hi : Bool)
  | f (n : Nat) (hi : Bool)
  deriving DecidableEq, Repr

/-- The register file. -/
abbrev Regs := Loc → BitVec 32

/-- The effect of a copy instruction on one half of a register. -/
inductive Step where
  /-- The half receives another half. -/
  | copy (dst src : Loc)
  /-- The half becomes unpredictable. -/
  | junk (dst : Loc)
  deriving DecidableEq, Repr

/-- Execution; `j` gives the unpredictable values. -/
def Step.exec (j : Loc → BitVec 32) : Step → Regs → Regs
  | .copy d s, r => fun l => if l = d then r s else r l
  | .junk d, r => fun l => if l = d then j l else r l

/-- Execution of a list of effects. -/
def execAll (j : Loc → BitVec 32) : List Step → Regs → Regs
  | [], r => r
  | s :: ss, r => execAll j ss (s.exec j r)

/-- Both halves of a general register. -/
def gcopy (d s : Nat) : List Step := [.copy (.g d false) (.g s false), .copy (.g d true) (.g s true)]

/-- Both halves of a floating point register. -/
def fcopy (d s : Nat) : List Step := [.copy (.f d false) (.f s false), .copy (.f d true) (.f s true)]

/-- A field of an instruction word. -/
def field (w : BitVec 32) (lo n : Nat) : Nat := (w >>> lo).toNat % 2 ^ n

/-- MIPS64: `nop`, `daddu rd, rs, $0` (SPECIAL, function 45, rd not $0), `mov.d fd, fs` and `mov.s fd, fs` (COP1, formats 17
and 16, function 6).  The upper half of the destination of mov.s is unpredictable. -/
def mipsStep (w : BitVec 32) : Option (List Step) :=
  if w = 0#32 then some []
  else if field w 26 6 = 0 ∧ field w 0 6 = 45 ∧ field w 6 5 = 0 ∧ field w 16 5 = 0 ∧ field w 11 5 ≠ 0 ∧ field w 21 5 ≠ 0 then
    some (gcopy (field w 11 5) (field w 21 5))
  else if field w 26 6 = 17 ∧ field w 0 6 = 6 ∧ field w 16 5 = 0 then
    if field w 21 5 = 17 then some (fcopy (field w 6 5) (field w 11 5))
    else if field w 21 5 = 16 then some [.copy (.f (field w 6 5) false) (.f (field w 11 5) false), .junk (.f (field w 6 5) true)]
    else none
  else none

/-- PPC64: `or ra, rs, rs` (primary opcode 31, extended opcode 444, no record bit). -/
def ppcStep (w : BitVec 32) : Option (List Step) :=
  if field w 26 6 = 31 ∧ field w 0 11 = 888 ∧ field w 21 5 = field w 11 5 then some (gcopy (field w 16 5) (field w 21 5))
  else none

/-- ARM: `mov rd, rm` (condition always, no shift) and VMOV (register) with F32 (bit 8 clear) and F64 (bit 8 set) operands:
bits 27-23 = 11101, 21-16 = 110000, 11-9 = 101, 7-6 = 01, 4 = 0.  An F32 register number is Vd:D, an F64 one D:Vd.
The Thumb-2 encoding of VMOV is the same word. -/
def armStep (w : BitVec 32) : Option (List Step) :=
  if field w 4 28 = 0xe1a0000 + field w 12 4 * 256 ∧ field w 12 4 ≠ 15 ∧ field w 0 4 ≠ 15 then
    some [.copy (.g (field w 12 4) false) (.g (field w 0 4) false)]
  else if field w 28 4 = 14 ∧ field w 23 5 = 0x1d ∧ field w 16 6 = 0x30 ∧ field w 9 3 = 5 ∧ field w 6 2 = 1 ∧ field w 4 1 = 0 then
    if field w 8 1 = 1 then some (fcopy (16 * field w 22 1 + field w 12 4) (16 * field w 5 1 + field w 0 4))
    else some [.copy (.f (field w 12 4) (field w 22 1 == 1)) (.f (field w 0 4) (field w 5 1 == 1))]
  else none

/-- x86-64: `mov r64, r64` (REX.W 89 /r, register form) and register forms of `movsd`/`movss` (F2/F3 [REX] 0F 10 /r).  movsd
copies the low 64 bits, movss the low 32 bits; the other bits of the destination are kept. -/
def x86Step : List (BitVec 8) → Option (List Step)
  | [rex, op, m] =>
    if rex &&& 0xf8#8 = 0x48#8 ∧ op = 0x89#8 ∧ m &&& 0xc0#8 = 0xc0#8 ∧ rex &&& 2#8 = 0#8 then
      some (gcopy ((m &&& 7#8).toNat + 8 * (rex &&& 1#8).toNat) (((m >>> 3) &&& 7#8).toNat + 8 * ((rex >>> 2) &&& 1#8).toNat))
    else none
  | [pref, rex, z, op, m] =>
    if rex &&& 0xf0#8 = 0x40#8 ∧ rex &&& 2#8 = 0#8 ∧ z = 0x0f#8 ∧ op = 0x10#8 ∧ m &&& 0xc0#8 = 0xc0#8 then
      let d := ((m >>> 3) &&& 7#8).toNat + 8 * ((rex >>> 2) &&& 1#8).toNat
      let s := (m &&& 7#8).toNat + 8 * (rex &&& 1#8).toNat
      if pref = 0xf2#8 then some (fcopy d s)
      else if pref = 0xf3#8 then some [.copy (.f d false) (.f s false)]
      else none
    else none
  | _ => none

/-- The effects of a code sequence: none when it contains anything but copies. -/
def effects {α : Type} (dec : α → Option (List Step)) : List α → Option (List Step)
  | [] => some []
  | w :: ws => do
    let a ← dec w
    let b ← effects dec ws
    pure (a ++ b)

/-- Execution of a code sequence. -/
def execCode {α : Type} (dec : α → Option (List Step)) (j : Loc → BitVec 32) (c : List α) (r : Regs) : Option Regs :=
  (effects dec c).map fun ss => execAll j ss r

end Verif.Calls
