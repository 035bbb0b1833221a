import Verif.Imm.A64

/-!
# A64 (architecture side)

Decoder and execution for the part of the A64 instruction set which sljit emits for integer operations, as the Arm Architecture Reference
Manual (DDI 0487, chapter C6) describes them: arithmetic with immediates, shifted registers and carry, logical operations, move wide,
bitfield moves, EXTR, variable shifts, divisions, multiplications, bit reversal and counting, conditional select, loads and stores with the
three addressing modes without write-back.  Nothing here comes from sljit.  Every other word is refused (`none`).  Loads and stores accept
every address; memory is little-endian.
-/

namespace Verif.A64
open Verif.Imm.A64 (fld Regs bitMask)

/-- The condition flags. -/
structure Flags where
  n : Bool
  z : Bool
  c : Bool
  v : Bool
  deriving DecidableEq, Repr

/-- X0-X30 and SP (register 31 of `r`), memory (bytes) and the flags. -/
structure St where
  r : Regs
  m : BitVec 64 → BitVec 8
  f : Flags

/-- Reading a general register; 31 is the zero register. -/
def St.x (s : St) (q : BitVec 5) : BitVec 64 := if q = 31#5 then 0#64 else s.r q
/-- Writing a register of `r`. -/
def St.set (s : St) (d : BitVec 5) (v : BitVec 64) : St := { s with r := fun q => if q = d then v else s.r q }
/-- Writing a general register; 31 is the zero register. -/
def St.setX (s : St) (d : BitVec 5) (v : BitVec 64) : St := if d = 31#5 then s else s.set d v

/-- Little-endian read of k bytes. -/
def rd (m : BitVec 64 → BitVec 8) (a : BitVec 64) : Nat → BitVec 64
  | 0 => 0#64
  | k + 1 => (rd m (a + 1#64) k <<< 8) ||| (m a).setWidth 64

/-- Little-endian write of k bytes. -/
def wr (m : BitVec 64 → BitVec 8) (a : BitVec 64) (x : BitVec 64) : Nat → BitVec 64 → BitVec 8
  | 0 => m
  | k + 1 => wr (fun q => if q = a then x.setWidth 8 else m q) (a + 1#64) (x >>> 8) k

/-- The data size. -/
def W (sf : Bool) : Nat := if sf then 64 else 32

/-- `AddWithCarry`: result, carry, overflow. -/
def awc {w : Nat} (x y : BitVec w) (c : Bool) : BitVec w × Bool × Bool :=
  let u := x.toNat + y.toNat + c.toNat
  let i := x.toInt + y.toInt + c.toNat
  (BitVec.ofNat w u, decide (2 ^ w ≤ u), decide (i < -2 ^ (w - 1) ∨ 2 ^ (w - 1) ≤ i))

/-- Flags of a result with a given carry and overflow. -/
def nzcv {w : Nat} (v : BitVec w) (c o : Bool) : Flags := ⟨v.msb, decide (v = 0#w), c, o⟩

/-- `ShiftReg`: LSL, LSR, ASR, ROR. -/
def shiftReg {w : Nat} (ty : BitVec 2) (x : BitVec w) (n : Nat) : BitVec w :=
  match ty.toNat with
  | 0 => x <<< n
  | 1 => x >>> n
  | 2 => x.sshiftRight n
  | _ => x.rotateRight n

/-- SBFM and UBFM: the low imms + 1 bits, extended, are moved right by immr, or left by the data size minus immr if immr > imms. -/
def bfm {w : Nat} (signed : Bool) (x : BitVec w) (immr imms : Nat) : BitVec w :=
  let y := x <<< (w - 1 - imms)
  let z := if signed then y.sshiftRight (w - 1 - imms) else y >>> (w - 1 - imms)
  if immr ≤ imms then (if signed then z.sshiftRight immr else z >>> immr) else z <<< (w - immr)

/-- CLZ. -/
def clz {w : Nat} (x : BitVec w) : BitVec w := if x = 0#w then BitVec.ofNat w w else BitVec.ofNat w (w - 1 - Nat.log2 x.toNat)

/-- The bytes of every container of k bytes in the reverse order. -/
def revB {w : Nat} (k : Nat) (x : BitVec w) : BitVec w :=
  BitVec.ofFnLE fun i : Fin w => x.getLsbD (i.val / (8 * k) * (8 * k) + (k - 1 - i.val % (8 * k) / 8) * 8 + i.val % 8)

/-- The value of a condition. -/
def cond (c : BitVec 4) (f : Flags) : Bool :=
  let b := match (c.extractLsb' 1 3).toNat with
    | 0 => f.z
    | 1 => f.c
    | 2 => f.n
    | 3 => f.v
    | 4 => f.c && !f.z
    | 5 => f.n == f.v
    | 6 => f.n == f.v && !f.z
    | _ => true
  if c.getLsbD 0 ∧ c ≠ 15#4 then !b else b

/-- Addressing modes of loads and stores: base and an offset, base and a shifted register. -/
inductive Mode where
  | imm (off : BitVec 64)
  | reg (rm : BitVec 5) (sh : Nat)
  deriving DecidableEq, Repr

/-- Instructions. -/
inductive Inst where
  | wide (sf : Bool) (opc hw : BitVec 2) (imm : BitVec 16) (rd : BitVec 5)
  | logImm (sf : Bool) (opc : BitVec 2) (m : BitVec 64) (rn rd : BitVec 5)
  | addImm (sf sub s : Bool) (imm : BitVec 64) (rn rd : BitVec 5)
  | addReg (sf sub s : Bool) (ty : BitVec 2) (n : Nat) (rm rn rd : BitVec 5)
  | logReg (sf : Bool) (opc : BitVec 2) (inv : Bool) (ty : BitVec 2) (n : Nat) (rm rn rd : BitVec 5)
  | adc (sf sub s : Bool) (rm rn rd : BitVec 5)
  | two (sf : Bool) (op : BitVec 6) (rm rn rd : BitVec 5)
  | one (sf : Bool) (op : BitVec 6) (rn rd : BitVec 5)
  | madd (sf : Bool) (ra rm rn rd : BitVec 5)
  | smaddl (ra rm rn rd : BitVec 5)
  | mulh (signed : Bool) (rm rn rd : BitVec 5)
  | bfm (sf signed : Bool) (immr imms : Nat) (rn rd : BitVec 5)
  | extr (sf : Bool) (n : Nat) (rm rn rd : BitVec 5)
  | csel (sf inc : Bool) (c : BitVec 4) (rm rn rd : BitVec 5)
  | mem (size opc : BitVec 2) (mode : Mode) (rn rt : BitVec 5)
  deriving DecidableEq, Repr

/-- Bit k of a word. -/
def bit (w : BitVec 32) (k : Nat) : Bool := w.getLsbD k
/-- The bit as a number. -/
def sfb (sf : Bool) : BitVec 1 := if sf then 1#1 else 0#1

/-- Data processing (immediate), C4.1.93: bits 28-26 are 100. -/
def decodeImm (w : BitVec 32) : Option Inst :=
  let sf := bit w 31
  match (fld w 23 3).toNat with
  | 2 => some (.addImm sf (bit w 30) (bit w 29) ((fld w 10 12).setWidth 64 <<< (if bit w 22 then 12 else 0)) (fld w 5 5) (fld w 0 5))
  | 4 => (bitMask (sfb sf) (fld w 10 13)).map fun m => .logImm sf (fld w 29 2) m (fld w 5 5) (fld w 0 5)
  | 5 => if fld w 29 2 = 1#2 ∨ (!sf && bit w 22) then none else some (.wide sf (fld w 29 2) (fld w 21 2) (fld w 5 16) (fld w 0 5))
  | 6 =>
    if bit w 29 ∨ bit w 22 ≠ sf ∨ (!sf && (bit w 21 || bit w 15)) then none
    else some (.bfm sf (!bit w 30) (fld w 16 6).toNat (fld w 10 6).toNat (fld w 5 5) (fld w 0 5))
  | 7 =>
    if fld w 29 2 ≠ 0#2 ∨ bit w 22 ≠ sf ∨ bit w 21 ∨ (!sf && bit w 15) then none
    else some (.extr sf (fld w 10 6).toNat (fld w 16 5) (fld w 5 5) (fld w 0 5))
  | _ => none

/-- Data processing (register), C4.1.95: bits 27-25 are 101; two and one source, three source, logical and arithmetic, with carry and
conditional select. -/
def decodeReg (w : BitVec 32) : Option Inst :=
  let sf := bit w 31
  let rm := fld w 16 5
  let rn := fld w 5 5
  let rd := fld w 0 5
  match (fld w 24 5).toNat with
  | 0x0a => if !sf && bit w 15 then none else some (.logReg sf (fld w 29 2) (bit w 21) (fld w 22 2) (fld w 10 6).toNat rm rn rd)
  | 0x0b =>
    if bit w 21 ∨ fld w 22 2 = 3#2 ∨ (!sf && bit w 15) then none
    else some (.addReg sf (bit w 30) (bit w 29) (fld w 22 2) (fld w 10 6).toNat rm rn rd)
  | 0x1a =>
    if fld w 21 3 = 0#3 then if fld w 10 6 = 0#6 then some (.adc sf (bit w 30) (bit w 29) rm rn rd) else none
    else if fld w 21 3 = 4#3 then
      if bit w 29 = false ∧ fld w 30 1 = 0#1 ∧ bit w 11 = false then some (.csel sf (bit w 10) (fld w 12 4) rm rn rd) else none
    else if fld w 21 3 = 6#3 ∧ bit w 29 = false then
      if bit w 30 then if rm = 0#5 then some (.one sf (fld w 10 6) rn rd) else none
      else some (.two sf (fld w 10 6) rm rn rd)
    else none
  | 0x1b =>
    if fld w 29 2 ≠ 0#2 ∨ bit w 15 then none
    else if fld w 21 3 = 0#3 then some (.madd sf (fld w 10 5) rm rn rd)
    else if sf = false then none
    else if fld w 21 3 = 1#3 then some (.smaddl (fld w 10 5) rm rn rd)
    else if fld w 21 3 = 2#3 then some (.mulh true rm rn rd)
    else if fld w 21 3 = 6#3 then some (.mulh false rm rn rd)
    else none
  | _ => none

/-- Loads and stores of general registers, C4.1.94: bits 29-27 are 111, bit 26 is clear; unsigned offset, unscaled offset, register
offset (with LSL only). -/
def decodeMem (w : BitVec 32) : Option Inst :=
  let size := fld w 30 2
  let k := fun mode => some (Inst.mem size (fld w 22 2) mode (fld w 5 5) (fld w 0 5))
  if bit w 24 then k (.imm ((fld w 10 12).setWidth 64 <<< size.toNat))
  else if bit w 21 then
    if fld w 10 2 = 2#2 ∧ fld w 13 3 = 3#3 then k (.reg (fld w 16 5) (if bit w 12 then size.toNat else 0)) else none
  else if fld w 10 2 = 0#2 then k (.imm ((fld w 12 9).signExtend 64))
  else none

/-- The decoder. -/
def decode (w : BitVec 32) : Option Inst :=
  if fld w 26 3 = 4#3 then decodeImm w
  else if fld w 25 3 = 5#3 then decodeReg w
  else if fld w 27 3 = 7#3 ∧ fld w 25 2 = 0#2 then decodeMem w
  else none

/-- Operand of the data size. -/
def lo (sf : Bool) (v : BitVec 64) : BitVec (W sf) := v.setWidth (W sf)
/-- Register image of a result. -/
def up {w : Nat} (v : BitVec w) : BitVec 64 := v.setWidth 64

/-- One source operations. -/
def oneF (sf : Bool) (op : BitVec 6) (a : BitVec (W sf)) : Option (BitVec (W sf)) :=
  match op.toNat, sf with
  | 0, _ => some a.reverse
  | 1, _ => some (revB 2 a)
  | 2, _ => some (revB 4 a)
  | 3, true => some (revB 8 a)
  | 4, _ => some (clz a)
  | _, _ => none

/-- Two source operations. -/
def twoF (sf : Bool) (op : BitVec 6) (a b : BitVec (W sf)) : Option (BitVec (W sf)) :=
  match op.toNat with
  | 2 => some (BitVec.ofNat _ (a.toNat / b.toNat))
  | 3 => some (BitVec.ofInt _ (a.toInt.tdiv b.toInt))
  | 8 => some (shiftReg 0#2 a (b.toNat % W sf))
  | 9 => some (shiftReg 1#2 a (b.toNat % W sf))
  | 10 => some (shiftReg 2#2 a (b.toNat % W sf))
  | 11 => some (shiftReg 3#2 a (b.toNat % W sf))
  | _ => none

/-- Logical operations: AND, ORR, EOR, ANDS. -/
def logF {w : Nat} (opc : BitVec 2) (a b : BitVec w) : BitVec w :=
  match opc.toNat with
  | 1 => a ||| b
  | 2 => a ^^^ b
  | _ => a &&& b

/-- The bytes of a transfer. -/
def bytes (size : BitVec 2) : Nat := 2 ^ size.toNat

/-- The offset of an addressing mode. -/
def Mode.off (mode : Mode) (s : St) : BitVec 64 :=
  match mode with
  | .imm off => off
  | .reg rm sh => s.x rm <<< sh

/-- Execution. -/
def exec (i : Inst) (s : St) : Option St :=
  match i with
  | .wide sf opc hw imm rd =>
    let v := imm.setWidth 64 <<< (16 * hw.toNat)
    let x := if opc = 0#2 then ~~~ v else if opc = 2#2 then v else (s.x rd &&& ~~~ (0xffff#64 <<< (16 * hw.toNat))) ||| v
    some (s.setX rd (up (lo sf x)))
  | .logImm sf opc m rn rd =>
    let x := logF opc (lo sf (s.x rn)) (lo sf m)
    if opc = 3#2 then some { s.setX rd (up x) with f := nzcv x false false } else some (s.set rd (up x))
  | .addImm sf sub st imm rn rd =>
    let t := awc (lo sf (s.r rn)) (if sub then ~~~ lo sf imm else lo sf imm) sub
    if st then some { s.setX rd (up t.1) with f := nzcv t.1 t.2.1 t.2.2 } else some (s.set rd (up t.1))
  | .addReg sf sub st ty n rm rn rd =>
    let b := shiftReg ty (lo sf (s.x rm)) n
    let t := awc (lo sf (s.x rn)) (if sub then ~~~ b else b) sub
    if st then some { s.setX rd (up t.1) with f := nzcv t.1 t.2.1 t.2.2 } else some (s.setX rd (up t.1))
  | .logReg sf opc inv ty n rm rn rd =>
    let b := shiftReg ty (lo sf (s.x rm)) n
    let x := logF opc (lo sf (s.x rn)) (if inv then ~~~ b else b)
    if opc = 3#2 then some { s.setX rd (up x) with f := nzcv x false false } else some (s.setX rd (up x))
  | .adc sf sub st rm rn rd =>
    let b := lo sf (s.x rm)
    let t := awc (lo sf (s.x rn)) (if sub then ~~~ b else b) s.f.c
    if st then some { s.setX rd (up t.1) with f := nzcv t.1 t.2.1 t.2.2 } else some (s.setX rd (up t.1))
  | .two sf op rm rn rd => (twoF sf op (lo sf (s.x rn)) (lo sf (s.x rm))).map fun x => s.setX rd (up x)
  | .one sf op rn rd => (oneF sf op (lo sf (s.x rn))).map fun x => s.setX rd (up x)
  | .madd sf ra rm rn rd => some (s.setX rd (up (lo sf (s.x ra) + lo sf (s.x rn) * lo sf (s.x rm))))
  | .smaddl ra rm rn rd => some (s.setX rd (s.x ra + ((s.x rn).setWidth 32).signExtend 64 * ((s.x rm).setWidth 32).signExtend 64))
  | .mulh signed rm rn rd =>
    some (s.setX rd (if signed then BitVec.ofInt 64 ((s.x rn).toInt * (s.x rm).toInt / 2 ^ 64) else BitVec.ofNat 64 ((s.x rn).toNat * (s.x rm).toNat / 2 ^ 64)))
  | .bfm sf signed immr imms rn rd => some (s.setX rd (up (bfm signed (lo sf (s.x rn)) immr imms)))
  | .extr sf n rm rn rd => some (s.setX rd (up ((lo sf (s.x rn) ++ lo sf (s.x rm)).extractLsb' n (W sf))))
  | .csel sf inc c rm rn rd =>
    some (s.setX rd (up (if cond c s.f then lo sf (s.x rn) else if inc then lo sf (s.x rm) + 1#_ else lo sf (s.x rm))))
  | .mem size opc mode rn rt =>
    let a := s.r rn + mode.off s
    if opc = 0#2 then some { s with m := wr s.m a (s.x rt) (bytes size) }
    else if opc = 1#2 then some (s.setX rt (rd s.m a (bytes size)))
    else if opc = 2#2 ∧ size ≠ 3#2 then some (s.setX rt (((rd s.m a (bytes size)).setWidth (8 * bytes size)).signExtend 64))
    else if size.toNat < 2 then some (s.setX rt (up (((rd s.m a (bytes size)).setWidth (8 * bytes size)).signExtend 32)))
    else none

/-- One instruction word. -/
def step (w : BitVec 32) (s : St) : Option St := (decode w).bind fun i => exec i s

/-- A sequence of instruction words. -/
def runs : List (BitVec 32) → St → Option St
  | [], s => some s
  | w :: ws, s => (step w s).bind (runs ws)

end Verif.A64
