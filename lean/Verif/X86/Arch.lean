/-!
# The x86-64 instructions used by the backend (specification)

Written from the instruction set reference (Intel SDM volume 2, chapter 2 and the instruction pages): prefixes, REX, ModRM, SIB,
displacement and immediate in 64 bit mode, and the effect of the integer instructions.  Not covered: segments, the address size
prefix, LOCK, faults.  A flag which the reference calls undefined is `none`.
-/

namespace Verif.X86

abbrev Byte := BitVec 8

/-- A field of a byte. -/
def fld (b : Byte) (lo n : Nat) : BitVec n := b.extractLsb' lo n

/-- The r/m operand.  `disp` is already sign extended. -/
inductive RM where
  | reg (r : BitVec 4)
  | mem (base : Option (BitVec 4)) (index : Option (BitVec 4 × BitVec 2)) (disp : BitVec 64)
  | rip (disp : BitVec 64)
  deriving DecidableEq, Repr

/-- A register number extended by a bit of REX. -/
def ext (b : Bool) (r : BitVec 3) : BitVec 4 := r.setWidth 4 ||| if b then 8#4 else 0#4

/-- n bytes, the lowest first. -/
def le : Nat → List Byte → Option (BitVec 64 × List Byte)
  | 0, bs => some (0#64, bs)
  | _ + 1, [] => none
  | n + 1, b :: bs => (le n bs).map fun (v, r) => (b.setWidth 64 ||| v <<< 8, r)

/-- Sign extension of the lowest n bytes. -/
def sext (n : Nat) (v : BitVec 64) : BitVec 64 := (v <<< (64 - 8 * n)).sshiftRight (64 - 8 * n)

/-- A sign extended displacement or immediate of n bytes. -/
def sle' (n : Nat) (bs : List Byte) : Option (BitVec 64 × List Byte) := (le n bs).map fun (v, r) => (sext n v, r)

/-- ModRM, SIB and displacement: the register field, the operand and the rest. -/
def parseRM (rex : Byte) : List Byte → Option (BitVec 4 × RM × List Byte)
  | [] => none
  | m :: bs =>
    let reg := ext (rex.getLsbD 2) (fld m 3 3)
    let md := fld m 6 2
    if md = 3#2 then some (reg, .reg (ext (rex.getLsbD 0) (fld m 0 3)), bs)
    else if fld m 0 3 = 4#3 then
      match bs with
      | [] => none
      | sib :: bs =>
        let ix := ext (rex.getLsbD 1) (fld sib 3 3)
        let index := if ix = 4#4 then none else some (ix, fld sib 6 2)
        if md = 0#2 then
          if fld sib 0 3 = 5#3 then (sle' 4 bs).map fun (d, r) => (reg, .mem none index d, r)
          else some (reg, .mem (some (ext (rex.getLsbD 0) (fld sib 0 3))) index 0#64, bs)
        else (sle' (if md = 1#2 then 1 else 4) bs).map fun (d, r) => (reg, .mem (some (ext (rex.getLsbD 0) (fld sib 0 3))) index d, r)
    else if md = 0#2 then
      if fld m 0 3 = 5#3 then (sle' 4 bs).map fun (d, r) => (reg, .rip d, r)
      else some (reg, .mem (some (ext (rex.getLsbD 0) (fld m 0 3))) none 0#64, bs)
    else (sle' (if md = 1#2 then 1 else 4) bs).map fun (d, r) => (reg, .mem (some (ext (rex.getLsbD 0) (fld m 0 3))) none d, r)

/-- The status flags. -/
structure Flags where
  cf : Option Bool
  zf : Option Bool
  sf : Option Bool
  of : Option Bool
  deriving DecidableEq

/-- Registers, memory and flags. -/
structure St where
  r : BitVec 4 → BitVec 64
  m : BitVec 64 → Byte
  f : Flags

/-- Changing a register. -/
def St.set (s : St) (d : BitVec 4) (v : BitVec 64) : St := { s with r := fun q => if q = d then v else s.r q }

/-- n bytes of the memory. -/
def rd (m : BitVec 64 → Byte) (a : BitVec 64) : Nat → BitVec 64
  | 0 => 0#64
  | n + 1 => (m a).setWidth 64 ||| rd m (a + 1#64) n <<< 8

/-- Changing n bytes of the memory. -/
def wr (m : BitVec 64 → Byte) (a : BitVec 64) (n : Nat) (v : BitVec 64) : BitVec 64 → Byte :=
  fun q => if (q - a).toNat < n then (v >>> (8 * (q - a).toNat)).setWidth 8 else m q

/-- A place of an operand. -/
inductive Loc where
  | reg (r : BitVec 4)
  | mem (a : BitVec 64)
  deriving DecidableEq

/-- The effective address.  RIP relative operands are not given a meaning here: the backend avoids them. -/
def loc (s : St) : RM → Option Loc
  | .reg r => some (.reg r)
  | .mem b i d => some (.mem ((b.elim 0#64 s.r) + (i.elim 0#64 fun (q, sc) => s.r q <<< sc.toNat) + d))
  | .rip _ => none

/-- The operand of n bytes, zero extended. -/
def get (s : St) (n : Nat) : Loc → BitVec 64
  | .reg r => s.r r &&& (BitVec.allOnes 64 >>> (64 - 8 * n))
  | .mem a => rd s.m a n

/-- Writing an operand of n bytes: a 32 bit write clears the upper half of a register, 8 and 16 bit writes keep the rest. -/
def put (s : St) (n : Nat) (v : BitVec 64) : Loc → St
  | .reg r =>
    let k := BitVec.allOnes 64 >>> (64 - 8 * n)
    s.set r (if n < 4 then (s.r r &&& ~~~ k) ||| (v &&& k) else v &&& k)
  | .mem a => { s with m := wr s.m a n v }

/-- The flags of a result: zero and sign. -/
def zs {w : Nat} (v : BitVec w) (cf of : Option Bool) : Flags := ⟨cf, some (v == 0#w), some v.msb, of⟩

/-- a + b + c with flags. -/
def addF {w : Nat} (a b : BitVec w) (c : Bool) : BitVec w × Flags :=
  let v := a + b + (BitVec.ofBool c).setWidth w
  (v, zs v (some (decide (2 ^ w ≤ a.toNat + b.toNat + c.toNat)))
    (some (decide (a.toInt + b.toInt + c.toNat < -2 ^ (w - 1) ∨ 2 ^ (w - 1) ≤ a.toInt + b.toInt + c.toNat))))

/-- a - b - c with flags. -/
def subF {w : Nat} (a b : BitVec w) (c : Bool) : BitVec w × Flags :=
  let v := a - b - (BitVec.ofBool c).setWidth w
  (v, zs v (some (decide (a.toNat < b.toNat + c.toNat)))
    (some (decide (a.toInt - b.toInt - c.toNat < -2 ^ (w - 1) ∨ 2 ^ (w - 1) ≤ a.toInt - b.toInt - c.toNat))))

/-- The logical operations. -/
def logF {w : Nat} (v : BitVec w) : BitVec w × Flags := (v, zs v (some false) (some false))

/-- The eight operations of group 1: ADD OR ADC SBB AND SUB XOR CMP.  ADC and SBB need a defined carry. -/
def alu {w : Nat} (k : BitVec 3) (a b : BitVec w) (f : Flags) : Option (BitVec w × Flags) :=
  match k.toNat with
  | 0 => some (addF a b false)
  | 1 => some (logF (a ||| b))
  | 2 => f.cf.map fun c => addF a b c
  | 3 => f.cf.map fun c => subF a b c
  | 4 => some (logF (a &&& b))
  | 5 => some (subF a b false)
  | 6 => some (logF (a ^^^ b))
  | _ => some (subF a b false)

/-- The shifts of group 2; the count is already masked.  A count of zero changes no flag.  RCL and RCR are not covered. -/
def shiftF {w : Nat} (k : BitVec 3) (a : BitVec w) (n : Nat) (f : Flags) : Option (BitVec w × Flags) :=
  if n = 0 then (if k = 2#3 ∨ k = 3#3 ∨ k = 6#3 then none else some (a, f)) else
  match k.toNat with
  | 0 => let v := a.rotateLeft n; some (v, { f with cf := some (v.getLsbD 0), of := if n = 1 then some (v.msb ^^ v.getLsbD 0) else none })
  | 1 => let v := a.rotateRight n; some (v, { f with cf := some v.msb, of := if n = 1 then some (v.msb ^^ v.getMsbD 1) else none })
  | 4 => let v := a <<< n; some (v, zs v (some (a.getLsbD (w - n))) (if n = 1 then some (v.msb ^^ a.msb) else none))
  | 5 => let v := a >>> n; some (v, zs v (some (a.getLsbD (n - 1))) (if n = 1 then some a.msb else none))
  | 7 => let v := a.sshiftRight n; some (v, zs v (some (a.getLsbD (n - 1))) (if n = 1 then some false else none))
  | _ => none

/-- IMUL with a truncated result. -/
def mulF {w : Nat} (a b : BitVec w) : BitVec w × Flags :=
  let o := decide (a.toInt * b.toInt < -2 ^ (w - 1) ∨ 2 ^ (w - 1) ≤ a.toInt * b.toInt)
  (a * b, ⟨some o, none, none, some o⟩)

/-- SHLD and SHRD by a masked count: bits of b are shifted into a.  A count of zero changes no flag. -/
def dblF {w : Nat} (left : Bool) (a b : BitVec w) (n : Nat) (f : Flags) : BitVec w × Flags :=
  if n = 0 then (a, f) else
  let v := if left then a <<< n ||| b >>> (w - n) else a >>> n ||| b <<< (w - n)
  (v, zs v (some (if left then a.getLsbD (w - n) else a.getLsbD (n - 1))) (if n = 1 then some (v.msb ^^ a.msb) else none))

/-- The truth of a condition code (volume 1, appendix B); `none` if a flag is undefined (or for the parity flag, which is not covered). -/
def ccF (k : BitVec 4) (f : Flags) : Option Bool :=
  (match (k.extractLsb' 1 3).toNat with
    | 0 => f.of
    | 1 => f.cf
    | 2 => f.zf
    | 3 => f.cf.bind fun c => f.zf.map fun z => c || z
    | 4 => f.sf
    | 6 => f.sf.bind fun s => f.of.map fun o => s ^^ o
    | 7 => f.zf.bind fun z => f.sf.bind fun s => f.of.map fun o => z || (s ^^ o)
    | _ => none).map (· ^^ k.getLsbD 0)

/-- The bytes in reverse order. -/
def rev (n : Nat) (v : BitVec 64) : BitVec 64 :=
  match n with
  | 0 => 0#64
  | n + 1 => (v &&& 0xff#64) <<< (8 * n) ||| rev n (v >>> 8)

/-- MUL and IMUL with a double width result: its lower and its upper half, and whether the upper half is needed. -/
def mulWide (signed : Bool) {w : Nat} (a b : BitVec w) : BitVec w × BitVec w × Bool :=
  let p := if signed then BitVec.ofInt (2 * w) (a.toInt * b.toInt) else BitVec.ofNat (2 * w) (a.toNat * b.toNat)
  let lo := p.extractLsb' 0 w
  (lo, p.extractLsb' w w, p != if signed then lo.signExtend (2 * w) else lo.setWidth (2 * w))

/-- DIV and IDIV: the double width dividend hi:lo divided by b; quotient and remainder.  `none` is the exception #DE. -/
def divWide (signed : Bool) {w : Nat} (hi lo b : BitVec w) : Option (BitVec w × BitVec w) :=
  if b = 0#w then none
  else if signed then
    let a := hi.toInt * 2 ^ w + lo.toNat
    let q := a.tdiv b.toInt
    if q < -2 ^ (w - 1) ∨ 2 ^ (w - 1) ≤ q then none else some (BitVec.ofInt w q, BitVec.ofInt w (a.tmod b.toInt))
  else
    let a := hi.toNat * 2 ^ w + lo.toNat
    let q := a / b.toNat
    if 2 ^ w ≤ q then none else some (BitVec.ofNat w q, BitVec.ofNat w (a % b.toNat))

/-- Index of the highest bit which is set. -/
def bsr {w : Nat} (a : BitVec w) : Nat := Nat.log2 a.toNat
/-- Index of the lowest bit which is set. -/
def bsf {w : Nat} (a : BitVec w) : Nat := w - 1 - Nat.log2 a.reverse.toNat

/-- The destination of BSF and BSR if the source is zero: the reference leaves it undefined, so nothing is known about it. -/
opaque bsUndef : Nat → St → BitVec 64

/-- BSF, BSR, TZCNT and LZCNT on a value of w bits; u is the value of the destination where it is undefined. -/
def bitScan {w : Nat} (up cnt : Bool) (a : BitVec w) (u : BitVec 64) : BitVec 64 × Flags :=
  if cnt then
    let k := if a = 0#w then w else if up then bsf a else w - 1 - bsr a
    (BitVec.ofNat 64 k, ⟨some (k == w), some (k == 0), none, none⟩)
  else if a = 0#w then (u, ⟨none, some true, none, none⟩)
  else (BitVec.ofNat 64 (if up then bsf a else bsr a), ⟨none, some false, none, none⟩)

/-- A decoded instruction: prefix (0 if none), REX (0 if none), opcode map (0, or 1 after 0F), opcode, operands, immediate. -/
inductive Inst where
  | rm (pre rex : Byte) (map : Nat) (op : Byte) (reg : BitVec 4) (m : RM) (imm : BitVec 64)
  /-- An instruction without ModRM: the lowest three bits of the opcode with REX.B, and an immediate. -/
  | short (pre rex : Byte) (map : Nat) (op : Byte) (imm : BitVec 64)
  deriving DecidableEq

/-- Immediate bytes of an instruction with ModRM. -/
def immSize (pre : Byte) (map : Nat) (op : Byte) (reg : BitVec 3) : Nat :=
  if map = 1 then (if op = 0xa4#8 ∨ op = 0xac#8 then 1 else 0)
  else if op = 0x81#8 ∨ op = 0x69#8 ∨ op = 0xc7#8 ∨ (op = 0xf7#8 ∧ (reg = 0#3 ∨ reg = 1#3)) then (if pre = 0x66#8 then 2 else 4)
  else if op = 0x83#8 ∨ op = 0x6b#8 ∨ op = 0xc1#8 ∨ op = 0xc6#8 then 1
  else 0

/-- The opcodes without ModRM which are covered: the accumulator forms of group 1 and TEST, MOV r, imm, BSWAP (not of 16 bits), PUSH and POP of a
register, CWD/CDQ/CQO, with the size of the immediate. -/
def shortSize (pre rex : Byte) (map : Nat) (op : Byte) : Option Nat :=
  if map = 1 then (if fld op 3 5 = 0b11001#5 then some 0 else none)
  else if (fld op 6 2 = 0#2 ∧ fld op 0 3 = 5#3) ∨ op = 0xa9#8 then some (if pre = 0x66#8 then 2 else 4)
  else if fld op 3 5 = 0b10111#5 then some (if rex.getLsbD 3 then 8 else if pre = 0x66#8 then 2 else 4)
  else if fld op 4 4 = 5#4 ∨ op = 0x99#8 then some 0
  else none

/-- Opcode and operands. -/
def parseOp (pre rex : Byte) (map : Nat) : List Byte → Option (Inst × List Byte)
  | [] => none
  | op :: bs =>
    match shortSize pre rex map op with
    | some n => (sle' n bs).map fun (i, r) => (.short pre rex map op i, r)
    | none =>
      (parseRM rex bs).bind fun (reg, m, bs) => (sle' (immSize pre map op (reg.setWidth 3)) bs).map fun (i, r) => (.rm pre rex map op reg m i, r)

/-- The 0F escape. -/
def parseMap (pre rex : Byte) : List Byte → Option (Inst × List Byte)
  | [] => none
  | b :: bs => if b = 0x0f#8 then parseOp pre rex 1 bs else parseOp pre rex 0 (b :: bs)

/-- REX is the last prefix. -/
def parseRex (pre : Byte) : List Byte → Option (Inst × List Byte)
  | [] => none
  | b :: bs => if fld b 4 4 = 4#4 then parseMap pre b bs else parseMap pre 0#8 (b :: bs)

/-- One instruction, with at most one of the prefixes 66, F2, F3. -/
def parse : List Byte → Option (Inst × List Byte)
  | [] => none
  | b :: bs => if b = 0x66#8 ∨ b = 0xf2#8 ∨ b = 0xf3#8 then parseRex b bs else parseRex 0#8 (b :: bs)

/-- Operand size of the instructions which are not byte instructions. -/
def opSize (pre rex : Byte) : Nat := if rex.getLsbD 3 then 8 else if pre = 0x66#8 then 2 else 4

/-- A byte register: without REX the numbers 4-7 are the high halves of the first four, which are not covered. -/
def byteReg (rex : Byte) (r : BitVec 4) : Bool := rex = 0#8 && 4 ≤ r.toNat
@[inherit_doc byteReg] def byteLoc (rex : Byte) : Loc → Bool
  | .reg r => byteReg rex r
  | .mem _ => false

/-- A binary operation of n bytes on two values (the result is zero extended). -/
def bin (n : Nat) (g : (w : Nat) → BitVec w → BitVec w → Option (BitVec w × Flags)) (a b : BitVec 64) : Option (BitVec 64 × Flags) :=
  (g (8 * n) (a.setWidth (8 * n)) (b.setWidth (8 * n))).map fun (v, f) => (v.setWidth 64, f)

/-- The effect of an instruction with ModRM. -/
def execRM (pre rex : Byte) (map : Nat) (op : Byte) (reg : BitVec 4) (l : Option Loc) (ea : Option (BitVec 64)) (imm : BitVec 64) (s : St) : Option St :=
  let n := opSize pre rex
  let k3 := reg.setWidth 3
  if map = 0 ∧ op = 0x8d#8 then
    -- LEA
    ea.map fun a => put s n a (.reg reg)
  else l.bind fun l =>
  if map = 0 then
    if fld op 6 2 = 0#2 ∧ fld op 0 3 = 1#3 then
      -- op rm, r
      (bin n (fun _ a b => alu (fld op 3 3) a b s.f) (get s n l) (s.r reg)).map fun (v, f) =>
        if fld op 3 3 = 7#3 then { s with f := f } else { put s n v l with f := f }
    else if fld op 6 2 = 0#2 ∧ fld op 0 3 = 3#3 then
      -- op r, rm
      (bin n (fun _ a b => alu (fld op 3 3) a b s.f) (s.r reg) (get s n l)).map fun (v, f) =>
        if fld op 3 3 = 7#3 then { s with f := f } else { put s n v (.reg reg) with f := f }
    else if op = 0x81#8 ∨ op = 0x83#8 then
      -- group 1
      (bin n (fun _ a b => alu k3 a b s.f) (get s n l) imm).map fun (v, f) =>
        if k3 = 7#3 then { s with f := f } else { put s n v l with f := f }
    else if op = 0x85#8 then
      -- TEST rm, r
      (bin n (fun _ a b => some (logF (a &&& b))) (get s n l) (s.r reg)).map fun (_, f) => { s with f := f }
    else if op = 0xf7#8 then
      -- group 3
      if k3 = 0#3 then (bin n (fun _ a b => some (logF (a &&& b))) (get s n l) imm).map fun (_, f) => { s with f := f }
      else if k3 = 2#3 then some (put s n (~~~ get s n l) l)
      else if k3 = 3#3 then (bin n (fun _ a b => some (subF b a false)) (get s n l) 0#64).map fun (v, f) => { put s n v l with f := f }
      else if n = 2 then none
      else if k3 = 4#3 ∨ k3 = 5#3 then
        -- MUL, IMUL
        let (x, y, o) := mulWide (decide (k3 = 5#3)) ((s.r 0#4).setWidth (8 * n)) ((get s n l).setWidth (8 * n))
        some { put (put s n (x.setWidth 64) (.reg 0#4)) n (y.setWidth 64) (.reg 2#4) with f := ⟨some o, none, none, some o⟩ }
      else if k3 = 6#3 ∨ k3 = 7#3 then
        -- DIV, IDIV
        (divWide (decide (k3 = 7#3)) ((s.r 2#4).setWidth (8 * n)) ((s.r 0#4).setWidth (8 * n)) ((get s n l).setWidth (8 * n))).map fun (q, r) =>
          { put (put s n (q.setWidth 64) (.reg 0#4)) n (r.setWidth 64) (.reg 2#4) with f := ⟨none, none, none, none⟩ }
      else none
    else if op = 0x89#8 then some (put s n (s.r reg) l)
    else if op = 0x8b#8 then some (put s n (get s n l) (.reg reg))
    else if op = 0x88#8 then if byteReg rex reg ∨ byteLoc rex l then none else some (put s 1 (s.r reg) l)
    else if op = 0xc7#8 ∧ k3 = 0#3 then some (put s n imm l)
    else if op = 0xc6#8 ∧ k3 = 0#3 then if byteLoc rex l then none else some (put s 1 imm l)
    else if op = 0x63#8 then
      -- MOVSXD
      if n = 8 then some (put s 8 (sext 4 (get s 4 l)) (.reg reg)) else none
    else if op = 0x69#8 ∨ op = 0x6b#8 then
      -- IMUL r, rm, imm
      (bin n (fun _ a b => some (mulF a b)) (get s n l) imm).map fun (v, f) => { put s n v (.reg reg) with f := f }
    else if op = 0xc1#8 ∨ op = 0xd1#8 ∨ op = 0xd3#8 then
      -- group 2
      let c := if op = 0xc1#8 then imm else if op = 0xd1#8 then 1#64 else s.r 1#4
      let c := c.toNat % (if n = 8 then 64 else 32)
      (bin n (fun _ a _ => shiftF k3 a c s.f) (get s n l) 0#64).map fun (v, f) => { put s n v l with f := f }
    else if op = 0x08#8 then
      -- OR rm8, r8
      if byteReg rex reg ∨ byteLoc rex l then none
      else (bin 1 (fun _ a b => some (logF (a ||| b))) (get s 1 l) (s.r reg)).map fun (v, f) => { put s 1 v l with f := f }
    else none
  else if map = 1 then
    if op = 0xaf#8 then
      -- IMUL r, rm
      (bin n (fun _ a b => some (mulF a b)) (s.r reg) (get s n l)).map fun (v, f) => { put s n v (.reg reg) with f := f }
    else if op = 0xb6#8 then if byteLoc rex l then none else some (put s n (get s 1 l) (.reg reg))
    else if op = 0xb7#8 then some (put s n (get s 2 l) (.reg reg))
    else if op = 0xbe#8 then if byteLoc rex l then none else some (put s n (sext 1 (get s 1 l)) (.reg reg))
    else if op = 0xbf#8 then some (put s n (sext 2 (get s 2 l)) (.reg reg))
    else if op = 0xa4#8 ∨ op = 0xa5#8 ∨ op = 0xac#8 ∨ op = 0xad#8 then
      -- SHLD, SHRD
      let c := if op = 0xa4#8 ∨ op = 0xac#8 then imm else s.r 1#4
      let c := c.toNat % (if n = 8 then 64 else 32)
      if 8 * n ≤ c then none
      else (bin n (fun _ a b => some (dblF (decide (op = 0xa4#8 ∨ op = 0xa5#8)) a b c s.f)) (get s n l) (s.r reg)).map fun (v, f) => { put s n v l with f := f }
    else if fld op 4 4 = 4#4 then
      -- CMOVcc: a 32 bit register is written also if the condition is false
      (ccF (fld op 0 4) s.f).map fun c => put s n (if c then get s n l else s.r reg) (.reg reg)
    else if fld op 4 4 = 9#4 then
      -- SETcc
      if byteLoc rex l then none else (ccF (fld op 0 4) s.f).map fun c => put s 1 (if c then 1#64 else 0#64) l
    else if op = 0xbc#8 ∨ op = 0xbd#8 then
      -- BSF, BSR, and with the prefix F3 TZCNT, LZCNT
      let (v, f) := bitScan (decide (op = 0xbc#8)) (decide (pre = 0xf3#8)) ((get s n l).setWidth (8 * n)) (bsUndef n s)
      some { put s n v (.reg reg) with f := f }
    else none
  else none

/-- The effect of an instruction. -/
def exec (i : Inst) (s : St) : Option St :=
  match i with
  | .rm pre rex map op reg m imm =>
    execRM pre rex map op reg (loc s m) (match m with | .reg _ => none | _ => (loc s m).bind fun | .mem a => some a | _ => none) imm s
  | .short pre rex map op imm =>
    let n := opSize pre rex
    let r := ext (rex.getLsbD 0) (fld op 0 3)
    if map = 1 then (if n = 2 then none else some (put s n (rev n (s.r r)) (.reg r)))
    else if op = 0xa9#8 then (bin n (fun _ a b => some (logF (a &&& b))) (s.r 0#4) imm).map fun (_, f) => { s with f := f }
    else if fld op 3 5 = 0b10111#5 then some (put s n imm (.reg r))
    else if fld op 6 2 = 0#2 ∧ fld op 0 3 = 5#3 then
      (bin n (fun _ a b => alu (fld op 3 3) a b s.f) (s.r 0#4) imm).map fun (v, f) =>
        if fld op 3 3 = 7#3 then { s with f := f } else { put s n v (.reg 0#4) with f := f }
    else if op = 0x99#8 then some (put s n (if ((s.r 0#4).setWidth (8 * n)).msb then BitVec.allOnes 64 else 0#64) (.reg 2#4))
    else if fld op 4 4 = 5#4 ∧ pre ≠ 0x66#8 then
      if op.getLsbD 3 then some ((s.set 4#4 (s.r 4#4 + 8#64)).set r (rd s.m (s.r 4#4) 8))
      else some { s.set 4#4 (s.r 4#4 - 8#64) with m := wr s.m (s.r 4#4 - 8#64) 8 (s.r r) }
    else none

/-- n instructions. -/
def run : Nat → List Byte → St → Option (List Byte × St)
  | 0, bs, s => some (bs, s)
  | n + 1, bs, s => (parse bs).bind fun (i, r) => (exec i s).bind (run n r)

end Verif.X86
