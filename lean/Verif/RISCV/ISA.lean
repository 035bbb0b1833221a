/-!
# RV64 instruction set (specification)

Independent of sljit: written from "The RISC-V Instruction Set Manual, Volume I" (RV64I, M, C, Zba, Zbb, and the
load/store part of F/D).  Floating point registers are bit patterns only.  Simplifications: misaligned accesses are
allowed, instruction memory is separate from data memory, no traps other than "undecodable" (`none`).
-/

namespace Verif.RV

/-- Architectural register number. -/
abbrev Reg := BitVec 5

/-- Machine state. -/
structure St where
  x : Reg → BitVec 64
  f : Reg → BitVec 64
  mem : BitVec 64 → BitVec 8
  pc : BitVec 64

/-- Register read; `x0` is hard wired to zero. -/
def St.rd (s : St) (r : Reg) : BitVec 64 := if r = 0#5 then 0#64 else s.x r

/-- Register write (a write to `x0` is not observable through `rd`). -/
def St.wr (s : St) (r : Reg) (v : BitVec 64) : St :=
  { s with x := fun q => if q = r then v else s.x q }

/-- Float register write. -/
def St.wrf (s : St) (r : Reg) (v : BitVec 64) : St :=
  { s with f := fun q => if q = r then v else s.f q }

/-- Little endian memory reads. -/
def ld8 (m : BitVec 64 → BitVec 8) (a : BitVec 64) : BitVec 8 := m a
def ld16 (m : BitVec 64 → BitVec 8) (a : BitVec 64) : BitVec 16 := (ld8 m (a + 1#64)).setWidth 16 <<< 8 ||| (ld8 m a).setWidth 16
def ld32 (m : BitVec 64 → BitVec 8) (a : BitVec 64) : BitVec 32 := (ld16 m (a + 2#64)).setWidth 32 <<< 16 ||| (ld16 m a).setWidth 32
def ld64 (m : BitVec 64 → BitVec 8) (a : BitVec 64) : BitVec 64 := (ld32 m (a + 4#64)).setWidth 64 <<< 32 ||| (ld32 m a).setWidth 64

/-- Little endian memory writes. -/
def st8 (m : BitVec 64 → BitVec 8) (a : BitVec 64) (v : BitVec 8) : BitVec 64 → BitVec 8 :=
  fun b => if b = a then v else m b
def st16 (m : BitVec 64 → BitVec 8) (a : BitVec 64) (v : BitVec 16) : BitVec 64 → BitVec 8 :=
  st8 (st8 m a (v.extractLsb' 0 8)) (a + 1#64) (v.extractLsb' 8 8)
def st32 (m : BitVec 64 → BitVec 8) (a : BitVec 64) (v : BitVec 32) : BitVec 64 → BitVec 8 :=
  st16 (st16 m a (v.extractLsb' 0 16)) (a + 2#64) (v.extractLsb' 16 16)
def st64 (m : BitVec 64 → BitVec 8) (a : BitVec 64) (v : BitVec 64) : BitVec 64 → BitVec 8 :=
  st32 (st32 m a (v.extractLsb' 0 32)) (a + 4#64) (v.extractLsb' 32 32)

inductive BrOp | eq | ne | lt | ge | ltu | geu deriving DecidableEq, Repr
inductive LdOp | b | h | w | d | bu | hu | wu deriving DecidableEq, Repr
inductive StOp | b | h | w | d deriving DecidableEq, Repr
inductive IOp | add | slt | sltu | xor | or | and deriving DecidableEq, Repr
inductive ShOp | sll | srl | sra | ror deriving DecidableEq, Repr
inductive ROp | add | sub | sll | slt | sltu | xor | srl | sra | or | and
  | mul | mulh | mulhu | div | divu | rem | remu | sh1add | sh2add | sh3add | rol | ror deriving DecidableEq, Repr
inductive WOp | add | sub | sll | srl | sra | mul | div | divu | rem | remu | rol | ror deriving DecidableEq, Repr
inductive UnOp | clz | ctz | clzw | ctzw | sextb | sexth | zexth | rev8 deriving DecidableEq, Repr

inductive Instr
  | lui (rd : Reg) (imm : BitVec 20)
  | auipc (rd : Reg) (imm : BitVec 20)
  | jal (rd : Reg) (imm : BitVec 21)
  | jalr (rd rs1 : Reg) (imm : BitVec 12)
  | branch (o : BrOp) (rs1 rs2 : Reg) (imm : BitVec 13)
  | load (o : LdOp) (rd rs1 : Reg) (imm : BitVec 12)
  | store (o : StOp) (rs1 rs2 : Reg) (imm : BitVec 12)
  | opi (o : IOp) (rd rs1 : Reg) (imm : BitVec 12)
  | shi (o : ShOp) (rd rs1 : Reg) (sh : BitVec 6)
  | addiw (rd rs1 : Reg) (imm : BitVec 12)
  | shiw (o : ShOp) (rd rs1 : Reg) (sh : BitVec 5)
  | op (o : ROp) (rd rs1 rs2 : Reg)
  | opw (o : WOp) (rd rs1 rs2 : Reg)
  | un (o : UnOp) (rd rs1 : Reg)
  | fld (rd rs1 : Reg) (imm : BitVec 12)
  | fsd (rs1 rs2 : Reg) (imm : BitVec 12)
  | flw (rd rs1 : Reg) (imm : BitVec 12)
  | fsw (rs1 rs2 : Reg) (imm : BitVec 12)
  | fence
  | ebreak
  deriving DecidableEq, Repr

/-- Sign extended 32 bit result of the `W` instructions. -/
def sx32 (v : BitVec 32) : BitVec 64 := v.signExtend 64
/-- Low half of a register, the input of the `W` instructions. -/
def lo32 (v : BitVec 64) : BitVec 32 := v.setWidth 32

/-- Number of leading zero bits. -/
def clzN (w : Nat) (v : Nat) : Nat := if v = 0 then w else w - 1 - Nat.log2 v

/-- Number of trailing zero bits, scanning upward from bit `i` for at most `n` bits. -/
def ctzFrom (v : Nat) : Nat → Nat → Nat
  | _, 0 => 0
  | i, n + 1 => if v.testBit i then 0 else ctzFrom v (i + 1) n + 1

/-- Number of trailing zero bits of a `w` bit value. -/
def ctzN (w : Nat) (v : Nat) : Nat := ctzFrom v 0 w

/-- Bits `lo .. lo + len - 1` of `x`, placed at bit position `pos` of a `k` bit value. -/
def put (k : Nat) {n : Nat} (x : BitVec n) (lo len pos : Nat) : BitVec k := (x.extractLsb' lo len).setWidth k <<< pos

/-- Byte reversal of a 64 bit register. -/
def bswap64 (v : BitVec 64) : BitVec 64 :=
  put 64 v 0 8 56 ||| put 64 v 8 8 48 ||| put 64 v 16 8 40 ||| put 64 v 24 8 32 ||| put 64 v 32 8 24 |||
    put 64 v 40 8 16 ||| put 64 v 48 8 8 ||| put 64 v 56 8 0

/-- Rotations. -/
def rol64 (a : BitVec 64) (n : Nat) : BitVec 64 := (a <<< n) ||| (a >>> ((64 - n) % 64))
def ror64 (a : BitVec 64) (n : Nat) : BitVec 64 := (a >>> n) ||| (a <<< ((64 - n) % 64))
def rol32 (a : BitVec 32) (n : Nat) : BitVec 32 := (a <<< n) ||| (a >>> ((32 - n) % 32))
def ror32 (a : BitVec 32) (n : Nat) : BitVec 32 := (a >>> n) ||| (a <<< ((32 - n) % 32))

def bool64 (b : Bool) : BitVec 64 := if b then 1#64 else 0#64

/-- Register-register operations. -/
def ROp.eval (o : ROp) (a b : BitVec 64) : BitVec 64 :=
  match o with
  | .add => a + b
  | .sub => a - b
  | .sll => a <<< (b.setWidth 6).toNat
  | .slt => bool64 (a.slt b)
  | .sltu => bool64 (a.ult b)
  | .xor => a ^^^ b
  | .srl => a >>> (b.setWidth 6).toNat
  | .sra => a.sshiftRight (b.setWidth 6).toNat
  | .or => a ||| b
  | .and => a &&& b
  | .mul => a * b
  | .mulh => (a.signExtend 128 * b.signExtend 128).extractLsb' 64 64
  | .mulhu => (a.setWidth 128 * b.setWidth 128).extractLsb' 64 64
  | .div => if b = 0#64 then BitVec.allOnes 64 else a.sdiv b
  | .divu => if b = 0#64 then BitVec.allOnes 64 else a.udiv b
  | .rem => if b = 0#64 then a else a.srem b
  | .remu => if b = 0#64 then a else a.umod b
  | .sh1add => (a <<< 1) + b
  | .sh2add => (a <<< 2) + b
  | .sh3add => (a <<< 3) + b
  | .rol => rol64 a (b.setWidth 6).toNat
  | .ror => ror64 a (b.setWidth 6).toNat

/-- 32 bit register-register operations (result still to be sign extended). -/
def WOp.eval32 (o : WOp) (a b : BitVec 32) : BitVec 32 :=
  match o with
  | .add => a + b
  | .sub => a - b
  | .sll => a <<< (b.setWidth 5).toNat
  | .srl => a >>> (b.setWidth 5).toNat
  | .sra => a.sshiftRight (b.setWidth 5).toNat
  | .mul => a * b
  | .div => if b = 0#32 then BitVec.allOnes 32 else a.sdiv b
  | .divu => if b = 0#32 then BitVec.allOnes 32 else a.udiv b
  | .rem => if b = 0#32 then a else a.srem b
  | .remu => if b = 0#32 then a else a.umod b
  | .rol => rol32 a (b.setWidth 5).toNat
  | .ror => ror32 a (b.setWidth 5).toNat

def IOp.eval (o : IOp) (a : BitVec 64) (imm : BitVec 12) : BitVec 64 :=
  match o with
  | .add => a + imm.signExtend 64
  | .slt => bool64 (a.slt (imm.signExtend 64))
  | .sltu => bool64 (a.ult (imm.signExtend 64))
  | .xor => a ^^^ imm.signExtend 64
  | .or => a ||| imm.signExtend 64
  | .and => a &&& imm.signExtend 64

def ShOp.eval (o : ShOp) (a : BitVec 64) (n : Nat) : BitVec 64 :=
  match o with
  | .sll => a <<< n
  | .srl => a >>> n
  | .sra => a.sshiftRight n
  | .ror => ror64 a n

def ShOp.eval32 (o : ShOp) (a : BitVec 32) (n : Nat) : BitVec 32 :=
  match o with
  | .sll => a <<< n
  | .srl => a >>> n
  | .sra => a.sshiftRight n
  | .ror => ror32 a n

def UnOp.eval (o : UnOp) (a : BitVec 64) : BitVec 64 :=
  match o with
  | .clz => BitVec.ofNat 64 (clzN 64 a.toNat)
  | .ctz => BitVec.ofNat 64 (ctzN 64 a.toNat)
  | .clzw => BitVec.ofNat 64 (clzN 32 (lo32 a).toNat)
  | .ctzw => BitVec.ofNat 64 (ctzN 32 (lo32 a).toNat)
  | .sextb => (a.setWidth 8).signExtend 64
  | .sexth => (a.setWidth 16).signExtend 64
  | .zexth => (a.setWidth 16).setWidth 64
  | .rev8 => bswap64 a

def LdOp.eval (o : LdOp) (m : BitVec 64 → BitVec 8) (a : BitVec 64) : BitVec 64 :=
  match o with
  | .b => (ld8 m a).signExtend 64
  | .h => (ld16 m a).signExtend 64
  | .w => (ld32 m a).signExtend 64
  | .d => ld64 m a
  | .bu => (ld8 m a).setWidth 64
  | .hu => (ld16 m a).setWidth 64
  | .wu => (ld32 m a).setWidth 64

def StOp.eval (o : StOp) (m : BitVec 64 → BitVec 8) (a v : BitVec 64) : BitVec 64 → BitVec 8 :=
  match o with
  | .b => st8 m a (v.setWidth 8)
  | .h => st16 m a (v.setWidth 16)
  | .w => st32 m a (v.setWidth 32)
  | .d => st64 m a v

def BrOp.eval (o : BrOp) (a b : BitVec 64) : Bool :=
  match o with
  | .eq => a == b
  | .ne => a != b
  | .lt => a.slt b
  | .ge => !(a.slt b)
  | .ltu => a.ult b
  | .geu => !(a.ult b)

/-- Upper-immediate value of LUI / AUIPC. -/
def uimm (i : BitVec 20) : BitVec 64 := (i.setWidth 32 <<< 12).signExtend 64

/-- Effect of the non-control instructions; `none` for control transfer and traps.  The program counter is advanced by
the caller. -/
def execS (i : Instr) (s : St) : Option St :=
  match i with
  | .lui rd imm => some (s.wr rd (uimm imm))
  | .auipc rd imm => some (s.wr rd (s.pc + uimm imm))
  | .load o rd rs1 imm => some (s.wr rd (o.eval s.mem (s.rd rs1 + imm.signExtend 64)))
  | .store o rs1 rs2 imm => some { s with mem := o.eval s.mem (s.rd rs1 + imm.signExtend 64) (s.rd rs2) }
  | .opi o rd rs1 imm => some (s.wr rd (o.eval (s.rd rs1) imm))
  | .shi o rd rs1 sh => some (s.wr rd (o.eval (s.rd rs1) sh.toNat))
  | .addiw rd rs1 imm => some (s.wr rd (sx32 (lo32 (s.rd rs1) + imm.signExtend 32)))
  | .shiw o rd rs1 sh => some (s.wr rd (sx32 (o.eval32 (lo32 (s.rd rs1)) sh.toNat)))
  | .op o rd rs1 rs2 => some (s.wr rd (o.eval (s.rd rs1) (s.rd rs2)))
  | .opw o rd rs1 rs2 => some (s.wr rd (sx32 (o.eval32 (lo32 (s.rd rs1)) (lo32 (s.rd rs2)))))
  | .un o rd rs1 => some (s.wr rd (o.eval (s.rd rs1)))
  | .fld rd rs1 imm => some (s.wrf rd (ld64 s.mem (s.rd rs1 + imm.signExtend 64)))
  | .fsd rs1 rs2 imm => some { s with mem := st64 s.mem (s.rd rs1 + imm.signExtend 64) (s.f rs2) }
  | .flw rd rs1 imm => some (s.wrf rd (0xffffffff00000000#64 ||| (ld32 s.mem (s.rd rs1 + imm.signExtend 64)).setWidth 64))
  | .fsw rs1 rs2 imm => some { s with mem := st32 s.mem (s.rd rs1 + imm.signExtend 64) ((s.f rs2).setWidth 32) }
  | .fence => some s
  | .jal .. | .jalr .. | .branch .. | .ebreak => none

/-- Control transfer instructions of `len` bytes; `none` for a trap. -/
def execJ (i : Instr) (len : BitVec 64) (s : St) : Option St :=
  match i with
  | .jal rd imm => some { s.wr rd (s.pc + len) with pc := s.pc + imm.signExtend 64 }
  | .jalr rd rs1 imm =>
    some { s.wr rd (s.pc + len) with pc := (s.rd rs1 + imm.signExtend 64) &&& ~~~1#64 }
  | .branch o rs1 rs2 imm =>
    some { s with pc := if o.eval (s.rd rs1) (s.rd rs2) then s.pc + imm.signExtend 64 else s.pc + len }
  | _ => none

/-- Full semantics of an instruction of `len` bytes. -/
def exec (i : Instr) (len : BitVec 64) (s : St) : Option St :=
  match execS i s with
  | some s' => some { s' with pc := s.pc + len }
  | none => execJ i len s

/-! ## Decoding of 32 bit instructions -/

def fOpc (w : BitVec 32) : BitVec 7 := w.extractLsb' 0 7
def fRd (w : BitVec 32) : Reg := w.extractLsb' 7 5
def fF3 (w : BitVec 32) : BitVec 3 := w.extractLsb' 12 3
def fRs1 (w : BitVec 32) : Reg := w.extractLsb' 15 5
def fRs2 (w : BitVec 32) : Reg := w.extractLsb' 20 5
def fF7 (w : BitVec 32) : BitVec 7 := w.extractLsb' 25 7
def fImmI (w : BitVec 32) : BitVec 12 := w.extractLsb' 20 12
def fImmS (w : BitVec 32) : BitVec 12 :=
  put 12 w 25 7 5 ||| put 12 w 7 5 0
def fImmU (w : BitVec 32) : BitVec 20 := w.extractLsb' 12 20
def fImmB (w : BitVec 32) : BitVec 13 :=
  put 13 w 31 1 12 ||| put 13 w 7 1 11 ||| put 13 w 25 6 5 ||| put 13 w 8 4 1
def fImmJ (w : BitVec 32) : BitVec 21 :=
  put 21 w 31 1 20 ||| put 21 w 12 8 12 ||| put 21 w 20 1 11 ||| put 21 w 21 10 1

def decBr (f3 : BitVec 3) : Option BrOp :=
  if f3 = 0#3 then some .eq else if f3 = 1#3 then some .ne else if f3 = 4#3 then some .lt
  else if f3 = 5#3 then some .ge else if f3 = 6#3 then some .ltu else if f3 = 7#3 then some .geu else none

def decLd (f3 : BitVec 3) : Option LdOp :=
  if f3 = 0#3 then some .b else if f3 = 1#3 then some .h else if f3 = 2#3 then some .w
  else if f3 = 3#3 then some .d else if f3 = 4#3 then some .bu else if f3 = 5#3 then some .hu
  else if f3 = 6#3 then some .wu else none

def decSt (f3 : BitVec 3) : Option StOp :=
  if f3 = 0#3 then some .b else if f3 = 1#3 then some .h else if f3 = 2#3 then some .w
  else if f3 = 3#3 then some .d else none

/-- OP-IMM (0x13). -/
def decOpImm (f3 : BitVec 3) (rd rs1 : Reg) (imm : BitVec 12) : Option Instr :=
  let top6 := imm.extractLsb' 6 6
  let sh := imm.setWidth 6
  if f3 = 0#3 then some (.opi .add rd rs1 imm)
  else if f3 = 2#3 then some (.opi .slt rd rs1 imm)
  else if f3 = 3#3 then some (.opi .sltu rd rs1 imm)
  else if f3 = 4#3 then some (.opi .xor rd rs1 imm)
  else if f3 = 6#3 then some (.opi .or rd rs1 imm)
  else if f3 = 7#3 then some (.opi .and rd rs1 imm)
  else if f3 = 1#3 then
    if top6 = 0x00#6 then some (.shi .sll rd rs1 sh)
    else if imm = 0x600#12 then some (.un .clz rd rs1)
    else if imm = 0x601#12 then some (.un .ctz rd rs1)
    else if imm = 0x604#12 then some (.un .sextb rd rs1)
    else if imm = 0x605#12 then some (.un .sexth rd rs1)
    else none
  else
    if top6 = 0x00#6 then some (.shi .srl rd rs1 sh)
    else if top6 = 0x10#6 then some (.shi .sra rd rs1 sh)
    else if top6 = 0x18#6 then some (.shi .ror rd rs1 sh)
    else if imm = 0x6b8#12 then some (.un .rev8 rd rs1)
    else none

/-- OP-IMM-32 (0x1b). -/
def decOpImm32 (f3 : BitVec 3) (rd rs1 : Reg) (imm : BitVec 12) : Option Instr :=
  let f7 := imm.extractLsb' 5 7
  let sh := imm.setWidth 5
  if f3 = 0#3 then some (.addiw rd rs1 imm)
  else if f3 = 1#3 then
    if f7 = 0x00#7 then some (.shiw .sll rd rs1 sh)
    else if imm = 0x600#12 then some (.un .clzw rd rs1)
    else if imm = 0x601#12 then some (.un .ctzw rd rs1)
    else none
  else if f3 = 5#3 then
    if f7 = 0x00#7 then some (.shiw .srl rd rs1 sh)
    else if f7 = 0x20#7 then some (.shiw .sra rd rs1 sh)
    else if f7 = 0x30#7 then some (.shiw .ror rd rs1 sh)
    else none
  else none

/-- OP (0x33). -/
def decOp (f7 : BitVec 7) (f3 : BitVec 3) : Option ROp :=
  if f7 = 0x00#7 then
    (if f3 = 0#3 then some .add else if f3 = 1#3 then some .sll else if f3 = 2#3 then some .slt
     else if f3 = 3#3 then some .sltu else if f3 = 4#3 then some .xor else if f3 = 5#3 then some .srl
     else if f3 = 6#3 then some .or else some .and)
  else if f7 = 0x20#7 then
    (if f3 = 0#3 then some .sub else if f3 = 5#3 then some .sra else none)
  else if f7 = 0x01#7 then
    (if f3 = 0#3 then some .mul else if f3 = 1#3 then some .mulh else if f3 = 3#3 then some .mulhu
     else if f3 = 4#3 then some .div else if f3 = 5#3 then some .divu else if f3 = 6#3 then some .rem
     else if f3 = 7#3 then some .remu else none)
  else if f7 = 0x10#7 then
    (if f3 = 2#3 then some .sh1add else if f3 = 4#3 then some .sh2add else if f3 = 6#3 then some .sh3add else none)
  else if f7 = 0x30#7 then
    (if f3 = 1#3 then some .rol else if f3 = 5#3 then some .ror else none)
  else none

/-- OP-32 (0x3b). -/
def decOp32 (f7 : BitVec 7) (f3 : BitVec 3) (rd rs1 rs2 : Reg) : Option Instr :=
  if f7 = 0x00#7 then
    (if f3 = 0#3 then some (.opw .add rd rs1 rs2) else if f3 = 1#3 then some (.opw .sll rd rs1 rs2)
     else if f3 = 5#3 then some (.opw .srl rd rs1 rs2) else none)
  else if f7 = 0x20#7 then
    (if f3 = 0#3 then some (.opw .sub rd rs1 rs2) else if f3 = 5#3 then some (.opw .sra rd rs1 rs2) else none)
  else if f7 = 0x01#7 then
    (if f3 = 0#3 then some (.opw .mul rd rs1 rs2) else if f3 = 4#3 then some (.opw .div rd rs1 rs2)
     else if f3 = 5#3 then some (.opw .divu rd rs1 rs2) else if f3 = 6#3 then some (.opw .rem rd rs1 rs2)
     else if f3 = 7#3 then some (.opw .remu rd rs1 rs2) else none)
  else if f7 = 0x30#7 then
    (if f3 = 1#3 then some (.opw .rol rd rs1 rs2) else if f3 = 5#3 then some (.opw .ror rd rs1 rs2) else none)
  else if f7 = 0x04#7 then
    (if f3 = 4#3 ∧ rs2 = 0#5 then some (.un .zexth rd rs1) else none)
  else none

/-- Decoder for 32 bit instruction words. -/
def decode32 (w : BitVec 32) : Option Instr :=
  let opc := fOpc w
  let f3 := fF3 w
  if opc = 0x37#7 then some (.lui (fRd w) (fImmU w))
  else if opc = 0x17#7 then some (.auipc (fRd w) (fImmU w))
  else if opc = 0x6f#7 then some (.jal (fRd w) (fImmJ w))
  else if opc = 0x67#7 then (if f3 = 0#3 then some (.jalr (fRd w) (fRs1 w) (fImmI w)) else none)
  else if opc = 0x63#7 then (decBr f3).map fun o => .branch o (fRs1 w) (fRs2 w) (fImmB w)
  else if opc = 0x03#7 then (decLd f3).map fun o => .load o (fRd w) (fRs1 w) (fImmI w)
  else if opc = 0x23#7 then (decSt f3).map fun o => .store o (fRs1 w) (fRs2 w) (fImmS w)
  else if opc = 0x13#7 then decOpImm f3 (fRd w) (fRs1 w) (fImmI w)
  else if opc = 0x1b#7 then decOpImm32 f3 (fRd w) (fRs1 w) (fImmI w)
  else if opc = 0x33#7 then (decOp (fF7 w) f3).map fun o => .op o (fRd w) (fRs1 w) (fRs2 w)
  else if opc = 0x3b#7 then decOp32 (fF7 w) f3 (fRd w) (fRs1 w) (fRs2 w)
  else if opc = 0x07#7 then
    (if f3 = 3#3 then some (.fld (fRd w) (fRs1 w) (fImmI w))
     else if f3 = 2#3 then some (.flw (fRd w) (fRs1 w) (fImmI w)) else none)
  else if opc = 0x27#7 then
    (if f3 = 3#3 then some (.fsd (fRs1 w) (fRs2 w) (fImmS w))
     else if f3 = 2#3 then some (.fsw (fRs1 w) (fRs2 w) (fImmS w)) else none)
  else if opc = 0x0f#7 then (if f3 = 0#3 then some .fence else none)
  else if w = 0x00100073#32 then some .ebreak
  else none

/-! ## Decoding of 16 bit instructions (RV64C) -/

def cReg (r : BitVec 3) : Reg := 8#5 ||| r.setWidth 5

def cImm6 (h : BitVec 16) : BitVec 6 :=
  put 6 h 12 1 5 ||| put 6 h 2 5 0
/-- C.ADDI16SP immediate: `nzimm[9] | rd=2 | nzimm[4|6|8:7|5]`. -/
def cImm16sp (h : BitVec 16) : BitVec 10 :=
  put 10 h 12 1 9 ||| put 10 h 3 2 7 ||| put 10 h 5 1 6 ||| put 10 h 2 1 5 ||| put 10 h 6 1 4
def cImmLwsp (h : BitVec 16) : BitVec 8 :=
  put 8 h 2 2 6 ||| put 8 h 12 1 5 ||| put 8 h 4 3 2
def cImmLdsp (h : BitVec 16) : BitVec 9 :=
  put 9 h 2 3 6 ||| put 9 h 12 1 5 ||| put 9 h 5 2 3
def cImmSwsp (h : BitVec 16) : BitVec 8 :=
  put 8 h 7 2 6 ||| put 8 h 9 4 2
def cImmSdsp (h : BitVec 16) : BitVec 9 :=
  put 9 h 7 3 6 ||| put 9 h 10 3 3
def cImmW (h : BitVec 16) : BitVec 7 :=
  put 7 h 5 1 6 ||| put 7 h 10 3 3 ||| put 7 h 6 1 2
def cImmD (h : BitVec 16) : BitVec 8 :=
  put 8 h 5 2 6 ||| put 8 h 10 3 3
/-- C.BEQZ/C.BNEZ offset: `offset[8|4:3] | rs1 | offset[7:6|2:1|5]`. -/
def cImmB (h : BitVec 16) : BitVec 9 :=
  put 9 h 12 1 8 ||| put 9 h 5 2 6 ||| put 9 h 2 1 5 ||| put 9 h 10 2 3 ||| put 9 h 3 2 1
/-- C.J offset: `offset[11|4|9:8|10|6|7|3:1|5]`. -/
def cImmJ (h : BitVec 16) : BitVec 12 :=
  put 12 h 12 1 11 ||| put 12 h 8 1 10 ||| put 12 h 9 2 8 ||| put 12 h 6 1 7 ||| put 12 h 7 1 6 |||
    put 12 h 2 1 5 ||| put 12 h 11 1 4 ||| put 12 h 3 3 1

/-- Decoder for 16 bit instructions; each is expanded to the instruction it abbreviates. -/
def decode16 (h : BitVec 16) : Option Instr :=
  let q := h.extractLsb' 0 2
  let f3 := h.extractLsb' 13 3
  let rd := h.extractLsb' 7 5
  let rs2 := h.extractLsb' 2 5
  let r1 := cReg (h.extractLsb' 7 3)
  let r2 := cReg (h.extractLsb' 2 3)
  let b12 := h.extractLsb' 12 1
  if q = 0#2 then
    if f3 = 1#3 then some (.fld r2 r1 ((cImmD h).setWidth 12))
    else if f3 = 2#3 then some (.load .w r2 r1 ((cImmW h).setWidth 12))
    else if f3 = 3#3 then some (.load .d r2 r1 ((cImmD h).setWidth 12))
    else if f3 = 5#3 then some (.fsd r1 r2 ((cImmD h).setWidth 12))
    else if f3 = 6#3 then some (.store .w r1 r2 ((cImmW h).setWidth 12))
    else if f3 = 7#3 then some (.store .d r1 r2 ((cImmD h).setWidth 12))
    else none
  else if q = 1#2 then
    if f3 = 0#3 then some (.opi .add rd rd ((cImm6 h).signExtend 12))
    else if f3 = 1#3 then (if rd = 0#5 then none else some (.addiw rd rd ((cImm6 h).signExtend 12)))
    else if f3 = 2#3 then some (.opi .add rd 0#5 ((cImm6 h).signExtend 12))
    else if f3 = 3#3 then
      if rd = 2#5 then
        (if cImm16sp h = 0#10 then none else some (.opi .add 2#5 2#5 ((cImm16sp h).signExtend 12)))
      else
        (if cImm6 h = 0#6 then none else some (.lui rd ((cImm6 h).signExtend 20)))
    else if f3 = 4#3 then
      let f2 := h.extractLsb' 10 2
      if f2 = 0#2 then some (.shi .srl r1 r1 (cImm6 h))
      else if f2 = 1#2 then some (.shi .sra r1 r1 (cImm6 h))
      else if f2 = 2#2 then some (.opi .and r1 r1 ((cImm6 h).signExtend 12))
      else
        let g := h.extractLsb' 5 2
        if b12 = 0#1 then
          (if g = 0#2 then some (.op .sub r1 r1 r2) else if g = 1#2 then some (.op .xor r1 r1 r2)
           else if g = 2#2 then some (.op .or r1 r1 r2) else some (.op .and r1 r1 r2))
        else
          (if g = 0#2 then some (.opw .sub r1 r1 r2) else if g = 1#2 then some (.opw .add r1 r1 r2) else none)
    else if f3 = 5#3 then some (.jal 0#5 ((cImmJ h).signExtend 21))
    else if f3 = 6#3 then some (.branch .eq r1 0#5 ((cImmB h).signExtend 13))
    else some (.branch .ne r1 0#5 ((cImmB h).signExtend 13))
  else if q = 2#2 then
    if f3 = 0#3 then some (.shi .sll rd rd (cImm6 h))
    else if f3 = 1#3 then some (.fld rd 2#5 ((cImmLdsp h).setWidth 12))
    else if f3 = 2#3 then (if rd = 0#5 then none else some (.load .w rd 2#5 ((cImmLwsp h).setWidth 12)))
    else if f3 = 3#3 then (if rd = 0#5 then none else some (.load .d rd 2#5 ((cImmLdsp h).setWidth 12)))
    else if f3 = 4#3 then
      if b12 = 0#1 then
        (if rs2 = 0#5 then (if rd = 0#5 then none else some (.jalr 0#5 rd 0#12))
         else some (.op .add rd 0#5 rs2))
      else
        (if rs2 = 0#5 then (if rd = 0#5 then some .ebreak else some (.jalr 1#5 rd 0#12))
         else some (.op .add rd rd rs2))
    else if f3 = 5#3 then some (.fsd 2#5 rs2 ((cImmSdsp h).setWidth 12))
    else if f3 = 6#3 then some (.store .w 2#5 rs2 ((cImmSwsp h).setWidth 12))
    else some (.store .d 2#5 rs2 ((cImmSdsp h).setWidth 12))
  else none

/-- A half word whose two low bits are not `11` starts a 16 bit instruction. -/
def isC (h : BitVec 16) : Bool := h.extractLsb' 0 2 != 3#2

def St.adv (s : St) (n : BitVec 64) : St := { s with pc := s.pc + n }

/-- Straight line execution of a sequence of half words from its first to its last instruction.  `none` if some
instruction does not decode, is a control transfer, or the sequence ends in the middle of an instruction. -/
def run : List (BitVec 16) → St → Option St
  | [], s => some s
  | lo :: rest, s =>
    if isC lo then
      match (decode16 lo).bind (execS · s) with
      | some s' => run rest (s'.adv 2#64)
      | none => none
    else
      match rest with
      | [] => none
      | hi :: rest' =>
        match (decode32 (hi.setWidth 32 <<< 16 ||| lo.setWidth 32)).bind (execS · s) with
        | some s' => run rest' (s'.adv 4#64)
        | none => none

/-- Instruction memory: half word at every (even) address. -/
abbrev Code := BitVec 64 → BitVec 16

/-- One machine step. -/
def step (code : Code) (s : St) : Option St :=
  let lo := code s.pc
  if isC lo then (decode16 lo).bind (exec · 2#64 s)
  else (decode32 ((code (s.pc + 2#64)).setWidth 32 <<< 16 ||| lo.setWidth 32)).bind (exec · 4#64 s)

/-- Zero or more machine steps. -/
inductive Steps (code : Code) : St → St → Prop
  | refl (s) : Steps code s s
  | step {s s' s''} : step code s = some s' → Steps code s' s'' → Steps code s s''

/-- `hs` is stored in instruction memory from address `a` on. -/
def CodeAt (code : Code) : BitVec 64 → List (BitVec 16) → Prop
  | _, [] => True
  | a, h :: hs => code a = h ∧ CodeAt code (a + 2#64) hs

end Verif.RV
