import Verif.Imm.Loong
import Verif.RISCV.Exec

/-!
# LoongArch64 integer instructions

The instructions that the integer operations of sljitNativeLOONGARCH_64.c use, as the LoongArch Reference Manual (volume 1)
describes them.  The constants of load_immediate are those of `Verif.Imm.La`.  Memory is little endian and accesses need
not be aligned.  The arithmetic of single instructions (`ROp`, `WOp`, `ShOp`, `LdOp`, `StOp`) is shared with the RV64 model
(`Verif.RISCV.ISA`): the two architectures define these operations in the same way.  Instructions that fault, control
transfer and the float register file are not modelled (`f` is kept by all instructions here).
-/

namespace Verif.LA
open Verif.RV (ROp WOp ShOp LdOp StOp sx32 lo32 bool64)

/-- A register number. -/
abbrev Reg := BitVec 5

/-- Machine state; r0 reads as zero. -/
structure Core where
  x : Reg → BitVec 64
  f : Reg → BitVec 64
  mem : BitVec 64 → BitVec 8
  x0 : x 0#5 = 0#64

/-- Writing a register; writes to r0 are dropped. -/
def Core.wr (c : Core) (r : Reg) (v : BitVec 64) : Core where
  x := fun q => if q = r ∧ r ≠ 0#5 then v else c.x q
  f := c.f
  mem := c.mem
  x0 := by
    have := c.x0
    split
    · rename_i h; exact absurd h.1.symm h.2
    · exact this

/-- Replacing the memory. -/
def Core.setMem (c : Core) (m : BitVec 64 → BitVec 8) : Core := { c with mem := m }

/-- Instructions with a 12 bit immediate (2RI12 format), besides addi.d, ori and lu52i.d. -/
inductive IOp | addiw | slti | sltui | andi | xori
  deriving DecidableEq, Repr

/-- slti and sltui compare with the sign extended immediate, andi and xori use the zero extended one. -/
def IOp.eval (o : IOp) (a : BitVec 64) (i : BitVec 12) : BitVec 64 :=
  match o with
  | .addiw => sx32 (lo32 a + i.signExtend 32)
  | .slti => bool64 (a.slt (i.signExtend 64))
  | .sltui => bool64 (a.ult (i.signExtend 64))
  | .andi => a &&& i.setWidth 64
  | .xori => a ^^^ i.setWidth 64

/-- Instructions with one source register (2R format). -/
inductive UOp | clzw | ctzw | clzd | ctzd | revb2h | revb2w | revbd | extwh | extwb
  deriving DecidableEq, Repr

/-- The bytes of a 32 bit word in reverse order. -/
def swap32 (v : BitVec 32) : BitVec 32 :=
  v.extractLsb' 0 8 ++ v.extractLsb' 8 8 ++ v.extractLsb' 16 8 ++ v.extractLsb' 24 8
/-- The bytes of a 16 bit half word in reverse order. -/
def swap16 (v : BitVec 16) : BitVec 16 := v.extractLsb' 0 8 ++ v.extractLsb' 8 8

/-- revb.2w reverses the bytes of both words of the register; revb.2h reverses the bytes of the two low half words and sign
extends the 32 bit result. -/
def UOp.eval (o : UOp) (a : BitVec 64) : BitVec 64 :=
  match o with
  | .clzw => BitVec.ofNat 64 (Verif.RV.clzN 32 (lo32 a).toNat)
  | .ctzw => BitVec.ofNat 64 (Verif.RV.ctzN 32 (lo32 a).toNat)
  | .clzd => BitVec.ofNat 64 (Verif.RV.clzN 64 a.toNat)
  | .ctzd => BitVec.ofNat 64 (Verif.RV.ctzN 64 a.toNat)
  | .revb2h => sx32 (swap16 (a.extractLsb' 16 16) ++ swap16 (a.extractLsb' 0 16))
  | .revb2w => swap32 (a.extractLsb' 32 32) ++ swap32 (a.extractLsb' 0 32)
  | .revbd => swap32 (a.extractLsb' 0 32) ++ swap32 (a.extractLsb' 32 32)
  | .extwh => (a.setWidth 16).signExtend 64
  | .extwb => (a.setWidth 8).signExtend 64

/-- Instructions. -/
inductive Inst where
  /-- addi.d, ori, lu12i.w, lu32i.d, lu52i.d -/
  | la (i : Verif.Imm.La.Inst)
  /-- three registers, 64 bit operation -/
  | rd3 (o : ROp) (rd rj rk : Reg)
  /-- three registers, operation on the low words, sign extended result -/
  | rw3 (o : WOp) (rd rj rk : Reg)
  | imm (o : IOp) (rd rj : Reg) (i : BitVec 12)
  /-- slli.d, srli.d, srai.d, rotri.d -/
  | shd (o : ShOp) (rd rj : Reg) (n : BitVec 6)
  /-- slli.w, srli.w, srai.w, rotri.w -/
  | shw (o : ShOp) (rd rj : Reg) (n : BitVec 5)
  | un (o : UOp) (rd rj : Reg)
  /-- bstrpick.d: bits msb..lsb, zero extended -/
  | pickd (rd rj : Reg) (msb lsb : BitVec 6)
  /-- bstrpick.w: bits msb..lsb of the low word, the 32 bit result is sign extended -/
  | pickw (rd rj : Reg) (msb lsb : BitVec 5)
  | load (o : LdOp) (rd rj : Reg) (i : BitVec 12)
  | store (o : StOp) (rd rj : Reg) (i : BitVec 12)
  | loadx (o : LdOp) (rd rj rk : Reg)
  | storex (o : StOp) (rd rj rk : Reg)
  deriving DecidableEq, Repr

/-- Opcodes of the 3R format (bits 31..15); the immediate shifts of words have the same shape. -/
def dec17 (o : BitVec 17) (d j k : Reg) : Option Inst :=
  if o = 0x20#17 then some (.rw3 .add d j k)
  else if o = 0x21#17 then some (.rd3 .add d j k)
  else if o = 0x22#17 then some (.rw3 .sub d j k)
  else if o = 0x23#17 then some (.rd3 .sub d j k)
  else if o = 0x24#17 then some (.rd3 .slt d j k)
  else if o = 0x25#17 then some (.rd3 .sltu d j k)
  else if o = 0x29#17 then some (.rd3 .and d j k)
  else if o = 0x2a#17 then some (.rd3 .or d j k)
  else if o = 0x2b#17 then some (.rd3 .xor d j k)
  else if o = 0x2e#17 then some (.rw3 .sll d j k)
  else if o = 0x2f#17 then some (.rw3 .srl d j k)
  else if o = 0x30#17 then some (.rw3 .sra d j k)
  else if o = 0x31#17 then some (.rd3 .sll d j k)
  else if o = 0x32#17 then some (.rd3 .srl d j k)
  else if o = 0x33#17 then some (.rd3 .sra d j k)
  else if o = 0x36#17 then some (.rw3 .ror d j k)
  else if o = 0x37#17 then some (.rd3 .ror d j k)
  else if o = 0x38#17 then some (.rw3 .mul d j k)
  else if o = 0x3b#17 then some (.rd3 .mul d j k)
  else if o = 0x3c#17 then some (.rd3 .mulh d j k)
  else if o = 0x3d#17 then some (.rd3 .mulhu d j k)
  else if o = 0x81#17 then some (.shw .sll d j k)
  else if o = 0x89#17 then some (.shw .srl d j k)
  else if o = 0x91#17 then some (.shw .sra d j k)
  else if o = 0x99#17 then some (.shw .ror d j k)
  else if o = 0x7000#17 then some (.loadx .b d j k)
  else if o = 0x7008#17 then some (.loadx .h d j k)
  else if o = 0x7010#17 then some (.loadx .w d j k)
  else if o = 0x7018#17 then some (.loadx .d d j k)
  else if o = 0x7020#17 then some (.storex .b d j k)
  else if o = 0x7028#17 then some (.storex .h d j k)
  else if o = 0x7030#17 then some (.storex .w d j k)
  else if o = 0x7038#17 then some (.storex .d d j k)
  else if o = 0x7040#17 then some (.loadx .bu d j k)
  else if o = 0x7048#17 then some (.loadx .hu d j k)
  else if o = 0x7050#17 then some (.loadx .wu d j k)
  else none

/-- Opcodes of the 2RI12 format (bits 31..22); addi.d, ori and lu52i.d are in `Verif.Imm.La`. -/
def dec10 (o : BitVec 10) (d j : Reg) (i : BitVec 12) : Option Inst :=
  if o = 0x8#10 then some (.imm .slti d j i)
  else if o = 0x9#10 then some (.imm .sltui d j i)
  else if o = 0xa#10 then some (.imm .addiw d j i)
  else if o = 0xd#10 then some (.imm .andi d j i)
  else if o = 0xf#10 then some (.imm .xori d j i)
  else if o = 0xa0#10 then some (.load .b d j i)
  else if o = 0xa1#10 then some (.load .h d j i)
  else if o = 0xa2#10 then some (.load .w d j i)
  else if o = 0xa3#10 then some (.load .d d j i)
  else if o = 0xa4#10 then some (.store .b d j i)
  else if o = 0xa5#10 then some (.store .h d j i)
  else if o = 0xa6#10 then some (.store .w d j i)
  else if o = 0xa7#10 then some (.store .d d j i)
  else if o = 0xa8#10 then some (.load .bu d j i)
  else if o = 0xa9#10 then some (.load .hu d j i)
  else if o = 0xaa#10 then some (.load .wu d j i)
  else if o = 0x3#10 then some (.pickd d j (i.extractLsb' 6 6) (i.extractLsb' 0 6))
  else none

/-- Opcodes of the immediate shifts of double words (bits 31..16). -/
def dec16 (o : BitVec 16) (d j : Reg) (n : BitVec 6) : Option Inst :=
  if o = 0x41#16 then some (.shd .sll d j n)
  else if o = 0x45#16 then some (.shd .srl d j n)
  else if o = 0x49#16 then some (.shd .sra d j n)
  else if o = 0x4d#16 then some (.shd .ror d j n)
  else none

/-- Opcodes of the 2R format (bits 31..10). -/
def dec22 (o : BitVec 22) (d j : Reg) : Option Inst :=
  if o = 0x5#22 then some (.un .clzw d j)
  else if o = 0x7#22 then some (.un .ctzw d j)
  else if o = 0x9#22 then some (.un .clzd d j)
  else if o = 0xb#22 then some (.un .ctzd d j)
  else if o = 0xc#22 then some (.un .revb2h d j)
  else if o = 0xe#22 then some (.un .revb2w d j)
  else if o = 0xf#22 then some (.un .revbd d j)
  else if o = 0x16#22 then some (.un .extwh d j)
  else if o = 0x17#22 then some (.un .extwb d j)
  else if o.extractLsb' 11 11 = 0x3#11 ∧ o.extractLsb' 5 1 = 1#1 then some (.pickw d j (o.extractLsb' 6 5) (o.extractLsb' 0 5))
  else none

/-- A field of an instruction word. -/
def fld (w : BitVec 32) (lo n : Nat) : BitVec n := w.extractLsb' lo n

/-- The decoder. -/
def decode (w : BitVec 32) : Option Inst :=
  match Verif.Imm.La.decode w with
  | some i => some (.la i)
  | none =>
    match dec10 (fld w 22 10) (fld w 0 5) (fld w 5 5) (fld w 10 12) with
    | some i => some i
    | none =>
      match dec17 (fld w 15 17) (fld w 0 5) (fld w 5 5) (fld w 10 5) with
      | some i => some i
      | none =>
        match dec16 (fld w 16 16) (fld w 0 5) (fld w 5 5) (fld w 10 6) with
        | some i => some i
        | none => dec22 (fld w 10 22) (fld w 0 5) (fld w 5 5)

/-- Execution. -/
def exec : Inst → Core → Core
  | .la i, c => ⟨fun q => Verif.Imm.La.get (Verif.Imm.La.exec i c.x) q, c.f, c.mem, by simp [Verif.Imm.La.get]⟩
  | .rd3 o d j k, c => c.wr d (o.eval (c.x j) (c.x k))
  | .rw3 o d j k, c => c.wr d (sx32 (o.eval32 (lo32 (c.x j)) (lo32 (c.x k))))
  | .imm o d j i, c => c.wr d (o.eval (c.x j) i)
  | .shd o d j n, c => c.wr d (o.eval (c.x j) n.toNat)
  | .shw o d j n, c => c.wr d (sx32 (o.eval32 (lo32 (c.x j)) n.toNat))
  | .un o d j, c => c.wr d (o.eval (c.x j))
  | .pickd d j m l, c => c.wr d (((c.x j).extractLsb' l.toNat (m.toNat + 1 - l.toNat)).setWidth 64)
  | .pickw d j m l, c => c.wr d (sx32 (((lo32 (c.x j)).extractLsb' l.toNat (m.toNat + 1 - l.toNat)).setWidth 32))
  | .load o d j i, c => c.wr d (o.eval c.mem (c.x j + i.signExtend 64))
  | .store o d j i, c => c.setMem (o.eval c.mem (c.x j + i.signExtend 64) (c.x d))
  | .loadx o d j k, c => c.wr d (o.eval c.mem (c.x j + c.x k))
  | .storex o d j k, c => c.setMem (o.eval c.mem (c.x j + c.x k) (c.x d))

/-- Straight line code. -/
abbrev Emit := List (BitVec 32)

/-- Execution of straight line code; `none` if a word is not one of the instructions above. -/
def run : Emit → Core → Option Core
  | [], c => some c
  | w :: ws, c => (decode w).bind fun i => run ws (exec i c)

end Verif.LA
