/-!
# load_immediate of MIPS64

`Mi` is the architecture side (MIPS64): the instructions which build constants.  `Mips` is the model of sljitNativeMIPS_64.c.
-/

namespace Verif.Imm.Mi

/-- A field of an instruction word. -/
def fld (w : BitVec 32) (lo n : Nat) : BitVec n := w.extractLsb' lo n

/-- Instructions. -/
inductive Inst where
  | addiu (rt rs : BitVec 5) (i : BitVec 16)
  | ori (rt rs : BitVec 5) (i : BitVec 16)
  | lui (rt : BitVec 5) (i : BitVec 16)
  /-- DSLL; DSLL32 adds 32 to the amount. -/
  | dsll (rd rt : BitVec 5) (sa : Nat)
  deriving DecidableEq, Repr

/-- The decoder. -/
def decode (w : BitVec 32) : Option Inst :=
  if fld w 26 6 = 9#6 then some (.addiu (fld w 16 5) (fld w 21 5) (fld w 0 16))
  else if fld w 26 6 = 13#6 then some (.ori (fld w 16 5) (fld w 21 5) (fld w 0 16))
  else if fld w 26 6 = 15#6 ∧ fld w 21 5 = 0#5 then some (.lui (fld w 16 5) (fld w 0 16))
  else if fld w 26 6 = 0#6 ∧ fld w 21 5 = 0#5 then
    if fld w 0 6 = 56#6 then some (.dsll (fld w 11 5) (fld w 16 5) (fld w 6 5).toNat)
    else if fld w 0 6 = 60#6 then some (.dsll (fld w 11 5) (fld w 16 5) ((fld w 6 5).toNat + 32))
    else none
  else none

/-- The general registers. -/
abbrev Regs := BitVec 5 → BitVec 64

/-- Reading; $0 is zero. -/
def rd (x : Regs) (r : BitVec 5) : BitVec 64 := if r = 0#5 then 0#64 else x r
/-- Writing a register. -/
def put (x : Regs) (r : BitVec 5) (v : BitVec 64) : Regs := fun q => if q = r then v else x q

/-- Execution.  ADDIU of a value which is not a sign extended word is unpredictable (`none`), and so is a write to $0 here. -/
def exec : Inst → Regs → Option Regs
  | .addiu rt rs i, x =>
    if rt = 0#5 ∨ rd x rs ≠ ((rd x rs).setWidth 32).signExtend 64 then none
    else some (put x rt (((rd x rs).setWidth 32 + i.signExtend 32).signExtend 64))
  | .ori rt rs i, x => if rt = 0#5 then none else some (put x rt (rd x rs ||| i.setWidth 64))
  | .lui rt i, x => if rt = 0#5 then none else some (put x rt (i.signExtend 64 <<< 16))
  | .dsll d rt sa, x => if d = 0#5 then none else some (put x d (rd x rt <<< sa))

/-- Execution of a sequence of instruction words. -/
def run : List (BitVec 32) → Regs → Option Regs
  | [], x => some x
  | w :: ws, x => (decode w).bind fun i => (exec i x).bind (run ws)

end Verif.Imm.Mi

namespace Verif.Imm.Mips

/-- SA, TA, DA, IMM, SH_IMM, sljitNativeMIPS_common.c:134-138; registers are machine registers here. -/
def SA (r : BitVec 5) : BitVec 32 := r.setWidth 32 <<< 21
@[inherit_doc SA] def TA (r : BitVec 5) : BitVec 32 := r.setWidth 32 <<< 16
@[inherit_doc SA] def DA (r : BitVec 5) : BitVec 32 := r.setWidth 32 <<< 11
@[inherit_doc SA] def IMM (v : BitVec 64) : BitVec 32 := v.setWidth 32 &&& 0xffff#32
@[inherit_doc SA] def SH_IMM (n : Nat) : BitVec 32 := BitVec.ofNat 32 n <<< 6
/-- Instruction words, sljitNativeMIPS_common.c:155-288. -/
def ADDIU : BitVec 32 := 9#32 <<< 26
@[inherit_doc ADDIU] def ORI : BitVec 32 := 13#32 <<< 26
@[inherit_doc ADDIU] def LUI : BitVec 32 := 15#32 <<< 26
@[inherit_doc ADDIU] def DSLL : BitVec 32 := 56#32
@[inherit_doc ADDIU] def DSLL32 : BitVec 32 := 60#32

/-- `while (!(uimm & mask)) { shift -= k; uimm <<= k; }`, sljitNativeMIPS_64.c:74-77, 118-121.  The second component is the sum of
the shifts.  `none` is a loop which does not end: 64 shifts leave zero. -/
def skip (mask : BitVec 64) (k : Nat) : Nat → BitVec 64 → Nat → Option (BitVec 64 × Nat)
  | 0, _, _ => none
  | fuel + 1, u, t => if u &&& mask = 0#64 then skip mask k fuel (u <<< k) (t + k) else some (u, t)

/-- `if (!(uimm & mask)) { shift -= k; uimm <<= k; }`, sljitNativeMIPS_64.c:79-87, 123-131. -/
def step (mask : BitVec 64) (k : Nat) (p : BitVec 64 × Nat) : BitVec 64 × Nat :=
  if p.1 &&& mask = 0#64 then (p.1 <<< k, p.2 + k) else p

/-- The two instructions for the upper word, sljitNativeMIPS_64.c:98-100. -/
def upper (dst : BitVec 5) (u : BitVec 64) : List (BitVec 32) :=
  (LUI ||| TA dst ||| IMM (u >>> 48)) ::
    (if u &&& 0x0000ffff00000000#64 ≠ 0#64 then [ORI ||| SA dst ||| TA dst ||| IMM (u >>> 32)] else [])

/-- An ORI of the lowest bits unless they are zero, sljitNativeMIPS_64.c:109, 141. -/
def lowest (dst : BitVec 5) (imm : BitVec 64) : List (BitVec 32) :=
  if imm &&& 0xffff#64 = 0#64 then [] else [ORI ||| SA dst ||| TA dst ||| IMM imm]

/-- load_immediate after the upper word is normalized, sljitNativeMIPS_64.c:102-141.  `u` is uimm.  `none` is a failed assertion. -/
def loadRest (dst : BitVec 5) (u imm : BitVec 64) (shift : Nat) : Option (List (BitVec 32)) :=
  let imm := imm &&& BitVec.ofNat 64 (2 ^ shift - 1)
  if imm &&& ~~~ 0xffff#64 = 0#64 then
    some (((if shift = 32 then DSLL32 else DSLL ||| SH_IMM shift) ||| TA dst ||| DA dst) :: lowest dst imm)
  else
    (skip 0xf000000000000000#64 4 17 (u <<< 32) 0).bind fun p =>
      let (u, z) := step 0x8000000000000000#64 1 (step 0xc000000000000000#64 2 p)
      let shift2 : Int := shift - 16 - z
      if u &&& 0x8000000000000000#64 ≠ 0#64 ∧ shift2 > 0 ∧ shift2 ≤ 16 then
        some ([DSLL ||| TA dst ||| DA dst ||| SH_IMM (shift - shift2.toNat), ORI ||| SA dst ||| TA dst ||| IMM (u >>> 48),
          DSLL ||| TA dst ||| DA dst ||| SH_IMM shift2.toNat] ++ lowest dst (imm &&& BitVec.ofNat 64 (2 ^ shift2.toNat - 1)))
      else none

/-- load_immediate, sljitNativeMIPS_64.c:46-142: the instruction words.  `none` is a failed assertion or an endless loop. -/
def loadImmediate (dst : BitVec 5) (imm : BitVec 64) : Option (List (BitVec 32)) :=
  if imm &&& ~~~ 0xffff#64 = 0#64 then some [ORI ||| SA 0#5 ||| TA dst ||| IMM imm]
  else if imm.slt 0#64 ∧ (-0x8000#64).sle imm then some [ADDIU ||| SA 0#5 ||| TA dst ||| IMM imm]
  else if imm.sle 0x7fffffff#64 ∧ (-0x80000000#64).sle imm then
    some ((LUI ||| TA dst ||| IMM (imm.sshiftRight 16)) :: (if imm &&& 0xffff#64 ≠ 0#64 then [ORI ||| SA dst ||| TA dst ||| IMM imm] else []))
  else
    let inv := imm.slt 0#64
    (skip 0xff00000000000000#64 8 9 (if inv then ~~~ imm else imm) 0).bind fun p =>
      let (u, t) := step 0xc000000000000000#64 2 (step 0xf000000000000000#64 4 p)
      let (u, shift) : BitVec 64 × Int := if u.slt 0#64 then (u >>> 1, 32 - t + 1) else (u, 32 - t)
      if u &&& 0xc000000000000000#64 = 0x4000000000000000#64 ∧ shift > 0 ∧ shift ≤ 32 then
        let u := if inv then ~~~ u else u
        (loadRest dst u imm shift.toNat).map (upper dst u ++ ·)
      else none

end Verif.Imm.Mips
