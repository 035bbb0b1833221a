/-!
# push_load_imm_inst of S390X

`Z` is the architecture side: the instructions which load constants, as the z/Architecture Principles of Operation describes them.
`S390x` is the model of sljitNativeS390X.c.
-/

namespace Verif.Imm.Z

/-- Instructions. -/
inductive Inst where
  /-- LGHI: load halfword immediate. -/
  | lghi (r : BitVec 4) (i : BitVec 16)
  /-- LLIHH, LLIHL, LLILH, LLILL: halfword `n` (3 is the highest) is the immediate, the others are zero. -/
  | lli (r : BitVec 4) (n : Nat) (i : BitVec 16)
  /-- LGFI: load immediate. -/
  | lgfi (r : BitVec 4) (i : BitVec 32)
  /-- LLIHF, LLILF: one word is the immediate, the other is zero. -/
  | llihf (r : BitVec 4) (i : BitVec 32)
  | llilf (r : BitVec 4) (i : BitVec 32)
  /-- IIHF: insert the immediate into the high word. -/
  | iihf (r : BitVec 4) (i : BitVec 32)
  deriving DecidableEq, Repr

/-- The decoder.  The two highest bits of the first halfword are the length: 01 and 10 are four bytes, 11 is six bytes.  The result
has the rest of the code. -/
def decode : List (BitVec 16) → Option (Inst × List (BitVec 16))
  | h0 :: h1 :: rest =>
    let op : BitVec 8 := h0.extractLsb' 8 8
    let r : BitVec 4 := h0.extractLsb' 4 4
    let op2 : BitVec 4 := h0.extractLsb' 0 4
    if op = 0xa7#8 ∧ op2 = 9#4 then some (.lghi r h1, rest)
    else if op = 0xa5#8 ∧ 12 ≤ op2.toNat then some (.lli r (15 - op2.toNat) h1, rest)
    else if op = 0xc0#8 then
      match rest with
      | h2 :: rest =>
        let i : BitVec 32 := h1.setWidth 32 <<< 16 ||| h2.setWidth 32
        if op2 = 1#4 then some (.lgfi r i, rest)
        else if op2 = 8#4 then some (.iihf r i, rest)
        else if op2 = 14#4 then some (.llihf r i, rest)
        else if op2 = 15#4 then some (.llilf r i, rest)
        else none
      | [] => none
    else none
  | _ => none

/-- The general registers r0-r15. -/
abbrev Regs := BitVec 4 → BitVec 64

/-- Writing a register. -/
def put (x : Regs) (r : BitVec 4) (v : BitVec 64) : Regs := fun q => if q = r then v else x q

/-- Execution. -/
def exec : Inst → Regs → Regs
  | .lghi r i, x => put x r (i.signExtend 64)
  | .lli r n i, x => put x r (i.setWidth 64 <<< (16 * n))
  | .lgfi r i, x => put x r (i.signExtend 64)
  | .llihf r i, x => put x r (i.setWidth 64 <<< 32)
  | .llilf r i, x => put x r (i.setWidth 64)
  | .iihf r i, x => put x r ((i.setWidth 64 <<< 32) ||| (x r &&& 0xffffffff#64))

/-- Execution of at most `fuel` instructions up to the end of the code. -/
def run : Nat → List (BitVec 16) → Regs → Option Regs
  | _, [], x => some x
  | 0, _ :: _, _ => none
  | n + 1, c, x => (decode c).bind fun (i, rest) => run n rest (exec i x)

end Verif.Imm.Z

namespace Verif.Imm.S390x

/-- R20A, R36A, sljitNativeS390X.c:113-116.  `r` is a machine register (sljit_gpr). -/
def R20A (r : BitVec 4) : BitVec 64 := r.setWidth 64 <<< 20
@[inherit_doc R20A] def R36A (r : BitVec 4) : BitVec 64 := r.setWidth 64 <<< 36
/-- SLJIT_S390X_RIA, sljitNativeS390X.c:522-526. -/
def ria (pattern : BitVec 64) (r : BitVec 4) (imm : BitVec 16) : BitVec 64 := pattern ||| R20A r ||| (imm.setWidth 64 &&& 0xffff#64)
/-- SLJIT_S390X_RILA, sljitNativeS390X.c:551-556. -/
def rila (pattern : BitVec 64) (r : BitVec 4) (imm : BitVec 32) : BitVec 64 := pattern ||| R36A r ||| (imm.signExtend 64 &&& 0xffffffff#64)
/-- sljitNativeS390X.c:533-539. -/
def lghi := ria 0xa7090000#64
@[inherit_doc lghi] def llihh := ria 0xa50c0000#64
@[inherit_doc lghi] def llihl := ria 0xa50d0000#64
@[inherit_doc lghi] def llilh := ria 0xa50e0000#64
@[inherit_doc lghi] def llill := ria 0xa50f0000#64
/-- sljitNativeS390X.c:571-579. -/
def iihf := rila 0xc00800000000#64
@[inherit_doc iihf] def lgfi := rila 0xc00100000000#64
@[inherit_doc iihf] def llihf := rila 0xc00e00000000#64
@[inherit_doc iihf] def llilf := rila 0xc00f00000000#64

/-- The halfwords of an instruction, sljit_generate_code, sljitNativeS390X.c:1582-1593. -/
def halves (ins : BitVec 64) : List (BitVec 16) :=
  (if ins &&& 0xffff00000000#64 ≠ 0#64 then [(ins >>> 32).setWidth 16] else []) ++
  (if ins &&& 0xffffffff0000#64 ≠ 0#64 then [(ins >>> 16).setWidth 16] else []) ++ [ins.setWidth 16]

/-- push_load_imm_inst, sljitNativeS390X.c:844-873: the instructions. -/
def pushLoadImm (r : BitVec 4) (v : BitVec 64) : List (BitVec 64) :=
  if v.sle 0x7fff#64 ∧ (-0x8000#64).sle v then [lghi r (v.setWidth 16)]
  else if v &&& ~~~ 0x000000000000ffff#64 = 0#64 then [llill r (v.setWidth 16)]
  else if v &&& ~~~ 0x00000000ffff0000#64 = 0#64 then [llilh r ((v.sshiftRight 16).setWidth 16)]
  else if v &&& ~~~ 0x0000ffff00000000#64 = 0#64 then [llihl r ((v.sshiftRight 32).setWidth 16)]
  else if v &&& ~~~ 0xffff000000000000#64 = 0#64 then [llihh r ((v.sshiftRight 48).setWidth 16)]
  else if v = (v.setWidth 32).signExtend 64 then [lgfi r (v.setWidth 32)]
  else if v >>> 32 = 0#64 then [llilf r (v.setWidth 32)]
  else if v <<< 32 = 0#64 then [llihf r ((v >>> 32).setWidth 32)]
  else [llilf r (v.setWidth 32), iihf r ((v.sshiftRight 32).setWidth 32)]

end Verif.Imm.S390x
