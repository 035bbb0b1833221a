import Verif.A64.Ops

/-!
# Code generation on ARM64 (model of sljitNativeARM_64.c:201-605, without SLJIT_ASSERT)

The input is what the emitters left behind: the buffer with the label, jump and constant records.  Simplifications: the records are
attached to the words they refer to, in emission order (`Item`); a jump is one item together with the conditional branch in front of it
(sljitNativeARM_64.c:2461-2473, 2517-2527).  The merge of labels, jumps and constants by address differs from the emission order in one case,
which is modelled: a label which directly follows a conditional jump of size zero is processed before it.  Positions are counted in words
from `code`.  A store outside the allocated buffer is the outcome `none`.  Overflow of the signed differences wraps.
-/

namespace Verif.A64
open Verif.Imm.Arm64 (regMap RD RN W_OP MOVK MOVZ)

/-- Target of a jump record: `u.label` (index of the label record) or `u.target` (JUMP_ADDR). -/
inductive Tgt | label (n : Nat) | addr (a : BitVec 64) deriving DecidableEq, Repr

/-- Instruction words, sljitNativeARM_64.c:74-145. -/
def ADR : BitVec 32 := 0x10000000#32
@[inherit_doc ADR] def ADRP : BitVec 32 := 0x90000000#32
@[inherit_doc ADR] def B : BitVec 32 := 0x14000000#32
@[inherit_doc ADR] def B_CC : BitVec 32 := 0x54000000#32
@[inherit_doc ADR] def BL : BitVec 32 := 0x94000000#32
@[inherit_doc ADR] def BLR : BitVec 32 := 0xd63f0000#32
@[inherit_doc ADR] def BR : BitVec 32 := 0xd61f0000#32
@[inherit_doc ADR] def CBZ : BitVec 32 := 0xb4000000#32
@[inherit_doc ADR] def NOP : BitVec 32 := 0xd503201f#32

/-- The conditional branch in front of a jump, which skips it: on a condition (sljit_emit_jump) or on a register (emit_cmp_to0; `w32` is
SLJIT_32, `eq` is SLJIT_EQUAL). -/
inductive Skip | cc (c : BitVec 4) | cbz (w32 eq : Bool) (reg : Nat) deriving DecidableEq, Repr

/-- The word of the conditional branch (sljitNativeARM_64.c:2463, 2497, 2518-2521). -/
def Skip.word : Skip → BitVec 32
  | .cc c => B_CC ||| (6#32 <<< 5) ||| c.setWidth 32
  | .cbz w32 eq reg => (CBZ ^^^ ((if w32 then W_OP else 0#32) ||| (if eq then 1#32 <<< 24 else 0#32))) ||| (6#32 <<< 5) ||| RT reg

/-- What inverts it (sljitNativeARM_64.c:235; IS_CBZ). -/
def Skip.flip : Skip → BitVec 32
  | .cc _ => 1#32
  | .cbz .. => 1#32 <<< 24

/-- A jump record: the conditional branch (IS_COND), IS_BL, SLJIT_REWRITABLE_JUMP, target. -/
structure JInfo where
  skip : Option Skip
  call : Bool
  rew : Bool
  tgt : Tgt
  deriving DecidableEq, Repr

/-- What the emitters produce: instruction words, a label (sljit_emit_label), an aligned label `2 ^ al` (an extended label of
sljit_emit_aligned_label with its NOPs), a rewritable constant (its record is at its first word), a jump, and a move address (the word with
the register number which sljit_emit_op_addr pushes). -/
inductive Item
  | code (ws : List (BitVec 32))
  | label
  | alabel (al : Nat)
  | const (ws : List (BitVec 32))
  | jump (j : JInfo)
  | mov (reg : Nat) (t : Tgt)
  deriving DecidableEq, Repr

/-- `mask >> 2` (sljitNativeARM_64.c:2416-2418). -/
def nops (al : Nat) : Nat := 2 ^ (al - 2) - 1

/-- Number of words in front of the jump record. -/
def JInfo.pre (j : JInfo) : Nat := if j.skip.isSome then 1 else 0

/-- By how much an item advances `compiler->size` (JUMP_MAX_SIZE is 5, sljitLir.c:238). -/
def Item.size : Item → Nat
  | .code ws => ws.length
  | .label => 0
  | .alabel al => nops al
  | .const ws => ws.length
  | .jump j => j.pre + 5
  | .mov .. => 4

/-- `compiler->size` after emitting the items. -/
def usize : List Item → Nat
  | [] => 0
  | i :: is => i.size + usize is

/-- The `size` fields of the label records (set_label, sljitLir.c:859-871), `pos` being the current size. -/
def labelSizes (pos : Nat) : List Item → List Nat
  | [] => []
  | .label :: is => pos :: labelSizes pos is
  | .alabel al :: is => (pos + nops al) :: labelSizes (pos + nops al) is
  | i :: is => labelSizes (pos + i.size) is

/-- `size` field of the label a jump refers to. -/
def tgtSize (labels : List Nat) : Tgt → Nat
  | .label n => labels.getD n 0
  | .addr _ => 0

/-! ## reduce_code_size -/

/-- `diff` (sljitNativeARM_64.c:441-445, 465-469). -/
def estDiff (addr lsize sr : Nat) : Int :=
  let diff : Int := lsize - addr
  if lsize > addr then diff - sr else diff

/-- `total_size` of a jump (sljitNativeARM_64.c:429-454); `addr` is the reduced address of the record. -/
def jumpTotal (j : JInfo) (addr lsize sr : Nat) : Nat :=
  if j.rew then 5
  else match j.tgt with
    | .addr t => if t.toNat < 0x100000000 then 3 else if t.toNat < 0x1000000000000 then 4 else 5
    | .label _ =>
      let diff := estDiff addr lsize sr
      if j.skip.isSome ∧ diff + 1 ≤ 0xfffff / 4 ∧ -(0x100000 / 4) ≤ diff + 1 then 0
      else if diff ≤ 0x7ffffff / 4 ∧ -(0x8000000 / 4) ≤ diff then 1
      else if diff ≤ 0xfffff000 / 4 ∧ -(0x100000000 / 4) ≤ diff then 3
      else 5

/-- `total_size` of a move address, the size minus 1 (sljitNativeARM_64.c:459-480). -/
def movTotal (t : Tgt) (addr lsize sr : Nat) : Nat :=
  match t with
  | .label _ =>
    let diff := estDiff addr lsize sr
    if diff ≤ 0xfffff / 4 ∧ -(0x100000 / 4) ≤ diff then 0
    else if diff ≤ 0xfffff000 / 4 ∧ -(0x100000000 / 4) ≤ diff then 1
    else 3
  | .addr t => if t.toNat < 0x100000000 then 1 else if t.toNat < 0x1000000000000 then 2 else 3

/-- An item after reduce_code_size: jump records get a reduced `addr` and the size in the flags (JUMP_SIZE_SHIFT). -/
inductive RItem
  | code (ws : List (BitVec 32))
  | label
  | alabel (al : Nat)
  | const (ws : List (BitVec 32))
  | jump (j : JInfo) (addr total : Nat)
  | mov (reg : Nat) (t : Tgt) (addr total : Nat)
  deriving DecidableEq, Repr

/-- reduce_code_size (sljitNativeARM_64.c:394-489).  `pos` is the unreduced position of the next item, `li` the number of
labels passed, `sr` is `size_reduce`, `labels` are the `size` fields.  Result: the items, the label sizes and the final `size_reduce`. -/
def reduce : List Item → (pos li sr : Nat) → List Nat → List RItem × List Nat × Nat
  | [], _, _, sr, labels => ([], labels, sr)
  | .code ws :: is, pos, li, sr, labels =>
    let r := reduce is (pos + ws.length) li sr labels
    (.code ws :: r.1, r.2)
  | .label :: is, pos, li, sr, labels =>
    let r := reduce is pos (li + 1) sr (labels.set li (labels.getD li 0 - sr))
    (.label :: r.1, r.2)
  | .alabel al :: is, pos, li, sr, labels =>
    let r := reduce is (pos + nops al) (li + 1) sr (labels.set li (labels.getD li 0 - sr))
    (.alabel al :: r.1, r.2)
  | .const ws :: is, pos, li, sr, labels =>
    let r := reduce is (pos + ws.length) li sr labels
    (.const ws :: r.1, r.2)
  | .jump j :: is, pos, li, sr, labels =>
    let addr := pos + j.pre - sr
    let total := jumpTotal j addr (tgtSize labels j.tgt) sr
    let r := reduce is (pos + j.pre + 5) li (sr + (5 - total)) labels
    (.jump j addr total :: r.1, r.2)
  | .mov reg t :: is, pos, li, sr, labels =>
    let addr := pos - sr
    let total := movTotal t addr (tgtSize labels t) sr
    let r := reduce is (pos + 4) li (sr + (3 - total)) labels
    (.mov reg t addr total :: r.1, r.2)

/-! ## The generating loop -/

/-- The fixed values of one code generation: `code`, `executable_offset` and the number of allocated words. -/
structure Env where
  base : BitVec 64
  off : BitVec 64
  n : Nat

/-- Executable address of a position. -/
def Env.exec (e : Env) (i : Nat) : BitVec 64 := e.base + BitVec.ofNat 64 (4 * i) + e.off

/-- The flags PATCH_COND, PATCH_B, PATCH_B32, PATCH_ABS48, PATCH_ABS64, or none of them (`abs32`). -/
inductive Patch | cond | b | abs32 | b32 | abs48 | abs64 deriving DecidableEq, Repr

/-- Storing words at `code_ptr` (the end of `out`). -/
def emitW (e : Env) (out ws : List (BitVec 32)) : Option (List (BitVec 32)) := if out.length + ws.length ≤ e.n then some (out ++ ws) else none

/-- `target_addr` of detect_jump_type and `addr` of mov_addr_get_length (sljitNativeARM_64.c:221-225, 288-291). -/
def targetAddr (e : Env) (t : Tgt) (lsize : Nat) : BitVec 64 :=
  match t with
  | .label _ => e.exec lsize
  | .addr a => a

/-- `diff` (sljitNativeARM_64.c:227-231, 293-297); `cp` is the position of code_ptr, `addr` the reduced address of the record. -/
def targetDiff (e : Env) (t : Tgt) (cp addr lsize : Nat) : BitVec 64 :=
  targetAddr e t lsize - e.exec (match t with | .label _ => if lsize > addr then addr else cp | .addr _ => cp)

/-- detect_jump_type (sljitNativeARM_64.c:209-278): the patch flag. -/
def detectJump (e : Env) (j : JInfo) (cp addr lsize : Nat) : Patch :=
  let target := targetAddr e j.tgt lsize
  let d := targetDiff e j.tgt cp addr lsize
  if j.rew then .abs64
  else if j.skip.isSome ∧ (d + 4#64).toInt ≤ 0xfffff ∧ -0x100000 ≤ (d + 4#64).toInt then .cond
  else if d.toInt ≤ 0x7ffffff ∧ -0x8000000 ≤ d.toInt then .b
  else if target.toNat < 0x100000000 then .abs32
  else if d.toInt ≤ 0xfffff000 ∧ -0x100000000 ≤ d.toInt then .b32
  else if target.toNat < 0x1000000000000 then .abs48
  else .abs64

/-- The last word of a jump (sljitNativeARM_64.c:2469, 2523, 2555). -/
def JInfo.br (j : JInfo) : BitVec 32 := (if j.call then BLR else BR) ||| RN TMP_REG2

/-- The conditional branch with `f` applied to it. -/
def JInfo.skipW (j : JInfo) (f : Skip → BitVec 32) : List (BitVec 32) :=
  match j.skip with
  | some k => [f k]
  | none => []

/-- The words of a jump after detect_jump_type (sljitNativeARM_64.c:209-278), from the conditional branch to the new code_ptr.  Words which are
still to be written are 0. -/
def jumpWords (j : JInfo) : Patch → List (BitVec 32)
  | .cond => j.skipW fun k => k.word ^^^ k.flip
  | .b => j.skipW (fun k => k.word - (4#32 <<< 5)) ++ [j.br]
  | .abs32 | .b32 => j.skipW (fun k => k.word - (2#32 <<< 5)) ++ [j.br, 0#32, j.br]
  | .abs48 => j.skipW (fun k => k.word - (1#32 <<< 5)) ++ [j.br, 0#32, 0#32, j.br]
  | .abs64 => j.skipW (fun k => k.word) ++ [j.br, 0#32, 0#32, 0#32, j.br]

/-- mov_addr_get_length (sljitNativeARM_64.c:280-324): the patch flag. -/
def detectMov (e : Env) (t : Tgt) (cp addr lsize : Nat) : Patch :=
  let a := targetAddr e t lsize
  let d := targetDiff e t cp addr lsize
  if d.toInt ≤ 0xfffff ∧ -0x100000 ≤ d.toInt then .b
  else if d.toInt ≤ 0xfffff000 ∧ -0x100000000 ≤ d.toInt then .b32
  else if a.toNat < 0x100000000 then .abs32
  else if a.toNat < 0x1000000000000 then .abs48
  else .abs64

/-- The value it returns. -/
def movLen : Patch → Nat
  | .cond | .b => 0
  | .abs32 | .b32 => 1
  | .abs48 => 2
  | .abs64 => 3

/-- A jump record after the loop: whether it is a move address, IS_BL, its target, the patch flag and `jump->addr`. -/
structure Pending where
  mov : Bool
  call : Bool
  tgt : Tgt
  patch : Patch
  addr : Nat
  deriving DecidableEq, Repr

/-- State of the generating loop.  `out` are the words from `code` to `code_ptr`, `laddr` the `u.addr` fields of the labels. -/
structure GSt where
  out : List (BitVec 32)
  labels : List Nat
  li : Nat
  laddr : List (BitVec 64)
  caddr : List (BitVec 64)
  pend : List Pending

/-- Processing a label record with code_ptr at `cp` (sljitNativeARM_64.c:543-546, 582-584). -/
def GSt.setLabel (s : GSt) (e : Env) (cp : Nat) : GSt :=
  { s with labels := s.labels.set s.li cp, li := s.li + 1, laddr := s.laddr ++ [e.exec cp] }

/-- process_extended_label (sljitNativeARM_64.c:388-392): the new position of code_ptr. -/
def alignDown (e : Env) (cp al : Nat) : Nat :=
  ((((e.base + BitVec.ofNat 64 (4 * cp)) &&& ~~~(BitVec.ofNat 64 (2 ^ al - 4))) - e.base).toNat) / 4

/-- The next item is a label (not an aligned one). -/
def RItem.isLabel : List RItem → Bool
  | .label :: _ => true
  | _ => false

/-- There are words in the buffer after the current position. -/
def RItem.more : List RItem → Bool
  | [] => false
  | .label :: is => RItem.more is
  | _ :: _ => true

/-- The loop of sljit_generate_code (sljitNativeARM_64.c:529-577) and the label after it (:579-585).  Every word is copied to code_ptr before
its records are processed: the word after the NOPs of an aligned label at its old position, and the last word of a jump.  `done`: the next
label has been processed together with the jump in front of it. -/
def genLoop (e : Env) : List RItem → (done : Bool) → GSt → Option GSt
  | [], _, s => some s
  | .code ws :: is, _, s => (emitW e s.out ws).bind fun out => genLoop e is false { s with out := out }
  | .label :: is, done, s => genLoop e is false (if done then s else s.setLabel e s.out.length)
  | .alabel al :: is, _, s =>
    (emitW e s.out (List.replicate (nops al) NOP)).bind fun out =>
    if RItem.more is = true ∧ e.n ≤ out.length then none
    else
      let cp := alignDown e out.length al
      genLoop e is false (GSt.setLabel { s with out := out.take cp } e cp)
  | .const ws :: is, _, s =>
    (emitW e s.out ws).bind fun out => genLoop e is false { s with out := out, caddr := s.caddr ++ [e.base + BitVec.ofNat 64 (4 * s.out.length)] }
  | .jump j addr total :: is, _, s =>
    let cp := s.out.length + j.pre
    (emitW e s.out (j.skipW Skip.word ++ [j.br])).bind fun _ =>
    let first := decide (total = 0) && RItem.isLabel is
    let s := if first then s.setLabel e cp else s
    let k := detectJump e j cp addr (tgtSize s.labels j.tgt)
    (emitW e s.out (jumpWords j k)).bind fun out =>
    genLoop e is first { s with out := out, pend := s.pend ++ [⟨false, j.call, j.tgt, k, if k = .cond then cp - 1 else cp⟩] }
  | .mov reg t addr _ :: is, _, s =>
    let cp := s.out.length
    (emitW e s.out [RD reg]).bind fun out =>
    let k := detectMov e t cp addr (tgtSize s.labels t)
    (emitW e out (List.replicate (movLen k) 0#32)).bind fun out =>
    genLoop e is false { s with out := out, pend := s.pend ++ [⟨true, false, t, k, cp⟩] }

/-! ## The final pass -/

/-- `(flags & JUMP_ADDR) ? jump->u.target : jump->u.label->u.addr`. -/
def tgtAddr (laddr : List (BitVec 64)) : Tgt → BitVec 64
  | .label n => laddr.getD n 0#64
  | .addr a => a

/-- A store into the code. -/
def store (out : List (BitVec 32)) (at' : Nat) (ws : List (BitVec 32)) : Option (List (BitVec 32)) :=
  if at' + ws.length ≤ out.length then some (out.take at' ++ ws ++ out.drop (at' + ws.length)) else none

/-- The end of generate_jump_or_mov_addr (sljitNativeARM_64.c:377-385): MOVZ and up to three MOVK. -/
def movzk (dst : BitVec 32) (addr : BitVec 64) (n : Nat) : List (BitVec 32) :=
  [MOVZ ||| ((addr.setWidth 32 &&& 0xffff#32) <<< 5) ||| dst,
    MOVK ||| (((addr.sshiftRight 16).setWidth 32 &&& 0xffff#32) <<< 5) ||| (1#32 <<< 21) ||| dst] ++
  (if 3 ≤ n then [MOVK ||| (((addr.sshiftRight 32).setWidth 32 &&& 0xffff#32) <<< 5) ||| (2#32 <<< 21) ||| dst] else []) ++
  (if 4 ≤ n then [MOVK ||| ((addr >>> 48).setWidth 32 <<< 5) ||| (3#32 <<< 21) ||| dst] else [])

/-- PATCH_B32 (sljitNativeARM_64.c:352-356, 368-372): ADRP and ADD. -/
def adrpAdd (dst : BitVec 32) (d : BitVec 64) : List (BitVec 32) :=
  [ADRP ||| (((d.sshiftRight 12).setWidth 32 &&& 3#32) <<< 29) ||| (((d.sshiftRight 14).setWidth 32 &&& 0x7ffff#32) <<< 5) ||| dst,
    ADDI ||| dst ||| (dst <<< 5) ||| ((d &&& 0xfff#64).setWidth 32 <<< 10)]

/-- Number of words of the last case. -/
def absN : Patch → Nat
  | .abs48 => 3
  | .abs64 => 4
  | _ => 2

/-- generate_jump_or_mov_addr (sljitNativeARM_64.c:326-386). -/
def patchOne (e : Env) (laddr : List (BitVec 64)) (out : List (BitVec 32)) (p : Pending) : Option (List (BitVec 32)) :=
  let addr := tgtAddr laddr p.tgt
  let w := out.getD p.addr 0#32
  let here := e.exec p.addr
  if p.mov = false then
    let dst := (w >>> 5) &&& 0x1f#32
    match p.patch with
    | .cond => store out p.addr [(w &&& ~~~0xffffe0#32) ||| ((((addr - here).sshiftRight 2) &&& 0x7ffff#64) <<< 5).setWidth 32]
    | .b => store out p.addr [(if p.call then BL else B) ||| (((addr - here).sshiftRight 2) &&& 0x3ffffff#64).setWidth 32]
    | .b32 => store out p.addr (adrpAdd dst (addr - (here &&& ~~~0xfff#64)))
    | k => store out p.addr (movzk dst addr (absN k))
  else
    match p.patch with
    | .b =>
      let d := addr - here
      store out p.addr [ADR ||| ((d.setWidth 32 &&& 3#32) <<< 29) ||| (((d.sshiftRight 2).setWidth 32 &&& 0x7ffff#32) <<< 5) ||| w]
    | .b32 => store out p.addr (adrpAdd w (addr - (here &&& ~~~0xfff#64)))
    | k => store out p.addr (movzk w addr (absN k))

def patchAll (e : Env) (laddr : List (BitVec 64)) : List Pending → List (BitVec 32) → Option (List (BitVec 32))
  | [], out => some out
  | p :: ps, out => (patchOne e laddr out p).bind fun out => patchAll e laddr ps out

/-- The result of sljit_generate_code. -/
structure GenResult where
  code : List (BitVec 32)
  laddr : List (BitVec 64)
  caddr : List (BitVec 64)
  /-- `jump->addr` of the records, as positions (what sljit_get_jump_addr returns, relative to `code`). -/
  jaddr : List Nat
  /-- The number of words passed to the allocator. -/
  alloc : Nat
  deriving DecidableEq, Repr

/-- sljit_generate_code (sljitNativeARM_64.c:491-605) with `compiler->size` words at `base` whose executable mapping is `off`
bytes away; `none` is a store outside of it.  The loop copies at least one word, so a program without code is such a case.
`compiler->executable_size` is four times the length of `code`. -/
def generate (items : List Item) (base off : BitVec 64) : Option GenResult :=
  if usize items = 0 then none
  else
    let r := reduce items 0 0 0 (labelSizes 0 items)
    let e : Env := ⟨base, off, usize items - r.2.2⟩
    (genLoop e r.1 false ⟨[], r.2.1, 0, [], [], []⟩).bind fun s =>
    (patchAll e s.laddr s.pend s.out).bind fun out =>
    some ⟨out, s.laddr, s.caddr, s.pend.map (·.addr), e.n⟩

/-- The first four words of sljit_set_jump_addr (sljitNativeARM_64.c:3674-3679), `w` being the word at the address. -/
def setJumpAddr (w : BitVec 32) (t : BitVec 64) : List (BitVec 32) :=
  let dst := w &&& 0x1f#32
  [MOVZ ||| dst ||| ((t.setWidth 32 &&& 0xffff#32) <<< 5),
    MOVK ||| dst ||| (((t >>> 16).setWidth 32 &&& 0xffff#32) <<< 5) ||| (1#32 <<< 21),
    MOVK ||| dst ||| (((t >>> 32).setWidth 32 &&& 0xffff#32) <<< 5) ||| (2#32 <<< 21),
    MOVK ||| dst ||| ((t >>> 48).setWidth 32 <<< 5) ||| (3#32 <<< 21)]

end Verif.A64
