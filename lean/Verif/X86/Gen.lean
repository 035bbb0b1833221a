import Verif.X86.Emit

/-!
# Code generation (model of sljitNativeX86_common.c:601-1026 and sljitNativeX86_64.c:361-449, SLJIT_CONFIG_X86_64)

The input is what the emitters left behind: the buffer with its tags and the label, jump and constant records.
Simplifications: the records are attached to their tags, in emission order (`Item`); a move address is one item together with
the 10 bytes which sljit_emit_op_addr emits in front of its tag.  The merge of labels and jumps by address in reduce_code_size
differs from the emission order in one case, which is modelled: a label which directly follows a move address.
Positions are counted in bytes from `code`.  A store outside the allocated buffer is the outcome `none`.
-/

namespace Verif.X86

/-- Target of a jump record: `u.label` (index of the label record) or `u.target` (JUMP_ADDR). -/
inductive Tgt | label (n : Nat) | addr (a : BitVec 64) deriving DecidableEq, Repr

/-- get_jump_code (sljitNativeX86_common.c:601-669), on the numbers of sljitLir.h:1720-1807. -/
def getJumpCode (type : Nat) : Byte :=
  match type with
  | 0 | 14 | 16 | 30 => 0x84#8
  | 1 | 15 | 17 | 31 => 0x85#8
  | 2 | 12 | 18 | 32 | 34 => 0x82#8
  | 3 | 13 | 19 | 33 | 35 => 0x83#8
  | 4 | 20 | 26 | 28 => 0x87#8
  | 5 | 21 | 27 | 29 => 0x86#8
  | 6 => 0x8c#8
  | 7 => 0x8d#8
  | 8 => 0x8f#8
  | 9 => 0x8e#8
  | 10 => 0x80#8
  | 11 => 0x81#8
  | 22 | 24 => 0x8a#8
  | 23 | 25 => 0x8b#8
  | _ => 0#8

/-- SLJIT_JUMP (sljitLir.h:1811); the calls are above it. -/
notation "JUMP" => (36 : Nat)

/-- A jump record: type, SLJIT_REWRITABLE_JUMP, target. -/
structure JInfo where
  type : Nat
  rew : Bool
  tgt : Tgt
  deriving DecidableEq, Repr

/-- What the emitters produce: instruction bytes, a label (sljit_emit_label), an aligned label `2 ^ al` (an extended label of
sljit_emit_aligned_label), a rewritable constant (its instruction and the tag after it), a jump, and a move address
(sljit_emit_op_addr: the bytes of emit_load_imm64 and the tag). -/
inductive Item
  | bytes (bs : List Byte)
  | label
  | alabel (al : Nat)
  | const (bs : List Byte)
  | jump (j : JInfo)
  | mov (reg : Nat) (t : Tgt)
  deriving DecidableEq, Repr

/-- `mask` (sljitNativeX86_common.c:3481). -/
def alMask (al : Nat) : Nat := 2 ^ al - 1

/-- JUMP_MAX_SIZE, CJUMP_MAX_SIZE (sljitLir.c:176-177), chosen as in sljitNativeX86_common.c:3551, :3578, :840. -/
def maxSize (type : Nat) : Nat := if JUMP ≤ type then 10 + 3 else 2 + 10 + 3

/-- By how much an item advances `compiler->size`. -/
def Item.size : Item → Nat
  | .bytes bs => bs.length
  | .label => 0
  | .alabel al => alMask al
  | .const bs => bs.length
  | .jump j => maxSize j.type
  | .mov .. => 10

/-- `compiler->size` after emitting the items. -/
def usize : List Item → Nat
  | [] => 0
  | i :: is => i.size + usize is

/-- The `size` fields of the label records (set_label, sljitLir.c:859-871; for an aligned label after adding the mask,
sljitNativeX86_common.c:3482-3489), `pos` being the current size. -/
def labelSizes (pos : Nat) : List Item → List Nat
  | [] => []
  | .label :: is => pos :: labelSizes pos is
  | .alabel al :: is => (pos + alMask al) :: labelSizes (pos + alMask al) is
  | i :: is => labelSizes (pos + i.size) is

/-- `size` field of the label a jump refers to. -/
def tgtSize (labels : List Nat) : Tgt → Nat
  | .label n => labels.getD n 0
  | .addr _ => 0

/-! ## reduce_code_size -/

/-- `size_reduce` of a jump to a label which is `diff` bytes away (sljitNativeX86_common.c:858-873). -/
def labelCut (type : Nat) (diff : Int) : Nat :=
  if type = JUMP then
    if diff ≤ 0x7f + 2 ∧ -0x80 + 2 ≤ diff then 13 - 2 else if diff ≤ 0x7fffffff + 5 ∧ -0x80000000 + 5 ≤ diff then 13 - 5 else 0
  else if type < JUMP then
    if diff ≤ 0x7f + 2 ∧ -0x80 + 2 ≤ diff then 15 - 2 else if diff ≤ 0x7fffffff + 6 ∧ -0x80000000 + 6 ≤ diff then 15 - 6 else 0
  else if diff ≤ 0x7fffffff + 5 ∧ -0x80000000 + 5 ≤ diff then 13 - 5 else 0

/-- `diff` (sljitNativeX86_common.c:851-855). -/
def estDiff (addr lsize sr : Nat) : Int :=
  let diff : Int := lsize - addr
  if lsize > addr then diff - sr else diff

/-- `size_reduce` of a jump (sljitNativeX86_common.c:843-884); `addr` is the reduced address of the jump. -/
def jumpCut (j : JInfo) (addr lsize sr : Nat) : Nat :=
  if j.rew then 0
  else match j.tgt with
    | .addr t => if t.toNat ≤ 0xffffffff then 4 else 0
    | .label _ => labelCut j.type (estDiff addr lsize sr)

/-- `size_reduce` of a move address (sljitNativeX86_common.c:895-901); `addr` is the reduced address of its end, `hi` is
MOV_ADDR_HI (sljitNativeX86_common.c:5243). -/
def movCut (hi : Bool) (t : Tgt) (addr lsize : Nat) : Nat :=
  match t with
  | .label _ =>
    let diff : Int := lsize - ((addr : Int) - 3)
    if diff ≤ 0x7fffffff ∧ -0x80000000 ≤ diff then 3 else 0
  | .addr t => if t.toNat ≤ 0xffffffff then (if hi then 4 else 5) else 0

/-- MOV_ADDR_HI: the register number needs REX.B. -/
def movHi (win : Bool) (reg : Nat) : Bool := decide (8#8 ≤ regMap win reg)

/-- An item after reduce_code_size: jump records get a reduced `addr`. -/
inductive RItem
  | bytes (bs : List Byte)
  | label
  | alabel (al : Nat)
  | const (bs : List Byte)
  | jump (j : JInfo) (addr : Nat)
  | mov (reg : Nat) (t : Tgt)
  deriving DecidableEq, Repr

def Item.isLabel : List Item → Bool
  | .label :: _ => true
  | _ => false

/-- reduce_code_size (sljitNativeX86_common.c:799-913).  `pos` is the unreduced position of the next item, `li` the number of
labels passed, `sr` is `size_reduce`, `labels` are the `size` fields.  A label with the same address as the jump record of the
move address in front of it is reduced first (`next_min_addr == next_label_size` is tested first): `done` tells that the next label
has been processed.  Result: the items, the label sizes and the final `size_reduce`. -/
def reduce (win : Bool) : List Item → (pos li sr : Nat) → (done : Bool) → List Nat → List RItem × List Nat × Nat
  | [], _, _, sr, _, labels => ([], labels, sr)
  | .bytes bs :: is, pos, li, sr, _, labels =>
    let r := reduce win is (pos + bs.length) li sr false labels
    (.bytes bs :: r.1, r.2)
  | .label :: is, pos, li, sr, done, labels =>
    let r := reduce win is pos (li + 1) sr false (if done then labels else labels.set li (labels.getD li 0 - sr))
    (.label :: r.1, r.2)
  | .alabel al :: is, pos, li, sr, _, labels =>
    let r := reduce win is (pos + alMask al) (li + 1) sr false (labels.set li (labels.getD li 0 - sr))
    (.alabel al :: r.1, r.2)
  | .const bs :: is, pos, li, sr, _, labels =>
    let r := reduce win is (pos + bs.length) li sr false labels
    (.const bs :: r.1, r.2)
  | .jump j :: is, pos, li, sr, _, labels =>
    let r := reduce win is (pos + maxSize j.type) li (sr + jumpCut j (pos - sr) (tgtSize labels j.tgt) sr) false labels
    (.jump j (pos - sr) :: r.1, r.2)
  | .mov reg t :: is, pos, li, sr, _, labels =>
    let labels := if Item.isLabel is then labels.set li (labels.getD li 0 - sr) else labels
    let r := reduce win is (pos + 10) li (sr + movCut (movHi win reg) t (pos + 10 - sr) (tgtSize labels t)) (Item.isLabel is) labels
    (.mov reg t :: r.1, r.2)

/-! ## The generating loop -/

/-- The fixed values of one code generation: SLJIT_CONFIG with _WIN64, `code`, `executable_offset` and the allocated size. -/
structure Env where
  win : Bool
  base : BitVec 64
  off : BitVec 64
  n : Nat

/-- Executable address of a position. -/
def Env.exec (e : Env) (i : Nat) : BitVec 64 := e.base + BitVec.ofNat 64 i + e.off

/-- The flags PATCH_MB, PATCH_MW, PATCH_MD, or none of them. -/
inductive Patch | mb | mw | md | none deriving DecidableEq, Repr

/-- Storing bytes at `code_ptr` (the end of `out`). -/
def emitB (e : Env) (out bs : List Byte) : Option (List Byte) := if out.length + bs.length ≤ e.n then some (out ++ bs) else none

/-- detect_far_jump_type (sljitNativeX86_64.c:361-396): the bytes, the offset of `jump->addr` and the patch flag. The bytes to
patch are 0 here. -/
def farJump (win : Bool) (j : JInfo) : List Byte × Nat × Patch :=
  let short := !j.rew && (match j.tgt with | .addr t => decide (t.toNat ≤ 0xffffffff) | .label _ => false)
  let pre : List Byte := if j.type < JUMP then [getJumpCode (j.type ^^^ 1) - 0x10#8, if short then 6 + 3 else 10 + 3] else []
  let mov : List Byte := [if short then 0x41#8 else 0x49#8, 0xb8#8 ||| regLmap win TMP_REG2]
  let imm : List Byte := match j.tgt with | .addr t => toLe (if short then 4 else 8) t | .label _ => toLe 8 0#64
  let op : Byte := if 37 ≤ j.type then 0x10#8 else 0x20#8
  (pre ++ mov ++ imm ++ [0x41#8, 0xff#8, 0xc0#8 ||| op ||| regLmap win TMP_REG2], pre.length + 2,
    match j.tgt with | .addr _ => .none | .label _ => .md)

/-- `label_addr - jump_addr` of detect_near_jump_type (sljitNativeX86_common.c:685-692). -/
def nearDiff (e : Env) (j : JInfo) (cp addr lsize : Nat) : BitVec 64 :=
  match j.tgt with
  | .label _ => (e.base + BitVec.ofNat 64 lsize) - (e.base + BitVec.ofNat 64 (if lsize > addr then addr else cp))
  | .addr t => (t - e.off) - (e.base + BitVec.ofNat 64 cp)

/-- The opcode bytes of a near jump (sljitNativeX86_common.c:701-714). -/
def nearOp (type : Nat) (short : Bool) : List Byte :=
  if type = JUMP then [if short then 0xeb#8 else 0xe9#8]
  else if JUMP < type then [0xe8#8]
  else if short then [getJumpCode type - 0x10#8] else [0x0f#8, getJumpCode type]

/-- detect_near_jump_type (sljitNativeX86_common.c:678-727), and the selection of sljit_generate_code (:974-982). -/
def detectJump (e : Env) (j : JInfo) (cp addr lsize : Nat) : List Byte × Nat × Patch :=
  let d := nearDiff e j cp addr lsize
  if j.rew ∨ 0x7fffffff < (d - 6#64).toInt ∨ (d - 5#64).toInt < -0x80000000 then farJump e.win j
  else
    let short := decide (-0x80 ≤ (d - 2#64).toInt ∧ (d - 2#64).toInt ≤ 0x7f ∧ j.type ≤ JUMP)
    (nearOp j.type short ++ List.replicate (if short then 1 else 4) 0#8, (nearOp j.type short).length, if short then .mb else .mw)

/-- generate_mov_addr_code (sljitNativeX86_64.c:398-449): what becomes of the 10 bytes, `cp` being the position of the first of them.
The bytes to patch are 0. -/
def movCode (e : Env) (reg : Nat) (t : Tgt) (cp lsize : Nat) : List Byte × Patch :=
  let addr : BitVec 64 := match t with | .addr a => a | .label _ => e.base + e.off + BitVec.ofNat 64 lsize
  let rex : Byte := 0x48#8 ||| if movHi e.win reg then 1#8 else 0#8
  let op : Byte := 0xb8#8 ||| regLmap e.win reg
  if 0xffffffff < addr.toNat then
    let diff := (addr - e.exec (cp + 10)).toInt
    if diff ≤ 0x7fffffff ∧ -0x80000000 ≤ diff then
      ([0x48#8 ||| ((rex &&& 1#8) <<< 2), 0x8d#8, ((op &&& 7#8) <<< 3) ||| 5#8] ++ toLe 4 0#64, .mw)
    else (rex :: op :: toLe 8 0#64, .md)
  else if rex &&& 7#8 ≠ 0#8 then ((rex &&& ~~~8#8) :: op :: toLe 4 0#64, .none)
  else (op :: toLe 4 0#64, .none)

/-- A jump record after the loop: whether it is a move address, its target, the patch flag and `jump->addr`. -/
structure Pending where
  mov : Bool
  tgt : Tgt
  patch : Patch
  addr : Nat
  deriving DecidableEq, Repr

/-- State of the generating loop.  `out` are the bytes from `code` to `code_ptr`, `laddr` the `u.addr` fields of the labels. -/
structure GSt where
  out : List Byte
  labels : List Nat
  li : Nat
  laddr : List (BitVec 64)
  caddr : List (BitVec 64)
  pend : List Pending

/-- Processing a label record (sljitNativeX86_common.c:966-968). -/
def GSt.setLabel (s : GSt) (e : Env) : GSt :=
  { s with labels := s.labels.set s.li s.out.length, li := s.li + 1, laddr := s.laddr ++ [e.exec s.out.length] }

/-- Number of NOPs of process_extended_label (sljitNativeX86_common.c:783-797). -/
def padding (e : Env) (cp al : Nat) : Nat :=
  let p := e.base + BitVec.ofNat 64 cp
  (((p + BitVec.ofNat 64 (alMask al)) &&& ~~~(BitVec.ofNat 64 (alMask al))) - p).toNat

/-- The loop of sljit_generate_code (sljitNativeX86_common.c:946-1005).  The 10 bytes of a move address are copied before they are
replaced by a shorter instruction. -/
def genLoop (e : Env) : List RItem → GSt → Option GSt
  | [], s => some s
  | .bytes bs :: is, s => (emitB e s.out bs).bind fun out => genLoop e is { s with out := out }
  | .label :: is, s => genLoop e is (s.setLabel e)
  | .alabel al :: is, s =>
    (emitB e s.out (List.replicate (padding e s.out.length al) 0x90#8)).bind fun out => genLoop e is (GSt.setLabel { s with out := out } e)
  | .const bs :: is, s =>
    (emitB e s.out bs).bind fun out => genLoop e is { s with out := out, caddr := s.caddr ++ [e.base + BitVec.ofNat 64 out.length] }
  | .jump j addr :: is, s =>
    let r := detectJump e j s.out.length addr (tgtSize s.labels j.tgt)
    (emitB e s.out r.1).bind fun out =>
    genLoop e is { s with out := out, pend := s.pend ++ [⟨false, j.tgt, r.2.2, s.out.length + r.2.1⟩] }
  | .mov reg t :: is, s =>
    (emitB e s.out (loadImm64 e.win reg 0#64)).bind fun _ =>
    let r := movCode e reg t s.out.length (tgtSize s.labels t)
    genLoop e is { s with out := s.out ++ r.1, pend := s.pend ++ [⟨true, t, r.2, s.out.length + r.1.length⟩] }

/-! ## The final pass -/

/-- `(flags & JUMP_ADDR) ? jump->u.target : jump->u.label->u.addr`. -/
def tgtAddr (laddr : List (BitVec 64)) : Tgt → BitVec 64
  | .label n => laddr.getD n 0#64
  | .addr a => a

/-- An unaligned store into the code. -/
def store (out : List Byte) (at' : Nat) (bs : List Byte) : Option (List Byte) :=
  if at' + bs.length ≤ out.length then some (out.take at' ++ bs ++ out.drop (at' + bs.length)) else none

/-- generate_jump_or_mov_addr (sljitNativeX86_common.c:729-781). -/
def patchOne (e : Env) (laddr : List (BitVec 64)) (out : List Byte) (p : Pending) : Option (List Byte) :=
  let addr := tgtAddr laddr p.tgt
  if p.mov then
    match p.patch with
    | .md => store out (p.addr - 8) (toLe 8 addr)
    | .mw => store out (p.addr - 4) (toLe 4 (addr - e.exec p.addr))
    | _ => store out (p.addr - 4) (toLe 4 addr)
  else
    match p.patch with
    | .md => store out p.addr (toLe 8 addr)
    | .mb => store out p.addr (toLe 1 (addr - e.exec p.addr - 1#64))
    | .mw => store out p.addr (toLe 4 (addr - e.exec p.addr - 4#64))
    | .none => some out

def patchAll (e : Env) (laddr : List (BitVec 64)) : List Pending → List Byte → Option (List Byte)
  | [], out => some out
  | p :: ps, out => (patchOne e laddr out p).bind fun out => patchAll e laddr ps out

/-- The result of sljit_generate_code. -/
structure GenResult where
  code : List Byte
  laddr : List (BitVec 64)
  caddr : List (BitVec 64)
  /-- `jump->addr` of the records, as positions (what sljit_get_jump_addr returns, relative to `code`). -/
  jaddr : List Nat
  /-- The size passed to the allocator. -/
  alloc : Nat
  deriving DecidableEq, Repr

/-- sljit_generate_code (sljitNativeX86_common.c:915-1026) with `compiler->size` bytes at `base` whose executable mapping is `off`
bytes away; `none` is a store outside of it.  `compiler->executable_size` is the length of `code`. -/
def generate (win : Bool) (items : List Item) (base off : BitVec 64) : Option GenResult :=
  let r := reduce win items 0 0 0 false (labelSizes 0 items)
  let e : Env := ⟨win, base, off, usize items - r.2.2⟩
  (genLoop e r.1 ⟨[], r.2.1, 0, [], [], []⟩).bind fun s =>
  (patchAll e s.laddr s.pend s.out).bind fun out =>
  some ⟨out, s.laddr, s.caddr, s.pend.map (·.addr), e.n⟩

end Verif.X86
