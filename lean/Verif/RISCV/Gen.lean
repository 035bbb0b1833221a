import Verif.RISCV.LoadAddr

/-!
# Code generation (model of sljitNativeRISCV_common.c:443-1050, SLJIT_CONFIG_RISCV_64)

The input is what the emitters left behind: the instruction stream together with the label, jump and constant records.
Simplification: the C code keeps three lists ordered by address (labels, jumps, constants) and a byte buffer and merges
them on the fly (`SLJIT_GET_NEXT_MIN`); here they are one list of items in emission order.  Everything else follows the
C code: positions are counted in half words, `labels` holds the `size` field of the label records and is updated in
place, the generated code is a memory which is written and patched in place.  A store outside the allocated buffer is the
outcome `none`.
-/

namespace Verif.RV

/-- Target of a jump record: `u.label` (index of the label record) or `u.target` (JUMP_ADDR). -/
inductive Tgt | label (n : Nat) | addr (a : BitVec 64) deriving DecidableEq, Repr

/-- The conditional branch in front of a jump: none, a 32 bit branch (IS_COND) or a compressed branch
(IS_COND | IS_COND16). -/
inductive Br | none | b32 (f3 : BitVec 3) (a b : Nat) | b16 (ne : Bool) (r : Nat) deriving DecidableEq, Repr

/-- `(branch opcode)`: BEQ, BNE, BLT, BGE, BLTU, BGEU (sljitNativeRISCV_common.c:238-243) differ in `F3` only. -/
def BRANCH (f3 : BitVec 3) : BitVec 32 := F3 f3 ||| OPC 0x63

/-- BRANCH_LENGTH, BRANCH16_LENGTH (sljitNativeRISCV_common.c:415-416). -/
def BRANCH_LENGTH : BitVec 32 := 28#32 <<< 7
def BRANCH16_LENGTH : BitVec 16 := C_BRN16 26#64

/-- The half words of the branch pushed before the jump placeholder (sljitNativeRISCV_common.c:3417-3420, :3504-3569). -/
def Br.words : Br → List (BitVec 16)
  | .none => []
  | .b32 f3 a b => w32 (BRANCH f3 ||| RS1 a ||| RS2 b ||| BRANCH_LENGTH)
  | .b16 ne r => w16 ((if ne then C_BNEZ else C_BEQZ) ||| C_RS1_R3 r ||| BRANCH16_LENGTH)

/-- A jump record (flags SLJIT_REWRITABLE_JUMP, IS_CALL, IS_COND, IS_COND16, JUMP_ADDR). -/
structure JInfo where
  br : Br
  rew : Bool
  call : Bool
  tgt : Tgt
  deriving DecidableEq, Repr

/-- What the emitters produce: instructions, a label (sljit_emit_label), an aligned label `2 ^ al` together with the NOPs in
front of it (sljit_emit_aligned_label, when it creates an extended label), a rewritable constant with its instructions,
a jump and a move-address (sljit_emit_op_addr, JUMP_MOV_ADDR). -/
inductive Item
  | code (hs : List (BitVec 16))
  | label
  | alabel (al : Nat)
  | const (hs : List (BitVec 16))
  | jump (j : JInfo)
  | mov (reg : Nat) (t : Tgt)
  deriving DecidableEq, Repr

/-- `mask` (sljitNativeRISCV_common.c:3296, :3308). -/
def alMask (cfg : Cfg) (al : Nat) : BitVec 64 := (1#64 <<< al) - (if cfg.c then 2#64 else 4#64)

/-- The NOPs in front of an aligned label (sljitNativeRISCV_common.c:3298-3299, :3310-3311). -/
def alNops (cfg : Cfg) (al : Nat) : List (BitVec 16) :=
  if cfg.c then (List.replicate ((alMask cfg al).toNat / 2) (w16 C_NOP)).flatten
  else (List.replicate ((alMask cfg al).toNat / 4) (w32 NOP)).flatten

/-- JUMP_MAX_SIZE (sljitLir.c:302). -/
notation "JUMP_MAX_SIZE" => (12 : Nat)

/-- By how much an item advances `compiler->size` (sljitNativeRISCV_common.c:419-436, :3426-3430, :4555-4557). -/
def Item.size (cfg : Cfg) : Item → Nat
  | .code hs => hs.length
  | .label => 0
  | .alabel al => (alNops cfg al).length
  | .const hs => hs.length
  | .jump j => j.br.words.length + JUMP_MAX_SIZE
  | .mov .. => JUMP_MAX_SIZE

/-- `compiler->size` after emitting the items. -/
def usize (cfg : Cfg) : List Item → Nat
  | [] => 0
  | i :: is => i.size cfg + usize cfg is

/-- The `size` fields of the label records (set_label, sljitLir.c:859-871), `pos` being the current size. -/
def labelSizes (cfg : Cfg) (pos : Nat) : List Item → List Nat
  | [] => []
  | .label :: is => pos :: labelSizes cfg pos is
  | .alabel al :: is => (pos + (alNops cfg al).length) :: labelSizes cfg (pos + (alNops cfg al).length) is
  | i :: is => labelSizes cfg (pos + i.size cfg) is

/-! ## reduce_code_size -/

def Br.cond : Br → Bool
  | .none => false
  | _ => true
def Br.cond16 : Br → Bool
  | .b16 .. => true
  | _ => false

/-- RISCV_CHECK_COMPRESSED_JUMP in half words / bytes (sljitNativeRISCV_common.c:130-131). -/
def compressedJump (call : Bool) (diff lo hi : Int) : Bool := !call && decide (lo ≤ diff) && decide (diff ≤ hi)

/-- The estimated size of a jump to a label which is `diff` half words away (sljitNativeRISCV_common.c:827-844). -/
def labelEst (cfg : Cfg) (j : JInfo) (diff : Int) : Nat :=
  let cond16 := cfg.c && j.br.cond16
  let condSize : Nat := if cond16 then 1 else 0
  let condDiff := diff + 2 - condSize
  if cond16 && decide (-128 ≤ diff) && decide (diff ≤ 127) then 0
  else if j.br.cond && decide (condDiff ≤ 2047) && decide (-2048 ≤ condDiff) then condSize
  else if cfg.c && compressedJump j.call diff (-1024) 1023 then 1
  else if -524288 ≤ diff ∧ diff ≤ 524287 then 2
  else if -0x40000000 ≤ diff ∧ diff ≤ 0x3ffffbff then 4
  else JUMP_MAX_SIZE

/-- The estimated size of a jump to an absolute address (sljitNativeRISCV_common.c:810-816). -/
def addrEst (t : BitVec 64) : Nat :=
  if t.toNat ≤ 0x7ffff7ff then 4
  else if t.toNat ≤ 0x7fffffff7ff then 8
  else if t.toNat ≤ 0x7ffffffffffff then 10
  else JUMP_MAX_SIZE

/-- The distance used by the estimate, in half words (sljitNativeRISCV_common.c:820-824, :856-860). -/
def estDiff (addr lsize sr : Nat) : Int :=
  let diff : Int := lsize - addr
  if lsize > addr then diff - sr else diff

/-- The estimated size of a jump (sljitNativeRISCV_common.c:806-845).  `addr` is the already reduced address of the jump,
`lsize` the `size` field of its label, `sr` is `size_reduce`. -/
def jumpEst (cfg : Cfg) (j : JInfo) (addr lsize sr : Nat) : Nat :=
  if j.rew then JUMP_MAX_SIZE
  else match j.tgt with
    | .addr t => addrEst t
    | .label _ => labelEst cfg j (estDiff addr lsize sr)

/-- The estimated size of a move address, minus 1 (sljitNativeRISCV_common.c:851-871). -/
def movEst (t : Tgt) (addr lsize sr : Nat) : Nat :=
  match t with
  | .label _ =>
    let diff := estDiff addr lsize sr
    if -0x40000000 ≤ diff ∧ diff ≤ 0x3ffffbff then 3 else 11
  | .addr t =>
    if t.toNat < 0x7ffff7ff then 3
    else if t.toNat < 0x7fffffff7ff then 7
    else if t.toNat ≤ 0x7ffffffffffff then 9
    else 11

/-- `size` field of the label a jump refers to. -/
def tgtSize (labels : List Nat) : Tgt → Nat
  | .label n => labels.getD n 0
  | .addr _ => 0

/-- The result of reduce_code_size for one item: jump records get a reduced `addr` and a size (the bits above
JUMP_SIZE_SHIFT).  A jump whose size became 0 has the same reduced address as the item after it; if that is a label, the
generating loop finds the label before the jump, in the same iteration (`next_min_addr == next_label_size` is tested first,
sljitNativeRISCV_common.c:938-952): `lab` is set and the label is `done`. -/
inductive RItem
  | code (hs : List (BitVec 16))
  | label (done : Bool)
  | alabel (al : Nat)
  | const (hs : List (BitVec 16))
  | jump (j : JInfo) (addr est : Nat) (lab : Bool)
  | mov (reg : Nat) (t : Tgt) (addr est : Nat)
  deriving DecidableEq, Repr

def Item.isLabel : List Item → Bool
  | .label :: _ => true
  | _ => false

/-- reduce_code_size (sljitNativeRISCV_common.c:771-882).  `pos` is the unreduced position of the next item, `li` the number
of labels passed, `labels` the `size` fields, `z` is set after a jump of size 0.
Result: the items, the label sizes and the final `size_reduce`. -/
def reduce (cfg : Cfg) : List Item → (pos li sr : Nat) → Bool → List Nat → List RItem × List Nat × Nat
  | [], _, _, sr, _, labels => ([], labels, sr)
  | .code hs :: is, pos, li, sr, _, labels =>
    let r := reduce cfg is (pos + hs.length) li sr false labels
    (.code hs :: r.1, r.2)
  | .label :: is, pos, li, sr, z, labels =>
    let r := reduce cfg is pos (li + 1) sr false (labels.set li (labels.getD li 0 - sr))
    (.label z :: r.1, r.2)
  | .alabel al :: is, pos, li, sr, _, labels =>
    let r := reduce cfg is (pos + (alNops cfg al).length) (li + 1) sr false (labels.set li (labels.getD li 0 - sr))
    (.alabel al :: r.1, r.2)
  | .const hs :: is, pos, li, sr, _, labels =>
    let r := reduce cfg is (pos + hs.length) li sr false labels
    (.const hs :: r.1, r.2)
  | .jump j :: is, pos, li, sr, _, labels =>
    let addr := pos + j.br.words.length - sr
    let est := jumpEst cfg j addr (tgtSize labels j.tgt) sr
    let r := reduce cfg is (pos + j.br.words.length + JUMP_MAX_SIZE) li (sr + (JUMP_MAX_SIZE - est)) (est == 0) labels
    (.jump j addr est (est == 0 && Item.isLabel is) :: r.1, r.2)
  | .mov reg t :: is, pos, li, sr, _, labels =>
    let addr := pos - sr
    let est := movEst t addr (tgtSize labels t) sr
    let r := reduce cfg is (pos + JUMP_MAX_SIZE) li (sr + (11 - est)) false labels
    (.mov reg t addr est :: r.1, r.2)

/-! ## The generating loop -/

/-- Generated code, indexed by half words from `code`. -/
abbrev HMem := Nat → BitVec 16

/-- A store to the buffer of `n` half words. -/
def hwr (n : Nat) (m : HMem) (i : Nat) (h : BitVec 16) : Option HMem :=
  if i < n then some (fun k => if k = i then h else m k) else none

/-- Copying the buffer to the code memory (`*code_ptr = *buf_ptr++; code_ptr++`, sljitNativeRISCV_common.c:929-981). -/
def hcopy (n : Nat) : List (BitVec 16) → HMem → Nat → Option HMem
  | [], m, _ => some m
  | h :: hs, m, p => (hwr n m p h).bind fun m => hcopy n hs m (p + 1)

/-- How a jump is going to be patched: the flags PATCH_B | PATCH_16, PATCH_B, PATCH_J | PATCH_16, PATCH_J, or one of the
address loading sequences. -/
inductive Kind | b16 | b32 | j16 | j32 | seq (p : Patch) deriving DecidableEq, Repr

/-- The fixed addresses of one code generation: `code`, `executable_offset` and the number of allocated half words. -/
structure Env where
  base : BitVec 64
  off : BitVec 64
  n : Nat

/-- Executable address of a half word. -/
def Env.exec (e : Env) (i : Nat) : BitVec 64 := e.base + BitVec.ofNat 64 (2 * i) + e.off

/-- `(sljit_sw)target_addr - (sljit_sw)SLJIT_ADD_EXEC_OFFSET(jump_addr, executable_offset)` and `target_addr`
(sljitNativeRISCV_common.c:460-471, :600-609). -/
def tgtDiff (e : Env) (t : Tgt) (cp orig lsize : Nat) : Int × BitVec 64 :=
  match t with
  | .addr a => ((a - e.exec cp).toInt, a)
  | .label _ =>
    let jaddr := if lsize > orig then orig else cp
    ((e.exec lsize - e.exec jaddr).toInt, e.exec lsize)

/-- The kind chosen by detect_jump_type (the conditions of sljitNativeRISCV_common.c:454-557). -/
def jumpKind (cfg : Cfg) (j : JInfo) (diff : Int) (target : BitVec 64) : Kind :=
  if j.rew then .seq .full
  else
    let cond16 := cfg.c && j.br.cond16
    let condDiff := diff + if cond16 then 2 else 4
    if cond16 && decide (-0x100 ≤ diff) && decide (diff ≤ 0xff) then .b16
    else if j.br.cond && decide (-0x1000 ≤ condDiff) && decide (condDiff ≤ 0xfff) then .b32
    else if cfg.c && compressedJump j.call diff SIMM_MIN SIMM_MAX then .j16
    else if -0x100000 ≤ diff ∧ diff ≤ 0xfffff then .j32
    else if S32_MIN ≤ diff ∧ diff ≤ S32_MAX then .seq .rel32
    else if target.toNat ≤ 0x7ffff7ff then .seq .abs32
    else if target.toNat ≤ 0x7fffffff7ff then .seq .abs44
    else if target.toNat ≤ 0x7ffffffffffff then .seq .abs52
    else .seq .full

/-- Number of half words from the placeholder to the end of the patched jump, minus one: `jalr_offset` (0 for a 16 bit, 1
for a 32 bit jump). -/
def Kind.jalrOffset : Kind → Nat
  | .seq .rel32 | .seq .abs32 => 3
  | .seq .abs44 => 7
  | .seq .abs52 => 9
  | .seq .full => 11
  | .j32 => 1
  | _ => 0

/-- The byte distance the conditional branch in front skips, for a 32 bit and a 16 bit branch
(sljitNativeRISCV_common.c:517-519, :529-531, :539-541, :549-551, :558-560, BRANCH_LENGTH otherwise). -/
def Kind.skip32 : Kind → BitVec 32
  | .j32 => 8#32
  | .seq .rel32 | .seq .abs32 => 12#32
  | .seq .abs44 => 20#32
  | .seq .abs52 => 24#32
  | _ => 28#32
def Kind.skip16 : Kind → BitVec 64
  | .j32 => 6#64
  | .seq .rel32 | .seq .abs32 => 10#64
  | .seq .abs44 => 18#64
  | .seq .abs52 => 22#64
  | _ => 26#64

/-- `ins` stored at the end of an address loading sequence (sljitNativeRISCV_common.c:566-568, :575-578). -/
def jalrIns (call : Bool) : BitVec 32 :=
  if call then JALR ||| RS1 TMP_REG1 ||| IMM_I 0#64 ||| RD RETURN_ADDR_REG else JALR ||| RS1 TMP_REG1 ||| IMM_I 0#64

/-- detect_jump_type (sljitNativeRISCV_common.c:443-585): from the code pointer at the placeholder to the updated memory, the
code pointer *before* the final `code_ptr++` of the loop (as position plus one, i.e. the position of the next item), and
`jump->addr`. -/
def applyKind (e : Env) (j : JInfo) (k : Kind) (m : HMem) (cp : Nat) : Option (HMem × Nat × Nat) :=
  match k with
  | .b16 =>
    -- code_ptr--; code_ptr[0] = (code_ptr[0] & 0xe383) ^ 0x2000; return code_ptr
    (hwr e.n m (cp - 1) ((m (cp - 1) &&& 0xe383#16) ^^^ 0x2000#16)).bind fun m => some (m, cp - 1 + 1, cp - 1)
  | .b32 =>
    if j.br.cond16 then
      let c0 := m (cp - 1)
      (hwr e.n m cp (((c0 &&& 0x300#16) >>> 8) ||| 0x4#16)).bind fun m =>
      (hwr e.n m (cp - 1) (((BNE.setWidth 16 : BitVec 16) ^^^ ((c0 &&& 0x2000#16) >>> 1)) ||| ((c0 &&& 0x80#16) <<< 8))).bind fun m =>
      some (m, cp - 1 + 1 + 1, cp - 1)
    else
      (hwr e.n m (cp - 2) ((m (cp - 2) &&& 0xf07f#16) ^^^ 0x1000#16)).bind fun m =>
      (hwr e.n m (cp - 1) (m (cp - 1) &&& 0x1ff#16)).bind fun m =>
      some (m, cp - 2 + 1 + 1, cp - 2)
  | .j16 => some (m, cp + 1, cp)
  | _ =>
    -- adjust the length of the branch
    (match j.br with
     | .none => some m
     | .b32 .. => hwr e.n m (cp - 2) (m (cp - 2) ^^^ (BRANCH_LENGTH ^^^ (k.skip32 <<< 7)).setWidth 16)
     | .b16 .. => hwr e.n m (cp - 1) (m (cp - 1) ^^^ (BRANCH16_LENGTH ^^^ C_BRN16 k.skip16))).bind fun m =>
    match k with
    | .j32 => some (m, cp + 1 + 1, cp)
    | _ =>
      let q := cp + k.jalrOffset
      (hwr e.n m (q - 1) ((jalrIns j.call).setWidth 16)).bind fun m =>
      (hwr e.n m q ((jalrIns j.call >>> 16).setWidth 16)).bind fun m =>
      some (m, q + 1, cp)

/-- mov_addr_get_length (sljitNativeRISCV_common.c:589-634): the patch kind; the returned length is `Patch.len - 1`. -/
def movKind (diff : Int) (addr : BitVec 64) : Patch :=
  if S32_MIN ≤ diff ∧ diff ≤ S32_MAX then .rel32
  else if addr.toNat ≤ 0x7ffff7ff then .abs32
  else if addr.toNat ≤ 0x7fffffff7ff then .abs44
  else if addr.toNat ≤ 0x7ffffffffffff then .abs52
  else .full

/-- process_extended_label (sljitNativeRISCV_common.c:765-769), on half word positions. -/
def alignDown (e : Env) (cp : Nat) (mask : BitVec 64) : Nat :=
  cp - ((e.base + BitVec.ofNat 64 (2 * cp)) - ((e.base + BitVec.ofNat 64 (2 * cp)) &&& ~~~mask)).toNat / 2

/-- A jump record after the loop, ready for the final pass. -/
inductive Pending
  | jump (j : JInfo) (k : Kind) (addr : Nat)
  | mov (t : Tgt) (p : Patch) (addr : Nat)

/-- `jump->addr`. -/
def Pending.addr : Pending → Nat
  | .jump _ _ a => a
  | .mov _ _ a => a

/-- State of the generating loop. `laddr` are the `u.addr` fields of the labels. -/
structure GSt where
  m : HMem
  cp : Nat
  labels : List Nat
  li : Nat
  laddr : List (BitVec 64)
  caddr : List (BitVec 64)
  pend : List Pending

/-- The next half word of the buffer. -/
def firstHalf (cfg : Cfg) : List RItem → Option (BitVec 16)
  | [] => none
  | .code hs :: _ => hs.head?
  | .label _ :: is => firstHalf cfg is
  | .alabel al :: _ => (alNops cfg al).head?
  | .const hs :: _ => hs.head?
  | .jump j .. :: _ => (j.br.words ++ [0#16]).head?
  | .mov reg .. :: _ => some (BitVec.ofNat 16 reg)

/-- Processing a label record at position `cp` (sljitNativeRISCV_common.c:944-947). -/
def GSt.setLabel (s : GSt) (e : Env) (cp : Nat) : GSt :=
  { s with labels := s.labels.set s.li cp, li := s.li + 1, laddr := s.laddr ++ [e.exec cp] }

/-- The loop of sljit_generate_code (sljitNativeRISCV_common.c:925-992).  At an aligned label the next half word of the
buffer has already been stored at the unaligned position. -/
def genLoop (cfg : Cfg) (e : Env) : List RItem → GSt → Option GSt
  | [], s => some s
  | .code hs :: is, s => (hcopy e.n hs s.m s.cp).bind fun m => genLoop cfg e is { s with m := m, cp := s.cp + hs.length }
  | .label done :: is, s => genLoop cfg e is (if done then s else s.setLabel e s.cp)
  | .alabel al :: is, s =>
    (hcopy e.n (alNops cfg al) s.m s.cp).bind fun m =>
    (hcopy e.n (firstHalf cfg is).toList m (s.cp + (alNops cfg al).length)).bind fun m =>
    let cp := alignDown e (s.cp + (alNops cfg al).length) (alMask cfg al)
    genLoop cfg e is (GSt.setLabel { s with m := m, cp := cp } e cp)
  | .const hs :: is, s =>
    (hcopy e.n hs s.m s.cp).bind fun m =>
    genLoop cfg e is { s with m := m, cp := s.cp + hs.length, caddr := s.caddr ++ [e.base + BitVec.ofNat 64 (2 * s.cp)] }
  | .jump j addr _ lab :: is, s =>
    (hcopy e.n (j.br.words ++ [0#16]) s.m s.cp).bind fun m =>
    let cp := s.cp + j.br.words.length
    let s := if lab then s.setLabel e cp else s
    let d := tgtDiff e j.tgt cp addr (tgtSize s.labels j.tgt)
    let k := jumpKind cfg j d.1 d.2
    (applyKind e j k m cp).bind fun r =>
    genLoop cfg e is { s with m := r.1, cp := r.2.1, pend := s.pend ++ [.jump j k r.2.2] }
  | .mov reg t addr _ :: is, s =>
    (hcopy e.n [BitVec.ofNat 16 reg] s.m s.cp).bind fun m =>
    let d := tgtDiff e t s.cp addr (tgtSize s.labels t)
    let p := movKind d.1 d.2
    genLoop cfg e is { s with m := m, cp := s.cp + p.len, pend := s.pend ++ [.mov t p s.cp] }

/-! ## The final pass -/

/-- `(jump->flags & JUMP_ADDR) ? jump->u.target : jump->u.label->u.addr`. -/
def tgtAddr (laddr : List (BitVec 64)) : Tgt → BitVec 64
  | .label n => laddr.getD n 0#64
  | .addr a => a

/-- Patching one jump record (sljitNativeRISCV_common.c:1000-1046). -/
def patchOne (e : Env) (laddr : List (BitVec 64)) (m : HMem) : Pending → Option HMem
  | .mov t p a => hcopy e.n (loadAddr p (.mov (m a).toNat) (tgtAddr laddr t) (e.exec a)) m a
  | .jump j k a =>
    let d := tgtAddr laddr j.tgt - e.exec a
    match k with
    | .seq p => hcopy e.n (loadAddr p (if j.call then .call else .jump) (tgtAddr laddr j.tgt) (e.exec a)) m a
    | .b16 => hwr e.n m a (m a ||| C_BRN16 d)
    | .b32 =>
      (hwr e.n m a (m a ||| (((d &&& 0x800#64) >>> 4) ||| ((d &&& 0x1e#64) <<< 7)).setWidth 16)).bind fun m =>
      hwr e.n m (a + 1) (m (a + 1) ||| (((d &&& 0x7e0#64) <<< 4) ||| ((d &&& 0x1000#64) <<< 3)).setWidth 16)
    | .j16 => hwr e.n m a (C_J ||| C_JMP16 d)
    | .j32 =>
      let ins := JAL ||| RD (if j.call then RETURN_ADDR_REG else TMP_ZERO) |||
        ((d &&& 0xff000#64) ||| ((d &&& 0x800#64) <<< 9) ||| ((d &&& 0x7fe#64) <<< 20) ||| ((d &&& 0x100000#64) <<< 11)).setWidth 32
      hcopy e.n (w32 ins) m a

def patchAll (e : Env) (laddr : List (BitVec 64)) : List Pending → HMem → Option HMem
  | [], m => some m
  | p :: ps, m => (patchOne e laddr m p).bind fun m => patchAll e laddr ps m

/-- The result of sljit_generate_code. -/
structure GenResult where
  m : HMem
  /-- Length of the code in half words. -/
  len : Nat
  laddr : List (BitVec 64)
  caddr : List (BitVec 64)
  /-- `compiler->executable_size`. -/
  execSize : Nat
  /-- The `addr` fields of the jump records, in half words (sljit_get_jump_addr, sljitLir.h:2437). -/
  jaddr : List Nat

/-- A label at the end of the code gets `code_ptr` without the executable offset (sljitNativeRISCV_common.c:985-992). -/
def endLabel (e : Env) (items : List RItem) (laddr : List (BitVec 64)) : List (BitVec 64) :=
  match items.getLast? with
  | some (.label false) | some (.alabel _) => laddr.set (laddr.length - 1) (laddr.getLastD 0#64 - e.off)
  | _ => laddr

/-- sljit_generate_code (sljitNativeRISCV_common.c:884-1050) with a memory of `compiler->size` half words at `base`
whose executable mapping is `off` bytes away and whose initial contents are `m0`; `none` is a store outside of it. -/
def generate (cfg : Cfg) (items : List Item) (base off : BitVec 64) (m0 : HMem) : Option GenResult :=
  let r := reduce cfg items 0 0 0 false (labelSizes cfg 0 items)
  let e : Env := ⟨base, off, usize cfg items - r.2.2⟩
  (genLoop cfg e r.1 ⟨m0, 0, r.2.1, 0, [], [], []⟩).bind fun s =>
  let laddr := endLabel e r.1 s.laddr
  (patchAll e laddr s.pend s.m).bind fun m =>
  some ⟨m, s.cp, laddr, s.caddr, s.cp * 4, s.pend.map Pending.addr⟩

end Verif.RV
