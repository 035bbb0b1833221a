import Verif.RISCV.Frame
import Verif.RISCV.OpSpec

/-!
# What a function written with the sljit API means (specification used by C48)

An interpreter for a sequence of API calls on a 64 bit little endian machine, written from the descriptions in
sljitLir.h:985-1790.  It knows nothing about code generation: it only shares the syntax (operands, opcodes) and the byte
order of memory with the model of the backend.  `none` is undefined behaviour: reading a register that was never written,
mixing 32 and 64 bit values, reading flags that were not set, dividing by zero, shifting by too much, touching the part
of the stack frame which belongs to the code generator.
-/

namespace Verif.Lir
open Verif.RV

/-- Contents of a register: the result of a 64 bit or of a 32 bit operation (sljitLir.h:1066-1086). -/
inductive Val
  | w (v : BitVec 64)
  | i (v : BitVec 32)
  deriving DecidableEq, Repr

/-- Width of an operation. -/
def wd (is32 : Bool) : Nat := bif is32 then 32 else 64

/-- The result of an operation as register contents. -/
def Val.of : (is32 : Bool) → BitVec (wd is32) → Val
  | true, v => .i v
  | false, v => .w v

/-- The operand of an operation: the result of an operation of the same width. -/
def Val.get : (is32 : Bool) → Val → Option (BitVec (wd is32))
  | true, .i v => some v
  | false, .w v => some v
  | _, _ => none

/-- The lower bits of a register (the sources of the narrow moves and of SLJIT_MOV32, sljitLir.h:1077-1082). -/
def Val.low (n : Nat) : Val → BitVec n
  | .w v => v.setWidth n
  | .i v => v.setWidth n

/-- State of a function: registers (numbered as in sljitLir.h:171-214; 24 is SLJIT_SP), memory, the zero flag, the variable flag
with its type (sljitLir.h:1100-1156). -/
structure LSt where
  reg : Nat → Option Val
  mem : BitVec 64 → BitVec 8
  z : Option Bool
  v : Option (Flag × Bool)

/-- A memory access of `n` bits. -/
def ldv (n : Nat) (m : BitVec 64 → BitVec 8) (a : BitVec 64) : BitVec n :=
  match n with
  | 8 => ld8 m a
  | 16 => ld16 m a
  | 32 => ld32 m a
  | 64 => ld64 m a
  | _ => 0

def stv (n : Nat) (m : BitVec 64 → BitVec 8) (a : BitVec 64) (v : BitVec n) : BitVec 64 → BitVec 8 :=
  match n, v with
  | 8, v => st8 m a v
  | 16, v => st16 m a v
  | 32, v => st32 m a v
  | 64, v => st64 m a v
  | _, _ => m

/-- The function may access the `n` bytes at `a`: none of them is private to the code generator. -/
def free (priv : BitVec 64 → Bool) (n : Nat) (a : BitVec 64) : Bool := (List.range n).all fun k => !priv (a + BitVec.ofNat 64 k)

/-- The 64 bit value of a register. -/
def word (l : LSt) (r : Nat) : Option (BitVec 64) := (l.reg r).bind fun
  | .w v => some v
  | .i _ => none

/-- Effective address (sljitLir.h:998-1014). -/
def addr (l : LSt) (b i : Nat) (w : BitVec 64) : Option (BitVec 64) :=
  (if b = 0 then some 0#64 else word l b).bind fun (x : BitVec 64) =>
  (if i = 0 then some w else (word l i).map fun (x : BitVec 64) => x <<< (w.toNat % 4)).bind fun (y : BitVec 64) => some (x + y)

/-- The memory cell of an operand with `n` bits. -/
def cell (priv : BitVec 64 → Bool) (n : Nat) (l : LSt) (b i : Nat) (w : BitVec 64) : Option (BitVec 64) :=
  (addr l b i w).bind fun a => if free priv (n / 8) a then some a else none

/-- Value of a source operand. -/
def read (priv : BitVec 64 → Bool) (is32 : Bool) (l : LSt) : Opd → Option (BitVec (wd is32))
  | .reg r => (l.reg r).bind (Val.get is32)
  | .imm v => some (v.setWidth _)
  | .mem b i w => (cell priv (wd is32) l b i w).map (ldv (wd is32) l.mem)

/-- Value of a source operand of which only `n` bits are used. -/
def readN (priv : BitVec 64 → Bool) (n : Nat) (l : LSt) : Opd → Option (BitVec n)
  | .reg r => (l.reg r).map (Val.low n)
  | .imm v => some (v.setWidth n)
  | .mem b i w => (cell priv n l b i w).map (ldv n l.mem)

/-- Assignment to a register. -/
def LSt.set (l : LSt) (r : Nat) (v : Val) : LSt := { l with reg := fun q => if q = r then some v else l.reg q }

/-- Write `v` to a register, or the `n` bits `x` to memory. -/
def writeN (priv : BitVec 64 → Bool) (n : Nat) (l : LSt) (dst : Opd) (v : Val) (x : BitVec n) : Option LSt :=
  match dst with
  | .reg r => some (l.set r v)
  | .imm _ => none
  | .mem b i w => (cell priv n l b i w).map fun a => { l with mem := stv n l.mem a x }

/-- Write the result of an operation. -/
def write (priv : BitVec 64 → Bool) (is32 : Bool) (l : LSt) (dst : Opd) (x : BitVec (wd is32)) : Option LSt :=
  writeN priv (wd is32) l dst (Val.of is32 x) x

/-- The flags are undefined. -/
def LSt.noFlags (l : LSt) : LSt := { l with z := none, v := none }

/-- The condition codes of a variable flag (sljitLir.h:1720-1756); the next one is its negation. -/
def flagNo : Flag → Nat
  | .less => 2
  | .greater => 4
  | .sigLess => 6
  | .sigGreater => 8
  | .overflow => 10
  | .carry => 12
  | .none => 0

/-- Truth of a condition, if the flags determine it. -/
def cond (l : LSt) (type : Nat) : Option Bool :=
  if type = 0 then l.z
  else if type = 1 then l.z.map (!·)
  else l.v.bind fun ft => if type = flagNo ft.1 then some ft.2 else if type = flagNo ft.1 + 1 then some (!ft.2) else none

/-! ## Operations -/

/-- The shifts whose amount must be less than the width (sljitLir.h:1349-1380). -/
def strict : OpC → Bool
  | .shl | .lshr | .ashr => true
  | _ => false

/-- sljit_emit_op2 and sljit_emit_op2u on operand values: result and flags (sljitLir.h:1323-1395). -/
def binary (op : Op) (l : LSt) (a b : BitVec (wd op.is32)) : Option (BitVec (wd op.is32) × Bool) :=
  (if op.code = .addc ∨ op.code = .subc then (match l.v with | some (.carry, t) => some t | _ => none) else some false).bind fun cin =>
    if strict op.code ∧ ¬ b.toNat < wd op.is32 then none else some (val op.code a b cin, flagVal op.code op.flag a b cin)

/-- The flags after an operation with result `r` and variable flag `f`. -/
def LSt.setFlags (l : LSt) (op : Op) (r : BitVec (wd op.is32)) (f : Bool) : LSt :=
  { l with z := if op.setZ then some (decide (r = 0)) else none, v := if op.flag = .none then none else some (op.flag, f) }

/-- Number of zero bits before the first bit that is set, seen by `bit`. -/
def zeros (w : Nat) (bit : Nat → Bool) : Nat := ((List.range w).find? bit).getD w

/-- The lower `n` bytes in reverse order. -/
def revBytes (n : Nat) (v : BitVec (8 * n)) : BitVec (8 * n) :=
  BitVec.ofNat _ ((List.range n).foldl (fun acc k => acc * 256 + v.toNat / 2 ^ (8 * k) % 256) 0)

/-- sljit_emit_op1 (sljitLir.h:1246-1310): write the result. -/
def unary (priv : BitVec 64 → Bool) (o : Op1C) (is32 : Bool) (l : LSt) (dst src : Opd) : Option LSt :=
  match o with
  | .mov | .movP => (read priv false l src).bind fun x => write priv false l dst x
  | .mov32 => (readN priv 32 l src).bind fun x => write priv true l dst x
  | .movU32 => (readN priv 32 l src).bind fun x => writeN priv 32 l dst (.w (x.setWidth 64)) x
  | .movS32 => (readN priv 32 l src).bind fun x => writeN priv 32 l dst (.w (x.signExtend 64)) x
  | .movU8 => (readN priv 8 l src).bind fun x => writeN priv 8 l dst (Val.of is32 (x.setWidth _)) x
  | .movS8 => (readN priv 8 l src).bind fun x => writeN priv 8 l dst (Val.of is32 (x.signExtend _)) x
  | .movU16 => (readN priv 16 l src).bind fun x => writeN priv 16 l dst (Val.of is32 (x.setWidth _)) x
  | .movS16 => (readN priv 16 l src).bind fun x => writeN priv 16 l dst (Val.of is32 (x.signExtend _)) x
  | .clz => (read priv is32 l src).bind fun x => write priv is32 l.noFlags dst (BitVec.ofNat _ (zeros (wd is32) x.getMsbD))
  | .ctz => (read priv is32 l src).bind fun x => write priv is32 l.noFlags dst (BitVec.ofNat _ (zeros (wd is32) x.getLsbD))
  | .rev =>
    if is32 then (read priv true l src).bind fun x => write priv true l.noFlags dst (revBytes 4 x)
    else (read priv false l src).bind fun x => write priv false l.noFlags dst (revBytes 8 x)
  | .revU16 => (readN priv 16 l src).bind fun x => writeN priv 16 l.noFlags dst (Val.of is32 ((revBytes 2 x).setWidth _)) (revBytes 2 x)
  | .revS16 => (readN priv 16 l src).bind fun x => writeN priv 16 l.noFlags dst (Val.of is32 ((revBytes 2 x).signExtend _)) (revBytes 2 x)
  | .revU32 => (readN priv 32 l src).bind fun x => writeN priv 32 l.noFlags dst (.w ((revBytes 4 x).setWidth 64)) (revBytes 4 x)
  | .revS32 => (readN priv 32 l src).bind fun x => writeN priv 32 l.noFlags dst (.w ((revBytes 4 x).signExtend 64)) (revBytes 4 x)

/-- sljit_emit_op0 on the values of SLJIT_R0 and SLJIT_R1 (sljitLir.h:1178-1214). -/
def pair {w : Nat} (o : Op0) (a b : BitVec w) : Option (BitVec w × BitVec w) :=
  match o with
  | .lmulUw => some (BitVec.ofNat w (a.toNat * b.toNat), BitVec.ofNat w (a.toNat * b.toNat / 2 ^ w))
  | .lmulSw => some (BitVec.ofInt w (a.toInt * b.toInt), BitVec.ofInt w (a.toInt * b.toInt / 2 ^ w))
  | .divmodUw => if b.toNat = 0 then none else some (BitVec.ofNat w (a.toNat / b.toNat), BitVec.ofNat w (a.toNat % b.toNat))
  | .divUw => if b.toNat = 0 then none else some (BitVec.ofNat w (a.toNat / b.toNat), b)
  | .divmodSw =>
    if b.toInt = 0 ∨ (a.toInt = -2 ^ (w - 1) ∧ b.toInt = -1) then none
    else some (BitVec.ofInt w (a.toInt.tdiv b.toInt), BitVec.ofInt w (a.toInt.tmod b.toInt))
  | .divSw =>
    if b.toInt = 0 ∨ (a.toInt = -2 ^ (w - 1) ∧ b.toInt = -1) then none
    else some (BitVec.ofInt w (a.toInt.tdiv b.toInt), b)
  | _ => none

/-- The operations of sljit_emit_op0 without operands. -/
def plain : Op0 → Bool
  | .nop | .memoryBarrier | .endbr | .skipFrames => true
  | _ => false

/-- Two words next to each other, shifted by `n` (sljitLir.h:1428-1456). -/
def into (w : Nat) (left : Bool) (a b n : Nat) : Nat :=
  if left then (a * 2 ^ w + b) * 2 ^ n / 2 ^ w % 2 ^ w else (b * 2 ^ w + a) / 2 ^ n % 2 ^ w

/-- The relations of sljit_emit_cmp (sljitLir.h:1720-1742). -/
def holds {w : Nat} (type : Nat) (a b : BitVec w) : Bool :=
  match type with
  | 0 => decide (a = b)
  | 1 => decide (a ≠ b)
  | 2 => decide (a.toNat < b.toNat)
  | 3 => decide (a.toNat ≥ b.toNat)
  | 4 => decide (a.toNat > b.toNat)
  | 5 => decide (a.toNat ≤ b.toNat)
  | 6 => decide (a.toInt < b.toInt)
  | 7 => decide (a.toInt ≥ b.toInt)
  | 8 => decide (a.toInt > b.toInt)
  | _ => decide (a.toInt ≤ b.toInt)

/-- A condition in a destination: SLJIT_MOV stores it, the others combine it with the old value. -/
def mix {w : Nat} (code : OpC) (old : BitVec w) (t : Bool) : BitVec w :=
  let b := BitVec.ofNat w t.toNat
  match code with
  | .and => old &&& b
  | .or => old ||| b
  | .xor => old ^^^ b
  | _ => b

/-! ## Programs -/

/-- Whom a function calls: a function of the same compiler (sljit_emit_call and sljit_set_label with the label in front of its sljit_emit_enter), or
the function at an address (sljit_emit_icall, sljitLir.h:1832-1842, 1903-1915). -/
inductive Callee
  | fn (f : Nat)
  | opd (src : Opd)
  deriving DecidableEq, Repr

/-- The API calls which make up a function body.  Jumps name labels by their position among the labels of the program.  `call`: sljit_emit_call and
sljit_emit_icall with SLJIT_CALL; `args` are the types of the arguments (true for 32 bit), which are in SLJIT_R0, SLJIT_R1, …, `ret` the type of the result, if
any (sljitLir.h:311-439).  This interpreter stops at a call; what it does is defined in `Verif.Prog.Calls`. -/
inductive Ins
  | op0 (o : Op0) (is32 : Bool)
  | op1 (o : Op1C) (is32 : Bool) (dst src : Opd)
  | op2 (op : Op) (dst src1 src2 : Opd)
  | op2u (op : Op) (src1 src2 : Opd)
  | shiftInto (left is32 nonZero : Bool) (dst src1 src2 : Nat) (src3 : Opd)
  | opFlags (code : OpC) (is32 setZ : Bool) (dst : Opd) (type : Nat)
  | select (type : Nat) (is32 : Bool) (dst : Nat) (src1 : Opd) (src2 : Nat)
  | label
  | jump (type : Option Nat) (rew : Bool) (target : Nat)
  | cmp (type : Nat) (is32 : Bool) (src1 src2 : Opd) (rew : Bool) (target : Nat)
  | ret (o : Op1C) (is32 : Bool) (src : Opd)
  | retVoid
  | call (args : List Bool) (ret : Option Bool) (rew : Bool) (who : Callee)
  deriving DecidableEq, Repr

/-- The calls which do not transfer control. -/
def exec (priv : BitVec 64 → Bool) (ins : Ins) (l : LSt) : Option LSt :=
  match ins with
  | .op0 o is32 =>
    if plain o then some l.noFlags
    else (read priv is32 l (.reg 1)).bind fun a => (read priv is32 l (.reg 2)).bind fun b => (pair o a b).bind fun ab =>
      some ((l.noFlags.set 1 (Val.of is32 ab.1)).set 2 (Val.of is32 ab.2))
  | .op1 o is32 dst src => unary priv o is32 l dst src
  | .op2 op dst s1 s2 => (read priv op.is32 l s1).bind fun a => (read priv op.is32 l s2).bind fun b => (binary op l a b).bind fun rf =>
      write priv op.is32 (l.setFlags op rf.1 rf.2) dst rf.1
  | .op2u op s1 s2 => (read priv op.is32 l s1).bind fun a => (read priv op.is32 l s2).bind fun b => (binary op l a b).bind fun rf =>
      some (l.setFlags op rf.1 rf.2)
  | .shiftInto left is32 nonZero dst s1 s2 s3 => (read priv is32 l (.reg s1)).bind fun a => (read priv is32 l (.reg s2)).bind fun b =>
      (read priv is32 l s3).bind fun n =>
      if nonZero = true ∧ n.toNat % wd is32 = 0 then none
      else write priv is32 l.noFlags (.reg dst) (BitVec.ofNat _ (into (wd is32) left a.toNat b.toNat (n.toNat % wd is32)))
  | .opFlags code is32 setZ dst type => (cond l type).bind fun t =>
      if code = .mov then write priv is32 l dst (mix .mov 0 t)
      else (read priv is32 l dst).bind fun old =>
        write priv is32 { l with z := if setZ then some (decide (mix code old t = 0)) else none, v := none } dst (mix code old t)
  | .select type is32 dst s1 s2 => (cond l type).bind fun t => (read priv is32 l s1).bind fun a => (read priv is32 l (.reg s2)).bind fun b =>
      write priv is32 l (.reg dst) (if t then a else b)
  | .label => some l.noFlags
  | _ => none

/-- Number of labels of a program. -/
def nlab (P : List Ins) : Nat := P.countP (· == .label)

/-- What follows the label `k`. -/
def after : Nat → List Ins → Option (List Ins)
  | _, [] => none
  | 0, .label :: is => some is
  | k + 1, .label :: is => after k is
  | k, _ :: is => after k is

/-- Where a function is: `run rest l` is about to perform `rest`, `done v m` has returned `v`, leaving memory `m`. -/
inductive Conf
  | run (rest : List Ins) (l : LSt)
  | done (v : Option Val) (mem : BitVec 64 → BitVec 8)

/-- The value returned by sljit_emit_return (sljitLir.h:1399-1415). -/
def returned (priv : BitVec 64 → Bool) (o : Op1C) (is32 : Bool) (l : LSt) (src : Opd) : Option Val :=
  (unary priv o is32 l (.reg 1) src).bind (·.reg 1)

/-- One call. -/
def step (priv : BitVec 64 → Bool) (P : List Ins) : Conf → Option Conf
  | .done _ _ => none
  | .run [] _ => none
  | .run (ins :: rest) l =>
    match ins with
    | .jump none _ k => (after k P).map fun r => .run r l.noFlags
    | .jump (some type) _ k => (cond l type).bind fun t => if t then (after k P).map fun r => .run r l.noFlags else some (.run rest l)
    | .cmp type is32 s1 s2 _ k => (read priv is32 l s1).bind fun a => (read priv is32 l s2).bind fun b =>
        if holds type a b then (after k P).map fun r => .run r l.noFlags else some (.run rest l.noFlags)
    | .ret o is32 src => (returned priv o is32 l src).map fun v => .done (some v) l.mem
    | .retVoid => some (.done none l.mem)
    | ins => (exec priv ins l).map (.run rest)

/-- Any number of calls. -/
inductive Steps (priv : BitVec 64 → Bool) (P : List Ins) : Conf → Conf → Prop
  | refl (c) : Steps priv P c c
  | step {a b c} (h : step priv P a = some b) (t : Steps priv P b c) : Steps priv P a c

end Verif.Lir
