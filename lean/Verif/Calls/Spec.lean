import Verif.Calls.Machine
/-
The specification of C33: argument passing of sljit_emit_call and sljit_emit_icall on machines where the argument registers of the C calling convention are
not SLJIT_R0, R1, ... / SLJIT_FR0, FR1, ... (MIPS64, PPC64, x86-64 System V and Windows, 32 bit ARM with VFP registers).

The specification gives, for each calling convention, the place of the n-th argument by counting the arguments before it, and for
sljit the place where the caller has put it.  A place is the list of the 32 bit halves which hold the value.
-/

namespace Verif.Props.C33
open Verif.Calls

/-! ## Specification -/

/-- The type of an argument (sljitLir.h:394-410); `scratch` is SLJIT_ARG_TYPE_SCRATCH_REG. -/
inductive Ty where
  | w (scratch : Bool)
  | w32 (scratch : Bool)
  | p (scratch : Bool)
  | f64
  | f32
  deriving DecidableEq, Repr

namespace Ty
/-- Its code in a descriptor. -/
def code : Ty → Nat
  | w s => if s then 9 else 1
  | w32 s => if s then 10 else 2
  | p s => if s then 11 else 3
  | f64 => 4
  | f32 => 5

def word : Ty → Bool
  | f64 => false
  | f32 => false
  | _ => true

/-- Not to be kept in a scratch register. -/
def saved : Ty → Bool
  | w s => !s
  | w32 s => !s
  | p s => !s
  | _ => false
end Ty

/-- The `arg_types` descriptor: SLJIT_ARGS0 .. SLJIT_ARGS4 (sljitLir.h:433-456). -/
def descr (ret : Nat) (args : List Ty) : Nat := ret + 16 * (args.map Ty.code).foldr (fun c n => c + 16 * n) 0

/-- The number of words, and of floats, before the n-th argument. -/
def wordsBefore (args : List Ty) (n : Nat) : Nat := (args.take n).countP Ty.word
def floatsBefore (args : List Ty) (n : Nat) : Nat := (args.take n).countP fun t => !t.word

/-- The halves which hold a value of the type in general register n, in floating point register n of a 64 bit machine. -/
def inG (n : Nat) : List Loc := [.g n false, .g n true]
def inF (t : Ty) (n : Nat) : List Loc := if t = .f32 then [.f n false] else [.f n false, .f n true]

/-- System V AMD64: words in rdi, rsi, rdx, rcx, floats in xmm0, xmm1, ... -/
def sysv (args : List Ty) (n : Nat) (t : Ty) : List Loc :=
  if t.word then inG (([7, 6, 2, 1] : List Nat).getD (wordsBefore args n) 0) else inF t (floatsBefore args n)

/-- Windows x64: the n-th argument in rcx, rdx, r8, r9 or in xmm0, xmm1, xmm2, xmm3. -/
def win64 (_ : List Ty) (n : Nat) (t : Ty) : List Loc :=
  if t.word then inG (([1, 2, 8, 9] : List Nat).getD n 0) else inF t n

/-- MIPS n64: the n-th argument in $4+n or $f12+n. -/
def n64 (_ : List Ty) (n : Nat) (t : Ty) : List Loc := if t.word then inG (4 + n) else inF t (12 + n)

/-- 64 bit PowerPC ELF: every argument takes a doubleword; words in r3+n, floats in f1, f2, ... -/
def elf64 (args : List Ty) (n : Nat) (t : Ty) : List Loc :=
  if t.word then inG (3 + n) else inF t (1 + floatsBefore args n)

/-- AAPCS with VFP registers: the s registers taken by the floats, in order.  An F32 takes the first free s register, an F64 the
first free even pair. -/
def vfp : List Ty → List Nat → List (List Nat)
  | [], _ => []
  | .f64 :: ts, used =>
    match (List.range 8).find? fun d => 2 * d ∉ used ∧ 2 * d + 1 ∉ used with
    | some d => [2 * d, 2 * d + 1] :: vfp ts (2 * d :: (2 * d + 1) :: used)
    | none => []
  | .f32 :: ts, used =>
    match (List.range 16).find? (· ∉ used) with
    | some n => [n] :: vfp ts (n :: used)
    | none => []
  | _ :: ts, used => [] :: vfp ts used

/-- Words in r0, r1, ... -/
def aapcs (args : List Ty) (n : Nat) (t : Ty) : List Loc :=
  if t.word then [.g (wordsBefore args n) false] else ((vfp args []).getD n []).map fun s => .f (s / 2) (s % 2 == 1)

/-- sljit's own places: words in R0, R1, ..., floats in FR0, FR1, ..., each in the machine register sljit has for it (as returned by
sljit_get_register_index). -/
def home (reg freg : Nat → Nat) (args : List Ty) (n : Nat) (t : Ty) : List Loc :=
  if t.word then inG (reg (1 + wordsBefore args n)) else inF t (freg (1 + floatsBefore args n))

/-- The same on ARM, whose registers have 32 bits. -/
def home32 (reg freg : Nat → Nat) (args : List Ty) (n : Nat) (t : Ty) : List Loc :=
  if t.word then [.g (reg (1 + wordsBefore args n)) false] else inF t (freg (1 + floatsBefore args n))

/-- Where a function compiled for ARM finds its arguments: SLJIT_S0, S1, ... for the words which are not to be kept in a scratch register
(`sreg k` is the machine register of the k-th). -/
def entered32 (reg freg sreg : Nat → Nat) (args : List Ty) (n : Nat) (t : Ty) : List Loc :=
  if t.saved then [.g (sreg ((args.take n).countP Ty.saved)) false] else home32 reg freg args n t

/-- The value of every argument at its place `to` in r' is the one at its place `frm` in r. -/
def Passed (args : List Ty) (frm to : List Ty → Nat → Ty → List Loc) (r r' : Regs) : Prop :=
  ∀ n t, args[n]? = some t → (to args n t).map r' = (frm args n t).map r

/-- Only the given general and floating point registers may differ. -/
def Kept (gs fs : List Nat) (r r' : Regs) : Prop :=
  (∀ n h, n ∉ gs → r' (.g n h) = r (.g n h)) ∧ ∀ n h, n ∉ fs → r' (.f n h) = r (.f n h)

/-- The value of general register n. -/
def val (r : Regs) (n : Nat) : BitVec 64 := r (.g n true) ++ r (.g n false)

end Verif.Props.C33
