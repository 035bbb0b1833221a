import Verif.Prog.Lir

/-!
# Functions which call each other (specification)

`Verif.Lir` describes a function up to a call.  Here a call runs the function which it calls on the stack below: a function has a private stack frame
around its local variables, the rest of the stack (`D` bytes below the stack pointer) belongs to the functions it calls.
-/

namespace Verif.Lir
open Verif.RV

abbrev Mem := BitVec 64 → BitVec 8

/-- What the interpreter has to know about a function: its calls, the number of saved registers, where the arguments go (`true`: the scratch register
types SLJIT_ARG_TYPE_*_R), the size of the stack frame, the place and size of the local variables inside it. -/
structure Fn where
  body : List Ins
  sav : Nat
  args : List Bool
  size : Nat
  lo : Nat
  locals : Nat

/-- What a function does when it is called: which memory it must not touch (`pr`), the stack pointer and the number of bytes below it that
the function may use, the arguments, the memory before, the result, the memory after. -/
abbrev Contract := (pr : BitVec 64 → Bool) → (sp : BitVec 64) → (D : Nat) → (vals : List Val) → (m : Mem) → (v : Option Val) → (m' : Mem) → Prop

/-- The `n` bytes at `a`. -/
def within (a : BitVec 64) (n : Nat) (q : BitVec 64) : Bool := decide ((q - a).toNat < n)

/-- The local variables of a function whose stack pointer is `sp`. -/
def Fn.local (f : Fn) (sp q : BitVec 64) : Bool := within (sp + BitVec.ofNat 64 f.lo) f.locals q

/-- What a function must not touch, given what its caller must not touch: it gets its local variables. -/
def Fn.hidden (f : Fn) (pr : BitVec 64 → Bool) (sp q : BitVec 64) : Bool := pr q && !f.local sp q

/-- The register that holds the n-th argument when the body starts (sljitLir.h:380-410): S0, S1, …, or the scratch register with its number. -/
def argReg (args : List Bool) (n : Nat) : Nat := if args[n]?.getD false then 1 + n else 23 - (args.take n).count false

/-- The state in which the body starts, `sp` being the stack pointer of the function. -/
def Fn.start (f : Fn) (vals : List Val) (sp : BitVec 64) (m : Mem) : LSt where
  reg r := if r = 24 then some (.w (sp + BitVec.ofNat 64 f.lo))
    else ((List.range f.args.length).find? fun n => argReg f.args n == r).bind (vals[·]?)
  mem := m
  z := none
  v := none

/-- The arguments of a call, from register `r` on. -/
def argVals (l : LSt) : Nat → List Bool → Option (List Val)
  | _, [] => some []
  | r, b :: bs => ((l.reg r).bind (Val.get b)).bind fun x => (argVals l (r + 1) bs).map (Val.of b x :: ·)

/-- The result of a call. -/
def retVal : Option Bool → Option Val → Option (Option Val)
  | none, _ => some none
  | some b, v => (v.bind (Val.get b)).map fun x => some (Val.of b x)

/-- The address of the function which is called; `env` are the addresses of the functions of the compiler. -/
def Callee.addr (pr : BitVec 64 → Bool) (env : Nat → BitVec 64) (l : LSt) : Callee → Option (BitVec 64)
  | .fn f => some (env f)
  | .opd src => read pr false l src

/-- After a call: the result is in SLJIT_R0, the other scratch registers and the flags are undefined, the saved registers and SLJIT_SP keep their values. -/
def LSt.back (l : LSt) (sav : Nat) (o : Option Val) (m : Mem) : LSt where
  reg r := if r = 1 then o else if 24 ≤ r + sav then l.reg r else none
  mem := m
  z := none
  v := none

/-- One call of a function body; `X` says what the function at an address does; `sp` is the stack pointer inside the function, `D` the size of the stack below,
`slot` the number of bytes that a call instruction puts on the stack. -/
inductive CStep (X : BitVec 64 → Contract) (env : Nat → BitVec 64) (slot : Nat) (f : Fn) (pr : BitVec 64 → Bool) (sp : BitVec 64) (D : Nat) : Conf → Conf → Prop
  | plain {k k'} (h : step pr f.body k = some k') : CStep X env slot f pr sp D k k'
  | call {args ret rew who rest l a vals v m' o} (ha : who.addr pr env l = some a) (hv : argVals l 1 args = some vals) (hD : slot ≤ D)
      (hX : X a pr (sp - BitVec.ofNat 64 slot) (D - slot) vals l.mem v m') (ho : retVal ret v = some o) :
      CStep X env slot f pr sp D (.run (.call args ret rew who :: rest) l) (.run rest (l.back f.sav o m'))

/-- Any number of them. -/
inductive CSteps (X : BitVec 64 → Contract) (env : Nat → BitVec 64) (slot : Nat) (f : Fn) (pr : BitVec 64 → Bool) (sp : BitVec 64) (D : Nat) : Conf → Conf → Prop
  | refl (c) : CSteps X env slot f pr sp D c c
  | step {a b c} (h : CStep X env slot f pr sp D a b) (t : CSteps X env slot f pr sp D b c) : CSteps X env slot f pr sp D a c

/-- What the function `f` does, provided that the functions it calls do what `X` says: there is room for its stack frame, and its body, started with the arguments,
returns the value.  The local variables may have any contents at the start; memory is compared where the caller can see it. -/
def Fn.does (f : Fn) (X : BitVec 64 → Contract) (env : Nat → BitVec 64) (slot : Nat) : Contract := fun pr sp D vals m v m' =>
  f.size ≤ D ∧ ∀ g : Mem, (∀ q, f.local (sp - BitVec.ofNat 64 f.size) q = false → g q = m q) →
    ∃ m'', CSteps X env slot f (f.hidden pr (sp - BitVec.ofNat 64 f.size)) (sp - BitVec.ofNat 64 f.size) (D - f.size)
      (.run f.body (f.start vals (sp - BitVec.ofNat 64 f.size) g)) (.done v m'') ∧ ∀ q, pr q = false → m'' q = m' q

/-- What the function at an address does, when calls are nested to a depth of at most `n`: the functions `fs` are at the addresses `env`, other functions do what
`ext` says. -/
def does (fs : List Fn) (env : Nat → BitVec 64) (slot : Nat) (ext : BitVec 64 → Contract) : Nat → BitVec 64 → Contract
  | 0, a => ext a
  | n + 1, a => fun pr sp D vals m v m' => ext a pr sp D vals m v m' ∨
      ∃ i f, fs[i]? = some f ∧ env i = a ∧ f.does (does fs env slot ext n) env slot pr sp D vals m v m'

end Verif.Lir
