import Verif.Prog.CallLemmas
import Verif.Props.C48

/-!
# Calls of functions (RV64)
-/

namespace Verif.Lir
open Verif.RV Verif.Props Verif.Props.Rv

/-! ## The calling convention -/

/-- A function has returned to its caller: it is at the return address (ra at entry), with the value in a0, the stack pointer and the callee saved registers s0-s11 and
fs0-fs11 as at entry (`s0`); memory outside of `pr` is `m`, memory inside of `pr` has not changed but for the `D` bytes below the stack pointer. -/
structure Returned (pr : BitVec 64 → Bool) (D : Nat) (s0 : St) (v : Option Val) (m : Mem) (s : St) : Prop where
  pc : s.pc = s0.rd 1#5 &&& ~~~1#64
  value : ∀ u, v = some u → s.rd 10#5 = rep u
  sp : s.rd 2#5 = s0.rd 2#5
  saved : ∀ q ∈ C30.calleeSaved, s.rd q = s0.rd q
  fsaved : ∀ q ∈ C30.calleeSaved, s.f q = s0.f q
  mem : ∀ q, pr q = false → s.mem q = m q
  keep : ∀ q, pr q = true → within (s0.rd 2#5 - BitVec.ofNat 64 D) D q = false → s.mem q = s0.mem q

/-- The machine code at the address `a` does what the contract says, for a caller which follows the calling convention: arguments in a0-a3 (32 bit ones sign
extended), the return address in ra, `D` bytes below the stack pointer which nobody else uses.  JALR clears the lowest bit of an address. -/
def Realises (code : Code) (a : BitVec 64) (X : Contract) : Prop := ∀ (s0 : St) (pr : BitVec 64 → Bool) (D : Nat) (vals : List Val) (m : Mem) (v : Option Val) (m' : Mem),
  s0.pc = a &&& ~~~1#64 → D < 2 ^ 64 → (∀ q, within (s0.rd 2#5 - BitVec.ofNat 64 D) D q = true → pr q = true) →
  (∀ n u, n < 4 → vals[n]? = some u → s0.rd (BitVec.ofNat 5 (10 + n)) = rep u) → (∀ q, pr q = false → s0.mem q = m q) →
  X pr (s0.rd 2#5) D vals m v m' → ∃ s, RV.Steps code s0 s ∧ Returned pr D s0 v m' s

/-! ## Addresses are even -/

theorem even_and {a : BitVec 64} (h : a.toNat % 2 = 0) : a &&& ~~~1#64 = a := by
  apply BitVec.eq_of_getLsbD_eq
  intro i hi
  by_cases h0 : i = 0
  · subst h0
    have : a.getLsbD 0 = false := by
      rw [BitVec.getLsbD, Nat.testBit_zero]; simp [h]
    rw [BitVec.getLsbD_and, this]; rfl
  · rw [BitVec.getLsbD_and, BitVec.getLsbD_not, BitVec.getLsbD_one]
    simp [hi, h0]

theorem even_of_and {a : BitVec 64} (h : a &&& 1#64 = 0#64) : a &&& ~~~1#64 = a := by
  refine even_and ?_
  have := congrArg BitVec.toNat h
  rw [BitVec.toNat_and] at this
  simpa [Nat.and_one_is_mod] using this

theorem placed_even {code : Code} {off : BitVec 64} {laddr : List (BitVec 64)} {fin : BitVec 64} (hf : fin.toNat % 2 = 0) :
    ∀ {is : List Item} {a : BitVec 64} {li : Nat} {ca : List (BitVec 64)}, (∀ al, .alabel al ∉ is) → Placed code off laddr is a li ca fin → a.toNat % 2 = 0 := by
  have back : ∀ {a : BitVec 64} {n : Nat}, (a + BitVec.ofNat 64 (2 * n)).toNat % 2 = 0 → a.toNat % 2 = 0 := by
    intro a n h
    rw [BitVec.toNat_add, BitVec.toNat_ofNat] at h
    omega
  intro is
  induction is with
  | nil => rintro a li ca - ⟨rfl, -⟩; exact hf
  | cons i is ih =>
    intro a li ca hal h
    have hal' : ∀ al, Item.alabel al ∉ is := fun al h => hal al (List.mem_cons_of_mem _ h)
    cases i with
    | code hs => exact back (ih hal' h.2)
    | const hs => obtain ⟨-, ca', -, h⟩ := h; exact back (ih hal' h)
    | label => exact ih hal' h.2
    | alabel al => exact absurd List.mem_cons_self (hal al)
    | jump j => obtain ⟨n, -, -, h⟩ := h; exact back (ih hal' h)
    | mov r t => obtain ⟨n, -, h⟩ := h; exact back (ih hal' h)

variable {cfg : Cfg} {p : Frame} {P : List Ins} {L : Loc} {s0 s1 s : St}

/-! ## The call instruction -/

/-- The machine is at the function which is called. -/
structure Called (cfg : Cfg) (p : Frame) (L : Loc) (pre rest : List Ins) (mul : Bool) (a : BitVec 64) (s s' : St) : Prop where
  steps : RV.Steps L.code s s'
  pc : s'.pc = a &&& ~~~1#64
  keep : ∀ q, q ≠ 6#5 → q ≠ 7#5 → q ≠ 1#5 → s'.rd q = s.rd q
  m : s'.mem = s.mem
  f : s'.f = s.f
  ret : L.has (comp L.u cfg p mul rest) (s'.rd 1#5) (nlab pre)

/-- A call through a jump record. -/
theorem called_jump {pre rest : List Ins} {mul rew : Bool} {tg : Tgt} (he : tgtOf L.laddr tg &&& ~~~1#64 = tgtOf L.laddr tg)
    (h : L.has (Item.jump ⟨.none, rew, true, tg⟩ :: comp L.u cfg p mul rest) s.pc (nlab pre)) : ∃ s', Called cfg p L pre rest mul (tgtOf L.laddr tg) s s' := by
  obtain ⟨ca, n, hj, -, hnext⟩ := h
  obtain ⟨s', g1, g2, g3, g4, g5, g6⟩ := hj s rfl
  refine ⟨s', g1, by rw [he]; exact g2, fun q h1 h2 h3 => g4 q h1 h2 fun _ => h3, g5, g6, ca, ?_⟩
  rw [g3 rfl]; exact hnext

/-- A call through a register, after some instructions. -/
theorem called_reg {pre rest : List Ins} {mul : Bool} {e : Emit} {r : Nat} {s' : St} {a : BitVec 64} (hr : regMap r ≠ 0#5)
    (h : L.has (Item.code (e ++ ijumpReg cfg true r) :: comp L.u cfg p mul rest) s.pc (nlab pre)) (hs : run e s = some s')
    (hk : ∀ q, q ≠ 6#5 → q ≠ 7#5 → s'.rd q = s.rd q) (hm : s'.mem = s.mem) (hf : s'.f = s.f) (ha : s'.rd (regMap r) = a) :
    ∃ s', Called cfg p L pre rest mul a s s' := by
  obtain ⟨ca, h1, h2⟩ := h
  rw [CodeAt_append, ← run_pc hs] at h1
  have hst := step_ijump hr h1.2
  refine ⟨_, (steps_of_run h1.1 hs).trans (.step hst (.refl _)), ?_, fun q q6 q7 q1 => ?_, hm, hf, ca, ?_⟩
  · show s'.rd (regMap r) &&& _ = _
    rw [ha]
  · show (s'.wr 1#5 _).rd q = _
    rw [rd_wr, ← hk q q6 q7]
    split
    · next h0 => rw [h0]; rfl
    · first | rfl | rw [if_neg q1]
  · show Placed _ _ _ _ ((s'.wr 1#5 _).rd 1#5) _ _ _
    rw [rd_wr, if_neg (by decide), if_pos rfl, run_pc hs, BitVec.add_assoc, ← BitVec.ofNat_add, ← Nat.mul_add, ← List.length_append]
    exact h2

theorem call_ok (hA : At cfg p P L s0 s1) {as : List Bool} {ret : Option Bool} {rew : Bool} {who : Callee} {pre rest : List Ins} {l : LSt} {mul : Bool}
    (hP : P = pre ++ .call as ret rew who :: rest) (hpl : L.has (comp L.u cfg p mul (.call as ret rew who :: rest)) s.pc (nlab pre)) (hi : Inv p s1 l s)
    {env : Nat → BitVec 64} (henv : ∀ f, env f = tgtOf L.laddr (L.u.fn f)) (heven : ∀ f, env f &&& ~~~1#64 = env f) {a : BitVec 64}
    (ha : who.addr (priv p (s1.rd 2#5)) env l = some a) : ∃ s', Called cfg p L pre rest mul a s s' := by
  have hok := hA.ins (.call as ret rew who) (by rw [hP]; exact List.mem_append_right _ List.mem_cons_self)
  cases who with
  | fn f =>
    rw [show a = tgtOf L.laddr (L.u.fn f) by rw [← henv]; exact (Option.some.inj ha).symm]
    exact called_jump (by rw [← henv]; exact heven f) hpl
  | opd src =>
    obtain ⟨-, hs, hne, hv⟩ := hok
    obtain ⟨r1, -, -⟩ := read_ok hi hs ha
    have hval : value false s src = a := by rw [← r1]; exact (BitVec.setWidth_eq _).symm
    cases src with
    | reg r =>
      refine called_reg (e := []) ?_ hpl rfl (fun _ _ _ => rfl) rfl rfl hval
      have : ∀ r, 1 ≤ r → r ≤ 24 → regMap r ≠ 0#5 := by decide +kernel
      exact this r hs.1 hs.2
    | imm v =>
      have : a = v := hval.symm
      subst this
      exact called_jump (tg := .addr a) (even_of_and (hv a rfl).1) hpl
    | mem b i w =>
      obtain ⟨s', g1, g2, g3, g4, g5, -⟩ := C30.target (cfg := cfg) (p := p) (src := .mem b i w) hs s
      exact called_reg (e := (targetReg cfg p (.mem b i w)).1) (r := TMP_REG1) (by decide) hpl g1 g4 g2 g3 (g5.trans hval)

end Verif.Lir
