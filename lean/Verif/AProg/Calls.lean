import Verif.Prog.CallLemmas
import Verif.Props.C55

/-!
# Calls of functions (ARM64)
-/

namespace Verif.ALir
open Verif.A64 hiding cond moved DstOk
open Verif.Props
open Verif.Imm.Arm64 (regMap)
open Verif.Lir (Val wd nlab nlab_snoc Contract within Fn Mem)
open Verif.XLir (Holds)

/-! ## The calling convention -/

/-- A function has returned to its caller: it is at the return address (x30 at entry), with the value in x0, the stack pointer, the frame pointer and the callee saved
registers x19-x28 and d8-d15 as at entry (`m0`); memory outside of `pr` is `m`, memory inside of `pr` has not changed but for the `D` bytes below the stack pointer. -/
structure Returned (pr : BitVec 64 → Bool) (D : Nat) (m0 : MSt) (v : Option Val) (m : Mem) (t : PSt) : Prop where
  pc : t.pc = m0.s.r 30#5
  value : ∀ u, v = some u → Holds u (t.s.r 0#5)
  sp : t.s.r 31#5 = m0.s.r 31#5
  fp : t.s.r 29#5 = m0.s.r 29#5
  saved : ∀ j, 19 ≤ j → j ≤ 28 → t.s.r (BitVec.ofNat 5 j) = m0.s.r (BitVec.ofNat 5 j)
  vsaved : ∀ j, 8 ≤ j → j ≤ 15 → t.v (BitVec.ofNat 5 j) = m0.v (BitVec.ofNat 5 j)
  mem : ∀ q, pr q = false → t.s.m q = m q
  keep : ∀ q, pr q = true → within (m0.s.r 31#5 - BitVec.ofNat 64 D) D q = false → t.s.m q = m0.s.m q

/-- The machine code at the address `a` does what the contract says, for a caller which follows the calling convention: arguments in x0-x3, the return address in x30,
the stack pointer aligned, `D` bytes below the stack pointer which nobody else uses. -/
def Realises (c : IMem) (a : BitVec 64) (X : Contract) : Prop := ∀ (m0 : MSt) (pr : BitVec 64 → Bool) (D : Nat) (vals : List Val) (m : Mem) (v : Option Val) (m' : Mem),
  C54.Aligned m0 → D < 2 ^ 64 → (∀ q, within (m0.s.r 31#5 - BitVec.ofNat 64 D) D q = true → pr q = true) →
  (∀ n u, n < 4 → vals[n]? = some u → Holds u (m0.s.r (BitVec.ofNat 5 n))) → (∀ q, pr q = false → m0.s.m q = m q) →
  X pr (m0.s.r 31#5) D vals m v m' → ∃ t, PSteps c ⟨m0.s, m0.v, a⟩ t ∧ Returned pr D m0 v m' t

variable {p : Frame} {args : List Bool} {P : List Lir.Ins} {L : Loc} {m0 m1 : MSt} {t : PSt}

/-! ## The call instruction -/

theorem ctl_blr {r : Nat} (h : r ≤ 28) : ctl (BLR ||| Verif.Imm.Arm64.RN r) = some (.br true (regMap r)) := by
  have key : ∀ r, r ≤ 28 → ctl (BLR ||| Verif.Imm.Arm64.RN r) = some (.br true (regMap r)) := by decide +kernel
  exact key r h

/-- The machine is at the function which is called. -/
structure Called (p : Frame) (L : Loc) (pre rest : List Lir.Ins) (st : FState) (a : BitVec 64) (t t' : PSt) : Prop where
  steps : PSteps L.c t t'
  pc : t'.pc = a
  keep : ∀ q, q ≠ 9#5 → q ≠ 10#5 → q ≠ 30#5 → t'.s.r q = t.s.r q
  m : t'.s.m = t.s.m
  v : t'.v = t.v
  ret : L.has (compT L.u p st rest) (t'.s.r 30#5) (nlab pre)

/-- A call through a jump record. -/
theorem called_jump {pre rest : List Lir.Ins} {st : FState} {rew : Bool} {tg : Tgt}
    (h : L.has (Item.jump ⟨none, true, rew, tg⟩ :: compT L.u p st rest) t.pc (nlab pre)) : ∃ t', Called p L pre rest st (tgtOf L.laddr tg) t t' := by
  obtain ⟨ca, ja, n, x, ja', -, hj, -, hnext⟩ := h
  have hj := hj t rfl
  rw [JumpDoes, if_pos rfl] at hj
  obtain ⟨t', g1, g2, g3, g4, -, g6, g7⟩ := hj
  refine ⟨t', g1, g2, fun q h1 h2 h3 => g3 q ?_, g4, g6, ca, ja', ?_⟩
  · simp only [List.mem_cons, List.not_mem_nil, or_false, not_or]; exact ⟨h2, h3⟩
  · rw [g7]; exact hnext

/-- A call through a register, after some instructions. -/
theorem called_reg {pre rest : List Lir.Ins} {st : FState} {ws : List (BitVec 32)} {r : Nat} {s' : St} {a : BitVec 64} (hr : r ≤ 28) (hr1 : 1 ≤ r)
    (h : L.has (Item.code (ws ++ [BLR ||| Verif.Imm.Arm64.RN r]) :: compT L.u p st rest) t.pc (nlab pre)) (hs : runs ws t.s = some s')
    (hk : ∀ q, q ≠ 9#5 → s'.r q = t.s.r q) (hm : s'.m = t.s.m) (ha : s'.r (regMap r) = a) (h31 : regMap r ≠ 31#5) : ∃ t', Called p L pre rest st a t t' := by
  obtain ⟨ca, ja, h1, h2⟩ := h
  obtain ⟨w1, w2⟩ := (WordsAt.append ws _ t.pc).mp h1
  have q1 := psteps_runs ws (p := t) w1 hs
  have q2 := pstep_ctl (c := L.c) (p := { t with s := s', pc := t.pc + BitVec.ofNat 64 (4 * ws.length) }) w2.1 (ctl_blr hr)
  refine ⟨_, q1.trans (.one q2), ?_, ?_, ?_, rfl, ca, ja, ?_⟩
  · show s'.x (regMap r) = a
    rw [x_ne h31, ha]
  · intro q h1 h2 h3
    show (s'.setX 30#5 _).r q = _
    rw [setX_ne _ _ (by decide), set_ne _ _ h3, hk q h1]
  · show (s'.setX 30#5 _).m = _
    rw [setX_ne _ _ (by decide)]; exact hm
  · have e : ({ t with s := s', pc := t.pc + BitVec.ofNat 64 (4 * ws.length) } : PSt).pc + 4#64 = t.pc + BitVec.ofNat 64 (4 * (ws ++ [BLR ||| Verif.Imm.Arm64.RN r]).length) := by
      rw [List.length_append, List.length_singleton, Nat.mul_add, BitVec.ofNat_add, ← BitVec.add_assoc]
    show Placed _ _ _ _ _ ((s'.setX 30#5 _).r 30#5) _ _ _ _
    rw [setX_ne _ _ (by decide), set_self, e]
    exact h2

theorem call_ok (hA : At p args P L m0 m1) {as : List Bool} {ret : Option Bool} {rew : Bool} {who : Lir.Callee} {pre rest : List Lir.Ins} {l : Lir.LSt}
    (hP : P = pre ++ .call as ret rew who :: rest)
    (hpl : L.has (compT L.u p (stOf p L.st0 pre) (.call as ret rew who :: rest)) t.pc (nlab pre)) (hi : Inv p p.total m1 l t.s)
    {env : Nat → BitVec 64} (henv : ∀ f, env f = tgtOf L.laddr (L.u.fn f)) {a : BitVec 64}
    (ha : who.addr (priv p p.total (m1.s.r 31#5)) env l = some a) : ∃ t', Called p L pre rest (stOf p L.st0 pre) a t t' := by
  have hok : InsOk p (stOf p L.st0 pre) (.call as ret rew who) := AllOk.mid pre (by have := hA.ins; rwa [hP] at this)
  cases who with
  | fn f =>
    rw [show a = tgtOf L.laddr (L.u.fn f) by rw [← henv]; exact (Option.some.inj ha).symm]
    exact called_jump hpl
  | opd src =>
    obtain ⟨-, -, hs, -⟩ := hok
    have hv := read64_ok hA.regs hi hs ha
    have hus := ao_src hA.regs hs
    have hpl : L.has ((emitIcall (ao p src)).getD [] ++ compT L.u p (stOf p L.st0 pre) rest) t.pc (nlab pre) := hpl
    cases ho : ao p src with
    | reg r =>
      rw [ho] at hus hpl hv
      exact called_reg (ws := []) (by have := hus.2; omega) hus.1 hpl rfl (fun _ _ => rfl) rfl hv (ur_map (r := r) ⟨hus.1, hus.2⟩).2.2.2
    | imm v =>
      rw [ho] at hpl hv
      rw [← hv]
      exact called_jump hpl
    | mem b i w =>
      rw [ho] at hus hpl hv
      obtain ⟨ws, s', e1, e2, e3, e4⟩ := load_run (t := ⟨3, false, false⟩) (by decide) (fun _ => rfl) rfl (C47.src_usr hus) (Or.inl rfl) t.s
      simp only [emitIcall, e1, Option.map_some, Option.getD_some] at hpl
      refine called_reg (by decide) (by decide) hpl e2 (fun q hq => e3.keep q ?_) e3.m ?_ (by decide)
      · rw [show regMap TMP_REG1 = 9#5 from by decide]; exact hq
      · rw [e4, ← hv]
        rfl

end Verif.ALir
