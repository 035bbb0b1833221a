import Verif.RISCV.LoadAddrProof
import Verif.Props.C15

/-!
# C16, C17: rewritable constants and jumps (RV64)
-/

namespace Verif.Props
open Verif.RV

/-- What the destination register has to hold after a constant of each kind (sljitLir.h:2390-2399): SLJIT_MOV_U8 carries a
9 bit signed value, the 32 bit kinds a 32 bit signed value, SLJIT_MOV the whole word. -/
def constVal : ConstOp → BitVec 64 → BitVec 64
  | .u8, v => (v.setWidth 9).signExtend 64
  | .mov32, v | .s32, v => (v.setWidth 32).signExtend 64
  | .mov, v => v

/-- In the documented range the value arrives unchanged. -/
theorem constVal_u8 (v : BitVec 64) (h1 : -256 ≤ v.toInt) (h2 : v.toInt ≤ 255) : constVal .u8 v = v := by
  apply BitVec.eq_of_toInt_eq
  rw [constVal, BitVec.toInt_signExtend_of_le (by decide), BitVec.toInt_eq_toNat_cond]
  rw [BitVec.toInt_eq_toNat_cond] at *
  simp only [BitVec.toNat_setWidth]
  omega
theorem constVal_32 (op : ConstOp) (ho : op = .mov32 ∨ op = .s32) (v : BitVec 64) (h1 : -2147483648 ≤ v.toInt)
    (h2 : v.toInt ≤ 2147483647) : constVal op v = v := by
  have : constVal op v = (v.setWidth 32).signExtend 64 := by rcases ho with rfl | rfl <;> rfl
  rw [this]
  apply BitVec.eq_of_toInt_eq
  rw [BitVec.toInt_signExtend_of_le (by decide), BitVec.toInt_eq_toNat_cond]
  rw [BitVec.toInt_eq_toNat_cond] at *
  simp only [BitVec.toNat_setWidth]
  omega

/-- Registers a constant is loaded to: user registers and TMP_REG2 (for memory destinations). -/
def ConstTarget (r : Nat) : Prop := (1 ≤ r ∧ r ≤ 23) ∨ r = 26

theorem ConstTarget.phys {r : Nat} (h : ConstTarget r) : regMap r ≠ 0#5 ∧ regMap r ≠ 7#5 := by
  unfold ConstTarget at h
  have : r < 30 := by omega
  interval_cases r <;> first | (exfalso; omega) | decide

/-- **C16 (initial value).** The code of sljit_emit_const loads the initial value and writes only the destination and the
scratch register x7 (TMP_REG3). -/
theorem c16_emit_const (op : ConstOp) (dst : Nat) (v : BitVec 64) (s : St) (hd : ConstTarget dst) :
    ∃ s', run (emitConstReg op dst v) s = some s' ∧ s'.rd (regMap dst) = constVal op v ∧
      (∀ r, r ≠ regMap dst → r ≠ 7#5 → s'.rd r = s.rd r) ∧ s'.mem = s.mem ∧ s'.f = s.f := by
  have fin : ∀ {W : List Reg}, Loads (emitConstReg op dst v) dst W (constVal op v) → (∀ r ∈ W, r = regMap dst ∨ r = 7#5) →
      ∃ s', run (emitConstReg op dst v) s = some s' ∧ s'.rd (regMap dst) = constVal op v ∧
      (∀ r, r ≠ regMap dst → r ≠ 7#5 → s'.rd r = s.rd r) ∧ s'.mem = s.mem ∧ s'.f = s.f := by
    intro W h hW
    obtain ⟨s', r, e, k⟩ := h s
    exact ⟨s', r, e, fun q h1 h2 => k.reg q (fun hm => (hW q hm).elim h1 h2), k.mem, k.f⟩
  cases op with
  | u8 => exact fin (u8_ok dst v hd.phys.1) (by simp)
  | mov32 => exact fin (c32_ok _ (Or.inl rfl) dst v hd.phys.1) (by simp)
  | s32 => exact fin (c32_ok _ (Or.inr rfl) dst v hd.phys.1) (by simp)
  | mov => exact fin (emitConst_ok dst v hd.phys.1 hd.phys.2) (by simp)

/-- **C16 (rewriting).** Start from any memory holding, at `addr`, the code sljit_emit_const produced for the initial
value, and apply sljit_set_const any number of times.  No assertion fails, no half word outside the sequence changes, and
the code at `addr` - fetched through the executable mapping at any offset - now loads the last value written, with the same
side effects as before. -/
theorem c16_set_const (op : ConstOp) (dst : Nat) (v : BitVec 64) (ks : List (BitVec 64)) (m : Code) (addr off : BitVec 64)
    (hd : ConstTarget dst) (hc : CodeAt m addr (emitConstReg op dst v)) :
    ∃ m', rewrites m op addr ks = some m' ∧
      (∀ a, (∀ i, i < (emitConstReg op dst v).length → a ≠ addr + BitVec.ofNat 64 (2 * i)) → m' a = m a) ∧
      ∀ s, s.pc = addr + off → ∃ s', Steps (view m' off) s s' ∧
        s'.pc = addr + off + BitVec.ofNat 64 (2 * (emitConstReg op dst v).length) ∧
        s'.rd (regMap dst) = constVal op (ks.getLast?.getD v) ∧
        (∀ r, r ≠ regMap dst → r ≠ 7#5 → s'.rd r = s.rd r) ∧ s'.mem = s.mem ∧ s'.f = s.f := by
  have hlen : ∀ w, (emitConstReg op dst w).length = constLen op := by intro w; cases op <;> rfl
  suffices h : ∀ (ks : List (BitVec 64)) (v : BitVec 64) (m : Code), CodeAt m addr (emitConstReg op dst v) →
      ∃ m', rewrites m op addr ks = some m' ∧ CodeAt m' addr (emitConstReg op dst (ks.getLast?.getD v)) ∧
      ∀ a, (∀ i, i < constLen op → a ≠ addr + BitVec.ofNat 64 (2 * i)) → m' a = m a by
    obtain ⟨m', h1, h2, h3⟩ := h ks v m hc
    refine ⟨m', h1, by rw [hlen]; exact h3, ?_⟩
    intro s hs
    obtain ⟨s', r, e, k⟩ := c16_emit_const op dst (ks.getLast?.getD v) s hd
    have hview := fun l a => view_codeAt m' off l a
    refine ⟨s', steps_of_run (by rw [hs]; exact hview _ _ h2) r, ?_, e, k⟩
    rw [run_pc r, hs, hlen, hlen]
  intro ks
  induction ks with
  | nil => intro v m hc; exact ⟨m, rfl, hc, fun _ _ => rfl⟩
  | cons k ks ih =>
    intro v m hc
    obtain ⟨m1, h1, h2, h3⟩ := setConst_ok m op addr v k dst hc
    obtain ⟨m2, g1, g2, g3⟩ := ih k m1 h2
    refine ⟨m2, by rw [rewrites, h1]; exact g1, ?_, fun a ha => (g3 a ha).trans (h3 a ha)⟩
    have : (k :: ks).getLast?.getD v = ks.getLast?.getD k := by
      cases ks with
      | nil => rfl
      | cons x xs => rw [List.getLast?_cons_cons, List.getLast?_cons, Option.getD_some, Option.getD_some]
    rw [this]; exact g2

/-- Rewriting jump targets any number of times. -/
def jumpRewrites (m : Code) (addr : BitVec 64) : List (BitVec 64) → Option Code
  | [] => some m
  | k :: ks => (setJumpAddr m addr k).bind fun m' => jumpRewrites m' addr ks

/-- A rewritable jump is generated as the full length sequence, which is the sequence sljit_set_jump_addr expects. -/
theorem rewritable_words (u : Use) (hu : u = .jump ∨ u = .call) (t pc : BitVec 64) :
    loadAddr .full u t pc = emitConst TMP_REG1 t (JALR ||| RD (if u = .call then RETURN_ADDR_REG else TMP_ZERO)) := by
  rcases hu with rfl | rfl
  · show _ ++ w32 (lastIns .jump (adj12 t)) = _
    rw [lastIns_jump]; rfl
  · show _ ++ w32 (lastIns .call (adj12 t)) = _
    rw [lastIns_call]; rfl

/-- **C17.** Start from any memory holding, at `addr`, the 24 byte sequence sljit_generate_code writes for a rewritable jump
or call (`loadAddr .full`, the only form used for SLJIT_REWRITABLE_JUMP), and set its target any number of times.  No
assertion fails, no half word outside the 12 half words changes, and executing it transfers control to exactly the last
target (targets of jumps are even), changing only x6, x7 and, for calls, the return address register x1, which gets
the address of the instruction after the sequence. -/
theorem c17_set_jump_addr (u : Use) (hu : u = .jump ∨ u = .call) (t pc : BitVec 64) (ts : List (BitVec 64)) (m : Code)
    (addr off : BitVec 64) (hc : CodeAt m addr (loadAddr .full u t pc)) :
    ∃ m', jumpRewrites m addr ts = some m' ∧
      (∀ a, (∀ i, i < 12 → a ≠ addr + BitVec.ofNat 64 (2 * i)) → m' a = m a) ∧
      ∀ s, s.pc = addr + off → (ts.getLast?.getD t).getLsbD 0 = false →
        ∃ s', Steps (view m' off) s s' ∧ s'.pc = ts.getLast?.getD t ∧
        (u = .call → s'.rd 1#5 = addr + off + 24#64) ∧
        (∀ r, r ≠ 6#5 → r ≠ 7#5 → (u = .call → r ≠ 1#5) → s'.rd r = s.rd r) ∧ s'.mem = s.mem ∧ s'.f = s.f := by
  suffices h : ∀ (ts : List (BitVec 64)) (t : BitVec 64) (m : Code), CodeAt m addr (loadAddr .full u t pc) →
      ∃ m', jumpRewrites m addr ts = some m' ∧ CodeAt m' addr (loadAddr .full u (ts.getLast?.getD t) pc) ∧
      ∀ a, (∀ i, i < 12 → a ≠ addr + BitVec.ofNat 64 (2 * i)) → m' a = m a by
    obtain ⟨m', h1, h2, h3⟩ := h ts t m hc
    refine ⟨m', h1, h3, ?_⟩
    intro s hs heven
    have hview := fun l a => view_codeAt m' off l a
    have h2' := hview _ _ h2
    have hpcs : ∀ x y, loadAddr .full u (ts.getLast?.getD t) x = loadAddr .full u (ts.getLast?.getD t) y := fun _ _ => rfl
    rw [hpcs pc (addr + off)] at h2'
    obtain ⟨s', r1, r2, r3, r4⟩ := loadAddr_jump .full u hu (ts.getLast?.getD t) (addr + off) (view m' off) s hs trivial
      (by rw [hs]; exact h2')
    refine ⟨s', r1, ?_, ?_, r4⟩
    · rw [r2]
      apply BitVec.eq_of_getLsbD_eq
      intro k hk
      have : (~~~1#64 : BitVec 64).getLsbD k = decide (k ≠ 0) := by interval_cases k <;> decide
      rw [BitVec.getLsbD_and, this]
      by_cases h0 : k = 0
      · subst h0; rw [heven]; rfl
      · simp [h0]
    · exact r3
  intro ts
  induction ts with
  | nil => intro t m hc; exact ⟨m, rfl, hc, fun _ _ => rfl⟩
  | cons k ts ih =>
    intro t m hc
    rw [rewritable_words u hu] at hc
    obtain ⟨m1, h1, h2, h3⟩ := setJumpAddr_ok m addr t k TMP_REG1 _ ⟨_, Or.inr rfl⟩ hc
    rw [← rewritable_words u hu k pc] at h2
    obtain ⟨m2, g1, g2, g3⟩ := ih k m1 h2
    refine ⟨m2, by rw [jumpRewrites, h1]; exact g1, ?_, fun a ha => (g3 a ha).trans (h3 a ha)⟩
    have : (k :: ts).getLast?.getD t = ts.getLast?.getD k := by
      cases ts with
      | nil => rfl
      | cons x xs => rw [List.getLast?_cons_cons, List.getLast?_cons, Option.getD_some, Option.getD_some]
    rw [this]; exact g2

/-- Instruction memory containing a sequence at address 0x1000. -/
def codeMem (l : List (BitVec 16)) : Code := fun a =>
  if 0x1000#64 ≤ a then l.getD ((a - 0x1000#64).toNat / 2) 0#16 else 0#16

/-- Non-vacuity: a memory which holds a constant sequence for SLJIT_R1 (x11), rewritten twice. -/
example : ∃ m', rewrites (codeMem (emitConstReg .mov 2 0x123456789abcd7ff#64)) .mov 0x1000#64
      [5#64, 0xdeadbeef80000fff#64] = some m' ∧
    ∃ s', Steps (view m' 0x70000#64) ⟨fun _ => 0#64, fun _ => 0#64, fun _ => 0#8, 0x71000#64⟩ s' ∧
      s'.rd 11#5 = 0xdeadbeef80000fff#64 := by
  obtain ⟨m', h1, _, h3⟩ := c16_set_const .mov 2 0x123456789abcd7ff#64 [5#64, 0xdeadbeef80000fff#64]
    (codeMem (emitConstReg .mov 2 0x123456789abcd7ff#64)) 0x1000#64 0x70000#64 (Or.inl (by decide))
    (by refine ⟨?_, ?_, ?_, ?_, ?_, ?_, ?_, ?_, ?_, ?_, ?_, ?_, trivial⟩ <;> decide)
  obtain ⟨s', r1, _, r3, _⟩ := h3 ⟨fun _ => 0#64, fun _ => 0#64, fun _ => 0#8, 0x71000#64⟩ rfl
  exact ⟨m', h1, s', r1, r3⟩

/-- Non-vacuity: a rewritable call whose target is changed. -/
example : ∃ m', jumpRewrites (codeMem (loadAddr .full .call 0x4444#64 0#64)) 0x1000#64 [0x7fff12345678#64] = some m' ∧
    ∃ s', Steps (view m' 0#64) ⟨fun _ => 0#64, fun _ => 0#64, fun _ => 0#8, 0x1000#64⟩ s' ∧ s'.pc = 0x7fff12345678#64 ∧
      s'.rd 1#5 = 0x1018#64 := by
  obtain ⟨m', h1, _, h3⟩ := c17_set_jump_addr .call (Or.inr rfl) 0x4444#64 0#64 [0x7fff12345678#64]
    (codeMem (loadAddr .full .call 0x4444#64 0#64)) 0x1000#64 0#64
    (by refine ⟨?_, ?_, ?_, ?_, ?_, ?_, ?_, ?_, ?_, ?_, ?_, ?_, trivial⟩ <;> decide)
  obtain ⟨s', r1, r2, r3, _⟩ := h3 ⟨fun _ => 0#64, fun _ => 0#64, fun _ => 0#8, 0x1000#64⟩ rfl rfl
  exact ⟨m', h1, s', r1, r2, r3 rfl⟩

end Verif.Props
