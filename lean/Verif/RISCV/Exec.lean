import Verif.RISCV.EncodeLemmas

/-! # Straight line execution: helper lemmas -/

namespace Verif.RV

@[simp] theorem rd_zero (s : St) : s.rd 0#5 = 0#64 := by simp [St.rd]
theorem rd_wr (s : St) (r q : Reg) (v : BitVec 64) :
    (s.wr r v).rd q = if q = 0#5 then 0#64 else if q = r then v else s.rd q := by
  simp only [St.rd, St.wr]; split <;> simp_all
@[simp] theorem rd_adv (s : St) (n : BitVec 64) (q : Reg) : (s.adv n).rd q = s.rd q := rfl
@[simp] theorem mem_wr (s : St) (r v) : (s.wr r v).mem = s.mem := rfl
@[simp] theorem f_wr (s : St) (r v) : (s.wr r v).f = s.f := rfl
@[simp] theorem pc_wr (s : St) (r v) : (s.wr r v).pc = s.pc := rfl
@[simp] theorem mem_adv (s : St) (n) : (s.adv n).mem = s.mem := rfl
@[simp] theorem f_adv (s : St) (n) : (s.adv n).f = s.f := rfl
@[simp] theorem pc_adv (s : St) (n) : (s.adv n).pc = s.pc + n := rfl
theorem rd_setmem (s : St) (m) (q : Reg) : ({ s with mem := m } : St).rd q = s.rd q := rfl

theorem isC_of_decode16 {h : BitVec 16} (hd : (decode16 h).isSome = true) : isC h = true := by
  simp only [isC, bne_iff_ne, ne_eq]
  intro hq
  simp [decode16, hq] at hd

theorem opc_low {w : BitVec 32} (hd : (decode32 w).isSome = true) : w.extractLsb' 0 2 = 3#2 := by
  have h2 : w.extractLsb' 0 2 = (fOpc w).extractLsb' 0 2 := by bits [fOpc]
  rw [h2]
  by_contra hne
  have hc : ∀ c : BitVec 7, c.extractLsb' 0 2 = 3#2 → fOpc w ≠ c := fun c hc he => hne (he ▸ hc)
  have hw : w ≠ 0x00100073#32 := fun he => hc 0x73#7 rfl (by rw [he]; rfl)
  simp [decode32, hc 0x37#7 rfl, hc 0x17#7 rfl, hc 0x6f#7 rfl, hc 0x67#7 rfl, hc 0x63#7 rfl, hc 0x03#7 rfl,
    hc 0x23#7 rfl, hc 0x13#7 rfl, hc 0x1b#7 rfl, hc 0x33#7 rfl, hc 0x3b#7 rfl, hc 0x07#7 rfl, hc 0x27#7 rfl,
    hc 0x0f#7 rfl, hw] at hd

theorem not_isC_of_decode32 {w : BitVec 32} (hd : (decode32 w).isSome = true) : isC (w.setWidth 16) = false := by
  have h := opc_low hd
  have : (w.setWidth 16).extractLsb' 0 2 = w.extractLsb' 0 2 := by bits [Nat.reduceAdd]
  simp [isC, this, h]

theorem join32 (w : BitVec 32) : ((w >>> 16).setWidth 16).setWidth 32 <<< 16 ||| (w.setWidth 16).setWidth 32 = w := by
  bits [Nat.reduceAdd]

theorem run_w32 {w : BitVec 32} {rest : List (BitVec 16)} {s : St} (hd : (decode32 w).isSome = true) :
    run (w32 w ++ rest) s = ((decode32 w).bind (execS · s)).bind fun s' => run rest (s'.adv 4#64) := by
  simp only [w32, List.cons_append, List.nil_append]
  rw [run]
  simp only [not_isC_of_decode32 hd, join32]
  cases (decode32 w).bind (execS · s) <;> simp

theorem run_w32' {w : BitVec 32} {s : St} (hd : (decode32 w).isSome = true) :
    run (w32 w) s = ((decode32 w).bind (execS · s)).bind fun s' => some (s'.adv 4#64) := by
  have := run_w32 (rest := []) (s := s) hd
  simpa [run] using this

theorem run_w16 {h : BitVec 16} {rest : List (BitVec 16)} {s : St} (hd : (decode16 h).isSome = true) :
    run (w16 h ++ rest) s = ((decode16 h).bind (execS · s)).bind fun s' => run rest (s'.adv 2#64) := by
  simp only [w16, List.cons_append, List.nil_append]
  rw [run.eq_def]
  simp only [isC_of_decode16 hd]
  cases (decode16 h).bind (execS · s) <;> simp

theorem run_w16' {h : BitVec 16} {s : St} (hd : (decode16 h).isSome = true) :
    run (w16 h) s = ((decode16 h).bind (execS · s)).bind fun s' => some (s'.adv 2#64) := by
  have := run_w16 (rest := []) (s := s) hd
  simpa [run] using this

theorem run32 {w : BitVec 32} {i : Instr} {rest : List (BitVec 16)} {s : St} (h : decode32 w = some i) :
    run (w32 w ++ rest) s = (execS i s).bind fun s' => run rest (s'.adv 4#64) := by
  rw [run_w32 (by rw [h]; rfl), h]; rfl
theorem run32' {w : BitVec 32} {i : Instr} {s : St} (h : decode32 w = some i) :
    run (w32 w) s = (execS i s).bind fun s' => some (s'.adv 4#64) := by
  rw [run_w32' (by rw [h]; rfl), h]; rfl
theorem run16 {w : BitVec 16} {i : Instr} {rest : List (BitVec 16)} {s : St} (h : decode16 w = some i) :
    run (w16 w ++ rest) s = (execS i s).bind fun s' => run rest (s'.adv 2#64) := by
  rw [run_w16 (by rw [h]; rfl), h]; rfl
theorem run16' {w : BitVec 16} {i : Instr} {s : St} (h : decode16 w = some i) :
    run (w16 w) s = (execS i s).bind fun s' => some (s'.adv 2#64) := by
  rw [run_w16' (by rw [h]; rfl), h]; rfl

/-- Running a concatenation. -/
theorem run_append {a b : List (BitVec 16)} {s s' : St} (h : run a s = some s') : run (a ++ b) s = run b s' := by
  fun_induction run a s with
  | case1 s => simp only [Option.some.injEq] at h; subst h; rfl
  | case2 lo rest s hc s1 h1 ih =>
    rw [List.cons_append, run.eq_def]
    simp only [hc, h1]
    exact ih h
  | case3 lo rest s hc h1 => simp at h
  | case4 lo s hc => simp at h
  | case5 lo s hc hi rest s1 h1 ih =>
    rw [List.cons_append, List.cons_append, run]
    simp only [hc, h1]
    exact ih h
  | case6 => simp at h

theorem execS_pc {i : Instr} {s s' : St} (h : execS i s = some s') : s'.pc = s.pc := by
  cases i <;> simp only [execS, Option.some.injEq, reduceCtorEq] at h <;> subst h <;> rfl

theorem exec_of_execS {i : Instr} {s s' : St} (n : BitVec 64) (h : execS i s = some s') : exec i n s = some (s'.adv n) := by
  simp only [exec, h, St.adv, execS_pc h]

/-- The program counter advances by the length of the code. -/
theorem run_pc {a : List (BitVec 16)} {s s' : St} (h : run a s = some s') :
    s'.pc = s.pc + BitVec.ofNat 64 (2 * a.length) := by
  fun_induction run a s with
  | case1 s => simp only [Option.some.injEq] at h; subst h; simp
  | case2 lo rest s hc s1 h1 ih =>
    obtain ⟨i, _, h2⟩ := Option.bind_eq_some_iff.mp h1
    rw [ih h, pc_adv, execS_pc h2, List.length_cons]
    apply BitVec.eq_of_toNat_eq
    simp; omega
  | case3 lo rest s hc h1 => simp at h
  | case4 lo s hc => simp at h
  | case5 lo s hc hi rest s1 h1 ih =>
    obtain ⟨i, _, h2⟩ := Option.bind_eq_some_iff.mp h1
    rw [ih h, pc_adv, execS_pc h2, List.length_cons, List.length_cons]
    apply BitVec.eq_of_toNat_eq
    simp; omega
  | case6 => simp at h

theorem Steps.trans {code : Code} {a b c : St} (h1 : Steps code a b) (h2 : Steps code b c) : Steps code a c := by
  induction h1 with
  | refl => exact h2
  | step h _ ih => exact .step h (ih h2)

/-- Straight line execution is execution of the code stored at the program counter. -/
theorem steps_of_run {code : Code} {a : List (BitVec 16)} {s s' : St} (hc : CodeAt code s.pc a) (h : run a s = some s') :
    Steps code s s' := by
  fun_induction run a s with
  | case1 s => simp only [Option.some.injEq] at h; subst h; exact .refl _
  | case2 lo rest s hlo s1 h1 ih =>
    obtain ⟨i, h3, h2⟩ := Option.bind_eq_some_iff.mp h1
    refine .step (s' := s1.adv 2#64) ?_ (ih ?_ h)
    · simp only [step, hc.1, hlo, if_true, h3, Option.bind_some]
      exact exec_of_execS _ h2
    · rw [pc_adv, execS_pc h2]; exact hc.2
  | case3 lo rest s hlo h1 => simp at h
  | case4 lo s hlo => simp at h
  | case5 lo s hlo hi rest s1 h1 ih =>
    obtain ⟨i, h3, h2⟩ := Option.bind_eq_some_iff.mp h1
    refine .step (s' := s1.adv 4#64) ?_ (ih ?_ h)
    · simp only [step, hc.1, hc.2.1, hlo, h3, Option.bind_some]
      exact exec_of_execS _ h2
    · rw [pc_adv, execS_pc h2]
      have := hc.2.2
      rwa [BitVec.add_assoc] at this
  | case6 => simp at h

theorem CodeAt_append {code : Code} {a : BitVec 64} {x y : List (BitVec 16)} :
    CodeAt code a (x ++ y) ↔ CodeAt code a x ∧ CodeAt code (a + BitVec.ofNat 64 (2 * x.length)) y := by
  induction x generalizing a with
  | nil => simp [CodeAt]
  | cons h t ih =>
    have e : a + 2#64 + BitVec.ofNat 64 (2 * t.length) = a + BitVec.ofNat 64 (2 * (h :: t).length) := by
      apply BitVec.eq_of_toNat_eq
      simp; omega
    simp only [List.cons_append, CodeAt, ih, e, and_assoc]

/-- `s'` differs from `s` at most in the integer registers in `W` and in the program counter. -/
structure Keep (W : List Reg) (s s' : St) : Prop where
  reg : ∀ r, r ∉ W → s'.rd r = s.rd r
  mem : s'.mem = s.mem
  f : s'.f = s.f

theorem Keep.refl (W : List Reg) (s : St) : Keep W s s := ⟨fun _ _ => rfl, rfl, rfl⟩
theorem Keep.trans {W : List Reg} {a b c : St} (h1 : Keep W a b) (h2 : Keep W b c) : Keep W a c :=
  ⟨fun r hr => (h2.reg r hr).trans (h1.reg r hr), h2.mem.trans h1.mem, h2.f.trans h1.f⟩
theorem Keep.mono {W W' : List Reg} {a b : St} (h : Keep W a b) (hs : ∀ r, r ∈ W → r ∈ W') : Keep W' a b :=
  ⟨fun r hr => h.reg r (fun hm => hr (hs r hm)), h.mem, h.f⟩
theorem Keep.wr (s : St) (r : Reg) (v : BitVec 64) (W : List Reg) (h : r ∈ W) : Keep W s (s.wr r v) :=
  ⟨fun q hq => by
    rw [rd_wr]
    have : q ≠ r := fun e => hq (e ▸ h)
    split
    · next h0 => subst h0; simp
    · rfl, rfl, rfl⟩
theorem Keep.adv {W : List Reg} {s s' : St} (n : BitVec 64) (h : Keep W s s') : Keep W s (s'.adv n) :=
  ⟨fun r hr => h.reg r hr, h.mem, h.f⟩
theorem Keep.wr' {W : List Reg} {s s' : St} (h : Keep W s s') (r : Reg) (v : BitVec 64) (hr : r ∈ W) : Keep W s (s'.wr r v) :=
  h.trans (Keep.wr _ _ _ _ hr)

end Verif.RV
