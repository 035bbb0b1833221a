import Verif.RISCV.Exec

/-!
# Symbolic execution of emitted straight line code (helper lemmas)

`Core` is the machine state without the program counter.  `wp e c Q` says that the code `e`, started in any machine
state with contents `c`, runs to its end and leaves contents satisfying `Q`.
-/

namespace Verif.RV

/-- Machine state without the program counter; `x0` reads as zero. -/
structure Core where
  x : Reg → BitVec 64
  f : Reg → BitVec 64
  mem : BitVec 64 → BitVec 8
  x0 : x 0#5 = 0#64

def Core.wr (c : Core) (r : Reg) (v : BitVec 64) : Core where
  x := fun q => if q = r ∧ r ≠ 0#5 then v else c.x q
  f := c.f
  mem := c.mem
  x0 := by
    have := c.x0
    split
    · rename_i h; exact absurd h.1.symm h.2
    · exact this

def Core.wrf (c : Core) (r : Reg) (v : BitVec 64) : Core := { c with f := fun q => if q = r then v else c.f q }
def Core.setMem (c : Core) (m : BitVec 64 → BitVec 8) : Core := { c with mem := m }

@[ext] theorem Core.ext' {a b : Core} (h1 : a.x = b.x) (h2 : a.f = b.f) (h3 : a.mem = b.mem) : a = b := by
  cases a; cases b; simp_all

def St.core (s : St) : Core := ⟨s.rd, s.f, s.mem, rd_zero s⟩
def Core.st (c : Core) : St := ⟨c.x, c.f, c.mem, 0#64⟩

@[simp] theorem core_st (c : Core) : c.st.core = c := by
  apply Core.ext'
  · funext q
    simp only [St.core, Core.st, St.rd]
    split
    · rename_i h; rw [h, c.x0]
    · rfl
  · rfl
  · rfl

@[simp] theorem core_adv (s : St) (n) : (s.adv n).core = s.core := rfl
@[simp] theorem core_wr (s : St) (r v) : (s.wr r v).core = s.core.wr r v := by
  apply Core.ext'
  · funext q
    simp only [St.core, Core.wr, rd_wr]
    by_cases h0 : q = 0#5
    · subst h0
      by_cases hr : r = 0#5 <;> simp [hr, eq_comm]
    · by_cases hq : q = r
      · subst hq; simp [h0]
      · simp [h0, hq]
  · rfl
  · rfl
@[simp] theorem core_x (s : St) (q) : s.core.x q = s.rd q := rfl
@[simp] theorem core_f (s : St) : s.core.f = s.f := rfl
@[simp] theorem core_mem (s : St) : s.core.mem = s.mem := rfl

@[simp] theorem x_zero (c : Core) : c.x 0#5 = 0#64 := c.x0
@[simp] theorem x_wr (c : Core) (r v q) : (c.wr r v).x q = if q = r ∧ r ≠ 0#5 then v else c.x q := by unfold Core.wr; exact rfl
@[simp] theorem mem_wr' (c : Core) (r v) : (c.wr r v).mem = c.mem := by unfold Core.wr; exact rfl
@[simp] theorem f_wr' (c : Core) (r v) : (c.wr r v).f = c.f := by unfold Core.wr; exact rfl
@[simp] theorem x_setMem (c : Core) (m q) : (c.setMem m).x q = c.x q := by unfold Core.setMem; exact rfl
@[simp] theorem f_setMem (c : Core) (m) : (c.setMem m).f = c.f := by unfold Core.setMem; exact rfl
@[simp] theorem mem_setMem (c : Core) (m) : (c.setMem m).mem = m := by unfold Core.setMem; exact rfl

/-- Weakest precondition of emitted straight line code. -/
def wp (e : Emit) (c : Core) (Q : Core → Prop) : Prop :=
  ∀ s : St, s.core = c → ∃ s', run e s = some s' ∧ Q s'.core

theorem wp_append {a b : Emit} {c : Core} {Q : Core → Prop} (h : wp a c fun c' => wp b c' Q) : wp (a ++ b) c Q := by
  intro s hs
  obtain ⟨s1, h1, h2⟩ := h s hs
  obtain ⟨s2, h3, h4⟩ := h2 s1 rfl
  exact ⟨s2, by rw [run_append h1]; exact h3, h4⟩

theorem wp_mono {a : Emit} {c : Core} {Q R : Core → Prop} (h : wp a c Q) (hqr : ∀ c', Q c' → R c') : wp a c R := by
  intro s hs
  obtain ⟨s1, h1, h2⟩ := h s hs
  exact ⟨s1, h1, hqr _ h2⟩

@[simp] theorem wp_nil (c : Core) (Q : Core → Prop) : wp [] c Q ↔ Q c := by
  constructor
  · intro h
    obtain ⟨s, h1, h2⟩ := h c.st (core_st c)
    simp only [run, Option.some.injEq] at h1
    subst h1; simpa using h2
  · rintro h s rfl
    exact ⟨s, rfl, h⟩

@[simp] theorem wp_ite (p : Prop) [Decidable p] (a b : Emit) (c : Core) (Q : Core → Prop) :
    wp (if p then a else b) c Q ↔ if p then wp a c Q else wp b c Q := by split <;> rfl
@[simp] theorem wp_ite_s (p : Prop) [Decidable p] (a b r : Emit) (c : Core) (Q : Core → Prop) :
    wp ((if p then a else b) ++ r) c Q ↔ if p then wp (a ++ r) c Q else wp (b ++ r) c Q := by split <;> rfl

theorem st_rd (c : Core) (q) : c.st.rd q = c.x q := congrArg (fun c => c.x q) (core_st c)

/-- States that differ only in the unobservable storage behind `x0`. -/
def Eqv (s t : St) : Prop := s.core = t.core ∧ s.pc = t.pc

theorem Eqv.rd {s t : St} (h : Eqv s t) (q) : s.rd q = t.rd q := congrArg (fun c => c.x q) h.1
theorem Eqv.f {s t : St} (h : Eqv s t) : s.f = t.f := congrArg Core.f h.1
theorem Eqv.mem {s t : St} (h : Eqv s t) : s.mem = t.mem := congrArg Core.mem h.1

theorem execS_eqv {i : Instr} {s t s' : St} (h : Eqv s t) (he : execS i s = some s') :
    ∃ t', execS i t = some t' ∧ Eqv s' t' := by
  cases i <;> simp only [execS, Option.some.injEq, reduceCtorEq] at he <;> subst he <;>
    simp only [execS, Option.some.injEq, exists_eq_left', h.rd, h.f, h.mem, h.2] <;>
    first
      | exact ⟨by simp [h.1], by simp [h.2]⟩
      | exact ⟨Core.ext' (funext fun q => h.rd q) (by simp [St.wrf, St.core, h.f]) (by simp [St.wrf, St.core, h.mem]), h.2⟩
      | exact ⟨Core.ext' (funext fun q => h.rd q) rfl rfl, rfl⟩
      | exact h

theorem adv_eqv {s t : St} (h : Eqv s t) (n) : Eqv (s.adv n) (t.adv n) := ⟨h.1, by simp [St.adv, h.2]⟩

theorem run_eqv {e : Emit} {s t s' : St} (h : Eqv s t) (he : run e s = some s') : ∃ t', run e t = some t' ∧ Eqv s' t' := by
  fun_induction run e s generalizing t with
  | case1 s => simp only [Option.some.injEq] at he; subst he; exact ⟨t, rfl, h⟩
  | case2 lo rest s hc s1 h1 ih =>
    obtain ⟨i, hd, h2⟩ := Option.bind_eq_some_iff.mp h1
    obtain ⟨t1, h3, h4⟩ := execS_eqv h h2
    obtain ⟨t2, h5, h6⟩ := ih (adv_eqv h4 _) he
    refine ⟨t2, ?_, h6⟩
    rw [run.eq_def]
    simp only [hc, hd, Option.bind_some, h3]
    exact h5
  | case3 lo rest s hc h1 => simp at he
  | case4 lo s hc => simp at he
  | case5 lo s hc hi rest s1 h1 ih =>
    obtain ⟨i, hd, h2⟩ := Option.bind_eq_some_iff.mp h1
    obtain ⟨t1, h3, h4⟩ := execS_eqv h h2
    obtain ⟨t2, h5, h6⟩ := ih (adv_eqv h4 _) he
    refine ⟨t2, ?_, h6⟩
    rw [run]
    simp only [hc, hd, Option.bind_some, h3]
    exact h5
  | case6 => simp at he

/-- Contents after a non-control instruction that does not read the program counter. -/
def execC (i : Instr) (c : Core) : Option Core := (execS i c.st).map St.core

/-- The instruction does not read the program counter. -/
def Instr.noPc : Instr → Bool
  | .auipc .. => false
  | _ => true

theorem execC_eq {i : Instr} (hn : i.noPc = true) (s : St) : (execS i s).map St.core = execC i s.core := by
  have hx : ∀ q, s.core.st.rd q = s.rd q := fun q => st_rd _ q
  cases i <;> simp only [execC, execS, Option.map_some, Option.map_none, core_wr, core_st, hx, Instr.noPc, Bool.false_eq_true] at * <;>
    first
      | rfl
      | (apply congrArg some; exact Core.ext' (funext fun q => (st_rd s.core q).symm) rfl rfl)

theorem execC_some {i : Instr} (hn : i.noPc = true) {s : St} {c1 : Core} (h : execC i s.core = some c1) :
    ∃ s', execS i s = some s' ∧ s'.core = c1 := by
  rw [← execC_eq hn] at h
  simpa [Option.map_eq_some_iff] using h

section rules
variable {c : Core} {Q : Core → Prop}

theorem wp_step {e r : Emit} {i : Instr} {n : BitVec 64} {c1 : Core} (hn : i.noPc = true) (he : execC i c = some c1)
    (hr : ∀ s, run (e ++ r) s = (execS i s).bind fun s' => run r (s'.adv n)) :
    wp (e ++ r) c Q ↔ wp r c1 Q := by
  constructor
  · intro g s hs
    obtain ⟨s2, h1, h2⟩ := g { c.st with pc := s.pc - n } (core_st c)
    rw [hr] at h1
    obtain ⟨s1, h3, h4⟩ := Option.bind_eq_some_iff.mp h1
    obtain ⟨s1', h5, h6⟩ := execC_some (s := { c.st with pc := s.pc - n }) hn (by rw [← he]; exact congrArg _ (core_st c))
    rw [h3] at h5; cases h5
    obtain ⟨t, h7, h8⟩ := run_eqv (t := s) ⟨by rw [core_adv, h6, hs], by rw [pc_adv, execS_pc h3]; simp [BitVec.sub_add_cancel]⟩ h4
    exact ⟨t, h7, by rw [← h8.1]; exact h2⟩
  · rintro g s rfl
    obtain ⟨s1, h1, h2⟩ := execC_some hn he
    obtain ⟨s2, h3, h4⟩ := g (s1.adv n) (by rw [core_adv, h2])
    exact ⟨s2, by rw [hr, h1]; exact h3, h4⟩

theorem wp_step32 {w : BitVec 32} {i : Instr} {r : Emit} {c1 : Core} (h : decode32 w = some i) (hn : i.noPc = true)
    (he : execC i c = some c1) : wp (w32 w ++ r) c Q ↔ wp r c1 Q := wp_step hn he fun _ => run32 h
theorem wp_step16 {w : BitVec 16} {i : Instr} {r : Emit} {c1 : Core} (h : decode16 w = some i) (hn : i.noPc = true)
    (he : execC i c = some c1) : wp (w16 w ++ r) c Q ↔ wp r c1 Q := wp_step hn he fun _ => run16 h
theorem wp_step32' {w : BitVec 32} {i : Instr} {c1 : Core} (h : decode32 w = some i) (hn : i.noPc = true)
    (he : execC i c = some c1) : wp (w32 w) c Q ↔ Q c1 := by
  have := wp_step32 (r := []) (Q := Q) h hn he
  simpa using this
theorem wp_step16' {w : BitVec 16} {i : Instr} {c1 : Core} (h : decode16 w = some i) (hn : i.noPc = true)
    (he : execC i c = some c1) : wp (w16 w) c Q ↔ Q c1 := by
  have := wp_step16 (r := []) (Q := Q) h hn he
  simpa using this

theorem dec_C_ADDIW0 (d : Nat) (h : regMap d ≠ 0#5) : decode16 (C_ADDIW ||| C_RD d) = some (.addiw (regMap d) (regMap d) 0#12) := by
  have := dec_C_ADDIW (i := 0#64) d h
  simpa [C_IMM_I] using this
theorem dec_C_LI0 (d : Nat) : decode16 (C_LI ||| C_RD d) = some (.opi .add (regMap d) 0#5 0#12) := by
  have := dec_C_LI (i := 0#64) d
  simpa [C_IMM_I] using this

macro "wpr" : tactic => `(tactic| (first | rfl | (split <;> rfl) | (simp [execC, execS, st_rd, IOp.eval, ROp.eval]; done) | (split <;> simp [execC, execS, st_rd, IOp.eval])))

@[simp] theorem wp_ADD (d a b : Nat)  :
    wp (w32 (ADD ||| RD d ||| RS1 a ||| RS2 b)) c Q ↔ Q (c.wr (regMap d) (ROp.add.eval (c.x (regMap a)) (c.x (regMap b)))) := by
  exact wp_step32' (dec_ADD ..) (by wpr) (by wpr)
@[simp] theorem wp_ADD_s (d a b : Nat)  (r : Emit) :
    wp (w32 (ADD ||| RD d ||| RS1 a ||| RS2 b) ++ r) c Q ↔ wp r (c.wr (regMap d) (ROp.add.eval (c.x (regMap a)) (c.x (regMap b)))) Q := by
  exact wp_step32 (dec_ADD ..) (by wpr) (by wpr)

theorem wp_ADD_W (w : Bool) (d a b : Nat)  :
    wp (w32 (ADD ||| WORD w ||| RD d ||| RS1 a ||| RS2 b)) c Q ↔ Q (c.wr (regMap d) (if w then sx32 (WOp.add.eval32 (lo32 (c.x (regMap a))) (lo32 (c.x (regMap b)))) else ROp.add.eval (c.x (regMap a)) (c.x (regMap b)))) := by
  exact wp_step32' (decW_ADD ..) (by wpr) (by wpr)
theorem wp_ADD_W_s (w : Bool) (d a b : Nat)  (r : Emit) :
    wp (w32 (ADD ||| WORD w ||| RD d ||| RS1 a ||| RS2 b) ++ r) c Q ↔ wp r (c.wr (regMap d) (if w then sx32 (WOp.add.eval32 (lo32 (c.x (regMap a))) (lo32 (c.x (regMap b)))) else ROp.add.eval (c.x (regMap a)) (c.x (regMap b)))) Q := by
  exact wp_step32 (decW_ADD ..) (by wpr) (by wpr)

@[simp] theorem wp_SUB (d a b : Nat)  :
    wp (w32 (SUB ||| RD d ||| RS1 a ||| RS2 b)) c Q ↔ Q (c.wr (regMap d) (ROp.sub.eval (c.x (regMap a)) (c.x (regMap b)))) := by
  exact wp_step32' (dec_SUB ..) (by wpr) (by wpr)
@[simp] theorem wp_SUB_s (d a b : Nat)  (r : Emit) :
    wp (w32 (SUB ||| RD d ||| RS1 a ||| RS2 b) ++ r) c Q ↔ wp r (c.wr (regMap d) (ROp.sub.eval (c.x (regMap a)) (c.x (regMap b)))) Q := by
  exact wp_step32 (dec_SUB ..) (by wpr) (by wpr)

theorem wp_SUB_W (w : Bool) (d a b : Nat)  :
    wp (w32 (SUB ||| WORD w ||| RD d ||| RS1 a ||| RS2 b)) c Q ↔ Q (c.wr (regMap d) (if w then sx32 (WOp.sub.eval32 (lo32 (c.x (regMap a))) (lo32 (c.x (regMap b)))) else ROp.sub.eval (c.x (regMap a)) (c.x (regMap b)))) := by
  exact wp_step32' (decW_SUB ..) (by wpr) (by wpr)
theorem wp_SUB_W_s (w : Bool) (d a b : Nat)  (r : Emit) :
    wp (w32 (SUB ||| WORD w ||| RD d ||| RS1 a ||| RS2 b) ++ r) c Q ↔ wp r (c.wr (regMap d) (if w then sx32 (WOp.sub.eval32 (lo32 (c.x (regMap a))) (lo32 (c.x (regMap b)))) else ROp.sub.eval (c.x (regMap a)) (c.x (regMap b)))) Q := by
  exact wp_step32 (decW_SUB ..) (by wpr) (by wpr)

@[simp] theorem wp_SLL (d a b : Nat)  :
    wp (w32 (SLL ||| RD d ||| RS1 a ||| RS2 b)) c Q ↔ Q (c.wr (regMap d) (ROp.sll.eval (c.x (regMap a)) (c.x (regMap b)))) := by
  exact wp_step32' (dec_SLL ..) (by wpr) (by wpr)
@[simp] theorem wp_SLL_s (d a b : Nat)  (r : Emit) :
    wp (w32 (SLL ||| RD d ||| RS1 a ||| RS2 b) ++ r) c Q ↔ wp r (c.wr (regMap d) (ROp.sll.eval (c.x (regMap a)) (c.x (regMap b)))) Q := by
  exact wp_step32 (dec_SLL ..) (by wpr) (by wpr)

@[simp] theorem wp_SLL_W (w : Bool) (d a b : Nat)  :
    wp (w32 (SLL ||| WORD w ||| RD d ||| RS1 a ||| RS2 b)) c Q ↔ Q (c.wr (regMap d) (if w then sx32 (WOp.sll.eval32 (lo32 (c.x (regMap a))) (lo32 (c.x (regMap b)))) else ROp.sll.eval (c.x (regMap a)) (c.x (regMap b)))) := by
  exact wp_step32' (decW_SLL ..) (by wpr) (by wpr)
@[simp] theorem wp_SLL_W_s (w : Bool) (d a b : Nat)  (r : Emit) :
    wp (w32 (SLL ||| WORD w ||| RD d ||| RS1 a ||| RS2 b) ++ r) c Q ↔ wp r (c.wr (regMap d) (if w then sx32 (WOp.sll.eval32 (lo32 (c.x (regMap a))) (lo32 (c.x (regMap b)))) else ROp.sll.eval (c.x (regMap a)) (c.x (regMap b)))) Q := by
  exact wp_step32 (decW_SLL ..) (by wpr) (by wpr)

@[simp] theorem wp_SLT (d a b : Nat)  :
    wp (w32 (SLT ||| RD d ||| RS1 a ||| RS2 b)) c Q ↔ Q (c.wr (regMap d) (ROp.slt.eval (c.x (regMap a)) (c.x (regMap b)))) := by
  exact wp_step32' (dec_SLT ..) (by wpr) (by wpr)
@[simp] theorem wp_SLT_s (d a b : Nat)  (r : Emit) :
    wp (w32 (SLT ||| RD d ||| RS1 a ||| RS2 b) ++ r) c Q ↔ wp r (c.wr (regMap d) (ROp.slt.eval (c.x (regMap a)) (c.x (regMap b)))) Q := by
  exact wp_step32 (dec_SLT ..) (by wpr) (by wpr)

@[simp] theorem wp_SLTU (d a b : Nat)  :
    wp (w32 (SLTU ||| RD d ||| RS1 a ||| RS2 b)) c Q ↔ Q (c.wr (regMap d) (ROp.sltu.eval (c.x (regMap a)) (c.x (regMap b)))) := by
  exact wp_step32' (dec_SLTU ..) (by wpr) (by wpr)
@[simp] theorem wp_SLTU_s (d a b : Nat)  (r : Emit) :
    wp (w32 (SLTU ||| RD d ||| RS1 a ||| RS2 b) ++ r) c Q ↔ wp r (c.wr (regMap d) (ROp.sltu.eval (c.x (regMap a)) (c.x (regMap b)))) Q := by
  exact wp_step32 (dec_SLTU ..) (by wpr) (by wpr)

@[simp] theorem wp_XOR (d a b : Nat)  :
    wp (w32 (XOR ||| RD d ||| RS1 a ||| RS2 b)) c Q ↔ Q (c.wr (regMap d) (ROp.xor.eval (c.x (regMap a)) (c.x (regMap b)))) := by
  exact wp_step32' (dec_XOR ..) (by wpr) (by wpr)
@[simp] theorem wp_XOR_s (d a b : Nat)  (r : Emit) :
    wp (w32 (XOR ||| RD d ||| RS1 a ||| RS2 b) ++ r) c Q ↔ wp r (c.wr (regMap d) (ROp.xor.eval (c.x (regMap a)) (c.x (regMap b)))) Q := by
  exact wp_step32 (dec_XOR ..) (by wpr) (by wpr)

@[simp] theorem wp_SRL (d a b : Nat)  :
    wp (w32 (SRL ||| RD d ||| RS1 a ||| RS2 b)) c Q ↔ Q (c.wr (regMap d) (ROp.srl.eval (c.x (regMap a)) (c.x (regMap b)))) := by
  exact wp_step32' (dec_SRL ..) (by wpr) (by wpr)
@[simp] theorem wp_SRL_s (d a b : Nat)  (r : Emit) :
    wp (w32 (SRL ||| RD d ||| RS1 a ||| RS2 b) ++ r) c Q ↔ wp r (c.wr (regMap d) (ROp.srl.eval (c.x (regMap a)) (c.x (regMap b)))) Q := by
  exact wp_step32 (dec_SRL ..) (by wpr) (by wpr)

@[simp] theorem wp_SRL_W (w : Bool) (d a b : Nat)  :
    wp (w32 (SRL ||| WORD w ||| RD d ||| RS1 a ||| RS2 b)) c Q ↔ Q (c.wr (regMap d) (if w then sx32 (WOp.srl.eval32 (lo32 (c.x (regMap a))) (lo32 (c.x (regMap b)))) else ROp.srl.eval (c.x (regMap a)) (c.x (regMap b)))) := by
  exact wp_step32' (decW_SRL ..) (by wpr) (by wpr)
@[simp] theorem wp_SRL_W_s (w : Bool) (d a b : Nat)  (r : Emit) :
    wp (w32 (SRL ||| WORD w ||| RD d ||| RS1 a ||| RS2 b) ++ r) c Q ↔ wp r (c.wr (regMap d) (if w then sx32 (WOp.srl.eval32 (lo32 (c.x (regMap a))) (lo32 (c.x (regMap b)))) else ROp.srl.eval (c.x (regMap a)) (c.x (regMap b)))) Q := by
  exact wp_step32 (decW_SRL ..) (by wpr) (by wpr)

@[simp] theorem wp_SRA (d a b : Nat)  :
    wp (w32 (SRA ||| RD d ||| RS1 a ||| RS2 b)) c Q ↔ Q (c.wr (regMap d) (ROp.sra.eval (c.x (regMap a)) (c.x (regMap b)))) := by
  exact wp_step32' (dec_SRA ..) (by wpr) (by wpr)
@[simp] theorem wp_SRA_s (d a b : Nat)  (r : Emit) :
    wp (w32 (SRA ||| RD d ||| RS1 a ||| RS2 b) ++ r) c Q ↔ wp r (c.wr (regMap d) (ROp.sra.eval (c.x (regMap a)) (c.x (regMap b)))) Q := by
  exact wp_step32 (dec_SRA ..) (by wpr) (by wpr)

@[simp] theorem wp_SRA_W (w : Bool) (d a b : Nat)  :
    wp (w32 (SRA ||| WORD w ||| RD d ||| RS1 a ||| RS2 b)) c Q ↔ Q (c.wr (regMap d) (if w then sx32 (WOp.sra.eval32 (lo32 (c.x (regMap a))) (lo32 (c.x (regMap b)))) else ROp.sra.eval (c.x (regMap a)) (c.x (regMap b)))) := by
  exact wp_step32' (decW_SRA ..) (by wpr) (by wpr)
@[simp] theorem wp_SRA_W_s (w : Bool) (d a b : Nat)  (r : Emit) :
    wp (w32 (SRA ||| WORD w ||| RD d ||| RS1 a ||| RS2 b) ++ r) c Q ↔ wp r (c.wr (regMap d) (if w then sx32 (WOp.sra.eval32 (lo32 (c.x (regMap a))) (lo32 (c.x (regMap b)))) else ROp.sra.eval (c.x (regMap a)) (c.x (regMap b)))) Q := by
  exact wp_step32 (decW_SRA ..) (by wpr) (by wpr)

@[simp] theorem wp_OR (d a b : Nat)  :
    wp (w32 (OR ||| RD d ||| RS1 a ||| RS2 b)) c Q ↔ Q (c.wr (regMap d) (ROp.or.eval (c.x (regMap a)) (c.x (regMap b)))) := by
  exact wp_step32' (dec_OR ..) (by wpr) (by wpr)
@[simp] theorem wp_OR_s (d a b : Nat)  (r : Emit) :
    wp (w32 (OR ||| RD d ||| RS1 a ||| RS2 b) ++ r) c Q ↔ wp r (c.wr (regMap d) (ROp.or.eval (c.x (regMap a)) (c.x (regMap b)))) Q := by
  exact wp_step32 (dec_OR ..) (by wpr) (by wpr)

@[simp] theorem wp_AND (d a b : Nat)  :
    wp (w32 (AND ||| RD d ||| RS1 a ||| RS2 b)) c Q ↔ Q (c.wr (regMap d) (ROp.and.eval (c.x (regMap a)) (c.x (regMap b)))) := by
  exact wp_step32' (dec_AND ..) (by wpr) (by wpr)
@[simp] theorem wp_AND_s (d a b : Nat)  (r : Emit) :
    wp (w32 (AND ||| RD d ||| RS1 a ||| RS2 b) ++ r) c Q ↔ wp r (c.wr (regMap d) (ROp.and.eval (c.x (regMap a)) (c.x (regMap b)))) Q := by
  exact wp_step32 (dec_AND ..) (by wpr) (by wpr)

@[simp] theorem wp_MUL (d a b : Nat)  :
    wp (w32 (MUL ||| RD d ||| RS1 a ||| RS2 b)) c Q ↔ Q (c.wr (regMap d) (ROp.mul.eval (c.x (regMap a)) (c.x (regMap b)))) := by
  exact wp_step32' (dec_MUL ..) (by wpr) (by wpr)
@[simp] theorem wp_MUL_s (d a b : Nat)  (r : Emit) :
    wp (w32 (MUL ||| RD d ||| RS1 a ||| RS2 b) ++ r) c Q ↔ wp r (c.wr (regMap d) (ROp.mul.eval (c.x (regMap a)) (c.x (regMap b)))) Q := by
  exact wp_step32 (dec_MUL ..) (by wpr) (by wpr)

@[simp] theorem wp_MUL_W (w : Bool) (d a b : Nat)  :
    wp (w32 (MUL ||| WORD w ||| RD d ||| RS1 a ||| RS2 b)) c Q ↔ Q (c.wr (regMap d) (if w then sx32 (WOp.mul.eval32 (lo32 (c.x (regMap a))) (lo32 (c.x (regMap b)))) else ROp.mul.eval (c.x (regMap a)) (c.x (regMap b)))) := by
  exact wp_step32' (decW_MUL ..) (by wpr) (by wpr)
@[simp] theorem wp_MUL_W_s (w : Bool) (d a b : Nat)  (r : Emit) :
    wp (w32 (MUL ||| WORD w ||| RD d ||| RS1 a ||| RS2 b) ++ r) c Q ↔ wp r (c.wr (regMap d) (if w then sx32 (WOp.mul.eval32 (lo32 (c.x (regMap a))) (lo32 (c.x (regMap b)))) else ROp.mul.eval (c.x (regMap a)) (c.x (regMap b)))) Q := by
  exact wp_step32 (decW_MUL ..) (by wpr) (by wpr)

@[simp] theorem wp_MULH (d a b : Nat)  :
    wp (w32 (MULH ||| RD d ||| RS1 a ||| RS2 b)) c Q ↔ Q (c.wr (regMap d) (ROp.mulh.eval (c.x (regMap a)) (c.x (regMap b)))) := by
  exact wp_step32' (dec_MULH ..) (by wpr) (by wpr)
@[simp] theorem wp_MULH_s (d a b : Nat)  (r : Emit) :
    wp (w32 (MULH ||| RD d ||| RS1 a ||| RS2 b) ++ r) c Q ↔ wp r (c.wr (regMap d) (ROp.mulh.eval (c.x (regMap a)) (c.x (regMap b)))) Q := by
  exact wp_step32 (dec_MULH ..) (by wpr) (by wpr)

@[simp] theorem wp_MULHU (d a b : Nat)  :
    wp (w32 (MULHU ||| RD d ||| RS1 a ||| RS2 b)) c Q ↔ Q (c.wr (regMap d) (ROp.mulhu.eval (c.x (regMap a)) (c.x (regMap b)))) := by
  exact wp_step32' (dec_MULHU ..) (by wpr) (by wpr)
@[simp] theorem wp_MULHU_s (d a b : Nat)  (r : Emit) :
    wp (w32 (MULHU ||| RD d ||| RS1 a ||| RS2 b) ++ r) c Q ↔ wp r (c.wr (regMap d) (ROp.mulhu.eval (c.x (regMap a)) (c.x (regMap b)))) Q := by
  exact wp_step32 (dec_MULHU ..) (by wpr) (by wpr)

@[simp] theorem wp_DIV (d a b : Nat)  :
    wp (w32 (DIV ||| RD d ||| RS1 a ||| RS2 b)) c Q ↔ Q (c.wr (regMap d) (ROp.div.eval (c.x (regMap a)) (c.x (regMap b)))) := by
  exact wp_step32' (dec_DIV ..) (by wpr) (by wpr)
@[simp] theorem wp_DIV_s (d a b : Nat)  (r : Emit) :
    wp (w32 (DIV ||| RD d ||| RS1 a ||| RS2 b) ++ r) c Q ↔ wp r (c.wr (regMap d) (ROp.div.eval (c.x (regMap a)) (c.x (regMap b)))) Q := by
  exact wp_step32 (dec_DIV ..) (by wpr) (by wpr)

@[simp] theorem wp_DIV_W (w : Bool) (d a b : Nat)  :
    wp (w32 (DIV ||| WORD w ||| RD d ||| RS1 a ||| RS2 b)) c Q ↔ Q (c.wr (regMap d) (if w then sx32 (WOp.div.eval32 (lo32 (c.x (regMap a))) (lo32 (c.x (regMap b)))) else ROp.div.eval (c.x (regMap a)) (c.x (regMap b)))) := by
  exact wp_step32' (decW_DIV ..) (by wpr) (by wpr)
@[simp] theorem wp_DIV_W_s (w : Bool) (d a b : Nat)  (r : Emit) :
    wp (w32 (DIV ||| WORD w ||| RD d ||| RS1 a ||| RS2 b) ++ r) c Q ↔ wp r (c.wr (regMap d) (if w then sx32 (WOp.div.eval32 (lo32 (c.x (regMap a))) (lo32 (c.x (regMap b)))) else ROp.div.eval (c.x (regMap a)) (c.x (regMap b)))) Q := by
  exact wp_step32 (decW_DIV ..) (by wpr) (by wpr)

@[simp] theorem wp_DIVU (d a b : Nat)  :
    wp (w32 (DIVU ||| RD d ||| RS1 a ||| RS2 b)) c Q ↔ Q (c.wr (regMap d) (ROp.divu.eval (c.x (regMap a)) (c.x (regMap b)))) := by
  exact wp_step32' (dec_DIVU ..) (by wpr) (by wpr)
@[simp] theorem wp_DIVU_s (d a b : Nat)  (r : Emit) :
    wp (w32 (DIVU ||| RD d ||| RS1 a ||| RS2 b) ++ r) c Q ↔ wp r (c.wr (regMap d) (ROp.divu.eval (c.x (regMap a)) (c.x (regMap b)))) Q := by
  exact wp_step32 (dec_DIVU ..) (by wpr) (by wpr)

@[simp] theorem wp_DIVU_W (w : Bool) (d a b : Nat)  :
    wp (w32 (DIVU ||| WORD w ||| RD d ||| RS1 a ||| RS2 b)) c Q ↔ Q (c.wr (regMap d) (if w then sx32 (WOp.divu.eval32 (lo32 (c.x (regMap a))) (lo32 (c.x (regMap b)))) else ROp.divu.eval (c.x (regMap a)) (c.x (regMap b)))) := by
  exact wp_step32' (decW_DIVU ..) (by wpr) (by wpr)
@[simp] theorem wp_DIVU_W_s (w : Bool) (d a b : Nat)  (r : Emit) :
    wp (w32 (DIVU ||| WORD w ||| RD d ||| RS1 a ||| RS2 b) ++ r) c Q ↔ wp r (c.wr (regMap d) (if w then sx32 (WOp.divu.eval32 (lo32 (c.x (regMap a))) (lo32 (c.x (regMap b)))) else ROp.divu.eval (c.x (regMap a)) (c.x (regMap b)))) Q := by
  exact wp_step32 (decW_DIVU ..) (by wpr) (by wpr)

@[simp] theorem wp_REM (d a b : Nat)  :
    wp (w32 (REM ||| RD d ||| RS1 a ||| RS2 b)) c Q ↔ Q (c.wr (regMap d) (ROp.rem.eval (c.x (regMap a)) (c.x (regMap b)))) := by
  exact wp_step32' (dec_REM ..) (by wpr) (by wpr)
@[simp] theorem wp_REM_s (d a b : Nat)  (r : Emit) :
    wp (w32 (REM ||| RD d ||| RS1 a ||| RS2 b) ++ r) c Q ↔ wp r (c.wr (regMap d) (ROp.rem.eval (c.x (regMap a)) (c.x (regMap b)))) Q := by
  exact wp_step32 (dec_REM ..) (by wpr) (by wpr)

@[simp] theorem wp_REM_W (w : Bool) (d a b : Nat)  :
    wp (w32 (REM ||| WORD w ||| RD d ||| RS1 a ||| RS2 b)) c Q ↔ Q (c.wr (regMap d) (if w then sx32 (WOp.rem.eval32 (lo32 (c.x (regMap a))) (lo32 (c.x (regMap b)))) else ROp.rem.eval (c.x (regMap a)) (c.x (regMap b)))) := by
  exact wp_step32' (decW_REM ..) (by wpr) (by wpr)
@[simp] theorem wp_REM_W_s (w : Bool) (d a b : Nat)  (r : Emit) :
    wp (w32 (REM ||| WORD w ||| RD d ||| RS1 a ||| RS2 b) ++ r) c Q ↔ wp r (c.wr (regMap d) (if w then sx32 (WOp.rem.eval32 (lo32 (c.x (regMap a))) (lo32 (c.x (regMap b)))) else ROp.rem.eval (c.x (regMap a)) (c.x (regMap b)))) Q := by
  exact wp_step32 (decW_REM ..) (by wpr) (by wpr)

@[simp] theorem wp_REMU (d a b : Nat)  :
    wp (w32 (REMU ||| RD d ||| RS1 a ||| RS2 b)) c Q ↔ Q (c.wr (regMap d) (ROp.remu.eval (c.x (regMap a)) (c.x (regMap b)))) := by
  exact wp_step32' (dec_REMU ..) (by wpr) (by wpr)
@[simp] theorem wp_REMU_s (d a b : Nat)  (r : Emit) :
    wp (w32 (REMU ||| RD d ||| RS1 a ||| RS2 b) ++ r) c Q ↔ wp r (c.wr (regMap d) (ROp.remu.eval (c.x (regMap a)) (c.x (regMap b)))) Q := by
  exact wp_step32 (dec_REMU ..) (by wpr) (by wpr)

@[simp] theorem wp_REMU_W (w : Bool) (d a b : Nat)  :
    wp (w32 (REMU ||| WORD w ||| RD d ||| RS1 a ||| RS2 b)) c Q ↔ Q (c.wr (regMap d) (if w then sx32 (WOp.remu.eval32 (lo32 (c.x (regMap a))) (lo32 (c.x (regMap b)))) else ROp.remu.eval (c.x (regMap a)) (c.x (regMap b)))) := by
  exact wp_step32' (decW_REMU ..) (by wpr) (by wpr)
@[simp] theorem wp_REMU_W_s (w : Bool) (d a b : Nat)  (r : Emit) :
    wp (w32 (REMU ||| WORD w ||| RD d ||| RS1 a ||| RS2 b) ++ r) c Q ↔ wp r (c.wr (regMap d) (if w then sx32 (WOp.remu.eval32 (lo32 (c.x (regMap a))) (lo32 (c.x (regMap b)))) else ROp.remu.eval (c.x (regMap a)) (c.x (regMap b)))) Q := by
  exact wp_step32 (decW_REMU ..) (by wpr) (by wpr)

@[simp] theorem wp_SH1ADD (d a b : Nat)  :
    wp (w32 (SH1ADD ||| RD d ||| RS1 a ||| RS2 b)) c Q ↔ Q (c.wr (regMap d) (ROp.sh1add.eval (c.x (regMap a)) (c.x (regMap b)))) := by
  exact wp_step32' (dec_SH1ADD ..) (by wpr) (by wpr)
@[simp] theorem wp_SH1ADD_s (d a b : Nat)  (r : Emit) :
    wp (w32 (SH1ADD ||| RD d ||| RS1 a ||| RS2 b) ++ r) c Q ↔ wp r (c.wr (regMap d) (ROp.sh1add.eval (c.x (regMap a)) (c.x (regMap b)))) Q := by
  exact wp_step32 (dec_SH1ADD ..) (by wpr) (by wpr)

@[simp] theorem wp_SH2ADD (d a b : Nat)  :
    wp (w32 (SH2ADD ||| RD d ||| RS1 a ||| RS2 b)) c Q ↔ Q (c.wr (regMap d) (ROp.sh2add.eval (c.x (regMap a)) (c.x (regMap b)))) := by
  exact wp_step32' (dec_SH2ADD ..) (by wpr) (by wpr)
@[simp] theorem wp_SH2ADD_s (d a b : Nat)  (r : Emit) :
    wp (w32 (SH2ADD ||| RD d ||| RS1 a ||| RS2 b) ++ r) c Q ↔ wp r (c.wr (regMap d) (ROp.sh2add.eval (c.x (regMap a)) (c.x (regMap b)))) Q := by
  exact wp_step32 (dec_SH2ADD ..) (by wpr) (by wpr)

@[simp] theorem wp_SH3ADD (d a b : Nat)  :
    wp (w32 (SH3ADD ||| RD d ||| RS1 a ||| RS2 b)) c Q ↔ Q (c.wr (regMap d) (ROp.sh3add.eval (c.x (regMap a)) (c.x (regMap b)))) := by
  exact wp_step32' (dec_SH3ADD ..) (by wpr) (by wpr)
@[simp] theorem wp_SH3ADD_s (d a b : Nat)  (r : Emit) :
    wp (w32 (SH3ADD ||| RD d ||| RS1 a ||| RS2 b) ++ r) c Q ↔ wp r (c.wr (regMap d) (ROp.sh3add.eval (c.x (regMap a)) (c.x (regMap b)))) Q := by
  exact wp_step32 (dec_SH3ADD ..) (by wpr) (by wpr)

@[simp] theorem wp_ROL (d a b : Nat)  :
    wp (w32 (ROL ||| RD d ||| RS1 a ||| RS2 b)) c Q ↔ Q (c.wr (regMap d) (ROp.rol.eval (c.x (regMap a)) (c.x (regMap b)))) := by
  exact wp_step32' (dec_ROL ..) (by wpr) (by wpr)
@[simp] theorem wp_ROL_s (d a b : Nat)  (r : Emit) :
    wp (w32 (ROL ||| RD d ||| RS1 a ||| RS2 b) ++ r) c Q ↔ wp r (c.wr (regMap d) (ROp.rol.eval (c.x (regMap a)) (c.x (regMap b)))) Q := by
  exact wp_step32 (dec_ROL ..) (by wpr) (by wpr)

@[simp] theorem wp_ROL_W (w : Bool) (d a b : Nat)  :
    wp (w32 (ROL ||| WORD w ||| RD d ||| RS1 a ||| RS2 b)) c Q ↔ Q (c.wr (regMap d) (if w then sx32 (WOp.rol.eval32 (lo32 (c.x (regMap a))) (lo32 (c.x (regMap b)))) else ROp.rol.eval (c.x (regMap a)) (c.x (regMap b)))) := by
  exact wp_step32' (decW_ROL ..) (by wpr) (by wpr)
@[simp] theorem wp_ROL_W_s (w : Bool) (d a b : Nat)  (r : Emit) :
    wp (w32 (ROL ||| WORD w ||| RD d ||| RS1 a ||| RS2 b) ++ r) c Q ↔ wp r (c.wr (regMap d) (if w then sx32 (WOp.rol.eval32 (lo32 (c.x (regMap a))) (lo32 (c.x (regMap b)))) else ROp.rol.eval (c.x (regMap a)) (c.x (regMap b)))) Q := by
  exact wp_step32 (decW_ROL ..) (by wpr) (by wpr)

@[simp] theorem wp_ROR (d a b : Nat)  :
    wp (w32 (ROR ||| RD d ||| RS1 a ||| RS2 b)) c Q ↔ Q (c.wr (regMap d) (ROp.ror.eval (c.x (regMap a)) (c.x (regMap b)))) := by
  exact wp_step32' (dec_ROR ..) (by wpr) (by wpr)
@[simp] theorem wp_ROR_s (d a b : Nat)  (r : Emit) :
    wp (w32 (ROR ||| RD d ||| RS1 a ||| RS2 b) ++ r) c Q ↔ wp r (c.wr (regMap d) (ROp.ror.eval (c.x (regMap a)) (c.x (regMap b)))) Q := by
  exact wp_step32 (dec_ROR ..) (by wpr) (by wpr)

@[simp] theorem wp_ROR_W (w : Bool) (d a b : Nat)  :
    wp (w32 (ROR ||| WORD w ||| RD d ||| RS1 a ||| RS2 b)) c Q ↔ Q (c.wr (regMap d) (if w then sx32 (WOp.ror.eval32 (lo32 (c.x (regMap a))) (lo32 (c.x (regMap b)))) else ROp.ror.eval (c.x (regMap a)) (c.x (regMap b)))) := by
  exact wp_step32' (decW_ROR ..) (by wpr) (by wpr)
@[simp] theorem wp_ROR_W_s (w : Bool) (d a b : Nat)  (r : Emit) :
    wp (w32 (ROR ||| WORD w ||| RD d ||| RS1 a ||| RS2 b) ++ r) c Q ↔ wp r (c.wr (regMap d) (if w then sx32 (WOp.ror.eval32 (lo32 (c.x (regMap a))) (lo32 (c.x (regMap b)))) else ROp.ror.eval (c.x (regMap a)) (c.x (regMap b)))) Q := by
  exact wp_step32 (decW_ROR ..) (by wpr) (by wpr)

@[simp] theorem wp_ADDI (d a : Nat) (i : BitVec 64)  :
    wp (w32 (ADDI ||| RD d ||| RS1 a ||| IMM_I i)) c Q ↔ Q (c.wr (regMap d) (IOp.add.eval (c.x (regMap a)) (i.setWidth 12))) := by
  exact wp_step32' (dec_ADDI ..) (by wpr) (by wpr)
@[simp] theorem wp_ADDI_s (d a : Nat) (i : BitVec 64)  (r : Emit) :
    wp (w32 (ADDI ||| RD d ||| RS1 a ||| IMM_I i) ++ r) c Q ↔ wp r (c.wr (regMap d) (IOp.add.eval (c.x (regMap a)) (i.setWidth 12))) Q := by
  exact wp_step32 (dec_ADDI ..) (by wpr) (by wpr)

@[simp] theorem wp_SLTI (d a : Nat) (i : BitVec 64)  :
    wp (w32 (SLTI ||| RD d ||| RS1 a ||| IMM_I i)) c Q ↔ Q (c.wr (regMap d) (IOp.slt.eval (c.x (regMap a)) (i.setWidth 12))) := by
  exact wp_step32' (dec_SLTI ..) (by wpr) (by wpr)
@[simp] theorem wp_SLTI_s (d a : Nat) (i : BitVec 64)  (r : Emit) :
    wp (w32 (SLTI ||| RD d ||| RS1 a ||| IMM_I i) ++ r) c Q ↔ wp r (c.wr (regMap d) (IOp.slt.eval (c.x (regMap a)) (i.setWidth 12))) Q := by
  exact wp_step32 (dec_SLTI ..) (by wpr) (by wpr)

@[simp] theorem wp_SLTUI (d a : Nat) (i : BitVec 64)  :
    wp (w32 (SLTUI ||| RD d ||| RS1 a ||| IMM_I i)) c Q ↔ Q (c.wr (regMap d) (IOp.sltu.eval (c.x (regMap a)) (i.setWidth 12))) := by
  exact wp_step32' (dec_SLTUI ..) (by wpr) (by wpr)
@[simp] theorem wp_SLTUI_s (d a : Nat) (i : BitVec 64)  (r : Emit) :
    wp (w32 (SLTUI ||| RD d ||| RS1 a ||| IMM_I i) ++ r) c Q ↔ wp r (c.wr (regMap d) (IOp.sltu.eval (c.x (regMap a)) (i.setWidth 12))) Q := by
  exact wp_step32 (dec_SLTUI ..) (by wpr) (by wpr)

@[simp] theorem wp_XORI (d a : Nat) (i : BitVec 64)  :
    wp (w32 (XORI ||| RD d ||| RS1 a ||| IMM_I i)) c Q ↔ Q (c.wr (regMap d) (IOp.xor.eval (c.x (regMap a)) (i.setWidth 12))) := by
  exact wp_step32' (dec_XORI ..) (by wpr) (by wpr)
@[simp] theorem wp_XORI_s (d a : Nat) (i : BitVec 64)  (r : Emit) :
    wp (w32 (XORI ||| RD d ||| RS1 a ||| IMM_I i) ++ r) c Q ↔ wp r (c.wr (regMap d) (IOp.xor.eval (c.x (regMap a)) (i.setWidth 12))) Q := by
  exact wp_step32 (dec_XORI ..) (by wpr) (by wpr)

@[simp] theorem wp_ORI (d a : Nat) (i : BitVec 64)  :
    wp (w32 (ORI ||| RD d ||| RS1 a ||| IMM_I i)) c Q ↔ Q (c.wr (regMap d) (IOp.or.eval (c.x (regMap a)) (i.setWidth 12))) := by
  exact wp_step32' (dec_ORI ..) (by wpr) (by wpr)
@[simp] theorem wp_ORI_s (d a : Nat) (i : BitVec 64)  (r : Emit) :
    wp (w32 (ORI ||| RD d ||| RS1 a ||| IMM_I i) ++ r) c Q ↔ wp r (c.wr (regMap d) (IOp.or.eval (c.x (regMap a)) (i.setWidth 12))) Q := by
  exact wp_step32 (dec_ORI ..) (by wpr) (by wpr)

@[simp] theorem wp_ANDI (d a : Nat) (i : BitVec 64)  :
    wp (w32 (ANDI ||| RD d ||| RS1 a ||| IMM_I i)) c Q ↔ Q (c.wr (regMap d) (IOp.and.eval (c.x (regMap a)) (i.setWidth 12))) := by
  exact wp_step32' (dec_ANDI ..) (by wpr) (by wpr)
@[simp] theorem wp_ANDI_s (d a : Nat) (i : BitVec 64)  (r : Emit) :
    wp (w32 (ANDI ||| RD d ||| RS1 a ||| IMM_I i) ++ r) c Q ↔ wp r (c.wr (regMap d) (IOp.and.eval (c.x (regMap a)) (i.setWidth 12))) Q := by
  exact wp_step32 (dec_ANDI ..) (by wpr) (by wpr)

theorem wp_ADDI_W (w : Bool) (d a : Nat) (i : BitVec 64)  :
    wp (w32 (ADDI ||| WORD w ||| RD d ||| RS1 a ||| IMM_I i)) c Q ↔ Q (c.wr (regMap d) (if w then sx32 (lo32 (c.x (regMap a)) + (i.setWidth 12).signExtend 32) else IOp.add.eval (c.x (regMap a)) (i.setWidth 12))) := by
  exact wp_step32' (decW_ADDI ..) (by wpr) (by wpr)
theorem wp_ADDI_W_s (w : Bool) (d a : Nat) (i : BitVec 64)  (r : Emit) :
    wp (w32 (ADDI ||| WORD w ||| RD d ||| RS1 a ||| IMM_I i) ++ r) c Q ↔ wp r (c.wr (regMap d) (if w then sx32 (lo32 (c.x (regMap a)) + (i.setWidth 12).signExtend 32) else IOp.add.eval (c.x (regMap a)) (i.setWidth 12))) Q := by
  exact wp_step32 (decW_ADDI ..) (by wpr) (by wpr)

@[simp] theorem wp_SLLI (d a : Nat) (i : BitVec 64) (h : i.toNat < 64) :
    wp (w32 (SLLI ||| RD d ||| RS1 a ||| IMM_I i)) c Q ↔ Q (c.wr (regMap d) (ShOp.sll.eval (c.x (regMap a)) (i.setWidth 6).toNat)) := by
  exact wp_step32' (dec_SLLI _ _ _ h) (by wpr) (by wpr)
@[simp] theorem wp_SLLI_s (d a : Nat) (i : BitVec 64) (h : i.toNat < 64) (r : Emit) :
    wp (w32 (SLLI ||| RD d ||| RS1 a ||| IMM_I i) ++ r) c Q ↔ wp r (c.wr (regMap d) (ShOp.sll.eval (c.x (regMap a)) (i.setWidth 6).toNat)) Q := by
  exact wp_step32 (dec_SLLI _ _ _ h) (by wpr) (by wpr)

@[simp] theorem wp_SLLI_W (w : Bool) (d a : Nat) (i : BitVec 64) (h : i.toNat < if w then 32 else 64) :
    wp (w32 (SLLI ||| WORD w ||| RD d ||| RS1 a ||| IMM_I i)) c Q ↔ Q (c.wr (regMap d) (if w then sx32 (ShOp.sll.eval32 (lo32 (c.x (regMap a))) (i.setWidth 5).toNat) else ShOp.sll.eval (c.x (regMap a)) (i.setWidth 6).toNat)) := by
  exact wp_step32' (decW_SLLI _ _ _ w h) (by wpr) (by wpr)
@[simp] theorem wp_SLLI_W_s (w : Bool) (d a : Nat) (i : BitVec 64) (h : i.toNat < if w then 32 else 64) (r : Emit) :
    wp (w32 (SLLI ||| WORD w ||| RD d ||| RS1 a ||| IMM_I i) ++ r) c Q ↔ wp r (c.wr (regMap d) (if w then sx32 (ShOp.sll.eval32 (lo32 (c.x (regMap a))) (i.setWidth 5).toNat) else ShOp.sll.eval (c.x (regMap a)) (i.setWidth 6).toNat)) Q := by
  exact wp_step32 (decW_SLLI _ _ _ w h) (by wpr) (by wpr)

@[simp] theorem wp_SRLI (d a : Nat) (i : BitVec 64) (h : i.toNat < 64) :
    wp (w32 (SRLI ||| RD d ||| RS1 a ||| IMM_I i)) c Q ↔ Q (c.wr (regMap d) (ShOp.srl.eval (c.x (regMap a)) (i.setWidth 6).toNat)) := by
  exact wp_step32' (dec_SRLI _ _ _ h) (by wpr) (by wpr)
@[simp] theorem wp_SRLI_s (d a : Nat) (i : BitVec 64) (h : i.toNat < 64) (r : Emit) :
    wp (w32 (SRLI ||| RD d ||| RS1 a ||| IMM_I i) ++ r) c Q ↔ wp r (c.wr (regMap d) (ShOp.srl.eval (c.x (regMap a)) (i.setWidth 6).toNat)) Q := by
  exact wp_step32 (dec_SRLI _ _ _ h) (by wpr) (by wpr)

@[simp] theorem wp_SRLI_W (w : Bool) (d a : Nat) (i : BitVec 64) (h : i.toNat < if w then 32 else 64) :
    wp (w32 (SRLI ||| WORD w ||| RD d ||| RS1 a ||| IMM_I i)) c Q ↔ Q (c.wr (regMap d) (if w then sx32 (ShOp.srl.eval32 (lo32 (c.x (regMap a))) (i.setWidth 5).toNat) else ShOp.srl.eval (c.x (regMap a)) (i.setWidth 6).toNat)) := by
  exact wp_step32' (decW_SRLI _ _ _ w h) (by wpr) (by wpr)
@[simp] theorem wp_SRLI_W_s (w : Bool) (d a : Nat) (i : BitVec 64) (h : i.toNat < if w then 32 else 64) (r : Emit) :
    wp (w32 (SRLI ||| WORD w ||| RD d ||| RS1 a ||| IMM_I i) ++ r) c Q ↔ wp r (c.wr (regMap d) (if w then sx32 (ShOp.srl.eval32 (lo32 (c.x (regMap a))) (i.setWidth 5).toNat) else ShOp.srl.eval (c.x (regMap a)) (i.setWidth 6).toNat)) Q := by
  exact wp_step32 (decW_SRLI _ _ _ w h) (by wpr) (by wpr)

@[simp] theorem wp_SRAI (d a : Nat) (i : BitVec 64) (h : i.toNat < 64) :
    wp (w32 (SRAI ||| RD d ||| RS1 a ||| IMM_I i)) c Q ↔ Q (c.wr (regMap d) (ShOp.sra.eval (c.x (regMap a)) (i.setWidth 6).toNat)) := by
  exact wp_step32' (dec_SRAI _ _ _ h) (by wpr) (by wpr)
@[simp] theorem wp_SRAI_s (d a : Nat) (i : BitVec 64) (h : i.toNat < 64) (r : Emit) :
    wp (w32 (SRAI ||| RD d ||| RS1 a ||| IMM_I i) ++ r) c Q ↔ wp r (c.wr (regMap d) (ShOp.sra.eval (c.x (regMap a)) (i.setWidth 6).toNat)) Q := by
  exact wp_step32 (dec_SRAI _ _ _ h) (by wpr) (by wpr)

@[simp] theorem wp_SRAI_W (w : Bool) (d a : Nat) (i : BitVec 64) (h : i.toNat < if w then 32 else 64) :
    wp (w32 (SRAI ||| WORD w ||| RD d ||| RS1 a ||| IMM_I i)) c Q ↔ Q (c.wr (regMap d) (if w then sx32 (ShOp.sra.eval32 (lo32 (c.x (regMap a))) (i.setWidth 5).toNat) else ShOp.sra.eval (c.x (regMap a)) (i.setWidth 6).toNat)) := by
  exact wp_step32' (decW_SRAI _ _ _ w h) (by wpr) (by wpr)
@[simp] theorem wp_SRAI_W_s (w : Bool) (d a : Nat) (i : BitVec 64) (h : i.toNat < if w then 32 else 64) (r : Emit) :
    wp (w32 (SRAI ||| WORD w ||| RD d ||| RS1 a ||| IMM_I i) ++ r) c Q ↔ wp r (c.wr (regMap d) (if w then sx32 (ShOp.sra.eval32 (lo32 (c.x (regMap a))) (i.setWidth 5).toNat) else ShOp.sra.eval (c.x (regMap a)) (i.setWidth 6).toNat)) Q := by
  exact wp_step32 (decW_SRAI _ _ _ w h) (by wpr) (by wpr)

@[simp] theorem wp_RORI (d a : Nat) (i : BitVec 64) (h : i.toNat < 64) :
    wp (w32 (RORI ||| RD d ||| RS1 a ||| IMM_I i)) c Q ↔ Q (c.wr (regMap d) (ShOp.ror.eval (c.x (regMap a)) (i.setWidth 6).toNat)) := by
  exact wp_step32' (dec_RORI _ _ _ h) (by wpr) (by wpr)
@[simp] theorem wp_RORI_s (d a : Nat) (i : BitVec 64) (h : i.toNat < 64) (r : Emit) :
    wp (w32 (RORI ||| RD d ||| RS1 a ||| IMM_I i) ++ r) c Q ↔ wp r (c.wr (regMap d) (ShOp.ror.eval (c.x (regMap a)) (i.setWidth 6).toNat)) Q := by
  exact wp_step32 (dec_RORI _ _ _ h) (by wpr) (by wpr)

@[simp] theorem wp_RORI_W (w : Bool) (d a : Nat) (i : BitVec 64) (h : i.toNat < if w then 32 else 64) :
    wp (w32 (RORI ||| WORD w ||| RD d ||| RS1 a ||| IMM_I i)) c Q ↔ Q (c.wr (regMap d) (if w then sx32 (ShOp.ror.eval32 (lo32 (c.x (regMap a))) (i.setWidth 5).toNat) else ShOp.ror.eval (c.x (regMap a)) (i.setWidth 6).toNat)) := by
  exact wp_step32' (decW_RORI _ _ _ w h) (by wpr) (by wpr)
@[simp] theorem wp_RORI_W_s (w : Bool) (d a : Nat) (i : BitVec 64) (h : i.toNat < if w then 32 else 64) (r : Emit) :
    wp (w32 (RORI ||| WORD w ||| RD d ||| RS1 a ||| IMM_I i) ++ r) c Q ↔ wp r (c.wr (regMap d) (if w then sx32 (ShOp.ror.eval32 (lo32 (c.x (regMap a))) (i.setWidth 5).toNat) else ShOp.ror.eval (c.x (regMap a)) (i.setWidth 6).toNat)) Q := by
  exact wp_step32 (decW_RORI _ _ _ w h) (by wpr) (by wpr)

@[simp] theorem wp_CLZ_W (w : Bool) (d a : Nat)  :
    wp (w32 (CLZ ||| WORD w ||| RD d ||| RS1 a)) c Q ↔ Q (c.wr (regMap d) (if w then UnOp.clzw.eval (c.x (regMap a)) else UnOp.clz.eval (c.x (regMap a)))) := by
  exact wp_step32' (decW_CLZ ..) (by wpr) (by wpr)
@[simp] theorem wp_CLZ_W_s (w : Bool) (d a : Nat)  (r : Emit) :
    wp (w32 (CLZ ||| WORD w ||| RD d ||| RS1 a) ++ r) c Q ↔ wp r (c.wr (regMap d) (if w then UnOp.clzw.eval (c.x (regMap a)) else UnOp.clz.eval (c.x (regMap a)))) Q := by
  exact wp_step32 (decW_CLZ ..) (by wpr) (by wpr)

@[simp] theorem wp_CTZ_W (w : Bool) (d a : Nat)  :
    wp (w32 (CTZ ||| WORD w ||| RD d ||| RS1 a)) c Q ↔ Q (c.wr (regMap d) (if w then UnOp.ctzw.eval (c.x (regMap a)) else UnOp.ctz.eval (c.x (regMap a)))) := by
  exact wp_step32' (decW_CTZ ..) (by wpr) (by wpr)
@[simp] theorem wp_CTZ_W_s (w : Bool) (d a : Nat)  (r : Emit) :
    wp (w32 (CTZ ||| WORD w ||| RD d ||| RS1 a) ++ r) c Q ↔ wp r (c.wr (regMap d) (if w then UnOp.ctzw.eval (c.x (regMap a)) else UnOp.ctz.eval (c.x (regMap a)))) Q := by
  exact wp_step32 (decW_CTZ ..) (by wpr) (by wpr)

@[simp] theorem wp_SEXTB (d a : Nat)  :
    wp (w32 (SEXTB ||| RD d ||| RS1 a)) c Q ↔ Q (c.wr (regMap d) (UnOp.sextb.eval (c.x (regMap a)))) := by
  exact wp_step32' (dec_SEXTB ..) (by wpr) (by wpr)
@[simp] theorem wp_SEXTB_s (d a : Nat)  (r : Emit) :
    wp (w32 (SEXTB ||| RD d ||| RS1 a) ++ r) c Q ↔ wp r (c.wr (regMap d) (UnOp.sextb.eval (c.x (regMap a)))) Q := by
  exact wp_step32 (dec_SEXTB ..) (by wpr) (by wpr)

@[simp] theorem wp_SEXTH (d a : Nat)  :
    wp (w32 (SEXTH ||| RD d ||| RS1 a)) c Q ↔ Q (c.wr (regMap d) (UnOp.sexth.eval (c.x (regMap a)))) := by
  exact wp_step32' (dec_SEXTH ..) (by wpr) (by wpr)
@[simp] theorem wp_SEXTH_s (d a : Nat)  (r : Emit) :
    wp (w32 (SEXTH ||| RD d ||| RS1 a) ++ r) c Q ↔ wp r (c.wr (regMap d) (UnOp.sexth.eval (c.x (regMap a)))) Q := by
  exact wp_step32 (dec_SEXTH ..) (by wpr) (by wpr)

@[simp] theorem wp_ZEXTH (d a : Nat)  :
    wp (w32 (ZEXTH ||| RD d ||| RS1 a)) c Q ↔ Q (c.wr (regMap d) (UnOp.zexth.eval (c.x (regMap a)))) := by
  exact wp_step32' (dec_ZEXTH ..) (by wpr) (by wpr)
@[simp] theorem wp_ZEXTH_s (d a : Nat)  (r : Emit) :
    wp (w32 (ZEXTH ||| RD d ||| RS1 a) ++ r) c Q ↔ wp r (c.wr (regMap d) (UnOp.zexth.eval (c.x (regMap a)))) Q := by
  exact wp_step32 (dec_ZEXTH ..) (by wpr) (by wpr)

@[simp] theorem wp_REV8 (d a : Nat)  :
    wp (w32 (REV8 ||| RD d ||| RS1 a)) c Q ↔ Q (c.wr (regMap d) (UnOp.rev8.eval (c.x (regMap a)))) := by
  exact wp_step32' (dec_REV8 ..) (by wpr) (by wpr)
@[simp] theorem wp_REV8_s (d a : Nat)  (r : Emit) :
    wp (w32 (REV8 ||| RD d ||| RS1 a) ++ r) c Q ↔ wp r (c.wr (regMap d) (UnOp.rev8.eval (c.x (regMap a)))) Q := by
  exact wp_step32 (dec_REV8 ..) (by wpr) (by wpr)

@[simp] theorem wp_C_MV (d b : Nat) (h : regMap b ≠ 0#5) :
    wp (w16 (C_MV ||| C_RD d ||| C_RS2 b)) c Q ↔ Q (c.wr (regMap d) (c.x 0#5 + c.x (regMap b))) := by
  exact wp_step16' (dec_C_MV _ _ h) (by wpr) (by wpr)
@[simp] theorem wp_C_MV_s (d b : Nat) (h : regMap b ≠ 0#5) (r : Emit) :
    wp (w16 (C_MV ||| C_RD d ||| C_RS2 b) ++ r) c Q ↔ wp r (c.wr (regMap d) (c.x 0#5 + c.x (regMap b))) Q := by
  exact wp_step16 (dec_C_MV _ _ h) (by wpr) (by wpr)

@[simp] theorem wp_C_ADD (d b : Nat) (h : regMap b ≠ 0#5) :
    wp (w16 (C_ADD ||| C_RD d ||| C_RS2 b)) c Q ↔ Q (c.wr (regMap d) (c.x (regMap d) + c.x (regMap b))) := by
  exact wp_step16' (dec_C_ADD _ _ h) (by wpr) (by wpr)
@[simp] theorem wp_C_ADD_s (d b : Nat) (h : regMap b ≠ 0#5) (r : Emit) :
    wp (w16 (C_ADD ||| C_RD d ||| C_RS2 b) ++ r) c Q ↔ wp r (c.wr (regMap d) (c.x (regMap d) + c.x (regMap b))) Q := by
  exact wp_step16 (dec_C_ADD _ _ h) (by wpr) (by wpr)

@[simp] theorem wp_C_LI (d : Nat) (i : BitVec 64)  :
    wp (w16 (C_LI ||| C_RD d ||| C_IMM_I i)) c Q ↔ Q (c.wr (regMap d) (IOp.add.eval (c.x 0#5) ((i.setWidth 6).signExtend 12))) := by
  exact wp_step16' (dec_C_LI ..) (by wpr) (by wpr)
@[simp] theorem wp_C_LI_s (d : Nat) (i : BitVec 64)  (r : Emit) :
    wp (w16 (C_LI ||| C_RD d ||| C_IMM_I i) ++ r) c Q ↔ wp r (c.wr (regMap d) (IOp.add.eval (c.x 0#5) ((i.setWidth 6).signExtend 12))) Q := by
  exact wp_step16 (dec_C_LI ..) (by wpr) (by wpr)

@[simp] theorem wp_C_ADDI_W (w : Bool) (d : Nat) (i : BitVec 64) (h : regMap d ≠ 0#5) :
    wp (w16 (C_ADDI_W w ||| C_RD d ||| C_IMM_I i)) c Q ↔ Q (c.wr (regMap d) (if w then sx32 (lo32 (c.x (regMap d)) + ((i.setWidth 6).signExtend 12).signExtend 32) else IOp.add.eval (c.x (regMap d)) ((i.setWidth 6).signExtend 12))) := by
  exact wp_step16' (dec_C_ADDI_W _ _ w h) (by wpr) (by wpr)
@[simp] theorem wp_C_ADDI_W_s (w : Bool) (d : Nat) (i : BitVec 64) (h : regMap d ≠ 0#5) (r : Emit) :
    wp (w16 (C_ADDI_W w ||| C_RD d ||| C_IMM_I i) ++ r) c Q ↔ wp r (c.wr (regMap d) (if w then sx32 (lo32 (c.x (regMap d)) + ((i.setWidth 6).signExtend 12).signExtend 32) else IOp.add.eval (c.x (regMap d)) ((i.setWidth 6).signExtend 12))) Q := by
  exact wp_step16 (dec_C_ADDI_W _ _ w h) (by wpr) (by wpr)

@[simp] theorem wp_C_SLLI (d : Nat) (i : BitVec 64)  :
    wp (w16 (C_SLLI ||| C_RD d ||| C_IMM_I i)) c Q ↔ Q (c.wr (regMap d) (ShOp.sll.eval (c.x (regMap d)) (i.setWidth 6).toNat)) := by
  exact wp_step16' (dec_C_SLLI ..) (by wpr) (by wpr)
@[simp] theorem wp_C_SLLI_s (d : Nat) (i : BitVec 64)  (r : Emit) :
    wp (w16 (C_SLLI ||| C_RD d ||| C_IMM_I i) ++ r) c Q ↔ wp r (c.wr (regMap d) (ShOp.sll.eval (c.x (regMap d)) (i.setWidth 6).toNat)) Q := by
  exact wp_step16 (dec_C_SLLI ..) (by wpr) (by wpr)

@[simp] theorem wp_C_SRLI (d : Nat) (i : BitVec 64) (h : C_IS_R3 d = true) :
    wp (w16 (C_SRLI ||| C_RS1_R3 d ||| C_IMM_I i)) c Q ↔ Q (c.wr (regMap d) (ShOp.srl.eval (c.x (regMap d)) (i.setWidth 6).toNat)) := by
  exact wp_step16' (dec_C_SRLI _ _ h) (by wpr) (by wpr)
@[simp] theorem wp_C_SRLI_s (d : Nat) (i : BitVec 64) (h : C_IS_R3 d = true) (r : Emit) :
    wp (w16 (C_SRLI ||| C_RS1_R3 d ||| C_IMM_I i) ++ r) c Q ↔ wp r (c.wr (regMap d) (ShOp.srl.eval (c.x (regMap d)) (i.setWidth 6).toNat)) Q := by
  exact wp_step16 (dec_C_SRLI _ _ h) (by wpr) (by wpr)

@[simp] theorem wp_C_SRAI (d : Nat) (i : BitVec 64) (h : C_IS_R3 d = true) :
    wp (w16 (C_SRAI ||| C_RS1_R3 d ||| C_IMM_I i)) c Q ↔ Q (c.wr (regMap d) (ShOp.sra.eval (c.x (regMap d)) (i.setWidth 6).toNat)) := by
  exact wp_step16' (dec_C_SRAI _ _ h) (by wpr) (by wpr)
@[simp] theorem wp_C_SRAI_s (d : Nat) (i : BitVec 64) (h : C_IS_R3 d = true) (r : Emit) :
    wp (w16 (C_SRAI ||| C_RS1_R3 d ||| C_IMM_I i) ++ r) c Q ↔ wp r (c.wr (regMap d) (ShOp.sra.eval (c.x (regMap d)) (i.setWidth 6).toNat)) Q := by
  exact wp_step16 (dec_C_SRAI _ _ h) (by wpr) (by wpr)

@[simp] theorem wp_C_ANDI (d : Nat) (i : BitVec 64) (h : C_IS_R3 d = true) :
    wp (w16 (C_ANDI ||| C_RS1_R3 d ||| C_IMM_I i)) c Q ↔ Q (c.wr (regMap d) (IOp.and.eval (c.x (regMap d)) ((i.setWidth 6).signExtend 12))) := by
  exact wp_step16' (dec_C_ANDI _ _ h) (by wpr) (by wpr)
@[simp] theorem wp_C_ANDI_s (d : Nat) (i : BitVec 64) (h : C_IS_R3 d = true) (r : Emit) :
    wp (w16 (C_ANDI ||| C_RS1_R3 d ||| C_IMM_I i) ++ r) c Q ↔ wp r (c.wr (regMap d) (IOp.and.eval (c.x (regMap d)) ((i.setWidth 6).signExtend 12))) Q := by
  exact wp_step16 (dec_C_ANDI _ _ h) (by wpr) (by wpr)

@[simp] theorem wp_C_XOR (d b : Nat) (h : C_IS_R3 d = true) (h2 : C_IS_R3 b = true) :
    wp (w16 (C_XOR ||| C_RS1_R3 d ||| C_RS2_R3 b)) c Q ↔ Q (c.wr (regMap d) (ROp.xor.eval (c.x (regMap d)) (c.x (regMap b)))) := by
  exact wp_step16' (dec_C_XOR _ _ h h2) (by wpr) (by wpr)
@[simp] theorem wp_C_XOR_s (d b : Nat) (h : C_IS_R3 d = true) (h2 : C_IS_R3 b = true) (r : Emit) :
    wp (w16 (C_XOR ||| C_RS1_R3 d ||| C_RS2_R3 b) ++ r) c Q ↔ wp r (c.wr (regMap d) (ROp.xor.eval (c.x (regMap d)) (c.x (regMap b)))) Q := by
  exact wp_step16 (dec_C_XOR _ _ h h2) (by wpr) (by wpr)

@[simp] theorem wp_C_OR (d b : Nat) (h : C_IS_R3 d = true) (h2 : C_IS_R3 b = true) :
    wp (w16 (C_OR ||| C_RS1_R3 d ||| C_RS2_R3 b)) c Q ↔ Q (c.wr (regMap d) (ROp.or.eval (c.x (regMap d)) (c.x (regMap b)))) := by
  exact wp_step16' (dec_C_OR _ _ h h2) (by wpr) (by wpr)
@[simp] theorem wp_C_OR_s (d b : Nat) (h : C_IS_R3 d = true) (h2 : C_IS_R3 b = true) (r : Emit) :
    wp (w16 (C_OR ||| C_RS1_R3 d ||| C_RS2_R3 b) ++ r) c Q ↔ wp r (c.wr (regMap d) (ROp.or.eval (c.x (regMap d)) (c.x (regMap b)))) Q := by
  exact wp_step16 (dec_C_OR _ _ h h2) (by wpr) (by wpr)

@[simp] theorem wp_C_AND (d b : Nat) (h : C_IS_R3 d = true) (h2 : C_IS_R3 b = true) :
    wp (w16 (C_AND ||| C_RS1_R3 d ||| C_RS2_R3 b)) c Q ↔ Q (c.wr (regMap d) (ROp.and.eval (c.x (regMap d)) (c.x (regMap b)))) := by
  exact wp_step16' (dec_C_AND _ _ h h2) (by wpr) (by wpr)
@[simp] theorem wp_C_AND_s (d b : Nat) (h : C_IS_R3 d = true) (h2 : C_IS_R3 b = true) (r : Emit) :
    wp (w16 (C_AND ||| C_RS1_R3 d ||| C_RS2_R3 b) ++ r) c Q ↔ wp r (c.wr (regMap d) (ROp.and.eval (c.x (regMap d)) (c.x (regMap b)))) Q := by
  exact wp_step16 (dec_C_AND _ _ h h2) (by wpr) (by wpr)

@[simp] theorem wp_C_SUB_W (w : Bool) (d b : Nat) (h : C_IS_R3 d = true) (h2 : C_IS_R3 b = true) :
    wp (w16 (C_SUB_W w ||| C_RS1_R3 d ||| C_RS2_R3 b)) c Q ↔ Q (c.wr (regMap d) (if w then sx32 (WOp.sub.eval32 (lo32 (c.x (regMap d))) (lo32 (c.x (regMap b)))) else ROp.sub.eval (c.x (regMap d)) (c.x (regMap b)))) := by
  exact wp_step16' (dec_C_SUB_W _ _ w h h2) (by wpr) (by wpr)
@[simp] theorem wp_C_SUB_W_s (w : Bool) (d b : Nat) (h : C_IS_R3 d = true) (h2 : C_IS_R3 b = true) (r : Emit) :
    wp (w16 (C_SUB_W w ||| C_RS1_R3 d ||| C_RS2_R3 b) ++ r) c Q ↔ wp r (c.wr (regMap d) (if w then sx32 (WOp.sub.eval32 (lo32 (c.x (regMap d))) (lo32 (c.x (regMap b)))) else ROp.sub.eval (c.x (regMap d)) (c.x (regMap b)))) Q := by
  exact wp_step16 (dec_C_SUB_W _ _ w h h2) (by wpr) (by wpr)

@[simp] theorem wp_C_ADDW (d b : Nat) (h : C_IS_R3 d = true) (h2 : C_IS_R3 b = true) :
    wp (w16 (C_ADDW ||| C_RS1_R3 d ||| C_RS2_R3 b)) c Q ↔ Q (c.wr (regMap d) (sx32 (WOp.add.eval32 (lo32 (c.x (regMap d))) (lo32 (c.x (regMap b)))))) := by
  exact wp_step16' (dec_C_ADDW _ _ h h2) (by wpr) (by wpr)
@[simp] theorem wp_C_ADDW_s (d b : Nat) (h : C_IS_R3 d = true) (h2 : C_IS_R3 b = true) (r : Emit) :
    wp (w16 (C_ADDW ||| C_RS1_R3 d ||| C_RS2_R3 b) ++ r) c Q ↔ wp r (c.wr (regMap d) (sx32 (WOp.add.eval32 (lo32 (c.x (regMap d))) (lo32 (c.x (regMap b)))))) Q := by
  exact wp_step16 (dec_C_ADDW _ _ h h2) (by wpr) (by wpr)

@[simp] theorem wp_C_ADDIW (d : Nat) (h : regMap d ≠ 0#5) :
    wp (w16 (C_ADDIW ||| C_RD d)) c Q ↔ Q (c.wr (regMap d) (sx32 (lo32 (c.x (regMap d))))) := by
  exact wp_step16' (dec_C_ADDIW0 _ h) (by wpr) (by wpr)
@[simp] theorem wp_C_ADDIW_s (d : Nat) (h : regMap d ≠ 0#5) (r : Emit) :
    wp (w16 (C_ADDIW ||| C_RD d) ++ r) c Q ↔ wp r (c.wr (regMap d) (sx32 (lo32 (c.x (regMap d))))) Q := by
  exact wp_step16 (dec_C_ADDIW0 _ h) (by wpr) (by wpr)

@[simp] theorem wp_C_LI0 (d : Nat)  :
    wp (w16 (C_LI ||| C_RD d)) c Q ↔ Q (c.wr (regMap d) 0#64) := by
  exact wp_step16' (dec_C_LI0 ..) (by wpr) (by wpr)
@[simp] theorem wp_C_LI0_s (d : Nat)  (r : Emit) :
    wp (w16 (C_LI ||| C_RD d) ++ r) c Q ↔ wp r (c.wr (regMap d) 0#64) Q := by
  exact wp_step16 (dec_C_LI0 ..) (by wpr) (by wpr)

@[simp] theorem wp_LUI_of (d : Nat) (v : BitVec 32) (h : v &&& 0xfff#32 = 0#32) :
    wp (w32 (LUI ||| RD d ||| v)) c Q ↔ Q (c.wr (regMap d) (uimm (v.extractLsb' 12 20))) := by
  exact wp_step32' (dec_LUI_of _ v h) (by wpr) (by wpr)
@[simp] theorem wp_LUI_of_s (d : Nat) (v : BitVec 32) (h : v &&& 0xfff#32 = 0#32) (r : Emit) :
    wp (w32 (LUI ||| RD d ||| v) ++ r) c Q ↔ wp r (c.wr (regMap d) (uimm (v.extractLsb' 12 20))) Q := by
  exact wp_step32 (dec_LUI_of _ v h) (by wpr) (by wpr)
end rules
end Verif.RV
