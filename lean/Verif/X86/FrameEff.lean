import Verif.X86.Frame
import Verif.X86.MovEff
import Verif.X86.Local
import Verif.X86.JumpExec

/-! # Function entry and return (helper lemmas) -/

namespace Verif.X86

variable {win : Bool} {s : St}

/-! ## Memory -/

theorem off_shift {q a : BitVec 64} {k : Nat} (h : k ≤ (q - a).toNat) : (q - (a + BitVec.ofNat 64 k)).toNat = (q - a).toNat - k := by
  have e : q - (a + BitVec.ofNat 64 k) = (q - a) - BitVec.ofNat 64 k := by simp only [BitVec.sub_eq_add_neg, BitVec.neg_add]; ac_rfl
  rw [e]
  generalize q - a = d at h ⊢
  have := d.isLt
  rw [BitVec.toNat_sub_of_le (by rw [BitVec.le_def, BitVec.toNat_ofNat, Nat.mod_eq_of_lt (by omega)]; exact h), BitVec.toNat_ofNat, Nat.mod_eq_of_lt (by omega)]

theorem off_add (a : BitVec 64) {k : Nat} (h : k < 2 ^ 64) : ((a + BitVec.ofNat 64 k) - a).toNat = k := by
  rw [BitVec.add_comm, BitVec.add_sub_cancel, BitVec.toNat_ofNat, Nat.mod_eq_of_lt h]

theorem rd_congr {m m' : BitVec 64 → Byte} : ∀ {n : Nat} {a : BitVec 64}, (∀ k < n, m (a + BitVec.ofNat 64 k) = m' (a + BitVec.ofNat 64 k)) → rd m a n = rd m' a n
  | 0, _, _ => rfl
  | n + 1, a, h => by
    have h0 := h 0 (by omega)
    rw [BitVec.add_zero] at h0
    rw [rd, rd, h0, rd_congr (a := a + 1#64) fun k hk => ?_]
    have := h (k + 1) (by omega)
    rwa [BitVec.add_assoc, show (1#64 + BitVec.ofNat 64 k) = BitVec.ofNat 64 (k + 1) by rw [BitVec.ofNat_add, BitVec.add_comm]]

theorem rd_wr_aux (m : BitVec 64 → Byte) (a v : BitVec 64) : ∀ n k, n + k ≤ 8 → ∀ i, i < 64 →
    (rd (wr m a 8 v) (a + BitVec.ofNat 64 k) n).getLsbD i = (decide (i < 8 * n) && v.getLsbD (8 * k + i))
  | 0, _, _, i, _ => by simp [rd]
  | n + 1, k, h, i, hi => by
    have e : a + BitVec.ofNat 64 k + 1#64 = a + BitVec.ofNat 64 (k + 1) := by rw [BitVec.add_assoc, ← BitVec.ofNat_add]
    have hw : wr m a 8 v (a + BitVec.ofNat 64 k) = (v >>> (8 * k)).setWidth 8 := by
      simp only [wr, off_add a (show k < 2 ^ 64 by omega)]
      rw [if_pos (by omega)]
    rw [rd, e, hw, BitVec.getLsbD_or, BitVec.getLsbD_shiftLeft]
    by_cases h8 : i < 8
    · simp [h8, hi, show i < 8 * (n + 1) by omega]
    · rw [rd_wr_aux m a v n (k + 1) (by omega) (i - 8) (by omega)]
      simp only [BitVec.getLsbD_setWidth, h8, decide_false, Bool.false_and, Bool.and_false, Bool.false_or, Bool.not_false, hi, decide_true, Bool.true_and]
      rw [show 8 * (k + 1) + (i - 8) = 8 * k + i by omega]
      congr 1
      rw [decide_eq_decide]; omega

theorem rd_wr (m : BitVec 64 → Byte) (a v : BitVec 64) : rd (wr m a 8 v) a 8 = v := by
  apply BitVec.eq_of_getLsbD_eq
  intro i hi
  have := rd_wr_aux m a v 8 0 (by omega) i hi
  rw [BitVec.add_zero] at this
  rw [this]
  simp [show i < 8 * 8 by omega]

theorem wr_out {m : BitVec 64 → Byte} {a v q : BitVec 64} {n : Nat} (h : n ≤ (q - a).toNat) : wr m a n v q = m q := by
  rw [wr, if_neg (by omega)]

/-! ## PUSH and POP -/

theorem push_parse : ∀ win : Bool, ∀ r : Fin 17, ∀ pop : Bool,
    (if regMap win r.val ≥ 8#8 then [REX_B] else []) ++ [(if pop then 0x58#8 else 0x50#8) + regLmap win r.val] = (if high win r.val then [0x41#8] else []) ++
      [(if pop then 0x58#8 else 0x50#8) ||| (low win r.val).setWidth 8] := by decide +kernel

theorem push_flds : ∀ k : BitVec 3, ∀ pop : Bool, let op := (if pop then 0x58#8 else 0x50#8) ||| k.setWidth 8
    ¬ (op = 0x66#8 ∨ op = 0xf2#8 ∨ op = 0xf3#8) ∧ fld op 4 4 ≠ 4#4 ∧ op ≠ 0x0f#8 ∧ op ≠ 0xa9#8 ∧ fld op 3 5 ≠ 0b10111#5 ∧ fld op 6 2 ≠ 0#2 ∧ op ≠ 0x99#8 ∧
      fld op 4 4 = 5#4 ∧ op.getLsbD 3 = pop ∧ fld op 0 3 = k := by decide +kernel

theorem stack_step (r : Fin 17) (pop : Bool) {s' : St}
    (he : (if pop then (s.set 4#4 (s.r 4#4 + 8#64)).set (num win r.val) (rd s.m (s.r 4#4) 8)
      else { s.set 4#4 (s.r 4#4 - 8#64) with m := wr s.m (s.r 4#4 - 8#64) 8 (s.r (num win r.val)) }) = s') :
    Steps ((if regMap win r.val ≥ 8#8 then [REX_B] else []) ++ [(if pop then 0x58#8 else 0x50#8) + regLmap win r.val]) s s' := by
  rw [push_parse]
  obtain ⟨h1, h2, h3, h4, h5, h6, h7, h8, h9, h10⟩ := push_flds (low win r.val) pop
  generalize hop : (if pop then 0x58#8 else 0x50#8) ||| (low win r.val).setWidth 8 = op at *
  have hs : ∀ rex, shortSize 0#8 rex 0 op = some 0 := by
    intro rex
    simp only [shortSize, Nat.zero_ne_one, if_false, h4, h6, false_and, or_self, h5, h8, h7, or_false, if_true]
  refine Steps.one (.short 0#8 (if high win r.val then 0x41#8 else 0#8) 0 op (sext 0 0#64)) (fun rest => ?_) ?_
  · cases high win r.val
    · simp only [Bool.false_eq_true, if_false, List.nil_append, List.cons_append, parse, h1, parseRex, h2, parseMap, h3, parseOp, hs, sle', le, Option.map_some]
    · simp only [if_true, List.nil_append, List.cons_append]
      rw [parse_rex (by decide) h3]
      simp only [parseOp, hs, sle', le, Option.map_some]
  · have hr : ext ((if high win r.val then 0x41#8 else 0#8 : Byte).getLsbD 0) (low win r.val) = num win r.val := by
      rw [num_eq]; cases high win r.val <;> rfl
    simp only [exec, Nat.zero_ne_one, if_false, h4, h5, h6, false_and, h7, h8, h9, h10, hr, ne_eq, show ¬ (0#8 = 0x66#8) by decide, not_false_eq_true, and_self, if_true]
    rw [← he]
    cases pop <;> rfl

theorem push_step {r : Nat} (hr : r ≤ 16) : Steps (pushReg win r) s { s.set 4#4 (s.r 4#4 - 8#64) with m := wr s.m (s.r 4#4 - 8#64) 8 (s.r (num win r)) } :=
  stack_step (win := win) ⟨r, by omega⟩ false rfl

theorem pop_step {r : Nat} (hr : r ≤ 16) : Steps (popReg win r) s ((s.set 4#4 (s.r 4#4 + 8#64)).set (num win r) (rd s.m (s.r 4#4) 8)) :=
  stack_step (win := win) ⟨r, by omega⟩ true rfl

/-- The values of registers below `sp`, the first one at the highest address. -/
def Slots (win : Bool) (v : BitVec 4 → BitVec 64) (m : BitVec 64 → Byte) : BitVec 64 → List Nat → Prop
  | _, [] => True
  | sp, r :: rs => rd m (sp - 8#64) 8 = v (num win r) ∧ Slots win v m (sp - 8#64) rs

theorem sp_next (sp : BitVec 64) (n : Nat) : sp - 8#64 - BitVec.ofNat 64 (8 * n) = sp - BitVec.ofNat 64 (8 * (n + 1)) := by
  rw [show 8 * (n + 1) = 8 + 8 * n by omega, BitVec.ofNat_add]
  simp only [BitVec.sub_eq_add_neg, BitVec.neg_add]; ac_rfl

theorem Slots.congr {v : BitVec 4 → BitVec 64} {m m' : BitVec 64 → Byte} : ∀ {rs : List Nat} {sp : BitVec 64}, 8 * rs.length < 2 ^ 64 →
    (∀ q, (q - (sp - BitVec.ofNat 64 (8 * rs.length))).toNat < 8 * rs.length → m' q = m q) → Slots win v m sp rs → Slots win v m' sp rs
  | [], _, _, _, _ => trivial
  | r :: rs, sp, hl, h, ⟨h1, h2⟩ => by
    rw [List.length_cons] at h hl
    rw [← sp_next] at h
    refine ⟨?_, Slots.congr (by omega) (fun q hq => h q (by omega)) h2⟩
    rw [← h1]
    refine rd_congr fun k hk => h _ ?_
    have e : sp - 8#64 + BitVec.ofNat 64 k - (sp - 8#64 - BitVec.ofNat 64 (8 * rs.length)) = BitVec.ofNat 64 (k + 8 * rs.length) := by
      rw [BitVec.ofNat_add]
      generalize BitVec.ofNat 64 (8 * rs.length) = x
      generalize BitVec.ofNat 64 k = y
      generalize sp - 8#64 = z
      rw [BitVec.sub_eq_iff_eq_add, BitVec.add_assoc, BitVec.add_comm x, BitVec.sub_add_cancel, BitVec.add_comm]
    rw [e, BitVec.toNat_ofNat, Nat.mod_eq_of_lt (by omega)]
    omega

theorem num_ne_sp (win : Bool) {r : Nat} (h1 : 1 ≤ r) (h2 : r ≤ 13) : num win r ≠ 4#4 := by
  have := num_ne (win := win) h1 (by omega) (show 1 ≤ 14 by omega) (by omega) (show r ≠ 14 by omega)
  rwa [show num win 14 = 4#4 by cases win <;> decide] at this

theorem pushes (v : BitVec 4 → BitVec 64) : ∀ (rs : List Nat) (s : St), (∀ r ∈ rs, 1 ≤ r ∧ r ≤ 13) → 8 * rs.length < 2 ^ 64 → (∀ q, q ≠ 4#4 → s.r q = v q) →
    ∃ s', Steps (rs.flatMap (pushReg win)) s s' ∧ s'.r 4#4 = s.r 4#4 - BitVec.ofNat 64 (8 * rs.length) ∧ (∀ q, q ≠ 4#4 → s'.r q = v q) ∧ s'.f = s.f ∧
      Slots win v s'.m (s.r 4#4) rs ∧ ∀ q, 8 * rs.length ≤ (q - (s.r 4#4 - BitVec.ofNat 64 (8 * rs.length))).toNat → s'.m q = s.m q
  | [], s, _, _, hv => ⟨s, Steps.nil s, by simp, hv, rfl, trivial, fun _ _ => rfl⟩
  | r :: rs, s, hr, hl, hv => by
    rw [List.length_cons] at hl
    have hr0 := hr r List.mem_cons_self
    obtain ⟨s', h1, h2, h3, h4, h5, h6⟩ := pushes v rs { s.set 4#4 (s.r 4#4 - 8#64) with m := wr s.m (s.r 4#4 - 8#64) 8 (s.r (num win r)) }
      (fun x hx => hr x (List.mem_cons_of_mem _ hx)) (by omega) (fun q hq => by simp only [St.set, hq, if_false]; exact hv q hq)
    have hsp : ({ s.set 4#4 (s.r 4#4 - 8#64) with m := wr s.m (s.r 4#4 - 8#64) 8 (s.r (num win r)) } : St).r 4#4 = s.r 4#4 - 8#64 := by simp [St.set]
    rw [hsp] at h2 h5 h6
    rw [sp_next] at h2 h6
    refine ⟨s', (push_step (by omega)).append h1, h2, h3, h4, ⟨?_, h5⟩, fun q hq => ?_⟩
    · rw [← hv _ (num_ne_sp win hr0.1 hr0.2), ← rd_wr s.m (s.r 4#4 - 8#64) (s.r (num win r))]
      refine rd_congr fun k hk => h6 _ ?_
      rw [← sp_next]
      have e : s.r 4#4 - 8#64 + BitVec.ofNat 64 k - (s.r 4#4 - 8#64 - BitVec.ofNat 64 (8 * rs.length)) = BitVec.ofNat 64 (k + 8 * rs.length) := by
        rw [BitVec.ofNat_add]
        generalize BitVec.ofNat 64 (8 * rs.length) = x
        generalize BitVec.ofNat 64 k = y
        generalize s.r 4#4 - 8#64 = z
        rw [BitVec.sub_eq_iff_eq_add, BitVec.add_assoc, BitVec.add_comm x, BitVec.sub_add_cancel, BitVec.add_comm]
      rw [e, BitVec.toNat_ofNat, Nat.mod_eq_of_lt (by omega)]
      omega
    · rw [List.length_cons] at hq
      rw [h6 q (by omega)]
      refine wr_out ?_
      have e : s.r 4#4 - 8#64 = s.r 4#4 - BitVec.ofNat 64 (8 * (rs.length + 1)) + BitVec.ofNat 64 (8 * rs.length) := by rw [← sp_next, BitVec.sub_add_cancel]
      rw [e, off_shift (by omega)]
      omega

theorem pops (v : BitVec 4 → BitVec 64) (m : BitVec 64 → Byte) : ∀ (rs : List Nat) (t : St) (sp : BitVec 64), (∀ r ∈ rs, 1 ≤ r ∧ r ≤ 13) →
    t.m = m → t.r 4#4 = sp - BitVec.ofNat 64 (8 * rs.length) → Slots win v m sp rs →
    ∃ t', Steps (rs.reverse.flatMap (popReg win)) t t' ∧ t'.r 4#4 = sp ∧ t'.m = m ∧ t'.f = t.f ∧ ∀ q, q ≠ 4#4 → t'.r q = if q ∈ rs.map (num win) then v q else t.r q
  | [], t, sp, _, hm, hsp, _ => ⟨t, Steps.nil t, by simpa using hsp, hm, rfl, fun _ _ => rfl⟩
  | r :: rs, t, sp, hr, hm, hsp, ⟨h1, h2⟩ => by
    have hr0 := hr r List.mem_cons_self
    obtain ⟨t', g1, g2, g3, g4, g5⟩ := pops v m rs t (sp - 8#64) (fun x hx => hr x (List.mem_cons_of_mem _ hx)) hm (by rw [hsp, sp_next]; rfl) h2
    refine ⟨(t'.set 4#4 (t'.r 4#4 + 8#64)).set (num win r) (rd t'.m (t'.r 4#4) 8), ?_, ?_, g3, g4, fun q hq => ?_⟩
    · rw [List.reverse_cons, List.flatMap_append]
      simpa using g1.append (pop_step (by omega))
    · simp only [St.set, (num_ne_sp win hr0.1 hr0.2).symm, if_false, if_true, g2]
      rw [BitVec.sub_add_cancel]
    · simp only [St.set, hq, if_false, g2, g3, h1, g5 q hq, List.map_cons, List.mem_cons]
      by_cases e : q = num win r
      · simp [e]
      · simp [e]

/-! ## Code which may contain jumps -/

/-- The code can be emitted and takes the machine from s to s', wherever it is. -/
def Runs (code : Code) (s s' : St) : Prop := ∃ bs, code = some bs ∧ ∀ c a, BytesAt c a bs → PSteps c ⟨s, a⟩ ⟨s', a + BitVec.ofNat 64 bs.length⟩

theorem Emits.runs {code : Code} {s s' : St} (h : Emits code s s') : Runs code s s' := by
  obtain ⟨bs, e, h⟩ := h
  exact ⟨bs, e, fun c a hb => h.psteps hb⟩

theorem Runs.cat {a b : Code} {s t u : St} (h1 : Runs a s t) (h2 : Runs b t u) : Runs (a +> b) s u := by
  obtain ⟨x, rfl, h1⟩ := h1
  obtain ⟨y, rfl, h2⟩ := h2
  refine ⟨x ++ y, rfl, fun c p hb => ?_⟩
  obtain ⟨b1, b2⟩ := BytesAt.append.mp hb
  have := (h1 c p b1).trans (h2 c _ b2)
  rwa [BitVec.add_assoc, ← BitVec.ofNat_add, ← List.length_append] at this

theorem Runs.nil (s : St) : Runs (some []) s s := (Emits.nil s).runs

/-! ## The stack pointer -/

theorem half_nat {n : Nat} (h : n < 2 ^ 31) : isHalf (BitVec.ofNat 64 n) = true := by
  have e : (BitVec.ofNat 64 n).toInt = n := by rw [BitVec.toInt_eq_toNat_cond, BitVec.toNat_ofNat, Nat.mod_eq_of_lt (by omega), if_pos (by omega)]
  have e1 : (0x7fffffff#64).toInt = 2147483647 := by decide
  have e2 : (-0x80000000#64).toInt = -2147483648 := by decide
  simp only [isHalf, BitVec.sle, e, e1, e2, Bool.and_eq_true, decide_eq_true_eq]
  omega

theorem half_neg {n : Nat} (h : n < 2 ^ 31) : isHalf (- BitVec.ofNat 64 n) = true := by
  have e : (- BitVec.ofNat 64 n).toInt = -(n : Int) := by
    rw [BitVec.toInt_neg, BitVec.toInt_eq_toNat_cond, BitVec.toNat_ofNat, Nat.mod_eq_of_lt (by omega), if_pos (by omega)]
    rw [Int.bmod_def]; omega
  have e1 : (0x7fffffff#64).toInt = 2147483647 := by decide
  have e2 : (-0x80000000#64).toInt = -2147483648 := by decide
  simp only [isHalf, BitVec.sle, e, e1, e2, Bool.and_eq_true, decide_eq_true_eq]
  omega

/-- A constant is added or subtracted. -/
theorem e_imm {i : BitVec 3} {u v : BitVec 64} {f : Flags} {r : Nat} (hi : i ≠ 7#3) (hu : isHalf u = true) (ha : aluN false i (s.r (num win r)) u s.f = some (v, f)) :
    ∃ s', Emits (insOr win false { binIns := true } (.imm u) (.reg r) (binOf i).imm) s s' ∧ s'.r (num win r) = v ∧ (∀ q, q ≠ num win r → s'.r q = s.r q) ∧ s'.m = s.m ∧ s'.f = f := by
  obtain ⟨o, ho⟩ := emit_imm_some (win := win) (m32 := false) (bi := true) (b := .reg r) rfl (v := u) (fun _ => hu)
  have h : insOr win false { binIns := true } (.imm u) (.reg r) (binOf i).imm = some (o.or (binOf i).imm).bytes := by rw [insOr, ho]; rfl
  obtain ⟨s', h1, h2, h3⟩ := i_imm (s := s) h trivial (v := v) (f := f) (by simpa [opv, trunc] using ha)
  rw [adst, if_neg hi] at h2
  refine ⟨s', ⟨_, h, h1⟩, ?_, fun q hq => ?_, h2.mem, h3⟩
  · simpa [trunc] using h2.val r rfl
  · exact h2.regs q (fun d e => by cases e; exact hq) (fun _ => rfl) (fun _ => rfl)

theorem alu_sub (a b : BitVec 64) (f : Flags) : aluN false 5#3 a b f = some (a - b, (subF a b false).2) := by
  simp only [aluN, bin, NB, alu]
  simp [subF]

theorem alu_add (a b : BitVec 64) (f : Flags) : aluN false 0#3 a b f = some (a + b, (addF a b false).2) := by
  simp only [aluN, bin, NB, alu]
  simp [addF]

/-- Only the stack pointer is changed (and flags). -/
structure SpTo (s s' : St) (v : BitVec 64) : Prop where
  sp : s'.r 4#4 = v
  regs : ∀ q, q ≠ 4#4 → s'.r q = s.r q
  mem : s'.m = s.m

theorem e_spSub {n : Nat} (h : n < 2 ^ 31) : ∃ s', Emits (spImm win SUB n) s s' ∧ SpTo s s' (s.r 4#4 - BitVec.ofNat 64 n) := by
  have hn : num win SP = 4#4 := num_sp win
  obtain ⟨s', h1, h2, h3, h4, -⟩ := e_imm (win := win) (s := s) (r := SP) (i := 5#3) (by decide) (half_nat h) (alu_sub _ _ _)
  rw [hn] at h2 h3
  exact ⟨s', h1, h2, h3, h4⟩

theorem e_spAdd {n : Nat} (h : n < 2 ^ 31) : ∃ s', Emits (spImm win ADD n) s s' ∧ SpTo s s' (s.r 4#4 + BitVec.ofNat 64 n) := by
  have hn : num win SP = 4#4 := num_sp win
  obtain ⟨s', h1, h2, h3, h4, -⟩ := e_imm (win := win) (s := s) (r := SP) (i := 0#3) (by decide) (half_nat h) (alu_add _ _ _)
  rw [hn] at h2 h3
  exact ⟨s', h1, h2, h3, h4⟩

/-! ## The arguments -/

/-- The destinations of the word arguments. -/
def argDst (k n : Nat) : List Bool → List Nat
  | [] => []
  | true :: as => (R0 + k) :: argDst (k + 1) n as
  | false :: as => (S0 - n) :: argDst (k + 1) (n + 1) as

theorem argDst_length : ∀ (as : List Bool) (k n : Nat), (argDst k n as).length = as.length
  | [], _, _ => rfl
  | true :: as, k, n => by rw [argDst, List.length_cons, argDst_length as]; rfl
  | false :: as, k, n => by rw [argDst, List.length_cons, argDst_length as]; rfl

theorem argDst_mem : ∀ {as : List Bool} {k n d : Nat}, n + as.count false ≤ 8 → d ∈ argDst k n as → (k + 1 ≤ d ∧ d ≤ k + as.length) ∨ (13 < n + as.count false + d ∧ d + n ≤ 13)
  | [], _, _, _, _, h => by cases h
  | true :: as, k, n, d, hn, h => by
    simp only [List.length_cons, List.count_cons, beq_iff_eq, reduceCtorEq, if_false, Nat.add_zero] at hn ⊢
    rcases List.mem_cons.mp h with rfl | h
    · left; simp only [R0]; omega
    · rcases argDst_mem hn h with g | g <;> omega
  | false :: as, k, n, d, hn, h => by
    simp only [List.length_cons, List.count_cons_self] at hn ⊢
    rcases List.mem_cons.mp h with rfl | h
    · simp only [S0]; omega
    · rcases argDst_mem (by omega) h with g | g <;> omega

theorem argSrc_tab : ∀ win : Bool, ∀ j : Fin 4, (1 ≤ argSrc win j.val ∧ argSrc win j.val ≤ 4 ∨ argSrc win j.val = 15) ∧ ∀ k : Fin 4, k < j → argSrc win j.val ≠ R0 + k.val := by decide

/-- A move between registers. -/
theorem e_movReg {d r : Nat} (hd : 1 ≤ d ∧ d ≤ 16 ∧ d ≠ 14) (hr : 1 ≤ r ∧ r ≤ 16 ∧ r ≠ 14) : ∃ s', Emits (emitMov win false (.reg d) (.reg r)) s s' ∧ s'.r (num win d) = s.r (num win r) ∧
    (∀ q, q ≠ num win d → s'.r q = s.r q) ∧ s'.m = s.m := by
  obtain ⟨s', h1, h2, -⟩ := e_mov (win := win) (m32 := false) (s := s) (dst := .reg d) (src := .reg r) hd rfl hr (fun h => by cases h)
  exact ⟨s', h1, by simpa [opv, trunc] using h2.val d rfl, fun q hq => h2.regs q (fun x e => by cases e; exact hq) (fun _ => rfl) (fun _ => rfl), h2.mem⟩

theorem argMoves_ok : ∀ (as : List Bool) (k n : Nat) (s : St), k + as.length ≤ 4 → n + as.count false ≤ 8 →
    ∃ s', Emits (argMoves win k n as) s s' ∧ s'.m = s.m ∧ (∀ q, (∀ d ∈ argDst k n as, q ≠ num win d) → s'.r q = s.r q) ∧
      ∀ i (h : i < (argDst k n as).length), s'.r (num win ((argDst k n as)[i])) = s.r (num win (argSrc win (k + i)))
  | [], k, n, s, _, _ => ⟨s, Emits.nil s, rfl, fun _ _ => rfl, fun i h => by simp [argDst] at h⟩
  | b :: as, k, n, s, hk, hn => by
    rw [List.length_cons] at hk
    obtain ⟨hsrc, -⟩ := argSrc_tab win ⟨k, by omega⟩
    have hs1 : 1 ≤ argSrc win k ∧ argSrc win k ≤ 16 ∧ argSrc win k ≠ 14 := by simp only at hsrc; omega
    -- the head
    obtain ⟨t, d, n', ht, hc, hd, hn', hnd, s1, e1, v1, g1, m1⟩ : ∃ t d n', argMoves win k n (b :: as) = t +> argMoves win (k + 1) n' as ∧ argDst k n (b :: as) = d :: argDst (k + 1) n' as ∧
        (d = R0 + k ∨ 6 ≤ d ∧ d ≤ 13) ∧ n' + as.count false ≤ 8 ∧ d ∉ argDst (k + 1) n' as ∧
        ∃ s1, Emits t s s1 ∧ s1.r (num win d) = s.r (num win (argSrc win k)) ∧ (∀ q, q ≠ num win d → s1.r q = s.r q) ∧ s1.m = s.m := by
      cases b
      · rw [List.count_cons_self] at hn
        refine ⟨_, _, _, rfl, rfl, Or.inr ⟨by simp only [S0]; omega, by simp only [S0]; omega⟩, by omega, fun h => ?_, e_movReg (by simp only [S0]; omega) hs1⟩
        rcases argDst_mem (by omega) h with g | g <;> simp only [S0] at g <;> omega
      · simp only [List.count_cons, beq_iff_eq, reduceCtorEq, if_false, Nat.add_zero] at hn
        refine ⟨_, _, _, rfl, rfl, Or.inl rfl, by omega, fun h => ?_, ?_⟩
        · rcases argDst_mem (by omega) h with g | g <;> simp only [R0] at g <;> omega
        · by_cases h : argSrc win k ≠ R0 + k
          · rw [if_pos h]; exact e_movReg (by simp only [R0]; omega) hs1
          · rw [if_neg h]
            exact ⟨s, Emits.nil s, by rw [not_not.mp h], fun _ _ => rfl, rfl⟩
    have hd1 : 1 ≤ d ∧ d ≤ 16 ∧ d ≠ 14 := by simp only [R0] at hd; omega
    obtain ⟨s', e2, m2, g2, v2⟩ := argMoves_ok as (k + 1) n' s1 (by omega) hn'
    rw [ht]
    refine ⟨s', e1.cat e2, m2.trans m1, fun q hq => ?_, fun i h => ?_⟩
    · rw [hc] at hq
      rw [g2 q fun x hx => hq x (List.mem_cons_of_mem _ hx), g1 q (hq d List.mem_cons_self)]
    · simp only [hc] at h ⊢
      cases i with
      | zero =>
        rw [List.getElem_cons_zero, Nat.add_zero, ← v1]
        refine g2 _ fun x hx => num_ne hd1.1 hd1.2.1 ?_ ?_ fun e => hnd (e ▸ hx)
        · rcases argDst_mem hn' hx with g | g <;> omega
        · rcases argDst_mem hn' hx with g | g <;> omega
      | succ i =>
        rw [List.length_cons, argDst_length] at h
        rw [List.getElem_cons_succ, v2 i (by rw [argDst_length]; omega), show k + 1 + i = k + (i + 1) by omega]
        obtain ⟨a1, a2⟩ := argSrc_tab win ⟨k + (i + 1), by omega⟩
        have a3 : argSrc win (k + (i + 1)) ≠ R0 + k := a2 ⟨k, by omega⟩ (by rw [Fin.lt_def]; simp only; omega)
        simp only at a1
        refine g1 _ (num_ne (by omega) (by omega) hd1.1 hd1.2.1 ?_)
        rcases hd with rfl | hd
        · exact a3
        · omega

end Verif.X86
