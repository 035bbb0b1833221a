import Verif.XProg.Exec

/-!
# Every covered call has instructions (x86-64), and sljit_emit_cmp
-/

namespace Verif.XLir
open Verif.X86 Verif.Props
open Verif.Lir (Val wd)

variable {ft : Feat} {p : Frame}

/-- A state in which every operation is defined. -/
def ones : St := ⟨fun _ => 1#64, fun _ => 0#8, ⟨some false, some false, some false, some false⟩⟩

theorem ones_cond (t : JT) (n : Bool) : ∃ c, C46.cond (jumpCode t n) ones.f = some c := by
  have : (C46.cond (jumpCode t n) ones.f).isSome = true := by cases t <;> cases n <;> decide
  exact Option.isSome_iff_exists.mp this

theorem emit_some (hp : Regs p) (ft : Feat) {ins : Lir.Ins} (h : InsOk p ins) (hr : (∀ o is32 src, ins ≠ .ret o is32 src) ∧ ins ≠ .retVoid) :
    ∃ bs, emit ft p ins = some bs := by
  cases ins with
  | op0 o is32 =>
    rcases h with rfl | rfl | rfl | ⟨h1, h2, h3⟩
    · exact ⟨_, rfl⟩
    · exact ⟨_, rfl⟩
    · exact ⟨_, rfl⟩
    · have hok : C50.Op0Ok o is32 (ones.r (C46.mreg false 1)) (ones.r (C46.mreg false 2)) := by
        cases o <;> first | cases h1 | skip
        · exact h3 (Or.inl rfl)
        · exact h3 (Or.inr rfl)
        all_goals cases is32 <;> simp only [C50.Op0Ok, ones, C50.bitsOf] <;> decide
      obtain ⟨bs, _, e, -⟩ := C50.c50_op0_partial (win := false) (s := ones) hok (fun e => by cases e)
      exact ⟨bs, e⟩
  | op1 o is32 dst src =>
    obtain ⟨hd, hs, ⟨ho, h32⟩ | ⟨ho, hi⟩⟩ := h
    · obtain ⟨bs, _, e, -⟩ := C50.c50_mov (win := false) ft ho is32 (xo_dest hp hd) (xo_src hp hs) ones
      exact ⟨bs, e⟩
    · obtain ⟨bs, _, _, e, -⟩ := C50.c50_op1 (win := false) ft ho is32 (xo_dest hp hd) (xo_src hp hs)
        (by cases src <;> first | (rintro v ⟨⟩; done) | exact absurd rfl (hi _)) ones
      exact ⟨bs, e⟩
  | op2 op dst a b =>
    obtain ⟨hd, ha, hb, hop, hfl, h3, h4⟩ := h
    obtain ⟨bs, _, e, -⟩ := C46.c46_op2_partial (win := false) hop hfl (xo_dest hp hd) (xo_src hp ha) (xo_src hp hb) h3 h4 ones false (fun _ => rfl)
    exact ⟨bs, e⟩
  | op2u op a b =>
    obtain ⟨ha, hb, hop, hfl, h4⟩ := h
    obtain ⟨bs, _, e, -⟩ := C46.c46_op2u_partial (win := false) hop hfl (xo_src hp ha) (xo_src hp hb) h4 ones false (fun _ => rfl)
    exact ⟨bs, e⟩
  | shiftInto left is32 nz dst a b n =>
    obtain ⟨hd, ha, hb, hn, h1, h2, h3, h4⟩ := h
    have hD : ∀ {r}, Decl p r → C46.Src (.reg (xr r)) := fun hr => xo_src hp (o := .reg _) hr
    obtain ⟨bs, _, e, -⟩ := C46.c46_shift_into_partial (win := false) (m32 := is32) (left := left) (hD hd) (hD ha) (hD hb) (xo_src hp hn) h1 h2 h3 h4 ones
    exact ⟨bs, e⟩
  | opFlags code is32 setZ dst type =>
    obtain ⟨hd, hc⟩ := h
    obtain ⟨c, ec⟩ := ones_cond (jt type) (neg type)
    simp only [emit]
    by_cases hm : code = .mov
    · rw [if_pos hm]
      obtain ⟨bs, _, e, -⟩ := C50.c50_flags_mov (win := false) is32 (xo_dest hp hd) (jt type) (neg type) ones c ec
      exact ⟨bs, e⟩
    · rw [if_neg hm]
      have hc : code = .and ∨ code = .or ∨ code = .xor := hc.resolve_left hm
      obtain ⟨bs, _, e, -⟩ := C50.c50_flags_op (win := false) (op := ⟨code, is32, setZ, .none⟩) hc (by rcases hc with rfl | rfl | rfl <;> rfl)
        (xo_dest hp hd) (jt type) (neg type) ones c ec
      exact ⟨bs, e⟩
  | select type is32 dst a b =>
    obtain ⟨hd, ha, hb⟩ := h
    obtain ⟨c, ec⟩ := ones_cond (jt type) (neg type)
    have hD : ∀ {r}, Decl p r → C46.Src (.reg (xr r)) := fun hr => xo_src hp (o := .reg _) hr
    obtain ⟨bs, _, e, -⟩ := C50.c50_select (win := false) is32 (hD hd) (hD hb) (xo_src hp ha) (jt type) (neg type) ones c ec
    exact ⟨bs, e⟩
  | ret o is32 src => exact absurd rfl (hr.1 _ _ _)
  | retVoid => exact absurd rfl hr.2
  | _ => exact ⟨_, rfl⟩

/-! ## sljit_emit_cmp -/

theorem taken_cond {type : Nat} (h : type < 14) (f : Flags) : taken type f = C46.cond (jumpCode (jt type) (neg type)) f := by
  obtain ⟨cf, zf, sf, of⟩ := f
  have ht : type ∈ List.range 14 := List.mem_range.mpr h
  simp only [List.range, List.range.loop, List.mem_cons, List.not_mem_nil, or_false] at ht
  rcases ht with rfl | rfl | rfl | rfl | rfl | rfl | rfl | rfl | rfl | rfl | rfl | rfl | rfl | rfl <;>
    rcases cf with _ | _ | _ <;> rcases zf with _ | _ | _ <;> rcases sf with _ | _ | _ <;> rcases of with _ | _ | _ <;> rfl

theorem sub_zero {w : Nat} (x y : BitVec w) (cin : Bool) : RV.val .sub x y cin = 0#w ↔ x = y := by
  have e : RV.val .sub x y cin = x - y := by
    apply BitVec.eq_of_toInt_eq
    show (BitVec.ofInt w (x.toNat - y.toNat)).toInt = _
    rw [BitVec.toInt_ofInt, BitVec.toInt_sub, BitVec.toInt_eq_toNat_bmod, BitVec.toInt_eq_toNat_bmod]
    simp
  rw [e]
  constructor
  · intro h
    have := congrArg (· + y) h
    simpa [BitVec.sub_add_cancel] using this
  · rintro rfl; simp

theorem holds_neg {w : Nat} {type : Nat} (h : type < 10) (x y : BitVec w) :
    Lir.holds type x y = (Lir.holds (type / 2 * 2) x y ^^ neg type) := by
  have ht : type ∈ List.range 10 := List.mem_range.mpr h
  simp only [List.range, List.range.loop, List.mem_cons, List.not_mem_nil, or_false] at ht
  rcases ht with rfl | rfl | rfl | rfl | rfl | rfl | rfl | rfl | rfl | rfl <;>
    first
      | exact (Bool.xor_false _).symm
      | (refine Eq.trans ?_ (Bool.xor_true _).symm
         show decide _ = !decide _
         refine (decide_eq_decide.mpr ?_).trans decide_not
         first | exact Iff.rfl | omega)

theorem cmp_taken {w type : Nat} {is32 : Bool} (h : type < 10) {x y : BitVec w} {f : Flags} (hc : C46.CondsOk (cmpOp type is32) x y false f) :
    taken type f = some (Lir.holds type x y) := by
  rw [taken_cond (by omega), holds_neg h]
  by_cases h1 : type ≤ 1
  · have hj : jt type = .equal ∧ type / 2 * 2 = 0 := by
      have : type / 2 = 0 := by omega
      simp [jt, this]
    rw [hj.1, hj.2, hc.1 (by simp [cmpOp, h1])]
    congr 2
    exact decide_eq_decide.mpr (sub_zero x y false)
  · have hd : type / 2 = 1 ∨ type / 2 = 2 ∨ type / 2 = 3 ∨ type / 2 = 4 := by omega
    have hfl : (cmpOp type is32).flag = C46.flagOf (jt type) ∧ (cmpOp type is32).flag ≠ .none := by
      rcases hd with e | e | e | e <;> simp [cmpOp, jt, e, C46.flagOf]
    rw [hc.2 hfl.2 _ _ hfl.1.symm, hfl.1]
    congr 2
    rcases hd with e | e | e | e <;> simp only [jt, e] <;> rfl

theorem swap_lt {type : Nat} (h : type < 10) : swapType type < 10 := by
  have ht : type ∈ List.range 10 := List.mem_range.mpr h
  simp only [List.range, List.range.loop, List.mem_cons, List.not_mem_nil, or_false] at ht
  rcases ht with rfl | rfl | rfl | rfl | rfl | rfl | rfl | rfl | rfl | rfl <;> decide

theorem holds_swap {w type : Nat} (h : type < 10) (x y : BitVec w) : Lir.holds (swapType type) y x = Lir.holds type x y := by
  have ht : type ∈ List.range 10 := List.mem_range.mpr h
  simp only [List.range, List.range.loop, List.mem_cons, List.not_mem_nil, or_false] at ht
  rcases ht with rfl | rfl | rfl | rfl | rfl | rfl | rfl | rfl | rfl | rfl <;> simp [Lir.holds, swapType, eq_comm]

theorem cmp_lt {type : Nat} (h : type < 10) (is32 : Bool) (a b : Opd) : (emitCmp type is32 a b).2 < 10 := by
  unfold emitCmp; split
  · exact swap_lt h
  · exact h

theorem cmp_some (hp : Regs p) {type : Nat} {is32 : Bool} {a b : RV.Opd} (ha : SrcOk p a) (hb : SrcOk p b) :
    ∃ bs, (emitCmp type is32 (xo a) (xo b)).1 = some bs := by
  unfold emitCmp; split
  · obtain ⟨bs, _, e, -⟩ := C46.c46_op2u_partial (win := false) (op := cmpOp (swapType type) is32) rfl trivial (xo_src hp hb) (xo_src hp ha) (fun h => by cases h) ones false (fun _ => rfl)
    exact ⟨bs, e⟩
  · obtain ⟨bs, _, e, -⟩ := C46.c46_op2u_partial (win := false) (op := cmpOp type is32) rfl trivial (xo_src hp ha) (xo_src hp hb) (fun h => by cases h) ones false (fun _ => rfl)
    exact ⟨bs, e⟩

variable {F : Nat} {s1 s : St} {l : Lir.LSt}

/-- The comparison in front of the jump. -/
theorem cmp_ok (hp : Regs p) (h : Inv p F s1 l s) {type : Nat} {is32 : Bool} {a b : RV.Opd} (ht : type < 10) (ha : SrcOk p a) (hb : SrcOk p b)
    {x y : BitVec (wd is32)} (ex : Lir.read (priv p F (s1.r 4#4)) is32 l a = some x) (ey : Lir.read (priv p F (s1.r 4#4)) is32 l b = some y) :
    ∃ s', Runs (emitCmp type is32 (xo a) (xo b)).1 s s' ∧ Inv p F s1 l.noFlags s' ∧
      taken (emitCmp type is32 (xo a) (xo b)).2 s'.f = some (Lir.holds type x y) := by
  have one : ∀ {t : Nat} {a b : RV.Opd} {x y : BitVec (wd is32)}, t < 10 → SrcOk p a → SrcOk p b → Lir.read (priv p F (s1.r 4#4)) is32 l a = some x →
      Lir.read (priv p F (s1.r 4#4)) is32 l b = some y →
      ∃ s', Runs (emitOp2u false (cmpOp t is32) (xo a) (xo b)) s s' ∧ Inv p F s1 l.noFlags s' ∧ taken t s'.f = some (Lir.holds t x y) := by
    intro t a b x y ht ha hb ex ey
    obtain ⟨bs, s', g1, g2, g3, g4⟩ := C46.c46_op2u_partial (win := false) (op := cmpOp t is32) rfl trivial (xo_src hp ha) (xo_src hp hb) (fun h => by cases h) s false
      (by rintro (h | h) <;> cases h)
    rw [wd_width, show (cmpOp t is32).is32 = is32 from rfl, read_ok h ha ex, read_ok h hb ey] at g4
    exact ⟨s', runs_of g1 g2, keep_ok h hp (fun q h1 h2 => g3.keep q h1 h2 (by rintro ⟨⟩)) (g3.same (by rintro _ _ _ ⟨⟩)) rfl rfl, cmp_taken ht g4⟩
  unfold emitCmp
  split
  · obtain ⟨s', r1, r2, r3⟩ := one (swap_lt ht) hb ha ey ex
    exact ⟨s', r1, r2, by rw [r3, holds_swap ht]⟩
  · exact one ht ha hb ex ey

end Verif.XLir
