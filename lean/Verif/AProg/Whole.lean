import Verif.AProg.Run

/-!
# The items of a program are well formed (ARM64)
-/

namespace Verif.ALir
open Verif.A64 hiding cond moved DstOk
open Verif.Props
open Verif.Lir (Val wd nlab)

variable {p : Frame} {args : List Bool} {nl : Nat}

/-- A call after which execution does not continue: sljit_emit_return, sljit_emit_return_void, an unconditional jump. -/
def Leaves : Lir.Ins → Prop
  | .ret .. => True
  | .retVoid => True
  | .jump none _ _ => True
  | _ => False

theorem plain_piece {ws : List (BitVec 32)} {i : Item} (h : i ∈ piece ws) : Plain nl i := by
  unfold piece at h
  split at h
  · cases h
  · next he => rw [List.mem_singleton.mp h]; exact he

/-- The target of a function call is a label or an aligned address. -/
def FnOk (nl : Nat) (u : Ctx) : Lir.Ins → Prop
  | .call _ _ _ (.fn f) => (u.fn f).Ok nl ∧ (u.fn f).Aligned
  | _ => True

theorem icall_plain {o : Opd} (ha : ∀ v, o = .imm v → v.toNat % 4 = 0) {i : Item} (h : i ∈ (emitIcall o).getD []) : Plain nl i := by
  cases o with
  | reg r => rw [List.mem_singleton.mp h]; exact List.cons_ne_nil _ _
  | imm v => rw [List.mem_singleton.mp h]; exact ⟨by rintro s ⟨⟩, trivial, ha v rfl⟩
  | mem b i' w =>
    rw [emitIcall] at h
    cases hc : emitOpMem ⟨3, false, false⟩ TMP_REG1 b i' w TMP_REG1 with
    | none => rw [hc] at h; cases h
    | some ws => rw [hc] at h; rw [List.mem_singleton.mp h]; simp [Plain]

theorem items_plain {u : Ctx} {st : FState} {ins : Lir.Ins} (ho : InsOk p st ins) (ht : ∀ k, ins.target = some k → u.lb + k < nl) (hf : FnOk nl u ins)
    {i : Item} (h : i ∈ itemsT u p st ins) : Plain nl i := by
  have pl : ∀ {c : Code}, i ∈ (c.map piece).getD [] → Plain nl i := by
    intro c hc
    cases c
    · cases hc
    · exact plain_piece hc
  have one : ∀ {skip rew k}, (∀ s, skip = some s → s.Ok) → u.lb + k < nl → i = .jump ⟨skip, false, rew, .label (u.lb + k)⟩ → Plain nl i := by
    rintro skip rew k h1 h2 rfl
    exact ⟨fun s hs => ⟨h1 s hs, rfl⟩, h2, trivial⟩
  cases ins with
  | label => rw [List.mem_singleton.mp h]; trivial
  | jump type rew k =>
    cases type with
    | none => exact one (by rintro s ⟨⟩) (ht k rfl) (List.mem_singleton.mp h)
    | some type => exact one (by rintro s ⟨⟩; exact cc_lt _ _) (ht k rfl) (List.mem_singleton.mp h)
  | cmp type is32 a b rew k =>
    simp only [itemsT, items] at h
    cases hc : (emitCmp type is32 (ao p a) (ao p b)).1 with
    | none => simp [hc] at h
    | some ws =>
      simp only [hc, Option.map_some, Option.getD_some] at h
      rcases List.mem_append.mp h with h | h
      · exact plain_piece h
      · exact one (by rintro s ⟨⟩; exact cmp_skip _ _ _ _) (ht k rfl) (List.mem_singleton.mp h)
  | retVoid => exact plain_piece h
  | call as ret rew who =>
    cases who with
    | fn f => rw [List.mem_singleton.mp h]; exact ⟨by rintro s ⟨⟩, hf⟩
    | opd src =>
      obtain ⟨-, -, -, ha⟩ := ho
      refine icall_plain (o := ao p src) ?_ h
      intro v e
      cases src with
      | reg r => cases e
      | imm w => cases e; exact ha v rfl
      | mem b i' w =>
        simp only [ao] at e
        split at e <;> cases e
  | _ => exact pl h

theorem comp_plain {u : Ctx} : ∀ {P : List Lir.Ins} {st : FState}, AllOk p st P → (∀ ins ∈ P, ∀ k, ins.target = some k → u.lb + k < nl) →
    (∀ ins ∈ P, FnOk nl u ins) → ∀ i ∈ compT u p st P, Plain nl i
  | [], _, _, _, _, i, hi => by cases hi
  | ins :: P, st, ho, ht, hf, i, hi => by
    rcases List.mem_append.mp hi with hi | hi
    · exact items_plain ho.1 (ht ins List.mem_cons_self) (hf ins List.mem_cons_self) hi
    · exact comp_plain ho.2 (fun ins h => ht ins (List.mem_cons_of_mem _ h)) (fun ins h => hf ins (List.mem_cons_of_mem _ h)) i hi

/-- The last item of a program that ends with such a call. -/
theorem last_item (hp : Regs p) {u : Ctx} {st : FState} {i : Lir.Ins} (hok : InsOk p st i) (hl : Leaves i) :
    ∃ x, itemsT u p st i = [x] ∧ 0 < x.size ∧ ∀ j, x = .jump j → j.skip = none := by
  have pc : ∀ {ws : List (BitVec 32)}, ws ≠ [] → ∃ x, piece ws = [x] ∧ 0 < x.size ∧ ∀ j, x = .jump j → j.skip = none := by
    intro ws h
    exact ⟨.code ws, if_neg h, List.length_pos_of_ne_nil h, by rintro j ⟨⟩⟩
  have rv : emitReturnVoid p ≠ [] := by simp [emitReturnVoid]
  cases i with
  | ret o is32 src =>
    obtain ⟨ws, e⟩ := ret_some hp hok
    have hne : ws ≠ [] := by
      have e : emitReturn p o is32 (ao p src) = some ws := e
      unfold emitReturn at e
      rintro rfl
      revert e
      generalize (if ao p src = .reg R0 ∧ (o = .mov ∨ o = .movP) ∧ is32 = false then some [] else emitOp1 o is32 (.reg R0) (ao p src)) = d
      intro e
      cases d with
      | none => cases e
      | some d =>
        have e : d ++ emitReturnVoid p = [] := Option.some.inj e
        exact rv (List.append_eq_nil_iff.mp e).2
    obtain ⟨x, h1, h2⟩ := pc hne
    refine ⟨x, ?_, h2⟩
    rw [itemsT, show items u p st (.ret o is32 src) = (emit p st (.ret o is32 src)).map piece from rfl, e]
    exact h1
  | retVoid => exact pc rv
  | jump t rew k =>
    cases t with
    | none => exact ⟨_, rfl, by simp only [Item.size]; omega, by rintro j ⟨⟩; rfl⟩
    | some _ => exact hl.elim
  | _ => exact hl.elim

end Verif.ALir
