import Verif.XProg.Run

/-!
# The items of a program are well formed (x86-64)
-/

namespace Verif.XLir
open Verif.X86 Verif.Props
open Verif.Lir (Val wd nlab)

variable {u : Ctx} {ft : Feat} {p : Frame} {args : List Bool} {nl : Nat}

theorem plain_piece {bs : List Byte} {i : Item} (h : i ∈ piece bs) : Plain nl i := by
  unfold piece at h
  split at h
  · cases h
  · next he => rw [List.mem_singleton.mp h]; exact he

/-- The functions which are called exist. -/
def FnOk (nl : Nat) (u : Ctx) : Lir.Ins → Prop
  | .call _ _ _ (.fn f) => (u.fn f).Ok nl
  | _ => True

theorem items_plain {ins : Lir.Ins} (hok : InsOk p ins) (ht : ∀ k, ins.target = some k → u.lb + k < nl) (hfn : FnOk nl u ins) {i : Item} (h : i ∈ itemsT u ft p ins) : Plain nl i := by
  have pl : ∀ {c : Code}, i ∈ (c.map piece).getD [] → Plain nl i := by
    intro c hc
    cases c
    · cases hc
    · exact plain_piece hc
  have one : ∀ {type rew k}, type < 40 → u.lb + k < nl → i = .jump ⟨type, rew, .label (u.lb + k)⟩ → Plain nl i := by
    rintro type rew k h1 h2 rfl
    exact ⟨h1, h2⟩
  cases ins with
  | label => rw [List.mem_singleton.mp h]; trivial
  | jump type rew k =>
    cases type with
    | none => exact one (by decide) (ht k rfl) (List.mem_singleton.mp h)
    | some type => exact one (show type < 40 by have : type < 14 := hok; omega) (ht k rfl) (List.mem_singleton.mp h)
  | cmp type is32 a b rew k =>
    simp only [itemsT, items] at h
    cases hc : (emitCmp type is32 (xo a) (xo b)).1 with
    | none => simp [hc] at h
    | some bs =>
      simp only [hc, Option.map_some, Option.getD_some] at h
      rcases List.mem_append.mp h with h | h
      · exact plain_piece h
      · have := cmp_lt (type := type) hok.1 is32 (xo a) (xo b)
        exact one (by omega) (ht k rfl) (List.mem_singleton.mp h)
  | call as ret rew who =>
    cases who with
    | fn f =>
      simp only [itemsT, items] at h
      cases hc : (callArgs as.length 0).1 with
      | none => simp [hc] at h
      | some bs =>
        simp only [hc, Option.map_some, Option.getD_some] at h
        rcases List.mem_append.mp h with h | h
        · exact plain_piece h
        · rw [List.mem_singleton.mp h]; exact ⟨show 38 < 40 by decide, hfn⟩
    | opd src =>
      simp only [itemsT, items] at h
      cases hx : xo src with
      | imm v =>
        simp only [hx, emitIcall] at h
        cases hc : (callArgs as.length 0).1 with
        | none => simp [hc] at h
        | some bs =>
          simp only [hc, Option.map_some, Option.getD_some] at h
          rcases List.mem_append.mp h with h | h
          · exact plain_piece h
          · rw [List.mem_singleton.mp h]; exact ⟨show 38 < 40 by decide, trivial⟩
      | reg r => rw [hx] at h; exact pl h
      | mem b i w => rw [hx] at h; exact pl h
  | _ => exact pl h

theorem comp_plain {P : List Lir.Ins} (hok : ∀ ins ∈ P, InsOk p ins) (ht : ∀ ins ∈ P, ∀ k, ins.target = some k → u.lb + k < nl)
    (hfn : ∀ ins ∈ P, FnOk nl u ins) : ∀ i ∈ P.flatMap (itemsT u ft p), Plain nl i := by
  intro i hi
  obtain ⟨ins, h1, h2⟩ := List.mem_flatMap.mp hi
  exact items_plain (hok ins h1) (ht ins h1) (hfn ins h1) h2

/-- A call of another function. -/
def isCall : Lir.Ins → Bool
  | .call .. => true
  | _ => false

/-- A jump to an absolute address is a call of a constant address. -/
theorem addr_of {ins : Lir.Ins} {type : Nat} {rew : Bool} {a : BitVec 64} (h : Item.jump ⟨type, rew, .addr a⟩ ∈ itemsT u ft p ins) (hfn : ∀ k a, u.fn k ≠ .addr a) :
    type = 38 ∧ ∃ as ret rew, ins = .call as ret rew (.opd (.imm a)) := by
  have np : ∀ bs, Item.jump ⟨type, rew, .addr a⟩ ∉ piece bs := by
    intro bs h
    unfold piece at h
    split at h
    · cases h
    · cases List.mem_singleton.mp h
  have pl : ∀ c : Code, Item.jump ⟨type, rew, .addr a⟩ ∉ (c.map piece).getD [] := by
    intro c
    cases c
    · exact List.not_mem_nil
    · exact np _
  cases ins with
  | label => cases List.mem_singleton.mp h
  | jump t r k => cases t <;> cases List.mem_singleton.mp h
  | cmp t is32 x y r k =>
    simp only [itemsT, items] at h
    cases hc : (emitCmp t is32 (xo x) (xo y)).1 with
    | none => simp [hc] at h
    | some bs =>
      simp only [hc, Option.map_some, Option.getD_some] at h
      rcases List.mem_append.mp h with h | h
      · exact (np _ h).elim
      · cases List.mem_singleton.mp h
  | call as ret rew' who =>
    cases who with
    | fn k =>
      simp only [itemsT, items] at h
      cases hc : (callArgs as.length 0).1 with
      | none => simp [hc] at h
      | some bs =>
        simp only [hc, Option.map_some, Option.getD_some] at h
        rcases List.mem_append.mp h with h | h
        · exact (np _ h).elim
        · have h := List.mem_singleton.mp h
          injection h with h
          injection h with _ _ h
          exact (hfn k a h.symm).elim
    | opd src =>
      simp only [itemsT, items] at h
      cases src with
      | imm v =>
        simp only [xo, emitIcall] at h
        cases hc : (callArgs as.length 0).1 with
        | none => simp [hc] at h
        | some bs =>
          simp only [hc, Option.map_some, Option.getD_some] at h
          rcases List.mem_append.mp h with h | h
          · exact (np _ h).elim
          · have h := List.mem_singleton.mp h
            injection h with h
            injection h with h1 _ h
            injection h with h
            exact ⟨h1, as, ret, rew', by rw [h]⟩
      | reg r => exact (pl _ h).elim
      | mem b i w => exact (pl _ h).elim
  | _ => exact (pl _ h).elim

theorem no_addr {ins : Lir.Ins} (hc : isCall ins = false) (hfn : ∀ k a, u.fn k ≠ .addr a) (type : Nat) (rew : Bool) (a : BitVec 64) :
    Item.jump ⟨type, rew, .addr a⟩ ∉ itemsT u ft p ins := by
  intro h
  obtain ⟨-, as, ret, rew, e⟩ := addr_of h hfn
  rw [e] at hc; cases hc

end Verif.XLir
