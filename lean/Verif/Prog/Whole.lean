import Verif.Prog.Run

/-!
# The items of a program are well formed (RV64)
-/

namespace Verif.Lir
open Verif.RV Verif.Props Verif.Props.Rv

/-- The label a call refers to. -/
def Ins.target : Ins → Option Nat
  | .jump _ _ k => some k
  | .cmp _ _ _ _ _ k => some k
  | _ => none

theorem mem_piece {e : Emit} {i : Item} (h : i ∈ piece e) : i = .code e ∧ e ≠ [] := by
  unfold piece at h
  split at h
  · cases h
  · next he => exact ⟨List.mem_singleton.mp h, he⟩

theorem piece_ok {cfg : Cfg} {nl : Nat} {e : Emit} {i : Item} (he : cfg.c = false → Ev e) (h : i ∈ piece e) : i.Ok cfg nl := by
  obtain ⟨rfl, h1⟩ := mem_piece h
  exact ⟨h1, he⟩

theorem emit_even {cfg : Cfg} (p : Frame) (mul : Bool) (ins : Ins) (hc : cfg.c = false) : Ev (emit cfg p mul ins) := by
  cases ins with
  | op0 => exact ev_emitOp0 hc _ _
  | op1 => exact ev_emitOp1 hc _ _ _ _
  | op2 => exact ev_emitOp2 hc _ _ _ _
  | op2u => exact ev_emitOp2 hc _ _ _ _
  | shiftInto => exact ev_emitShiftInto hc _ _ _ _ _ _ _
  | opFlags => exact ev_emitOpFlags hc _ _ _ _ _ _
  | select => exact ev_emitSelect hc _ _ _ _ _
  | ret => exact ev_emitReturn hc _ _ _ _
  | retVoid => exact ev_emitReturnVoid hc _
  | _ => exact Ev.nil

theorem jumpBr_ok (cfg : Cfg) (type : Nat) : (jumpBr type).Ok cfg := by
  unfold jumpBr
  split <;> first | trivial | (show (decBr _).isSome = true; decide)

theorem cmpBr_ok' (cfg : Cfg) (type r1 r2 : Nat) : (cmpBr cfg type r1 r2).Ok cfg := by
  have h : ∀ f ∈ [0#3, 1#3, 4#3, 5#3, 6#3, 7#3], (decBr f).isSome = true := by decide
  unfold cmpBr
  split
  · split
    · next q => exact ⟨q.1, q.2.2⟩
    split
    · next q => exact ⟨q.1, q.2.2⟩
    exact h _ (by decide)
  · split
    · next q => exact ⟨q.1, q.2.2⟩
    split
    · next q => exact ⟨q.1, q.2.2⟩
    exact h _ (by decide)
  all_goals exact h _ (by decide)

/-- The target of a function call is a label or an address that can be called. -/
def FnOk (nl : Nat) (u : Ctx) : Ins → Prop
  | .call _ _ _ (.fn f) => (u.fn f).Ok nl
  | .call _ _ _ (.opd (.imm v)) => v &&& 1#64 = 0#64 ∧ ¬ badWindow v
  | _ => True

theorem ev_emitIJump {cfg : Cfg} (hc : cfg.c = false) (link : Bool) (src : Opd) : Ev (emitIJump cfg link src) := by
  have hj : ∀ r, Ev (ijumpReg cfg link r) := by
    intro r
    simp only [ijumpReg, hc, Bool.false_eq_true, if_false]
    exact Ev.w32 _
  cases src with
  | reg r => exact hj r
  | imm v => exact Ev.nil
  | mem b i w => exact Ev.app (ev_emitOpMem hc _ _ _ _ _ _) (hj _)

theorem icall_ok {cfg : Cfg} {p : Frame} {nl : Nat} {src : Opd} (hi : ∀ v, src = .imm v → v &&& 1#64 = 0#64 ∧ ¬ badWindow v) {i : Item} (h : i ∈ icall cfg p src) : i.Ok cfg nl := by
  have ne : ∀ r, ijumpReg cfg true r ≠ [] := by intro r; unfold ijumpReg; split <;> simp [w16, w32]
  cases src with
  | reg r => rw [List.mem_singleton.mp h]; exact ⟨ne r, fun hc => ev_emitIJump hc true (.reg r)⟩
  | imm v => rw [List.mem_singleton.mp h]; exact ⟨trivial, fun _ => rfl, hi v rfl, by rintro ⟨⟩⟩
  | mem b j w => rw [List.mem_singleton.mp h]; exact ⟨by simp [emitICall, emitIJump, ne], fun hc => ev_emitIJump hc true (.mem b j w)⟩

theorem items_ok {u : Ctx} {cfg : Cfg} {p : Frame} {mul : Bool} {ins : Ins} {nl : Nat} (ht : ∀ k, ins.target = some k → u.lb + k < nl) (hf : FnOk nl u ins) {i : Item}
    (h : i ∈ items u cfg p mul ins) : i.Ok cfg nl := by
  have plain : ∀ {e}, e = emit cfg p mul ins → i ∈ piece e → i.Ok cfg nl := fun he h => piece_ok (fun hc => he ▸ emit_even p mul ins hc) h
  have one : ∀ {br rew k}, br.Ok cfg → u.lb + k < nl → i = .jump ⟨br, rew, false, .label (u.lb + k)⟩ → i.Ok cfg nl := by
    rintro br rew k hb hk rfl
    exact ⟨hb, by simp, hk, fun _ => Or.inr ⟨_, rfl⟩⟩
  cases ins with
  | label => rw [List.mem_singleton.mp h]; trivial
  | jump type rew k =>
    cases type with
    | none => exact one (br := .none) trivial (ht k rfl) (List.mem_singleton.mp h)
    | some type => exact one (jumpBr_ok cfg type) (ht k rfl) (List.mem_singleton.mp h)
  | cmp type is32 a b rew k =>
    rcases List.mem_append.mp h with h | h
    · exact piece_ok (fun hc => ev_emitCmp hc _ _ _ _) h
    · exact one (cmpBr_ok' cfg _ _ _) (ht k rfl) (List.mem_singleton.mp h)
  | call as ret rew who =>
    cases who with
    | fn f => rw [List.mem_singleton.mp h]; exact ⟨trivial, fun _ => rfl, hf, by rintro ⟨⟩⟩
    | opd src => exact icall_ok (by rintro v rfl; exact hf) h
  | _ => exact plain rfl h

theorem comp_ok {u : Ctx} {cfg : Cfg} {p : Frame} {nl : Nat} : ∀ {P : List Ins} {mul : Bool}, (∀ ins ∈ P, ∀ k, ins.target = some k → u.lb + k < nl) →
    (∀ ins ∈ P, FnOk nl u ins) → ∀ i ∈ comp u cfg p mul P, i.Ok cfg nl
  | [], _, _, _, i, h => by cases h
  | ins :: P, mul, ht, hf, i, h => by
    rcases List.mem_append.mp h with h | h
    · exact items_ok (ht ins List.mem_cons_self) (hf ins List.mem_cons_self) h
    · exact comp_ok (fun ins hi => ht ins (List.mem_cons_of_mem _ hi)) (fun ins hi => hf ins (List.mem_cons_of_mem _ hi)) i h

theorem no_alabel {u : Ctx} {cfg : Cfg} {p : Frame} : ∀ {P : List Ins} {mul : Bool} (al : Nat), Item.alabel al ∉ comp u cfg p mul P
  | [], _, al, h => by cases h
  | ins :: P, mul, al, h => by
    rcases List.mem_append.mp h with h | h
    · have pc : ∀ {e}, Item.alabel al ∈ piece e → False := fun h => by cases (mem_piece h).1
      cases ins with
      | label => cases List.mem_singleton.mp h
      | jump type rew k => cases type <;> cases List.mem_singleton.mp h
      | cmp type is32 a b rew k =>
        rcases List.mem_append.mp h with h | h
        · exact pc h
        · cases List.mem_singleton.mp h
      | call as ret rew who =>
        cases who with
        | fn f => cases List.mem_singleton.mp h
        | opd src => cases src <;> cases List.mem_singleton.mp h
      | _ => exact pc h
    · exact no_alabel al h

theorem tgt_of_ok {cfg : Cfg} {nl : Nat} {i : Item} (h : i.Ok cfg nl) : Item.tgtLt nl i := by
  cases i with
  | jump j => intro k hk; have := h.2.2.1; rw [hk] at this; exact this
  | mov r t => intro k hk; have := h.1; rw [hk] at this; exact this
  | _ => trivial

theorem usize_ret (cfg : Cfg) (p : Frame) : emitReturnVoid cfg p ≠ [] := by simp [emitReturnVoid, w32]

theorem ret_ne (cfg : Cfg) (p : Frame) (o : Op1C) (is32 : Bool) (src : Opd) : emitReturn cfg p o is32 src ≠ [] := by
  simp [emitReturn, usize_ret]

end Verif.Lir
