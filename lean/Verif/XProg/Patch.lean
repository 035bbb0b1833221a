import Verif.X86.Patch
import Verif.XProg.Module
import Verif.Prog.Patch

/-!
# Patching the code of functions (x86-64): helper lemmas
-/

namespace Verif.XLir
open Verif.X86 Verif.Props
open Verif.Lir (nlab)

/-! ## Linking -/

variable {xs ys : List Item}

theorem recs_cons (i : Item) (xs : List Item) : recs (i :: xs) = recs xs + recs [i] := by
  rw [recs, recs, recs, List.countP_cons, List.countP_cons]; simp

theorem recs_append (xs ys : List Item) : recs (xs ++ ys) = recs xs + recs ys := List.countP_append

theorem dedup_jump (j : JInfo) : ∀ (xs : List Item) (prev : Bool), ∃ xs', (∀ j : JInfo, dedup prev (xs ++ .jump j :: ys) = xs' ++ .jump j :: dedup false ys) ∧ recs xs' = recs xs
  | [], prev => ⟨[], fun _ => rfl, rfl⟩
  | i :: xs, prev => by
    obtain ⟨x1, h1, h2⟩ := dedup_jump j xs false
    obtain ⟨x3, h3, h4⟩ := dedup_jump j xs true
    cases i with
    | label =>
      cases prev with
      | true =>
        refine ⟨x3, fun j => ?_, h4⟩
        rw [List.cons_append, dedup, if_pos rfl, h3]
      | false =>
        refine ⟨.label :: x3, fun j => ?_, h4⟩
        rw [List.cons_append, dedup, if_neg (by decide), h3]; rfl
    | _ =>
      refine ⟨_ :: x1, fun j => ?_, by rw [recs_cons, h2, ← recs_cons]⟩
      simp only [List.cons_append, dedup, h1]

theorem lmap_jump (j j' : JInfo) : ∀ (xs : List Item) (prev : Bool) (n : Nat), lmap prev n (xs ++ .jump j :: ys) = lmap prev n (xs ++ .jump j' :: ys)
  | [], prev, n => rfl
  | i :: xs, prev, n => by
    have ih := lmap_jump j j' xs
    cases i <;> simp only [List.cons_append, lmap, ih]

theorem recs_ren (f : Nat → Nat) (xs : List Item) : recs (xs.map (ren f)) = recs xs := by
  induction xs with
  | nil => rfl
  | cons i xs ih =>
    rw [List.map_cons, recs_cons, ih, recs_cons i]
    congr 1
    cases i with
    | jump j =>
      obtain ⟨ty, rew, n | a⟩ := j <;> rfl
    | mov r t => cases t <;> rfl
    | _ => rfl

theorem link_jump (type k k' : Nat) (xs : List Item) : ∃ xs' ys', recs xs' = recs xs ∧
    link (xs ++ .jump ⟨type, true, .label k⟩ :: ys) = xs' ++ .jump ⟨type, true, .label ((lmap false 0 (xs ++ .jump ⟨type, true, .label k⟩ :: ys)).getD k 0)⟩ :: ys' ∧
    link (xs ++ .jump ⟨type, true, .label k'⟩ :: ys) = xs' ++ .jump ⟨type, true, .label ((lmap false 0 (xs ++ .jump ⟨type, true, .label k⟩ :: ys)).getD k' 0)⟩ :: ys' := by
  obtain ⟨x1, h1, h2⟩ := dedup_jump (ys := ys) ⟨type, true, .label k⟩ xs false
  refine ⟨x1.map (ren fun n => (lmap false 0 (xs ++ .jump ⟨type, true, .label k⟩ :: ys)).getD n 0),
    (dedup false ys).map (ren fun n => (lmap false 0 (xs ++ .jump ⟨type, true, .label k⟩ :: ys)).getD n 0), ?_, ?_, ?_⟩
  · rw [recs_ren, h2]
  · rw [link, h1, List.map_append, List.map_cons]; rfl
  · rw [link, h1, List.map_append, List.map_cons, lmap_jump _ ⟨type, true, .label k⟩]; rfl

/-- The code of items, ready to run. -/
structure Made (R : List Item) (base off : BitVec 64) : Prop where
  plain : ∀ i ∈ R, Plain (Prog.labels R) i
  room : X86.Room (link R) base off
  edge : ∀ i ∈ link R, NoEdge (base + off) (usize (link R)) i

theorem Made.gen {R : List Item} {base off : BitVec 64} (h : Made R base off) : ∃ r, generate false (link R) base off = some r ∧ r.code.length < 2 ^ 64 ∧
      ∀ c, BytesAt c (base + off) r.code →
        Placed c false off (base + off) r.laddr (link R) (base + off) 0 r.caddr r.jaddr (base + off + BitVec.ofNat 64 r.code.length) := by
  have hlt := lmap_lt R false 0 h.plain (by simp)
  have hlen := lmap_length R false 0 h.plain
  have hf : ∀ n, n < Prog.labels R → (lmap false 0 R).getD n 0 < Prog.labels (link R) := by
    intro n hn
    rw [link, labels_ren]
    have := hlt ((lmap false 0 R).getD n 0) (by
      rw [Lir.getD_lt (by omega)]; exact List.getElem_mem _)
    omega
  obtain ⟨-, hok⟩ := link_ok hf R false h.plain
  obtain ⟨r, g1, g2, g3, g4⟩ := C49.c49_partial false (link R) base off hok h.room h.edge
  have := h.room.1
  exact ⟨r, g1, by omega, g4⟩

/-- Storing the address of another label into the slot of a rewritable jump gives the code with that label. -/
theorem patch_link {base off : BitVec 64} {type k k' : Nat} {r : GenResult} (h' : Made (xs ++ .jump ⟨type, true, .label k'⟩ :: ys) base off)
    (hg : generate false (link (xs ++ .jump ⟨type, true, .label k⟩ :: ys)) base off = some r) :
    ∃ r', generate false (link (xs ++ .jump ⟨type, true, .label k'⟩ :: ys)) base off = some r' ∧ r'.laddr = r.laddr ∧ r'.jaddr = r.jaddr ∧ ∃ x, r.jaddr[recs xs]? = some x ∧
      ∀ c, BytesAt c (base + off) r.code →
        BytesAt (setJumpAddr c (base + off + BitVec.ofNat 64 x) (r.laddr.getD ((lmap false 0 (xs ++ .jump ⟨type, true, .label k⟩ :: ys)).getD k' 0) 0#64)) (base + off) r'.code := by
  obtain ⟨r', g1, g2, g3⟩ := h'.gen
  obtain ⟨x1, y1, e1, e2, e3⟩ := link_jump (ys := ys) type k k' xs
  rw [e2] at hg
  rw [e3] at g1 g3
  obtain ⟨q1, q2, q3, -, x, q5, q6, q7⟩ := generate_alike (.jump type _ _) hg g1
  refine ⟨r', by rw [e3]; exact g1, q1, q3, x, by rw [← e1]; exact q5, fun c hc => ?_⟩
  have := q7.1
  refine near_mem q7 g2 (by omega) (fun d hd => ?_) hc
  have := placed_jump x1 (g3 d hd) (by rw [q3]; exact q5)
  rw [q1] at this
  exact this

/-! ## Modules -/

variable {ft : Feat} {fn : Nat → Tgt}

theorem modsT_append : ∀ (A D : List XFn) (n : Nat), modsT ft fn n (A ++ D) = modsT ft fn n A ++ modsT ft fn (n + total A) D
  | [], D, n => by rw [List.nil_append, modsT, List.nil_append]; rfl
  | f :: A, D, n => by
    rw [List.cons_append, modsT, modsT_append A D, modsT, show n + total (f :: A) = n + 1 + nlab f.body + total A by
      simp only [total, List.map_cons, List.sum_cons]; omega]
    simp only [List.append_assoc, List.cons_append]

theorem recs_piece (bs : List Byte) : recs (piece bs) = 0 := by
  unfold piece
  split <;> rfl

theorem recs_items {p : Frame} {args : List Bool} (h : C51.Legal false p false args) {u : Ctx} {ins : Lir.Ins} (hok : InsOk p ins) :
    recs (itemsT u ft p ins) = if ins.record then 1 else 0 := by
  have hs := items_some (u := u) h ft hok
  generalize itemsT u ft p ins = is at hs ⊢
  cases ins with
  | label => rw [← Option.some.inj hs]; rfl
  | jump t rew k => cases t <;> (rw [← Option.some.inj hs]; rfl)
  | cmp type is32 s1 s2 rew k =>
    obtain ⟨bs, -, rfl⟩ := Option.map_eq_some_iff.mp hs
    rw [recs_append, recs_piece]; rfl
  | call as ret rew who =>
    cases who with
    | fn f =>
      obtain ⟨bs, -, rfl⟩ := Option.map_eq_some_iff.mp hs
      rw [recs_append, recs_piece]; rfl
    | opd src =>
      cases src with
      | imm v =>
        obtain ⟨bs, -, rfl⟩ := Option.map_eq_some_iff.mp hs
        rw [recs_append, recs_piece]; rfl
      | reg r =>
        obtain ⟨bs, -, rfl⟩ := Option.map_eq_some_iff.mp hs
        rw [recs_piece]; rfl
      | mem b i w =>
        obtain ⟨bs, -, rfl⟩ := Option.map_eq_some_iff.mp hs
        rw [recs_piece]; rfl
  | _ =>
    obtain ⟨bs, -, rfl⟩ := Option.map_eq_some_iff.mp hs
    rw [recs_piece]; rfl

theorem recs_body {p : Frame} {args : List Bool} (h : C51.Legal false p false args) {u : Ctx} : ∀ {P : List Lir.Ins}, (∀ i ∈ P, InsOk p i) →
    recs (P.flatMap (itemsT u ft p)) = (P.map Lir.Ins.record).count true
  | [], _ => rfl
  | i :: P, hP => by
    rw [List.flatMap_cons, recs_append, recs_items h (hP i List.mem_cons_self), recs_body h fun j hj => hP j (List.mem_cons_of_mem _ hj), List.map_cons, List.count_cons]
    cases i.record <;> simp; omega

theorem recs_mods : ∀ {A : List XFn} {n : Nat}, (∀ f ∈ A, C51.Legal false f.p false f.args) → (∀ f ∈ A, ∀ i ∈ f.body, InsOk f.p i) →
    recs (modsT ft fn n A) = ((A.map fun f => f.body.map Lir.Ins.record).flatten).count true
  | [], _, _, _ => rfl
  | f :: A, n, h1, h2 => by
    rw [modsT, recs_cons, recs_append, recs_append, recs_piece, recs_body (h1 f List.mem_cons_self) (h2 f List.mem_cons_self),
      recs_mods (fun g hg => h1 g (List.mem_cons_of_mem _ hg)) (fun g hg => h2 g (List.mem_cons_of_mem _ hg)), List.map_cons, List.flatten_cons, List.count_append]
    show 0 + _ + _ + 0 = _
    omega

/-- The number of the label of a target. -/
def goalLabel (u : Ctx) : Lir.Goal → Tgt
  | .label k => .label (u.lb + k)
  | .fn f => u.fn f

/-- The items of calls that differ in the target. -/
theorem items_goal {p : Frame} {args : List Bool} (h : C51.Legal false p false args) {u : Ctx} {i i' : Lir.Ins} {g : Lir.Goal} (hr : i.retarget g = some i') (hok : InsOk p i) :
    ∃ pre type t, recs pre = 0 ∧ itemsT u ft p i = pre ++ [.jump ⟨type, true, t⟩] ∧ itemsT u ft p i' = pre ++ [.jump ⟨type, true, goalLabel u g⟩] ∧
      ∃ g', t = goalLabel u g' ∧ (∀ k, g' = .label k → i.target = some k) ∧ ∀ k, g' = .fn k → ∃ as ret rew, i = .call as ret rew (.fn k) := by
  have hs := items_some (u := u) h ft hok
  unfold itemsT
  cases g with
  | label k =>
    cases i with
    | jump t rew k0 =>
      cases rew <;> simp only [Lir.Ins.retarget, reduceCtorEq] at hr
      rw [← Option.some.inj hr]
      refine ⟨[], t.getD 36, .label (u.lb + k0), rfl, ?_, ?_, .label k0, rfl, ?_, ?_⟩
      · cases t <;> rfl
      · cases t <;> rfl
      · rintro k ⟨⟩; rfl
      · rintro k ⟨⟩
    | cmp type is32 s1 s2 rew k0 =>
      cases rew <;> simp only [Lir.Ins.retarget, reduceCtorEq] at hr
      rw [← Option.some.inj hr]
      obtain ⟨bs, e, -⟩ := Option.map_eq_some_iff.mp hs
      refine ⟨piece bs, (emitCmp type is32 (xo s1) (xo s2)).2, .label (u.lb + k0), recs_piece bs, ?_, ?_, .label k0, rfl, ?_, ?_⟩
      · simp only [items, e]; rfl
      · simp only [items, e]; rfl
      · rintro k ⟨⟩; rfl
      · rintro k ⟨⟩
    | call as ret rew who => cases rew <;> cases who <;> cases hr
    | _ => cases hr
  | fn f =>
    cases i with
    | call as ret rew who =>
      cases rew <;> cases who <;> simp only [Lir.Ins.retarget, reduceCtorEq] at hr
      rw [← Option.some.inj hr]
      obtain ⟨bs, e, -⟩ := Option.map_eq_some_iff.mp hs
      next f0 =>
      refine ⟨piece bs, 38, u.fn f0, recs_piece bs, ?_, ?_, .fn f0, rfl, ?_, ?_⟩
      · simp only [items, e]; rfl
      · simp only [items, e]; rfl
      · rintro k ⟨⟩
      · rintro k ⟨⟩; exact ⟨as, ret, true, rfl⟩
    | jump t rew k0 => cases rew <;> cases hr
    | cmp type is32 s1 s2 rew k0 => cases rew <;> cases hr
    | _ => cases hr

end Verif.XLir
