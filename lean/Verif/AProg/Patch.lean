import Verif.A64.Patch
import Verif.Props.C56
import Verif.Prog.PatchLemmas

/-!
# Patching the code of functions (ARM64): helper lemmas
-/

namespace Verif.ALir
open Verif.A64 hiding cond moved DstOk
open Verif.Props
open Verif.Lir (nlab Goal map_set_same retarget_record nlab_set split_at mem_set_or)

/-! ## Linking -/

variable {xs ys : List Item}

theorem recs_cons (i : Item) (xs : List Item) : recs (i :: xs) = recs xs + recs [i] := by
  rw [recs, recs, recs, List.countP_cons, List.countP_cons]; simp

theorem recs_append (xs ys : List Item) : recs (xs ++ ys) = recs xs + recs ys := List.countP_append

theorem dedup_jump : ∀ (xs : List Item) (prev : Bool), ∃ xs', (∀ j : JInfo, dedup prev (xs ++ .jump j :: ys) = xs' ++ .jump j :: dedup false ys) ∧ recs xs' = recs xs
  | [], prev => ⟨[], fun _ => rfl, rfl⟩
  | i :: xs, prev => by
    obtain ⟨x1, h1, h2⟩ := dedup_jump xs false
    obtain ⟨x3, h3, h4⟩ := dedup_jump xs true
    cases i with
    | label =>
      cases prev with
      | true =>
        refine ⟨x3, fun j => ?_, h4⟩
        rw [List.cons_append, dedup, if_pos rfl, h3]
      | false =>
        refine ⟨.label :: x3, fun j => ?_, h4⟩
        rw [List.cons_append, dedup, if_neg (by decide), h3]; rfl
    | _ =>
      refine ⟨_ :: x1, fun j => ?_, by rw [recs_cons, h2, ← recs_cons]⟩
      simp only [List.cons_append, dedup, h1]

theorem lmap_jump (j j' : JInfo) : ∀ (xs : List Item) (prev : Bool) (n : Nat), lmap prev n (xs ++ .jump j :: ys) = lmap prev n (xs ++ .jump j' :: ys)
  | [], prev, n => rfl
  | i :: xs, prev, n => by
    have ih := lmap_jump j j' xs
    cases i <;> simp only [List.cons_append, lmap, ih]

theorem recs_ren (f : Nat → Nat) (xs : List Item) : recs (xs.map (ren f)) = recs xs := by
  induction xs with
  | nil => rfl
  | cons i xs ih =>
    rw [List.map_cons, recs_cons, ih, recs_cons i]
    congr 1
    cases i with
    | jump j =>
      obtain ⟨sk, cl, rew, n | a⟩ := j <;> rfl
    | mov r t => cases t <;> rfl
    | _ => rfl

theorem link_jump (sk : Option Skip) (cl : Bool) (k k' : Nat) (xs : List Item) : ∃ xs' ys', recs xs' = recs xs ∧
    link (xs ++ .jump ⟨sk, cl, true, .label k⟩ :: ys) = xs' ++ .jump ⟨sk, cl, true, .label ((lmap false 0 (xs ++ .jump ⟨sk, cl, true, .label k⟩ :: ys)).getD k 0)⟩ :: ys' ∧
    link (xs ++ .jump ⟨sk, cl, true, .label k'⟩ :: ys) = xs' ++ .jump ⟨sk, cl, true, .label ((lmap false 0 (xs ++ .jump ⟨sk, cl, true, .label k⟩ :: ys)).getD k' 0)⟩ :: ys' := by
  obtain ⟨x1, h1, h2⟩ := dedup_jump (ys := ys) xs false
  refine ⟨x1.map (ren fun n => (lmap false 0 (xs ++ .jump ⟨sk, cl, true, .label k⟩ :: ys)).getD n 0),
    (dedup false ys).map (ren fun n => (lmap false 0 (xs ++ .jump ⟨sk, cl, true, .label k⟩ :: ys)).getD n 0), ?_, ?_, ?_⟩
  · rw [recs_ren, h2]
  · rw [link, h1, List.map_append, List.map_cons]; rfl
  · rw [link, h1, List.map_append, List.map_cons, lmap_jump _ ⟨sk, cl, true, .label k⟩]; rfl

/-- The code of items, ready to run. -/
structure Made (R : List Item) (base off : BitVec 64) : Prop where
  plain : ∀ i ∈ R, Plain (Prog.labels R) i
  cond : CondOk R
  room : A64.Room (link R) base off

theorem Made.lab {R : List Item} {base off : BitVec 64} (h : Made R base off) {n : Nat} (hn : n < Prog.labels R) : (lmap false 0 R).getD n 0 < Prog.labels (link R) := by
  have hlt := lmap_lt R false 0 h.plain (by simp)
  have hlen := lmap_length R false 0 h.plain
  rw [link, labels_ren]
  have := hlt ((lmap false 0 R).getD n 0) (by
    rw [getD_lt (by omega)]; exact List.getElem_mem _)
  omega

theorem Made.ok {R : List Item} {base off : BitVec 64} (h : Made R base off) : Prog.Ok (Prog.labels (link R)) (link R) :=
  (link_ok (fun _ hn => h.lab hn) R false h.plain h.cond).2

theorem Made.gen {R : List Item} {base off : BitVec 64} (h : Made R base off) : ∃ r, generate (link R) base off = some r ∧ r.code.length ≤ usize (link R) := by
  obtain ⟨r, g1, g2, g3, -⟩ := C53.c53_partial (link R) base off h.ok h.room
  exact ⟨r, g1, by omega⟩

/-- Storing the address of another label into the slot of a rewritable jump gives the code with that label. -/
theorem patch_link {base off : BitVec 64} {sk : Option Skip} {cl : Bool} {k k' : Nat} {r : GenResult} (h : Made (xs ++ .jump ⟨sk, cl, true, .label k⟩ :: ys) base off)
    (hk : k' < Prog.labels (xs ++ .jump ⟨sk, cl, true, .label k⟩ :: ys)) (hg : generate (link (xs ++ .jump ⟨sk, cl, true, .label k⟩ :: ys)) base off = some r) :
    ∃ r', generate (link (xs ++ .jump ⟨sk, cl, true, .label k'⟩ :: ys)) base off = some r' ∧ r'.laddr = r.laddr ∧ r'.jaddr = r.jaddr ∧ ∃ x, r.jaddr[recs xs]? = some x ∧
      ∀ c, WordsAt c (base + off) r.code →
        WordsAt (setJump c (base + off + BitVec.ofNat 64 (4 * x)) (r.laddr.getD ((lmap false 0 (xs ++ .jump ⟨sk, cl, true, .label k⟩ :: ys)).getD k' 0) 0#64)) (base + off) r'.code := by
  have ho := h.ok
  have hr := h.room
  have hl := h.lab hk
  obtain ⟨q, gq, gl⟩ := h.gen
  obtain rfl := Option.some.inj (hg.symm.trans gq)
  obtain ⟨x1, y1, e1, e2, e3⟩ := link_jump (ys := ys) sk cl k k' xs
  rw [e2] at hg ho hr gl hl
  obtain ⟨P, S, p1, p2, p3⟩ := generate_swap (t' := .label ((lmap false 0 (xs ++ .jump ⟨sk, cl, true, .label k⟩ :: ys)).getD k' 0)) ho hr hl hg
  rw [← e3] at p3
  refine ⟨_, p3, rfl, rfl, P.length, by rw [← e1]; exact p1, fun c hc => ?_⟩
  rw [p2] at hc gl
  have := hr.2.1
  exact setJump_words hc (by omega)

/-! ## Modules -/

variable {fn : Nat → Tgt}

/-- The flag state of the compiler after functions. -/
def stAll : FState → List AFn → FState
  | st, [] => st
  | st, f :: fs => stAll (stOf f.p st f.body) fs

theorem modsT_append : ∀ (A D : List AFn) (n : Nat) (st : FState), modsT fn n st (A ++ D) = modsT fn n st A ++ modsT fn (n + total A) (stAll st A) D
  | [], D, n, st => by rw [List.nil_append, modsT, List.nil_append]; rfl
  | f :: A, D, n, st => by
    rw [List.cons_append, modsT, modsT_append A D, modsT, show n + total (f :: A) = n + 1 + nlab f.body + total A by
      simp only [total, List.map_cons, List.sum_cons]; omega]
    simp only [List.append_assoc, List.cons_append, stAll]

theorem covered_append : ∀ {A D : List AFn} {st : FState}, Covered st (A ++ D) ↔ Covered st A ∧ Covered (stAll st A) D
  | [], D, st => ⟨fun h => ⟨trivial, h⟩, fun h => h.2⟩
  | f :: A, D, st => by
    rw [List.cons_append, Covered, covered_append, Covered, stAll, and_assoc]

theorem allOk_append {p : Frame} : ∀ {A D : List Lir.Ins} {st : FState}, AllOk p st (A ++ D) ↔ AllOk p st A ∧ AllOk p (stOf p st A) D
  | [], D, st => ⟨fun h => ⟨trivial, h⟩, fun h => h.2⟩
  | f :: A, D, st => by
    rw [List.cons_append, AllOk, allOk_append, AllOk, stOf, and_assoc]

theorem recs_piece (ws : List (BitVec 32)) : recs (piece ws) = 0 := by
  unfold piece
  split <;> rfl

theorem recs_items {p : Frame} (h : Regs p) {u : Ctx} {st : FState} {ins : Lir.Ins} (hok : InsOk p st ins) :
    recs (itemsT u p st ins) = if ins.record then 1 else 0 := by
  have hs := items_some (u := u) h st hok
  generalize itemsT u p st ins = is at hs ⊢
  cases ins with
  | label => rw [← Option.some.inj hs]; rfl
  | jump t rew k => cases t <;> (rw [← Option.some.inj hs]; rfl)
  | cmp type is32 s1 s2 rew k =>
    obtain ⟨bs, -, rfl⟩ := Option.map_eq_some_iff.mp hs
    rw [recs_append, recs_piece]; rfl
  | call as ret rew who =>
    cases who with
    | fn f => rw [← Option.some.inj hs]; rfl
    | opd src =>
      cases src with
      | imm v => rw [← Option.some.inj hs]; rfl
      | reg r => rw [← Option.some.inj hs]; rfl
      | mem b i w =>
        obtain ⟨B, I, W, q⟩ := ao_mem p b i w
        rw [items, q] at hs
        obtain ⟨bs, -, rfl⟩ := Option.map_eq_some_iff.mp hs
        rfl
  | retVoid =>
    rw [← Option.some.inj hs]
    exact recs_piece _
  | _ =>
    obtain ⟨bs, -, rfl⟩ := Option.map_eq_some_iff.mp hs
    rw [recs_piece]; rfl

theorem recs_body {p : Frame} (h : Regs p) {u : Ctx} : ∀ {P : List Lir.Ins} {st : FState}, AllOk p st P → recs (compT u p st P) = (P.map Lir.Ins.record).count true
  | [], _, _ => rfl
  | i :: P, st, hP => by
    rw [compT, recs_append, recs_items h hP.1, recs_body h hP.2, List.map_cons, List.count_cons]
    cases i.record <;> simp; omega

theorem recs_mods : ∀ {A : List AFn} {n : Nat} {st : FState}, (∀ f ∈ A, Regs f.p) → Covered st A → recs (modsT fn n st A) = ((A.map fun f => f.body.map Lir.Ins.record).flatten).count true
  | [], _, _, _, _ => rfl
  | f :: A, n, st, h1, h2 => by
    rw [modsT, recs_cons, recs_append, recs_append, recs_piece, recs_body (h1 f List.mem_cons_self) h2.1,
      recs_mods (fun g hg => h1 g (List.mem_cons_of_mem _ hg)) h2.2, List.map_cons, List.flatten_cons, List.count_append]
    show 0 + _ + _ + 0 = _
    omega

/-- The number of the label of a target. -/
def goalLabel (u : Ctx) : Goal → Tgt
  | .label k => .label (u.lb + k)
  | .fn f => u.fn f

/-- The items of calls that differ in the target. -/
theorem items_goal {p : Frame} (h : Regs p) {u : Ctx} {st : FState} {i i' : Lir.Ins} {g : Goal} (hr : i.retarget g = some i') (hok : InsOk p st i) :
    (∃ pre sk cl g', recs pre = 0 ∧ itemsT u p st i = pre ++ [.jump ⟨sk, cl, true, goalLabel u g'⟩] ∧ itemsT u p st i' = pre ++ [.jump ⟨sk, cl, true, goalLabel u g⟩]) ∧
    next p st i' = next p st i ∧ InsOk p st i' ∧ (Leaves i → Leaves i') ∧ (∀ k, i'.target = some k → g = .label k) ∧ (∀ as ret rew k, i' = .call as ret rew (.fn k) → g = .fn k) := by
  have hs := items_some (u := u) h st hok
  unfold itemsT
  cases g with
  | label k =>
    cases i with
    | jump t rew k0 =>
      cases rew <;> simp only [Lir.Ins.retarget, reduceCtorEq] at hr
      rw [← Option.some.inj hr]
      refine ⟨?_, rfl, ?_, ?_, ?_, ?_⟩
      · cases t with
        | none => exact ⟨[], _, _, .label k0, rfl, rfl, rfl⟩
        | some t => exact ⟨[], _, _, .label k0, rfl, rfl, rfl⟩
      · cases t <;> exact hok
      · cases t <;> exact fun h => h
      · rintro _ ⟨⟩; rfl
      · rintro _ _ _ _ ⟨⟩
    | cmp type is32 s1 s2 rew k0 =>
      cases rew <;> simp only [Lir.Ins.retarget, reduceCtorEq] at hr
      rw [← Option.some.inj hr]
      obtain ⟨bs, e, -⟩ := Option.map_eq_some_iff.mp hs
      refine ⟨⟨piece bs, some (emitCmp type is32 (ao p s1) (ao p s2)).2, false, .label k0, recs_piece bs, ?_, ?_⟩, rfl, hok, fun h => h, ?_, ?_⟩
      · simp only [items, e]; rfl
      · simp only [items, e]; rfl
      · rintro _ ⟨⟩; rfl
      · rintro _ _ _ _ ⟨⟩
    | call as ret rew who => cases rew <;> cases who <;> cases hr
    | _ => cases hr
  | fn f =>
    cases i with
    | call as ret rew who =>
      cases rew <;> cases who <;> simp only [Lir.Ins.retarget, reduceCtorEq] at hr
      rw [← Option.some.inj hr]
      next f0 =>
      refine ⟨⟨[], _, _, .fn f0, rfl, rfl, rfl⟩, rfl, hok, fun h => h, ?_, ?_⟩
      · rintro _ ⟨⟩
      · rintro _ _ _ _ ⟨⟩; rfl
    | jump t rew k0 => cases rew <;> cases hr
    | cmp type is32 s1 s2 rew k0 => cases rew <;> cases hr
    | _ => cases hr

/-! ## Functions that differ in targets -/

/-- The functions with other bodies. -/
def rebody (fs : List AFn) (bodies : List (List Lir.Ins)) : List AFn := fs.zipWith (fun f b => { f with body := b }) bodies

/-- What does not change. -/
structure Kin (fs fs1 : List AFn) : Prop where
  frame : fs1.map (fun f => (f.p, f.args)) = fs.map fun f => (f.p, f.args)
  recs : (fs1.map (·.body)).map (·.map Lir.Ins.record) = (fs.map (·.body)).map (·.map Lir.Ins.record)
  labels : fs1.map (fun f => nlab f.body) = fs.map fun f => nlab f.body

theorem Kin.refl (fs : List AFn) : Kin fs fs := ⟨rfl, rfl, rfl⟩

theorem Kin.length {fs fs1 : List AFn} (h : Kin fs fs1) : fs1.length = fs.length := by
  have := congrArg List.length h.frame
  simpa using this

theorem Kin.rebody_eq {fs fs1 : List AFn} (h : Kin fs fs1) : rebody fs (fs1.map (·.body)) = fs1 := by
  have h := h.frame
  clear * - h
  induction fs1 generalizing fs with
  | nil => cases fs <;> [rfl; cases h]
  | cons g fs1 ih =>
    cases fs with
    | nil => cases h
    | cons f fs =>
      simp only [List.map_cons, List.cons.injEq, Prod.mk.injEq] at h
      obtain ⟨⟨e1, e2⟩, h⟩ := h
      show { f with body := g.body } :: ALir.rebody fs (fs1.map (·.body)) = _
      rw [ih h, ← e1, ← e2]

theorem Kin.entry {fs fs1 : List AFn} (h : Kin fs fs1) (i : Nat) : ALir.entry fs1 i = ALir.entry fs i := by
  have e : ∀ fs : List AFn, ALir.entry fs i = (((fs.map fun f => nlab f.body).take i).map (1 + ·)).sum := by
    intro fs
    rw [ALir.entry, ← List.map_take, List.map_map]; rfl
  rw [e, e, h.labels]

theorem Kin.set {fs : List AFn} {a b : Nat} {f : AFn} {i i' : Lir.Ins} {g : Goal} (hf : fs[a]? = some f) (hi : f.body[b]? = some i) (hr : i.retarget g = some i') :
    Kin fs (fs.set a { f with body := f.body.set b i' }) := by
  obtain ⟨r1, r2⟩ := retarget_record hr
  refine ⟨map_set_same _ hf rfl, ?_, map_set_same _ hf (nlab_set hi r2)⟩
  rw [List.map_map, List.map_map]
  exact map_set_same _ hf (map_set_same _ hi r1)

theorem ends_set {P : List Lir.Ins} {b : Nat} {i i' : Lir.Ins} (h : Ends P) (hi : P[b]? = some i) (hl : Leaves i → Leaves i') : Ends (P.set b i') := by
  obtain ⟨P', x, rfl, hx⟩ := h
  rw [List.set_append]
  split
  · exact ⟨_, x, rfl, hx⟩
  · next hb =>
    rw [List.getElem?_append_right (by omega)] at hi
    obtain ⟨h1, h2⟩ := List.getElem?_eq_some_iff.mp hi
    simp only [List.length_singleton] at h1
    have e : b - P'.length = 0 := by omega
    simp only [e, List.getElem_cons_zero] at h2
    subst h2
    exact ⟨P', i', by rw [e]; rfl, hl hx⟩

/-- The raw items of functions that differ in one target. -/
theorem rawT_set {fs : List AFn} (hm : C56.ModuleOk fs) {a b : Nat} {f : AFn} {i i' : Lir.Ins} {g : Goal} (hf : fs[a]? = some f) (hi : f.body[b]? = some i)
    (hr : i.retarget g = some i') (hg : g.ok (nlab f.body) fs.length = true) : ∃ xs ys sk cl k k', C56.rawAll fs = xs ++ .jump ⟨sk, cl, true, .label k⟩ :: ys ∧
      C56.rawAll (fs.set a { f with body := f.body.set b i' }) = xs ++ .jump ⟨sk, cl, true, .label k'⟩ :: ys ∧
      A64.recs xs = (((fs.map (·.body)).map (·.map Lir.Ins.record)).take a).flatten.count true + ((f.body.map Lir.Ins.record).take b).count true ∧
      goalLabel ⟨entry fs a + 1, fun i => .label (entry fs i)⟩ g = .label k' ∧ k' < total fs ∧ C56.ModuleOk (fs.set a { f with body := f.body.set b i' }) := by
  have hmem : f ∈ fs := List.mem_of_getElem? hf
  have himem : i ∈ f.body := List.mem_of_getElem? hi
  obtain ⟨r1, r2⟩ := retarget_record hr
  have hkin := Kin.set hf hi hr
  have hfn : (fun i => Tgt.label (entry (fs.set a { f with body := f.body.set b i' }) i)) = fun i => .label (entry fs i) := by
    funext i; rw [hkin.entry]
  obtain ⟨s1, s2⟩ := split_at hf { f with body := f.body.set b i' }
  obtain ⟨b1, b2⟩ := split_at hi i'
  have hcov := hm.ins
  rw [s1, covered_append, Covered, b1, allOk_append, AllOk] at hcov
  obtain ⟨c1, ⟨c2, c3, c4⟩, c5⟩ := hcov
  obtain ⟨⟨pre, sk, cl, g', p1, p2, p3⟩, p4, p5, p6, p7, p8⟩ := items_goal (u := ⟨entry fs a + 1, fun i => .label (entry fs i)⟩) (hm.regs f hmem) hr c3
  have hlab : ∀ g : Goal, ∃ k, goalLabel ⟨entry fs a + 1, fun i => .label (entry fs i)⟩ g = .label k := by
    rintro (k | k) <;> exact ⟨_, rfl⟩
  obtain ⟨k, ek⟩ := hlab g'
  obtain ⟨k', ek'⟩ := hlab g
  rw [ek] at p2
  rw [ek'] at p3
  have ent : total (fs.take a) = entry fs a := rfl
  have hst : stOf f.p (stAll .none (fs.take a)) (f.body.set b i') = stOf f.p (stAll .none (fs.take a)) f.body := by
    conv_rhs => rw [b1]
    rw [b2, stOf_append, stOf_append, stOf, stOf, p4]
  refine ⟨modsT (fun i => .label (entry fs i)) 0 .none (fs.take a) ++ .label :: (piece (emitEnter f.p false f.args) ++
      (compT ⟨entry fs a + 1, fun i => .label (entry fs i)⟩ f.p (stAll .none (fs.take a)) (f.body.take b) ++ pre)),
    compT ⟨entry fs a + 1, fun i => .label (entry fs i)⟩ f.p (next f.p (stOf f.p (stAll .none (fs.take a)) (f.body.take b)) i) (f.body.drop (b + 1)) ++
      modsT (fun i => .label (entry fs i)) (entry fs a + 1 + nlab f.body) (stOf f.p (stAll .none (fs.take a)) f.body) (fs.drop (a + 1)),
    sk, cl, k, k', ?_, ?_, ?_, ek', ?_, ?_⟩
  · unfold C56.rawAll
    generalize (fun i => Tgt.label (entry fs i)) = fn at *
    conv_lhs => rw [s1, modsT_append, ent, Nat.zero_add, modsT]
    conv_lhs => enter [2]; rw [show compT ⟨entry fs a + 1, fn⟩ f.p (stAll .none (fs.take a)) f.body = compT ⟨entry fs a + 1, fn⟩ f.p (stAll .none (fs.take a)) (f.body.take b ++ i :: f.body.drop (b + 1)) by rw [← b1]]
    rw [compT_append, compT, p2]
    simp only [List.append_assoc, List.cons_append, List.nil_append]
  · unfold C56.rawAll
    rw [hfn]
    generalize (fun i => Tgt.label (entry fs i)) = fn at *
    conv_lhs => rw [s2, modsT_append, ent, Nat.zero_add, modsT]
    rw [nlab_set hi r2, hst]
    conv_lhs => enter [2]; rw [show compT ⟨entry fs a + 1, fn⟩ f.p (stAll .none (fs.take a)) (f.body.set b i') = compT ⟨entry fs a + 1, fn⟩ f.p (stAll .none (fs.take a)) (f.body.take b ++ i' :: f.body.drop (b + 1)) by rw [← b2]]
    rw [compT_append, compT, p3, p4]
    simp only [List.append_assoc, List.cons_append, List.nil_append]
  · rw [recs_append, recs_cons, recs_append, recs_append, recs_piece, p1, recs_body (hm.regs f hmem) c2,
      recs_mods (fun g hg => hm.regs g (List.mem_of_mem_take hg)) c1]
    rw [List.map_map, List.map_take, List.map_take]
    show _ + (0 + (_ + 0) + 0) = _
    simp only [Function.comp_def]
    omega
  · cases g with
    | label m =>
      have e : entry fs a + 1 + m = k' := by simpa [goalLabel] using ek'
      have hm' : m < nlab f.body := by simpa [Goal.ok] using hg
      have : total fs = entry fs a + (1 + nlab f.body + total (fs.drop (a + 1))) := by
        conv_lhs => rw [s1]
        simp only [total, entry, List.map_append, List.sum_append, List.map_cons, List.sum_cons]
      omega
    | fn m =>
      have e : entry fs m = k' := by simpa [goalLabel] using ek'
      rw [← e]
      exact entry_lt (by simpa [Goal.ok] using hg)
  · refine ⟨fun e => hm.ne (by simpa using e), fun q hq => ?_, fun q hq => ?_, ?_, fun q hq j hj m hm' => ?_, fun q hq j hj as ret rew m hm' => ?_, fun q hq => ?_⟩
    · rcases mem_set_or hq with hq | rfl
      · exact hm.legal q hq
      · exact hm.legal f hmem
    · rcases mem_set_or hq with hq | rfl
      · exact hm.regs q hq
      · exact hm.regs f hmem
    · rw [s2, covered_append, Covered]
      refine ⟨c1, ?_, ?_⟩
      · show AllOk f.p _ (f.body.set b i')
        rw [b2, allOk_append, AllOk, p4]
        exact ⟨c2, p5, c4⟩
      · show Covered (stOf f.p _ (f.body.set b i')) _
        rw [hst]
        have := hm.ins
        rw [s1, covered_append, Covered] at this
        exact this.2.2
    · rcases mem_set_or hq with hq | rfl
      · exact hm.target q hq j hj m hm'
      · show m < nlab (f.body.set b i')
        rw [nlab_set hi r2]
        rcases mem_set_or hj with hj | rfl
        · exact hm.target f hmem j hj m hm'
        · rw [p7 m hm'] at hg
          simpa [Goal.ok] using hg
    · rw [List.length_set]
      rcases mem_set_or hq with hq | rfl
      · exact hm.callee q hq j hj as ret rew m hm'
      · rcases mem_set_or hj with hj | rfl
        · exact hm.callee f hmem j hj as ret rew m hm'
        · rw [p8 as ret rew m hm'] at hg
          simpa [Goal.ok] using hg
    · rcases mem_set_or hq with hq | rfl
      · exact hm.ends q hq
      · exact ends_set (hm.ends f hmem) hi p6

/-! ## A change -/

/-- The code of the functions `fs1`, which differ from `fs` in targets, is in the memory `c`; `r` is the result of sljit_generate_code for `fs`. -/
structure InMem (fs : List AFn) (r : GenResult) (base off : BitVec 64) (fs1 : List AFn) (c : IMem) : Prop where
  kin : Kin fs fs1
  ok : C56.ModuleOk fs1
  room : A64.Room (link (C56.rawAll fs1)) base off
  lmap : lmap false 0 (C56.rawAll fs1) = lmap false 0 (C56.rawAll fs)
  gen : ∃ r1, generate (link (C56.rawAll fs1)) base off = some r1 ∧ r1.laddr = r.laddr ∧ r1.jaddr = r.jaddr ∧ WordsAt c (base + off) r1.code

/-- The items of a module are ready. -/
theorem made {fs : List AFn} (hm : C56.ModuleOk fs) {base off : BitVec 64} (hr : A64.Room (link (C56.rawAll fs)) base off) : Made (C56.rawAll fs) base off := by
  have a2 : Prog.labels (C56.rawAll fs) = total fs := labels_mods
  have a3 : ∀ i ∈ C56.rawAll fs, Plain (total fs) i := by
    refine mods_plain hm.ins hm.target (fun f hf i hi u hu => ?_) (by omega)
    cases i with
    | call as ret rew who =>
      cases who with
      | fn k =>
        have := hm.callee f hf _ hi as ret rew k rfl
        show (u.fn k).Ok _ ∧ (u.fn k).Aligned
        rw [hu]
        exact ⟨entry_lt this, trivial⟩
      | opd => trivial
    | _ => trivial
  have a4 : CondOk (C56.rawAll fs) := by
    obtain ⟨ys, x, e, h1, h2⟩ := mods_last (fn := fun i => .label (entry fs i)) (n := 0) hm.ne hm.regs hm.ins hm.ends
    rw [C56.rawAll, e]
    exact CondOk.last h1 h2 _
  exact ⟨by rw [a2]; exact a3, a4, hr⟩

theorem InMem.step {fs fs1 : List AFn} {r : GenResult} {base off : BitVec 64} {c : IMem} (h : InMem fs r base off fs1 c)
    {q : Lir.Patch} {bodies : List (List Lir.Ins)} (hq : Lir.repatch (fs1.map (·.body)) q = some bodies) :
    ∃ fs2 k', fs2.map (·.body) = bodies ∧ goalLabel ⟨entry fs q.fn + 1, fun i => .label (entry fs i)⟩ q.goal = .label k' ∧
      (∀ g, q.goal = .fn g → g < fs.length) ∧
      InMem fs r base off fs2 (setJump c (base + off + BitVec.ofNat 64 (4 * r.jaddr.getD (Lir.recordOf (fs.map (·.body)) q) 0)) (r.laddr.getD ((ALir.lmap false 0 (C56.rawAll fs)).getD k' 0) 0#64)) := by
  obtain ⟨body, h1, hq⟩ := Option.bind_eq_some_iff.mp hq
  obtain ⟨i, h2, hq⟩ := Option.bind_eq_some_iff.mp hq
  obtain ⟨i', h3, hq⟩ := Option.bind_eq_some_iff.mp hq
  split at hq <;> [skip; cases hq]
  next h4 =>
  rw [List.getElem?_map] at h1
  obtain ⟨f, hf, rfl⟩ := Option.map_eq_some_iff.mp h1
  rw [List.length_map] at h4
  obtain ⟨xs, ys, sk, cl, k, k', e1, e2, e3, e4, e5, hok⟩ := rawT_set h.ok hf h2 h3 h4
  have hkin := Kin.set hf h2 h3
  have hent : (fun i => Tgt.label (entry fs1 i)) = fun i => .label (entry fs i) := by
    funext i; rw [h.kin.entry]
  have hus : usize (link (C56.rawAll (fs1.set q.fn { f with body := f.body.set q.pos i' }))) = usize (link (C56.rawAll fs1)) := by
    obtain ⟨x1, y1, -, l1, l2⟩ := link_jump (ys := ys) sk cl k k' xs
    rw [e1, e2, l1, l2]
    exact usize_jump _ _ _ _ _ _
  have hlm : ALir.lmap false 0 (C56.rawAll (fs1.set q.fn { f with body := f.body.set q.pos i' })) = ALir.lmap false 0 (C56.rawAll fs) := by
    rw [← h.lmap, e1, e2]; exact lmap_jump _ _ _ _ _
  obtain ⟨g1, p1, p2, p3, p4⟩ := h.gen
  have hmade := made h.ok h.room
  have hk : k' < Prog.labels (C56.rawAll fs1) := by
    rw [show Prog.labels (C56.rawAll fs1) = total fs1 from labels_mods]; exact e5
  rw [e1] at hmade p1 hk
  obtain ⟨g2, q1, q2, q3, x, q4, q5⟩ := patch_link hmade hk p1
  refine ⟨_, k', ?_, ?_, fun g hg => ?_, ⟨?_, ?_, ?_⟩, hok, by rw [A64.Room, hus]; exact h.room, hlm, g2, by rw [e2]; exact q1, q2.trans p2, q3.trans p3, ?_⟩
  · rw [List.map_set]; exact Option.some.inj hq
  · rw [h.kin.entry, hent] at e4; exact e4
  · rw [hg] at h4
    rw [← h.kin.length]
    simpa [Goal.ok] using h4
  · exact hkin.frame.trans h.kin.frame
  · exact hkin.recs.trans h.kin.recs
  · exact hkin.labels.trans h.kin.labels
  · have ex : r.jaddr.getD (Lir.recordOf (fs.map (·.body)) q) 0 = x := by
      rw [e3] at q4
      have : Lir.recordOf (fs.map (·.body)) q = (((fs1.map (·.body)).map (·.map Lir.Ins.record)).take q.fn).flatten.count true + ((f.body.map Lir.Ins.record).take q.pos).count true := by
        rw [Lir.recordOf, ← h.kin.recs]
        congr 2
        rw [List.getD_eq_getElem?_getD, List.getElem?_map, List.getElem?_map, hf]; rfl
      rw [this, ← p3, List.getD_eq_getElem?_getD, q4]; rfl
    rw [ex, ← p2, ← h.lmap, e1]
    exact q5 c p4

end Verif.ALir
