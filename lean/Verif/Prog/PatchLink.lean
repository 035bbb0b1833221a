import Verif.RISCV.Patch
import Verif.Props.C57
import Verif.Prog.PatchLemmas

/-!
# Patching the code of functions (RV64): helper lemmas
-/

namespace Verif.Lir
open Verif.RV Verif.Props

/-! ## Linking -/

variable {xs ys : List Item} {cfg : Cfg}

theorem recs_cons (i : Item) (xs : List Item) : recs (i :: xs) = recs xs + recs [i] := by
  rw [recs, recs, recs, List.countP_cons, List.countP_cons]; simp

theorem recs_append (xs ys : List Item) : recs (xs ++ ys) = recs xs + recs ys := List.countP_append

theorem dedup_jump : ∀ (xs : List Item) (prev : Bool), ∃ xs', (∀ j : JInfo, dedup prev (xs ++ .jump j :: ys) = xs' ++ .jump j :: dedup false ys) ∧ recs xs' = recs xs
  | [], prev => ⟨[], fun _ => rfl, rfl⟩
  | i :: xs, prev => by
    obtain ⟨x1, h1, h2⟩ := dedup_jump xs false
    obtain ⟨x3, h3, h4⟩ := dedup_jump xs true
    cases i with
    | label =>
      cases prev with
      | true =>
        refine ⟨x3, fun j => ?_, h4⟩
        rw [List.cons_append, dedup, if_pos rfl, h3]
      | false =>
        refine ⟨.label :: x3, fun j => ?_, h4⟩
        rw [List.cons_append, dedup, if_neg (by decide), h3]; rfl
    | _ =>
      refine ⟨_ :: x1, fun j => ?_, by rw [recs_cons, h2, ← recs_cons]⟩
      simp only [List.cons_append, dedup, h1]

theorem lmap_jump (j j' : JInfo) : ∀ (xs : List Item) (prev : Bool) (n : Nat), lmap prev n (xs ++ .jump j :: ys) = lmap prev n (xs ++ .jump j' :: ys)
  | [], prev, n => rfl
  | i :: xs, prev, n => by
    have ih := lmap_jump j j' xs
    cases i <;> simp only [List.cons_append, lmap, ih]

theorem recs_ren (f : Nat → Nat) (xs : List Item) : recs (xs.map (ren f)) = recs xs := by
  induction xs with
  | nil => rfl
  | cons i xs ih =>
    rw [List.map_cons, recs_cons, ih, recs_cons i]
    congr 1
    cases i with
    | jump j =>
      obtain ⟨br, rew, cl, n | a⟩ := j <;> rfl
    | mov r t => cases t <;> rfl
    | _ => rfl

theorem link_jump (br : Br) (cl : Bool) (k k' : Nat) (xs : List Item) : ∃ xs' ys', recs xs' = recs xs ∧
    link (xs ++ .jump ⟨br, true, cl, .label k⟩ :: ys) = xs' ++ .jump ⟨br, true, cl, .label ((lmap false 0 (xs ++ .jump ⟨br, true, cl, .label k⟩ :: ys)).getD k 0)⟩ :: ys' ∧
    link (xs ++ .jump ⟨br, true, cl, .label k'⟩ :: ys) = xs' ++ .jump ⟨br, true, cl, .label ((lmap false 0 (xs ++ .jump ⟨br, true, cl, .label k⟩ :: ys)).getD k' 0)⟩ :: ys' := by
  obtain ⟨x1, h1, h2⟩ := dedup_jump (ys := ys) xs false
  refine ⟨x1.map (ren fun n => (lmap false 0 (xs ++ .jump ⟨br, true, cl, .label k⟩ :: ys)).getD n 0),
    (dedup false ys).map (ren fun n => (lmap false 0 (xs ++ .jump ⟨br, true, cl, .label k⟩ :: ys)).getD n 0), ?_, ?_, ?_⟩
  · rw [recs_ren, h2]
  · rw [link, h1, List.map_append, List.map_cons]; rfl
  · rw [link, h1, List.map_append, List.map_cons, lmap_jump _ ⟨br, true, cl, .label k⟩]; rfl

/-- The code of items, ready to run. -/
structure Made (cfg : Cfg) (R : List Item) (base off : BitVec 64) : Prop where
  plain : ∀ al, Item.alabel al ∉ R
  ok : ∀ i ∈ R, i.Ok cfg (Prog.labels R)
  last : ∃ is e, R = is ++ [.code e]
  room : Room cfg (link R) base off

theorem Made.items {R : List Item} {base off : BitVec 64} (h : Made cfg R base off) : Prog.Ok cfg (Prog.labels (link R)) (link R) ∧ Prog.Tail (link R) ∧ ¬ Prog.endsInLabel (link R) := by
  obtain ⟨is, e, hsp⟩ := h.last
  have hlen := lmap_length R false 0 h.plain
  have hlt := lmap_lt R false 0 h.plain (by simp)
  have hf : ∀ n, n < Prog.labels R → (lmap false 0 R).getD n 0 < Prog.labels (link R) := by
    intro n hn
    rw [link, labels_ren]
    have := hlt ((lmap false 0 R).getD n 0) (by
      rw [getD_lt (by omega)]; exact List.getElem_mem _)
    omega
  obtain ⟨q, q1, q2⟩ := link_end (f := fun n => (lmap false 0 R).getD n 0) (e := e) is false
    (fun al ha => h.plain al (by rw [hsp]; exact List.mem_append_left _ ha))
  rw [← hsp] at q1
  have hc : link R = q ++ [.code e] := q1
  refine ⟨(link_ok (cfg := cfg) hf R false h.plain h.ok).2, by rw [hc]; exact q2, ?_⟩
  rw [hc]
  rintro ⟨i, hi, h⟩
  rw [List.getLast?_append, List.getLast?_singleton] at hi
  have : i = .code e := (Option.some.inj hi).symm
  subst this
  rcases h with h | ⟨_, h⟩ <;> cases h

theorem Made.gen {R : List Item} {base off : BitVec 64} (h : Made cfg R base off) (m0 : HMem) : ∃ r, generate cfg (link R) base off m0 = some r ∧ r.len ≤ usize cfg (link R) := by
  obtain ⟨h1, h2, h3⟩ := h.items
  obtain ⟨r, g1, g2, -⟩ := generate_spec cfg (link R) base off m0 h1 h2 h.room (Or.inr h3)
  exact ⟨r, g1, g2⟩

theorem room_congr {is is' : List Item} {base off : BitVec 64} (h : Room cfg is base off) (e : usize cfg is' = usize cfg is) : Room cfg is' base off := by
  obtain ⟨h1, h2, h3, h4, h5⟩ := h
  exact ⟨by rw [e]; exact h1, by rw [e]; exact h2, h3, h4, by rw [e]; exact h5⟩

/-- Storing the address of another label into the sequence of a rewritable jump gives the code with that label. -/
theorem patch_link {base off : BitVec 64} {m0 : HMem} {br : Br} {cl : Bool} {k : Nat} (k' : Nat) {r : GenResult} (h : Made cfg (xs ++ .jump ⟨br, true, cl, .label k⟩ :: ys) base off)
    (hg : generate cfg (link (xs ++ .jump ⟨br, true, cl, .label k⟩ :: ys)) base off m0 = some r) :
    ∃ r', generate cfg (link (xs ++ .jump ⟨br, true, cl, .label k'⟩ :: ys)) base off m0 = some r' ∧ r'.laddr = r.laddr ∧ r'.jaddr = r.jaddr ∧ ∃ x, r.jaddr[recs xs]? = some x ∧
      ∀ c, Loaded c base off r.m r.len → ∃ c', setJumpAddr c (base + off + BitVec.ofNat 64 (2 * x))
        (r.laddr.getD ((lmap false 0 (xs ++ .jump ⟨br, true, cl, .label k⟩ :: ys)).getD k' 0) 0#64) = some c' ∧ Loaded c' base off r'.m r'.len := by
  obtain ⟨ho, ht, he⟩ := h.items
  have hr := h.room
  obtain ⟨q, gq, gl⟩ := h.gen m0
  obtain rfl := Option.some.inj (hg.symm.trans gq)
  obtain ⟨x1, y1, e1, e2, e3⟩ := link_jump (ys := ys) br cl k k' xs
  rw [e2] at hg ho hr gl ht he
  obtain ⟨x, m', p1, p2, p3, p4, p5, p6⟩ := generate_swap (t' := .label ((lmap false 0 (xs ++ .jump ⟨br, true, cl, .label k⟩ :: ys)).getD k' 0)) ho ht hr (Or.inr he) hg
  rw [← e3] at p4
  refine ⟨_, p4, rfl, rfl, x, by rw [← e1]; exact p1, fun c hc => ?_⟩
  have := hr.small
  exact setJump_loaded (len := r.len) (by cases cl <;> simp) hc p2 (by omega) p3 p5 p6

/-! ## Modules -/

variable {fn : Nat → Tgt}

/-- The flag state of the compiler after functions. -/
def mulAll : Bool → List RFn → Bool
  | mul, [] => mul
  | mul, f :: fs => mulAll (mulAfter mul f.body) fs

theorem mods_append : ∀ (A D : List RFn) (n : Nat) (mul : Bool), mods cfg fn n mul (A ++ D) = mods cfg fn n mul A ++ mods cfg fn (n + total A) (mulAll mul A) D
  | [], D, n, mul => by rw [List.nil_append, mods, List.nil_append]; rfl
  | f :: A, D, n, mul => by
    rw [List.cons_append, mods, mods_append A D, mods, show n + total (f :: A) = n + 1 + nlab f.body + total A by
      simp only [total, List.map_cons, List.sum_cons]; omega]
    simp only [List.append_assoc, List.cons_append, mulAll]

theorem recs_piece (ws : Emit) : recs (piece ws) = 0 := by
  unfold piece
  split <;> rfl

theorem recs_items {p : Frame} {u : Ctx} {mul : Bool} {ins : Ins} : recs (items u cfg p mul ins) = if ins.record then 1 else 0 := by
  cases ins with
  | label => rfl
  | jump t rew k => cases t <;> rfl
  | cmp type is32 s1 s2 rew k => rw [items, recs_append, recs_piece]; rfl
  | call as ret rew who =>
    cases who with
    | fn f => rfl
    | opd src => cases src <;> rfl
  | _ => exact recs_piece _

theorem recs_body {p : Frame} {u : Ctx} : ∀ {P : List Ins} {mul : Bool}, recs (comp u cfg p mul P) = (P.map Ins.record).count true
  | [], _ => rfl
  | i :: P, mul => by
    rw [comp, recs_append, recs_items, recs_body, List.map_cons, List.count_cons]
    cases i.record <;> simp; omega

theorem recs_mods : ∀ {A : List RFn} {n : Nat} {mul : Bool}, recs (mods cfg fn n mul A) = ((A.map fun f => f.body.map Ins.record).flatten).count true
  | [], _, _ => rfl
  | f :: A, n, mul => by
    rw [mods, recs_cons, recs_append, recs_append, recs_piece, recs_body, recs_mods, List.map_cons, List.flatten_cons, List.count_append]
    show 0 + _ + _ + 0 = _
    omega

/-- The number of the label of a target. -/
def goalLabel (u : Ctx) : Goal → Tgt
  | .label k => .label (u.lb + k)
  | .fn f => u.fn f

/-- The items of calls that differ in the target. -/
theorem items_goal {p : Frame} {u : Ctx} {mul : Bool} {i i' : Ins} {g : Goal} (hr : i.retarget g = some i') (hok : Ins.Ok cfg p i) :
    (∃ pre br cl g', recs pre = 0 ∧ items u cfg p mul i = pre ++ [.jump ⟨br, true, cl, goalLabel u g'⟩] ∧ items u cfg p mul i' = pre ++ [.jump ⟨br, true, cl, goalLabel u g⟩]) ∧
    mulNext mul i' = mulNext mul i ∧ Ins.Ok cfg p i' ∧ (∀ k, i'.target = some k → g = .label k) ∧ (∀ as ret rew k, i' = .call as ret rew (.fn k) → g = .fn k) ∧
    (i ≠ .retVoid ∧ ∀ o is32 src, i ≠ .ret o is32 src) := by
  cases g with
  | label k =>
    cases i with
    | jump t rew k0 =>
      cases rew <;> simp only [Ins.retarget, reduceCtorEq] at hr
      rw [← Option.some.inj hr]
      refine ⟨?_, rfl, ?_, ?_, ?_, by simp⟩
      · cases t with
        | none => exact ⟨[], _, _, .label k0, rfl, rfl, rfl⟩
        | some t => exact ⟨[], _, _, .label k0, rfl, rfl, rfl⟩
      · cases t <;> exact hok
      · rintro _ ⟨⟩; rfl
      · rintro _ _ _ _ ⟨⟩
    | cmp type is32 s1 s2 rew k0 =>
      cases rew <;> simp only [Ins.retarget, reduceCtorEq] at hr
      rw [← Option.some.inj hr]
      refine ⟨⟨piece (emitCmp cfg type is32 s1 s2).1, (emitCmp cfg type is32 s1 s2).2, false, .label k0, recs_piece _, rfl, rfl⟩, rfl, hok, ?_, ?_, by simp⟩
      · rintro _ ⟨⟩; rfl
      · rintro _ _ _ _ ⟨⟩
    | call as ret rew who => cases rew <;> cases who <;> cases hr
    | _ => cases hr
  | fn f =>
    cases i with
    | call as ret rew who =>
      cases rew <;> cases who <;> simp only [Ins.retarget, reduceCtorEq] at hr
      rw [← Option.some.inj hr]
      next f0 =>
      refine ⟨⟨[], _, _, .fn f0, rfl, rfl, rfl⟩, rfl, hok, ?_, ?_, by simp⟩
      · rintro _ ⟨⟩
      · rintro _ _ _ _ ⟨⟩; rfl
    | jump t rew k0 => cases rew <;> cases hr
    | cmp type is32 s1 s2 rew k0 => cases rew <;> cases hr
    | _ => cases hr

/-! ## Functions that differ in targets -/

/-- The functions with other bodies. -/
def rebody (fs : List RFn) (bodies : List (List Ins)) : List RFn := fs.zipWith (fun f b => { f with body := b }) bodies

/-- What does not change. -/
structure Kin (fs fs1 : List RFn) : Prop where
  frame : fs1.map (fun f => (f.p, f.args)) = fs.map fun f => (f.p, f.args)
  recs : (fs1.map (·.body)).map (·.map Ins.record) = (fs.map (·.body)).map (·.map Ins.record)
  labels : fs1.map (fun f => nlab f.body) = fs.map fun f => nlab f.body

theorem Kin.refl (fs : List RFn) : Kin fs fs := ⟨rfl, rfl, rfl⟩

theorem Kin.length {fs fs1 : List RFn} (h : Kin fs fs1) : fs1.length = fs.length := by
  have := congrArg List.length h.frame
  simpa using this

theorem Kin.rebody_eq {fs fs1 : List RFn} (h : Kin fs fs1) : rebody fs (fs1.map (·.body)) = fs1 := by
  have h := h.frame
  clear * - h
  induction fs1 generalizing fs with
  | nil => cases fs <;> [rfl; cases h]
  | cons g fs1 ih =>
    cases fs with
    | nil => cases h
    | cons f fs =>
      simp only [List.map_cons, List.cons.injEq, Prod.mk.injEq] at h
      obtain ⟨⟨e1, e2⟩, h⟩ := h
      show { f with body := g.body } :: Lir.rebody fs (fs1.map (·.body)) = _
      rw [ih h, ← e1, ← e2]

theorem Kin.entry {fs fs1 : List RFn} (h : Kin fs fs1) (i : Nat) : Lir.entry fs1 i = Lir.entry fs i := by
  have e : ∀ fs : List RFn, Lir.entry fs i = (((fs.map fun f => nlab f.body).take i).map (1 + ·)).sum := by
    intro fs
    rw [Lir.entry, ← List.map_take, List.map_map]; rfl
  rw [e, e, h.labels]

theorem Kin.set {fs : List RFn} {a b : Nat} {f : RFn} {i i' : Ins} {g : Goal} (hf : fs[a]? = some f) (hi : f.body[b]? = some i) (hr : i.retarget g = some i') :
    Kin fs (fs.set a { f with body := f.body.set b i' }) := by
  obtain ⟨r1, r2⟩ := retarget_record hr
  refine ⟨map_set_same _ hf rfl, ?_, map_set_same _ hf (nlab_set hi r2)⟩
  rw [List.map_map, List.map_map]
  exact map_set_same _ hf (map_set_same _ hi r1)

theorem ends_set {P : List Ins} {b : Nat} {i i' : Ins} (h : Ends P) (hi : P[b]? = some i) (hl : i ≠ .retVoid ∧ ∀ o is32 src, i ≠ .ret o is32 src) : Ends (P.set b i') := by
  obtain ⟨P', x, rfl, hx⟩ := h
  rw [List.set_append]
  split
  · exact ⟨_, x, rfl, hx⟩
  · next hb =>
    rw [List.getElem?_append_right (by omega)] at hi
    obtain ⟨h1, h2⟩ := List.getElem?_eq_some_iff.mp hi
    simp only [List.length_singleton] at h1
    have e : b - P'.length = 0 := by omega
    simp only [e, List.getElem_cons_zero] at h2
    subst h2
    rcases hx with h | ⟨o, is32, src, h⟩
    · exact absurd h hl.1
    · exact absurd h (hl.2 _ _ _)

/-- The raw items of functions that differ in one target. -/
theorem raw_set {fs : List RFn} (hm : C57.ModuleOk cfg fs) {a b : Nat} {f : RFn} {i i' : Ins} {g : Goal} (hf : fs[a]? = some f) (hi : f.body[b]? = some i)
    (hr : i.retarget g = some i') (hg : g.ok (nlab f.body) fs.length = true) : ∃ xs ys br cl k k', C57.rawAll cfg fs = xs ++ .jump ⟨br, true, cl, .label k⟩ :: ys ∧
      C57.rawAll cfg (fs.set a { f with body := f.body.set b i' }) = xs ++ .jump ⟨br, true, cl, .label k'⟩ :: ys ∧
      RV.recs xs = (((fs.map (·.body)).map (·.map Ins.record)).take a).flatten.count true + ((f.body.map Ins.record).take b).count true ∧
      goalLabel ⟨entry fs a + 1, fun i => .label (entry fs i)⟩ g = .label k' ∧ k' < total fs ∧ C57.ModuleOk cfg (fs.set a { f with body := f.body.set b i' }) := by
  have hmem : f ∈ fs := List.mem_of_getElem? hf
  have himem : i ∈ f.body := List.mem_of_getElem? hi
  obtain ⟨r1, r2⟩ := retarget_record hr
  have hkin := Kin.set hf hi hr
  have hfn : (fun i => Tgt.label (entry (fs.set a { f with body := f.body.set b i' }) i)) = fun i => .label (entry fs i) := by
    funext i; rw [hkin.entry]
  obtain ⟨s1, s2⟩ := split_at hf { f with body := f.body.set b i' }
  obtain ⟨b1, b2⟩ := split_at hi i'
  obtain ⟨⟨pre, br, cl, g', p1, p2, p3⟩, p4, p5, p7, p8, p6⟩ := items_goal (u := ⟨entry fs a + 1, fun i => .label (entry fs i)⟩)
    (mul := mulAfter (mulAll true (fs.take a)) (f.body.take b)) hr (hm.ins f hmem i himem)
  have hlab : ∀ g : Goal, ∃ k, goalLabel ⟨entry fs a + 1, fun i => .label (entry fs i)⟩ g = .label k := by
    rintro (k | k) <;> exact ⟨_, rfl⟩
  obtain ⟨k, ek⟩ := hlab g'
  obtain ⟨k', ek'⟩ := hlab g
  rw [ek] at p2
  rw [ek'] at p3
  have ent : total (fs.take a) = entry fs a := rfl
  have happ : ∀ (mul : Bool) (P Q : List Ins) (i : Ins), mulAfter mul (P ++ i :: Q) = mulAfter (mulNext (mulAfter mul P) i) Q := by
    intro mul P Q i; simp [mulAfter]
  have hst : mulAfter (mulAll true (fs.take a)) (f.body.set b i') = mulAfter (mulAll true (fs.take a)) f.body := by
    conv_rhs => rw [b1]
    rw [b2, happ, happ, p4]
  refine ⟨mods cfg (fun i => .label (entry fs i)) 0 true (fs.take a) ++ .label :: (piece (emitEnter cfg f.p false f.types) ++
      (comp ⟨entry fs a + 1, fun i => .label (entry fs i)⟩ cfg f.p (mulAll true (fs.take a)) (f.body.take b) ++ pre)),
    comp ⟨entry fs a + 1, fun i => .label (entry fs i)⟩ cfg f.p (mulNext (mulAfter (mulAll true (fs.take a)) (f.body.take b)) i) (f.body.drop (b + 1)) ++
      mods cfg (fun i => .label (entry fs i)) (entry fs a + 1 + nlab f.body) (mulAfter (mulAll true (fs.take a)) f.body) (fs.drop (a + 1)),
    br, cl, k, k', ?_, ?_, ?_, ek', ?_, ?_⟩
  · unfold C57.rawAll
    generalize (fun i => Tgt.label (entry fs i)) = fn at *
    conv_lhs => rw [s1, mods_append, ent, Nat.zero_add, mods]
    conv_lhs => enter [2]; rw [show comp ⟨entry fs a + 1, fn⟩ cfg f.p (mulAll true (fs.take a)) f.body = comp ⟨entry fs a + 1, fn⟩ cfg f.p (mulAll true (fs.take a)) (f.body.take b ++ i :: f.body.drop (b + 1)) by rw [← b1]]
    rw [comp_append, comp, p2]
    simp only [List.append_assoc, List.cons_append, List.nil_append]
  · unfold C57.rawAll
    rw [hfn]
    generalize (fun i => Tgt.label (entry fs i)) = fn at *
    conv_lhs => rw [s2, mods_append, ent, Nat.zero_add, mods]
    rw [nlab_set hi r2, hst]
    conv_lhs => enter [2]; rw [show comp ⟨entry fs a + 1, fn⟩ cfg f.p (mulAll true (fs.take a)) (f.body.set b i') = comp ⟨entry fs a + 1, fn⟩ cfg f.p (mulAll true (fs.take a)) (f.body.take b ++ i' :: f.body.drop (b + 1)) by rw [← b2]]
    rw [comp_append, comp, p3, p4]
    have ety : RFn.types { f with body := f.body.set b i' } = f.types := rfl
    simp only [List.append_assoc, List.cons_append, List.nil_append, ety]
  · rw [recs_append, recs_cons, recs_append, recs_append, recs_piece, p1, recs_body, recs_mods]
    rw [List.map_map, List.map_take, List.map_take]
    show _ + (0 + (_ + 0) + 0) = _
    simp only [Function.comp_def]
    omega
  · cases g with
    | label m =>
      have e : entry fs a + 1 + m = k' := by simpa [goalLabel] using ek'
      have hm' : m < nlab f.body := by simpa [Goal.ok] using hg
      have : total fs = entry fs a + (1 + nlab f.body + total (fs.drop (a + 1))) := by
        conv_lhs => rw [s1]
        simp only [total, entry, List.map_append, List.sum_append, List.map_cons, List.sum_cons]
      omega
    | fn m =>
      have e : entry fs m = k' := by simpa [goalLabel] using ek'
      rw [← e]
      exact entry_lt (by simpa [Goal.ok] using hg)
  · refine ⟨fun e => hm.ne (by simpa using e), fun q hq => ?_, fun q hq j hj => ?_, fun q hq j hj m hm' => ?_, fun q hq j hj as ret rew m hm' => ?_, fun q hq => ?_⟩
    · rcases mem_set_or hq with hq | rfl
      · exact hm.legal q hq
      · exact hm.legal f hmem
    · rcases mem_set_or hq with hq | rfl
      · exact hm.ins q hq j hj
      · rcases mem_set_or hj with hj | rfl
        · exact hm.ins f hmem j hj
        · exact p5
    · rcases mem_set_or hq with hq | rfl
      · exact hm.target q hq j hj m hm'
      · show m < nlab (f.body.set b i')
        rw [nlab_set hi r2]
        rcases mem_set_or hj with hj | rfl
        · exact hm.target f hmem j hj m hm'
        · rw [p7 m hm'] at hg
          simpa [Goal.ok] using hg
    · rw [List.length_set]
      rcases mem_set_or hq with hq | rfl
      · exact hm.callee q hq j hj as ret rew m hm'
      · rcases mem_set_or hj with hj | rfl
        · exact hm.callee f hmem j hj as ret rew m hm'
        · rw [p8 as ret rew m hm'] at hg
          simpa [Goal.ok] using hg
    · rcases mem_set_or hq with hq | rfl
      · exact hm.ends q hq
      · exact ends_set (hm.ends f hmem) hi p6

/-! ## A change -/

/-- The code of the functions `fs1`, which differ from `fs` in targets, is in the memory `c`; `r` is the result of sljit_generate_code for `fs`. -/
structure InMem (cfg : Cfg) (fs : List RFn) (r : GenResult) (base off : BitVec 64) (m0 : HMem) (fs1 : List RFn) (c : Code) : Prop where
  kin : Kin fs fs1
  ok : C57.ModuleOk cfg fs1
  room : Room cfg (link (C57.rawAll cfg fs1)) base off
  lmap : lmap false 0 (C57.rawAll cfg fs1) = lmap false 0 (C57.rawAll cfg fs)
  gen : ∃ r1, generate cfg (link (C57.rawAll cfg fs1)) base off m0 = some r1 ∧ r1.laddr = r.laddr ∧ r1.jaddr = r.jaddr ∧ Loaded c base off r1.m r1.len

/-- The items of a module are ready. -/
theorem made {fs : List RFn} (hm : C57.ModuleOk cfg fs) {base off : BitVec 64} (hr : Room cfg (link (C57.rawAll cfg fs)) base off) : Made cfg (C57.rawAll cfg fs) base off := by
  have a2 : Prog.labels (C57.rawAll cfg fs) = total fs := labels_mods
  refine ⟨mods_alabel, ?_, mods_last hm.ne hm.ends, hr⟩
  rw [a2]
  refine mods_ok hm.target (fun f hf i hi u hu => ?_) (by omega)
  cases i with
  | call as ret rew who =>
    cases who with
    | fn k =>
      have := hm.callee f hf _ hi as ret rew k rfl
      show (u.fn k).Ok _
      rw [hu]
      exact entry_lt this
    | opd src =>
      have := hm.ins f hf _ hi
      cases src with
      | imm v => exact this.2.2.2 v rfl
      | _ => trivial
  | _ => trivial

theorem InMem.step {fs fs1 : List RFn} {r : GenResult} {base off : BitVec 64} {m0 : HMem} {c : Code} (h : InMem cfg fs r base off m0 fs1 c)
    {q : Patch} {bodies : List (List Ins)} (hq : repatch (fs1.map (·.body)) q = some bodies) :
    ∃ fs2 k' c', fs2.map (·.body) = bodies ∧ goalLabel ⟨entry fs q.fn + 1, fun i => .label (entry fs i)⟩ q.goal = .label k' ∧
      (∀ g, q.goal = .fn g → g < fs.length) ∧
      setJumpAddr c (base + off + BitVec.ofNat 64 (2 * r.jaddr.getD (recordOf (fs.map (·.body)) q) 0)) (r.laddr.getD ((Lir.lmap false 0 (C57.rawAll cfg fs)).getD k' 0) 0#64) = some c' ∧
      InMem cfg fs r base off m0 fs2 c' := by
  obtain ⟨body, h1, hq⟩ := Option.bind_eq_some_iff.mp hq
  obtain ⟨i, h2, hq⟩ := Option.bind_eq_some_iff.mp hq
  obtain ⟨i', h3, hq⟩ := Option.bind_eq_some_iff.mp hq
  split at hq <;> [skip; cases hq]
  next h4 =>
  rw [List.getElem?_map] at h1
  obtain ⟨f, hf, rfl⟩ := Option.map_eq_some_iff.mp h1
  rw [List.length_map] at h4
  obtain ⟨xs, ys, br, cl, k, k', e1, e2, e3, e4, e5, hok⟩ := raw_set h.ok hf h2 h3 h4
  have hkin := Kin.set hf h2 h3
  have hent : (fun i => Tgt.label (entry fs1 i)) = fun i => .label (entry fs i) := by
    funext i; rw [h.kin.entry]
  have hus : usize cfg (link (C57.rawAll cfg (fs1.set q.fn { f with body := f.body.set q.pos i' }))) = usize cfg (link (C57.rawAll cfg fs1)) := by
    obtain ⟨x1, y1, -, l1, l2⟩ := link_jump (ys := ys) br cl k k' xs
    rw [e1, e2, l1, l2]
    exact usize_jump _ _ _ _ _ _
  have hlm : Lir.lmap false 0 (C57.rawAll cfg (fs1.set q.fn { f with body := f.body.set q.pos i' })) = Lir.lmap false 0 (C57.rawAll cfg fs) := by
    rw [← h.lmap, e1, e2]; exact lmap_jump _ _ _ _ _
  obtain ⟨g1, p1, p2, p3, p4⟩ := h.gen
  have hmade := made h.ok h.room
  rw [e1] at hmade p1
  obtain ⟨g2, q1, q2, q3, x, q4, q5⟩ := patch_link k' hmade p1
  obtain ⟨c', q6, q7⟩ := q5 c p4
  refine ⟨_, k', c', ?_, ?_, fun g hg => ?_, ?_, ⟨?_, ?_, ?_⟩, hok, room_congr h.room hus, hlm, g2, by rw [e2]; exact q1, q2.trans p2, q3.trans p3, q7⟩
  · rw [List.map_set]; exact Option.some.inj hq
  · rw [h.kin.entry, hent] at e4; exact e4
  · rw [hg] at h4
    rw [← h.kin.length]
    simpa [Goal.ok] using h4
  · have ex : r.jaddr.getD (recordOf (fs.map (·.body)) q) 0 = x := by
      rw [e3] at q4
      have : recordOf (fs.map (·.body)) q = (((fs1.map (·.body)).map (·.map Ins.record)).take q.fn).flatten.count true + ((f.body.map Ins.record).take q.pos).count true := by
        rw [recordOf, ← h.kin.recs]
        congr 2
        rw [List.getD_eq_getElem?_getD, List.getElem?_map, List.getElem?_map, hf]; rfl
      rw [this, ← p3, List.getD_eq_getElem?_getD, q4]; rfl
    rw [ex, ← p2, ← h.lmap, e1]
    exact q6
  · exact hkin.frame.trans h.kin.frame
  · exact hkin.recs.trans h.kin.recs
  · exact hkin.labels.trans h.kin.labels

end Verif.Lir
