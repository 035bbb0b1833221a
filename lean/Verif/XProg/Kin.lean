import Verif.XProg.Patch
import Verif.Props.C58
import Verif.Prog.PatchLemmas

/-!
# Functions that differ in the targets of jumps (x86-64): helper lemmas
-/

namespace Verif.XLir
open Verif.X86 Verif.Props
open Verif.Lir (nlab Goal map_set_same retarget_record nlab_set split_at mem_set_or)

/-- The functions with other bodies. -/
def rebody (fs : List XFn) (bodies : List (List Lir.Ins)) : List XFn := fs.zipWith (fun f b => { f with body := b }) bodies

/-- The raw items. -/
def rawT (ft : Feat) (fs : List XFn) : List Item := modsT ft (fun i => .label (entry fs i)) 0 fs

theorem rawT_eq {ft : Feat} {fs : List XFn} (hm : C58.ModuleOk fs) : C58.rawAll ft fs = some (rawT ft fs) := mods_eq hm.legal hm.ins

/-- What does not change. -/
structure Kin (fs fs1 : List XFn) : Prop where
  frame : fs1.map (fun f => (f.p, f.args)) = fs.map fun f => (f.p, f.args)
  recs : (fs1.map (·.body)).map (·.map Lir.Ins.record) = (fs.map (·.body)).map (·.map Lir.Ins.record)
  labels : fs1.map (fun f => nlab f.body) = fs.map fun f => nlab f.body

theorem Kin.refl (fs : List XFn) : Kin fs fs := ⟨rfl, rfl, rfl⟩

theorem Kin.length {fs fs1 : List XFn} (h : Kin fs fs1) : fs1.length = fs.length := by
  have := congrArg List.length h.frame
  simpa using this

theorem Kin.rebody_eq {fs fs1 : List XFn} (h : Kin fs fs1) : rebody fs (fs1.map (·.body)) = fs1 := by
  have h := h.frame
  clear * - h
  induction fs1 generalizing fs with
  | nil => cases fs <;> [rfl; cases h]
  | cons g fs1 ih =>
    cases fs with
    | nil => cases h
    | cons f fs =>
      simp only [List.map_cons, List.cons.injEq, Prod.mk.injEq] at h
      obtain ⟨⟨e1, e2⟩, h⟩ := h
      show { f with body := g.body } :: XLir.rebody fs (fs1.map (·.body)) = _
      rw [ih h, ← e1, ← e2]

theorem Kin.entry {fs fs1 : List XFn} (h : Kin fs fs1) (i : Nat) : XLir.entry fs1 i = XLir.entry fs i := by
  have e : ∀ fs : List XFn, XLir.entry fs i = (((fs.map fun f => nlab f.body).take i).map (1 + ·)).sum := by
    intro fs
    rw [XLir.entry, ← List.map_take, List.map_map]; rfl
  rw [e, e, h.labels]

variable {ft : Feat}

/-- The raw items of functions that differ in one target. -/
theorem rawT_set {fs : List XFn} (hm : C58.ModuleOk fs) {a b : Nat} {f : XFn} {i i' : Lir.Ins} {g : Goal} (hf : fs[a]? = some f) (hi : f.body[b]? = some i)
    (hr : i.retarget g = some i') : ∃ xs ys type k k', rawT ft fs = xs ++ .jump ⟨type, true, .label k⟩ :: ys ∧
      rawT ft (fs.set a { f with body := f.body.set b i' }) = xs ++ .jump ⟨type, true, .label k'⟩ :: ys ∧
      X86.recs xs = (((fs.map (·.body)).map (·.map Lir.Ins.record)).take a).flatten.count true + ((f.body.map Lir.Ins.record).take b).count true ∧
      goalLabel ⟨entry fs a + 1, fun i => .label (entry fs i)⟩ g = .label k' := by
  have hmem : f ∈ fs := List.mem_of_getElem? hf
  have himem : i ∈ f.body := List.mem_of_getElem? hi
  obtain ⟨r1, r2⟩ := retarget_record hr
  have hkin : Kin fs (fs.set a { f with body := f.body.set b i' }) := by
    refine ⟨map_set_same _ hf rfl, ?_, map_set_same _ hf (nlab_set hi r2)⟩
    rw [List.map_map, List.map_map]
    exact map_set_same _ hf (map_set_same _ hi r1)
  have hfn : (fun i => Tgt.label (entry (fs.set a { f with body := f.body.set b i' }) i)) = fun i => .label (entry fs i) := by
    funext i; rw [hkin.entry]
  obtain ⟨pre, type, t, p1, p2, p3, g', p4, -, -⟩ := items_goal (ft := ft) (u := ⟨entry fs a + 1, fun i => .label (entry fs i)⟩) (hm.legal f hmem) hr (hm.ins f hmem i himem)
  have hlab : ∀ g : Goal, ∃ k, goalLabel ⟨entry fs a + 1, fun i => .label (entry fs i)⟩ g = .label k := by
    rintro (k | k) <;> exact ⟨_, rfl⟩
  obtain ⟨k, ek⟩ := hlab g'
  obtain ⟨k', ek'⟩ := hlab g
  rw [p4, ek] at p2
  rw [ek'] at p3
  obtain ⟨s1, s2⟩ := split_at hf { f with body := f.body.set b i' }
  obtain ⟨b1, b2⟩ := split_at hi i'
  have ent : total (fs.take a) = entry fs a := rfl
  refine ⟨modsT ft (fun i => .label (entry fs i)) 0 (fs.take a) ++ .label :: (piece (enterT f) ++ ((f.body.take b).flatMap (itemsT ⟨entry fs a + 1, fun i => .label (entry fs i)⟩ ft f.p) ++ pre)),
    (f.body.drop (b + 1)).flatMap (itemsT ⟨entry fs a + 1, fun i => .label (entry fs i)⟩ ft f.p) ++ modsT ft (fun i => .label (entry fs i)) (entry fs a + 1 + nlab f.body) (fs.drop (a + 1)),
    type, k, k', ?_, ?_, ?_, ek'⟩
  · unfold rawT
    generalize (fun i => Tgt.label (entry fs i)) = fn at *
    conv_lhs => rw [s1, modsT_append, ent, Nat.zero_add, modsT]
    conv_lhs => enter [2]; rw [show f.body.flatMap (itemsT ⟨entry fs a + 1, fn⟩ ft f.p) = (f.body.take b ++ i :: f.body.drop (b + 1)).flatMap (itemsT ⟨entry fs a + 1, fn⟩ ft f.p) by rw [← b1]]
    rw [List.flatMap_append, List.flatMap_cons, p2]
    simp only [List.append_assoc, List.cons_append, List.nil_append]
  · unfold rawT
    rw [hfn]
    generalize (fun i => Tgt.label (entry fs i)) = fn at *
    conv_lhs => rw [s2, modsT_append, ent, Nat.zero_add, modsT]
    rw [nlab_set hi r2]
    conv_lhs => enter [2]; rw [show (f.body.set b i').flatMap (itemsT ⟨entry fs a + 1, fn⟩ ft f.p) = (f.body.take b ++ i' :: f.body.drop (b + 1)).flatMap (itemsT ⟨entry fs a + 1, fn⟩ ft f.p) by rw [← b2]]
    rw [List.flatMap_append, List.flatMap_cons, p3]
    simp only [List.append_assoc, List.cons_append, List.nil_append]
    rfl
  · rw [recs_append, recs_cons, recs_append, recs_append, recs_piece, p1, recs_body (hm.legal f hmem) (fun j hj => hm.ins f hmem j (List.mem_of_mem_take hj)),
      recs_mods (fun g hg => hm.legal g (List.mem_of_mem_take hg)) (fun g hg => hm.ins g (List.mem_of_mem_take hg))]
    rw [List.map_map, List.map_take, List.map_take]
    show _ + (0 + (_ + 0) + 0) = _
    simp only [Function.comp_def]
    omega

/-! ## A change -/

/-- The code of the functions `fs1`, which differ from `fs` in targets, is in the memory `c`; `r` is the result of sljit_generate_code for `fs`. -/
structure InMem (ft : Feat) (fs : List XFn) (r : GenResult) (base off : BitVec 64) (fs1 : List XFn) (c : IMem) : Prop where
  kin : Kin fs fs1
  ok : C58.ModuleOk fs1
  size : usize (link (rawT ft fs1)) = usize (link (rawT ft fs))
  edge : C58.NoEdgeCall fs1 (base + off) (usize (link (rawT ft fs)))
  lmap : lmap false 0 (rawT ft fs1) = lmap false 0 (rawT ft fs)
  gen : ∃ r1, generate false (link (rawT ft fs1)) base off = some r1 ∧ r1.laddr = r.laddr ∧ r1.jaddr = r.jaddr ∧ BytesAt c (base + off) r1.code

theorem retarget_ok {p : Frame} {i i' : Lir.Ins} {g : Goal} (h : i.retarget g = some i') (hok : InsOk p i) :
    InsOk p i' ∧ (∀ k, i'.target = some k → g = .label k) ∧ (∀ as ret rew k, i' = .call as ret rew (.fn k) → g = .fn k) ∧ ∀ as ret rew o, i' ≠ .call as ret rew (.opd o) := by
  cases g with
  | label k =>
    cases i with
    | jump t rew k0 =>
      cases rew <;> cases h
      refine ⟨?_, ?_, ?_, ?_⟩
      · cases t <;> exact hok
      · rintro _ ⟨⟩; rfl
      · rintro _ _ _ _ ⟨⟩
      · rintro _ _ _ _ ⟨⟩
    | cmp type is32 s1 s2 rew k0 =>
      cases rew <;> cases h
      refine ⟨hok, ?_, ?_, ?_⟩
      · rintro _ ⟨⟩; rfl
      · rintro _ _ _ _ ⟨⟩
      · rintro _ _ _ _ ⟨⟩
    | call as ret rew who => cases rew <;> cases who <;> cases h
    | _ => cases h
  | fn f =>
    cases i with
    | call as ret rew who =>
      cases rew <;> cases who <;> cases h
      refine ⟨hok, ?_, ?_, ?_⟩
      · rintro _ ⟨⟩
      · rintro _ _ _ _ ⟨⟩; rfl
      · rintro _ _ _ _ ⟨⟩
    | jump t rew k0 => cases rew <;> cases h
    | cmp type is32 s1 s2 rew k0 => cases rew <;> cases h
    | _ => cases h

/-- The items of a module are ready. -/
theorem made {fs : List XFn} (hm : C58.ModuleOk fs) {base off : BitVec 64} (hr : X86.Room (link (rawT ft fs)) base off)
    (hne : C58.NoEdgeCall fs (base + off) (usize (link (rawT ft fs)))) : Made (rawT ft fs) base off := by
  have a2 : Prog.labels (rawT ft fs) = total fs := labels_mods
  have a3 : ∀ i ∈ rawT ft fs, Plain (total fs) i := by
    refine mods_plain hm.ins hm.target (fun f hf i hi u hu => ?_) (by omega)
    cases i with
    | call as ret rew who =>
      cases who with
      | fn k =>
        have := hm.callee f hf _ hi as ret rew k rfl
        show (u.fn k).Ok _
        rw [hu]
        exact entry_lt this
      | opd src => trivial
    | _ => trivial
  refine ⟨by rw [a2]; exact a3, hr, noedge a3 fun type rew a h => ?_⟩
  obtain ⟨rfl, f, hf, as, ret, rew, q⟩ := mods_addr (by rintro _ _ ⟨⟩) h
  exact fun j hj => ⟨fun _ => hne f hf as ret rew a q j hj, fun h => absurd h (by decide)⟩

theorem InMem.step {fs fs1 : List XFn} {r : GenResult} {base off : BitVec 64} {c : IMem} (h : InMem ft fs r base off fs1 c) (hroom : X86.Room (link (rawT ft fs)) base off)
    {q : Lir.Patch} {bodies : List (List Lir.Ins)} (hq : Lir.repatch (fs1.map (·.body)) q = some bodies) :
    ∃ fs2 k', fs2.map (·.body) = bodies ∧ goalLabel ⟨entry fs q.fn + 1, fun i => .label (entry fs i)⟩ q.goal = .label k' ∧
      (∀ g, q.goal = .fn g → g < fs.length) ∧
      InMem ft fs r base off fs2 (setJumpAddr c (base + off + BitVec.ofNat 64 (r.jaddr.getD (Lir.recordOf (fs.map (·.body)) q) 0)) (r.laddr.getD ((XLir.lmap false 0 (rawT ft fs)).getD k' 0) 0#64)) := by
  obtain ⟨body, h1, hq⟩ := Option.bind_eq_some_iff.mp hq
  obtain ⟨i, h2, hq⟩ := Option.bind_eq_some_iff.mp hq
  obtain ⟨i', h3, hq⟩ := Option.bind_eq_some_iff.mp hq
  split at hq <;> [skip; cases hq]
  next h4 =>
  rw [List.getElem?_map] at h1
  obtain ⟨f, hf, rfl⟩ := Option.map_eq_some_iff.mp h1
  have hfm : f ∈ fs1 := List.mem_of_getElem? hf
  obtain ⟨r1, r2⟩ := retarget_record h3
  obtain ⟨o1, o2, o3, o4⟩ := retarget_ok h3 (h.ok.ins f hfm i (List.mem_of_getElem? h2))
  obtain ⟨xs, ys, type, k, k', e1, e2, e3, e4⟩ := rawT_set (ft := ft) h.ok hf h2 h3
  have hkin : Kin fs1 (fs1.set q.fn { f with body := f.body.set q.pos i' }) := by
    refine ⟨map_set_same _ hf rfl, ?_, map_set_same _ hf (nlab_set h2 r2)⟩
    rw [List.map_map, List.map_map]
    exact map_set_same _ hf (map_set_same _ h2 r1)
  have hent : (fun i => Tgt.label (entry fs1 i)) = fun i => .label (entry fs i) := by
    funext i; rw [h.kin.entry]
  have hok : C58.ModuleOk (fs1.set q.fn { f with body := f.body.set q.pos i' }) := by
    refine ⟨fun e => ?_, fun g hg => ?_, fun g hg j hj => ?_, fun g hg j hj m hm => ?_, fun g hg j hj as ret rew m hm => ?_⟩
    · exact h.ok.ne (by simpa using e)
    · rcases mem_set_or hg with hg | rfl
      · exact h.ok.legal g hg
      · exact h.ok.legal f hfm
    · rcases mem_set_or hg with hg | rfl
      · exact h.ok.ins g hg j hj
      · rcases mem_set_or hj with hj | rfl
        · exact h.ok.ins f hfm j hj
        · exact o1
    · rcases mem_set_or hg with hg | rfl
      · exact h.ok.target g hg j hj m hm
      · show m < nlab (f.body.set q.pos i')
        rw [nlab_set h2 r2]
        rcases mem_set_or hj with hj | rfl
        · exact h.ok.target f hfm j hj m hm
        · rw [o2 m hm] at h4
          simpa [Goal.ok] using h4
    · rw [List.length_set]
      rcases mem_set_or hg with hg | rfl
      · exact h.ok.callee g hg j hj as ret rew m hm
      · rcases mem_set_or hj with hj | rfl
        · exact h.ok.callee f hfm j hj as ret rew m hm
        · rw [o3 as ret rew m hm] at h4
          simpa [Goal.ok] using h4
  have hus : usize (link (rawT ft (fs1.set q.fn { f with body := f.body.set q.pos i' }))) = usize (link (rawT ft fs)) := by
    obtain ⟨x1, y1, -, l1, l2⟩ := link_jump (ys := ys) type k k' xs
    rw [← h.size, e1, e2, l1, l2]
    exact (usize_alike (.jump type _ _) x1).symm
  have hlm : XLir.lmap false 0 (rawT ft (fs1.set q.fn { f with body := f.body.set q.pos i' })) = XLir.lmap false 0 (rawT ft fs) := by
    rw [← h.lmap, e1, e2]; exact lmap_jump _ _ _ _ _
  have hed : C58.NoEdgeCall (fs1.set q.fn { f with body := f.body.set q.pos i' }) (base + off) (usize (link (rawT ft fs))) := by
    intro g hg as ret rew v hv
    rcases mem_set_or hg with hg | rfl
    · exact h.edge g hg as ret rew v hv
    · rcases mem_set_or hv with hv | hv
      · exact h.edge f hfm as ret rew v hv
      · exact absurd hv.symm (o4 as ret rew _)
  obtain ⟨g1, p1, p2, p3, p4⟩ := h.gen
  have hmade := made (ft := ft) hok (base := base) (off := off) (by rw [X86.Room, hus]; exact hroom) (by rw [hus]; exact hed)
  rw [e2] at hmade
  rw [e1] at p1
  obtain ⟨g2, q1, q2, q3, x, q4, q5⟩ := patch_link hmade p1
  refine ⟨_, k', ?_, ?_, fun g hg => ?_, ⟨?_, ?_, ?_⟩, hok, hus, hed, hlm, g2, by rw [e2]; exact q1, q2.trans p2, q3.trans p3, ?_⟩
  · rw [List.map_set]; exact Option.some.inj hq
  · rw [h.kin.entry, hent] at e4; exact e4
  · rw [hg] at h4
    rw [← h.kin.length]
    simpa [Goal.ok] using h4
  · exact hkin.frame.trans h.kin.frame
  · exact hkin.recs.trans h.kin.recs
  · exact hkin.labels.trans h.kin.labels
  · have ex : r.jaddr.getD (Lir.recordOf (fs.map (·.body)) q) 0 = x := by
      rw [e3] at q4
      have : Lir.recordOf (fs.map (·.body)) q = (((fs1.map (·.body)).map (·.map Lir.Ins.record)).take q.fn).flatten.count true + ((f.body.map Lir.Ins.record).take q.pos).count true := by
        rw [Lir.recordOf, ← h.kin.recs]
        congr 2
        rw [List.getD_eq_getElem?_getD, List.getElem?_map, List.getElem?_map, hf]; rfl
      rw [this, ← p3, List.getD_eq_getElem?_getD, q4]; rfl
    rw [ex, ← p2, ← h.lmap, e1]
    exact q5 c p4

end Verif.XLir
