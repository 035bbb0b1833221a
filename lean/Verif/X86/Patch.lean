import Verif.Props.C49
import Mathlib.Data.List.Forall2

/-!
# Patching the generated code (x86-64)

Changing the target of a rewritable jump with sljit_set_jump_addr, or a constant with sljit_set_const, gives the code that is generated for the changed program.
-/

namespace Verif.X86

/-! ## The model -/

/-- sljit_set_jump_addr on x86-64 (sljitNativeX86_common.c:5275-5286): `addr` is the executable address that belongs to sljit_get_jump_addr; the change of the page
permissions is not modelled (C42). -/
def setJumpAddr (c : IMem) (addr target : BitVec 64) : IMem := wr c addr 8 target

/-- sljit_set_const on x86-64 with SLJIT_MOV (sljitNativeX86_common.c:5288-5315): `addr` is the executable address that belongs to sljit_get_const_addr. -/
def setConst (c : IMem) (addr v : BitVec 64) : IMem := wr c (addr - 8#64) 8 v

/-! ## Items that differ in one target or constant -/

/-- The number of jump records (jumps and move addresses). -/
def recs (is : List Item) : Nat := is.countP fun i => match i with | .jump _ | .mov _ _ => true | _ => false

/-- The number of constants. -/
def consts (is : List Item) : Nat := is.countP fun i => match i with | .const _ => true | _ => false

/-- Two items which have different bytes only in a slot of 8 bytes. -/
inductive Alike : Item → Item → Prop
  | jump (type t t') : Alike (.jump ⟨type, true, t⟩) (.jump ⟨type, true, t'⟩)
  | const (pre b b') (h : b.length = 8) (h' : b'.length = 8) : Alike (.const (pre ++ b)) (.const (pre ++ b'))

variable {xs ys : List Item} {i i' : Item}

theorem Alike.size (h : Alike i i') : i.size = i'.size := by
  cases h with
  | jump => rfl
  | const pre b b' h h' => simp [Item.size, h, h']

theorem usize_alike (h : Alike i i') : ∀ xs, usize (xs ++ i :: ys) = usize (xs ++ i' :: ys)
  | [] => by simp only [List.nil_append, usize, h.size]
  | x :: xs => by simp only [List.cons_append, usize, usize_alike h xs]

theorem labelSizes_alike (h : Alike i i') : ∀ xs pos, labelSizes pos (xs ++ i :: ys) = labelSizes pos (xs ++ i' :: ys)
  | [], pos => by
    cases h with
    | jump => rfl
    | const pre b b' h h' => simp [labelSizes, Item.size, h, h']
  | x :: xs, pos => by cases x <;> simp only [List.cons_append, labelSizes, labelSizes_alike h xs]

theorem isLabel_alike (h : Alike i i') : ∀ xs, Item.isLabel (xs ++ i :: ys) = Item.isLabel (xs ++ i' :: ys)
  | [] => by cases h <;> rfl
  | x :: xs => by cases x <;> rfl

/-- The same for the items after reduce_code_size. -/
inductive RAlike : RItem → RItem → Prop
  | jump (type t t' addr) : RAlike (.jump ⟨type, true, t⟩ addr) (.jump ⟨type, true, t'⟩ addr)
  | const (pre b b') (h : b.length = 8) (h' : b'.length = 8) : RAlike (.const (pre ++ b)) (.const (pre ++ b'))

def RItem.isRec : RItem → Bool
  | .jump _ _ | .mov _ _ => true
  | _ => false

def RItem.isConst : RItem → Bool
  | .const _ => true
  | _ => false

/-- Two reductions that differ in one item. -/
structure RPair (win : Bool) (n k : Nat) (is : Bool) (r r' : List RItem × List Nat × Nat) : Prop where
  rest : r.2 = r'.2
  items : ∃ X Y ri ri', r.1 = X ++ ri :: Y ∧ r'.1 = X ++ ri' :: Y ∧ RAlike ri ri' ∧ ri.isRec = is ∧ X.countP RItem.isRec = n ∧ X.countP RItem.isConst = k

theorem RPair.cons {win : Bool} {n k : Nat} {is : Bool} {r r' : List RItem × List Nat × Nat} (h : RPair win n k is r r') (x : RItem) :
    RPair win (n + if x.isRec then 1 else 0) (k + if x.isConst then 1 else 0) is (x :: r.1, r.2) (x :: r'.1, r'.2) := by
  obtain ⟨h1, X, Y, ri, ri', h2, h3, h4, h5, h6, h7⟩ := h
  exact ⟨h1, x :: X, Y, ri, ri', by rw [h2]; rfl, by rw [h3]; rfl, h4, h5, by rw [List.countP_cons, h6], by rw [List.countP_cons, h7]⟩

theorem reduce_alike (win : Bool) (h : Alike i i') : ∀ xs pos li sr done labels,
    RPair win (recs xs) (consts xs) (match i with | .jump _ => true | _ => false) (reduce win (xs ++ i :: ys) pos li sr done labels) (reduce win (xs ++ i' :: ys) pos li sr done labels)
  | [], pos, li, sr, done, labels => by
    cases h with
    | jump type t t' =>
      refine ⟨rfl, [], _, _, _, rfl, rfl, .jump _ _ _ _, rfl, rfl, rfl⟩
    | const pre b b' h h' =>
      have e : (pre ++ b).length = (pre ++ b').length := by simp [h, h']
      refine ⟨?_, [], (reduce win ys (pos + (pre ++ b).length) li sr false labels).1, _, _, rfl, ?_, .const pre b b' h h', rfl, rfl, rfl⟩
      · simp only [List.nil_append, reduce, e]
      · simp only [List.nil_append, reduce, e]
  | x :: xs, pos, li, sr, done, labels => by
    have ih := reduce_alike win h xs
    cases x with
    | bytes bs => exact (ih _ _ _ _ _).cons (.bytes bs)
    | label => exact (ih _ _ _ _ _).cons .label
    | alabel al => exact (ih _ _ _ _ _).cons (.alabel al)
    | const bs => 
      have := (ih (pos + bs.length) li sr false labels).cons (.const bs)
      rw [recs, consts, List.countP_cons, List.countP_cons]
      exact this
    | jump j =>
      have := (ih (pos + maxSize j.type) li (sr + jumpCut j (pos - sr) (tgtSize labels j.tgt) sr) false labels).cons (.jump j (pos - sr))
      rw [recs, consts, List.countP_cons, List.countP_cons]
      exact this
    | mov reg t =>
      simp only [List.cons_append, reduce, isLabel_alike h xs]
      rw [recs, consts, List.countP_cons, List.countP_cons]
      exact (ih _ _ _ _ _).cons (.mov reg t)

/-! ## The generating loop -/

variable {e : Env}

theorem genLoop_append : ∀ (X Z : List RItem) (s : GSt), genLoop e (X ++ Z) s = (genLoop e X s).bind (genLoop e Z)
  | [], Z, s => rfl
  | x :: X, Z, s => by
    have ih := genLoop_append X Z
    cases x with
    | bytes bs => simp only [List.cons_append, genLoop, ih, Option.bind_assoc]
    | label => simp only [List.cons_append, genLoop, ih]
    | alabel al => simp only [List.cons_append, genLoop, ih, Option.bind_assoc]
    | const bs => simp only [List.cons_append, genLoop, ih, Option.bind_assoc]
    | jump j addr => simp only [List.cons_append, genLoop, ih, Option.bind_assoc]
    | mov reg t => simp only [List.cons_append, genLoop, ih, Option.bind_assoc]

theorem emitB_some {out bs out' : List Byte} (h : emitB e out bs = some out') : out' = out ++ bs := by
  unfold emitB at h
  split at h
  · exact (Option.some.inj h).symm
  · cases h

/-- Records and constants are added at the end. -/
theorem genLoop_adds : ∀ (X : List RItem) {s t : GSt}, genLoop e X s = some t →
    (∃ q, t.pend = s.pend ++ q ∧ q.length = X.countP RItem.isRec) ∧ (∃ q, t.caddr = s.caddr ++ q ∧ q.length = X.countP RItem.isConst)
  | [], s, t, h => by
    obtain rfl := Option.some.inj h
    exact ⟨⟨[], by simp, rfl⟩, ⟨[], by simp, rfl⟩⟩
  | x :: X, s, t, h => by
    have ih := @genLoop_adds X
    cases x with
    | bytes bs =>
      obtain ⟨out, -, h⟩ := Option.bind_eq_some_iff.mp h
      obtain ⟨⟨q, h2, h3⟩, ⟨r, h4, h5⟩⟩ := ih h
      exact ⟨⟨q, h2, h3⟩, ⟨r, h4, h5⟩⟩
    | label =>
      obtain ⟨⟨q, h2, h3⟩, ⟨r, h4, h5⟩⟩ := ih (show genLoop e X (s.setLabel e) = some t from h)
      exact ⟨⟨q, h2, h3⟩, ⟨r, h4, h5⟩⟩
    | alabel al =>
      obtain ⟨out, -, h⟩ := Option.bind_eq_some_iff.mp h
      obtain ⟨⟨q, h2, h3⟩, ⟨r, h4, h5⟩⟩ := ih h
      exact ⟨⟨q, h2, h3⟩, ⟨r, h4, h5⟩⟩
    | const bs =>
      obtain ⟨out, -, h⟩ := Option.bind_eq_some_iff.mp h
      obtain ⟨⟨q, h2, h3⟩, ⟨r, h4, h5⟩⟩ := ih h
      exact ⟨⟨q, h2, h3⟩, ⟨_, h4.trans (List.append_assoc _ _ _), by rw [List.countP_cons_of_pos rfl, ← h5]; simp⟩⟩
    | jump j addr =>
      obtain ⟨out, -, h⟩ := Option.bind_eq_some_iff.mp h
      obtain ⟨⟨q, h2, h3⟩, ⟨r, h4, h5⟩⟩ := ih h
      exact ⟨⟨_, h2.trans (List.append_assoc _ _ _), by rw [List.countP_cons_of_pos rfl, ← h3]; simp⟩, ⟨r, h4, h5⟩⟩
    | mov reg tg =>
      obtain ⟨out, -, h⟩ := Option.bind_eq_some_iff.mp h
      obtain ⟨⟨q, h2, h3⟩, ⟨r, h4, h5⟩⟩ := ih h
      exact ⟨⟨_, h2.trans (List.append_assoc _ _ _), by rw [List.countP_cons_of_pos rfl, ← h3]; simp⟩, ⟨r, h4, h5⟩⟩

theorem genLoop_length : ∀ (X : List RItem) {s t : GSt}, genLoop e X s = some t → s.out.length ≤ t.out.length
  | [], s, t, h => by rw [← Option.some.inj h]
  | x :: X, s, t, h => by
    have ih := @genLoop_length X
    cases x with
    | label => exact ih (s := s.setLabel e) h
    | _ =>
      obtain ⟨out, h0, h⟩ := Option.bind_eq_some_iff.mp h
      obtain rfl := emitB_some h0
      have := ih h
      simp only [GSt.setLabel, List.length_append] at this
      omega

/-- Two lists of bytes that differ in the 8 bytes at `x` at most. -/
def Near (x : Nat) (a b : List Byte) : Prop := a.length = b.length ∧ ∀ i, i < x ∨ x + 8 ≤ i → a[i]? = b[i]?

theorem Near.refl (x : Nat) (a : List Byte) : Near x a a := ⟨rfl, fun _ _ => rfl⟩

theorem Near.append {x : Nat} {a b : List Byte} (h : Near x a b) (bs : List Byte) : Near x (a ++ bs) (b ++ bs) := by
  refine ⟨by simp [h.1], fun i hi => ?_⟩
  rw [List.getElem?_append, List.getElem?_append, h.1, h.2 i hi]

theorem near_slot (a p b b' q : List Byte) (h : b.length = 8) (h' : b'.length = 8) : Near (a.length + p.length) (a ++ (p ++ b ++ q)) (a ++ (p ++ b' ++ q)) := by
  refine ⟨by simp [h, h'], fun i hi => ?_⟩
  rw [show a ++ (p ++ b ++ q) = (a ++ p) ++ (b ++ q) by simp, show a ++ (p ++ b' ++ q) = (a ++ p) ++ (b' ++ q) by simp]
  rcases hi with hi | hi
  · have hl : i < (a ++ p).length := by rw [List.length_append]; omega
    rw [List.getElem?_append_left hl, List.getElem?_append_left hl]
  · rw [List.getElem?_append_right (by simp; omega), List.getElem?_append_right (by simp; omega),
      List.getElem?_append_right (by simp; omega), List.getElem?_append_right (by simp; omega), h, h']

/-- A record of a rewritable jump. -/
def Pending.wide (x : Nat) (p : Pending) : Prop := p.mov = false ∧ p.addr = x ∧ (p.patch = .md ∨ p.patch = .none)

def PAlike (x : Nat) (p p' : Pending) : Prop := p = p' ∨ (p.wide x ∧ p'.wide x)

/-- States which differ in a slot. -/
structure GNear (x : Nat) (s s' : GSt) : Prop where
  out : Near x s.out s'.out
  labels : s.labels = s'.labels
  li : s.li = s'.li
  laddr : s.laddr = s'.laddr
  caddr : s.caddr = s'.caddr
  pend : List.Forall₂ (PAlike x) s.pend s'.pend

theorem pend_snoc {x : Nat} {a b : List Pending} (h : List.Forall₂ (PAlike x) a b) {p p' : Pending} (hp : PAlike x p p') :
    List.Forall₂ (PAlike x) (a ++ [p]) (b ++ [p']) := List.rel_append h (.cons hp .nil)

theorem genLoop_near {x : Nat} : ∀ (Y : List RItem) {s s' t t' : GSt}, GNear x s s' → genLoop e Y s = some t → genLoop e Y s' = some t' → GNear x t t'
  | [], s, s', t, t', h, e1, e2 => by
    obtain rfl := Option.some.inj e1
    obtain rfl := Option.some.inj e2
    exact h
  | y :: Y, s, s', t, t', h, e1, e2 => by
    have ih := @genLoop_near x Y
    obtain ⟨h1, h2, h3, h4, h5, h6⟩ := h
    cases y with
    | bytes bs =>
      obtain ⟨o, a1, a2⟩ := Option.bind_eq_some_iff.mp e1
      obtain ⟨o', b1, b2⟩ := Option.bind_eq_some_iff.mp e2
      obtain rfl := emitB_some a1
      obtain rfl := emitB_some b1
      refine ih ?_ a2 b2
      exact ⟨h1.append bs, h2, h3, h4, h5, h6⟩
    | label =>
      refine ih (s := s.setLabel e) (s' := s'.setLabel e) ?_ e1 e2
      refine ⟨h1, ?_, ?_, ?_, h5, h6⟩
      · simp only [GSt.setLabel, h2, h3, h1.1]
      · simp only [GSt.setLabel, h3]
      · simp only [GSt.setLabel, h4, h1.1]
    | alabel al =>
      obtain ⟨o, a1, a2⟩ := Option.bind_eq_some_iff.mp e1
      obtain ⟨o', b1, b2⟩ := Option.bind_eq_some_iff.mp e2
      rw [h1.1] at a1
      obtain rfl := emitB_some a1
      obtain rfl := emitB_some b1
      refine ih ?_ a2 b2
      refine ⟨h1.append _, ?_, ?_, ?_, h5, h6⟩
      · simp only [GSt.setLabel, h2, h3, List.length_append, h1.1]
      · simp only [GSt.setLabel, h3]
      · simp only [GSt.setLabel, h4, List.length_append, h1.1]
    | const bs =>
      obtain ⟨o, a1, a2⟩ := Option.bind_eq_some_iff.mp e1
      obtain ⟨o', b1, b2⟩ := Option.bind_eq_some_iff.mp e2
      obtain rfl := emitB_some a1
      obtain rfl := emitB_some b1
      refine ih ?_ a2 b2
      exact ⟨h1.append bs, h2, h3, h4, by simp only [h5, List.length_append, h1.1], h6⟩
    | jump j addr =>
      obtain ⟨o, a1, a2⟩ := Option.bind_eq_some_iff.mp e1
      obtain ⟨o', b1, b2⟩ := Option.bind_eq_some_iff.mp e2
      rw [h1.1, h2] at a1 a2
      obtain rfl := emitB_some a1
      obtain rfl := emitB_some b1
      refine ih ?_ a2 b2
      exact ⟨h1.append _, rfl, h3, h4, h5, pend_snoc h6 (Or.inl rfl)⟩
    | mov reg tg =>
      obtain ⟨o, a1, a2⟩ := Option.bind_eq_some_iff.mp e1
      obtain ⟨o', b1, b2⟩ := Option.bind_eq_some_iff.mp e2
      rw [h1.1, h2] at a2
      refine ih ?_ a2 b2
      exact ⟨h1.append _, rfl, h3, h4, h5, pend_snoc h6 (Or.inl rfl)⟩

/-- The item that differs. -/
theorem gen_alike {ri ri' : RItem} (h : RAlike ri ri') {s t t' : GSt} (e1 : genLoop e [ri] s = some t) (e2 : genLoop e [ri'] s = some t') :
    ∃ x, GNear x t t' ∧ x + 8 ≤ t.out.length ∧ (ri.isRec = true → ∃ p, t.pend = s.pend ++ [p] ∧ p.addr = x) ∧ (ri.isRec = false → t.caddr = s.caddr ++ [e.base + BitVec.ofNat 64 (x + 8)]) := by
  cases h with
  | jump type tg tg' addr =>
    obtain ⟨o, a1, a2⟩ := Option.bind_eq_some_iff.mp e1
    obtain ⟨o', b1, b2⟩ := Option.bind_eq_some_iff.mp e2
    obtain rfl := Option.some.inj a2
    obtain rfl := Option.some.inj b2
    obtain rfl := emitB_some a1
    obtain rfl := emitB_some b1
    have far : ∀ tg lsize, detectJump e ⟨type, true, tg⟩ s.out.length addr lsize = farJump e.win ⟨type, true, tg⟩ := by
      intro tg lsize
      rw [detectJump]
      exact if_pos (Or.inl rfl)
    simp only [far]
    generalize hpre : (if type < JUMP then [getJumpCode (type ^^^ 1) - 0x10#8, 10 + 3] else [] : List Byte) = pre
    have ef : ∀ tg : Tgt, ∃ b : List Byte, b.length = 8 ∧ farJump e.win ⟨type, true, tg⟩ = (pre ++ [0x49#8, 0xb8#8 ||| regLmap e.win TMP_REG2] ++ b ++
        [0x41#8, 0xff#8, 0xc0#8 ||| (if 37 ≤ type then 0x10#8 else 0x20#8) ||| regLmap e.win TMP_REG2], pre.length + 2, match tg with | .addr _ => .none | .label _ => .md) := by
      intro tg
      refine ⟨match (generalizing := false) tg with | .addr t => toLe 8 t | .label _ => toLe 8 0#64, ?_, ?_⟩
      · cases tg <;> rfl
      · rw [← hpre]
        cases tg <;> simp [farJump]
    obtain ⟨b, l1, f1⟩ := ef tg
    obtain ⟨b', l2, f2⟩ := ef tg'
    rw [f1, f2]
    refine ⟨s.out.length + (pre ++ [0x49#8, 0xb8#8 ||| regLmap e.win TMP_REG2]).length, ⟨near_slot _ _ b b' _ l1 l2, rfl, rfl, rfl, rfl, ?_⟩, (by simp [l1]; omega), fun _ => ⟨_, rfl, by simp⟩, fun h => by cases h⟩
    refine pend_snoc (List.forall₂_same.mpr fun p _ => Or.inl rfl) (Or.inr ⟨⟨rfl, by simp, ?_⟩, ⟨rfl, by simp, ?_⟩⟩)
    · cases tg <;> simp
    · cases tg' <;> simp
  | const pre b b' h h' =>
    obtain ⟨o, a1, a2⟩ := Option.bind_eq_some_iff.mp e1
    obtain ⟨o', b1, b2⟩ := Option.bind_eq_some_iff.mp e2
    obtain rfl := Option.some.inj a2
    obtain rfl := Option.some.inj b2
    obtain rfl := emitB_some a1
    obtain rfl := emitB_some b1
    have hn := near_slot s.out pre b b' [] h h'
    rw [List.append_nil, List.append_nil] at hn
    refine ⟨s.out.length + pre.length, ⟨hn, rfl, rfl, rfl, by simp [h, h'], List.forall₂_same.mpr fun p _ => Or.inl rfl⟩, (by simp [h]; omega), (fun hh => by cases hh), fun _ => ?_⟩
    show s.caddr ++ [_] = _
    rw [List.length_append, List.length_append, h, Nat.add_assoc]

/-! ## The final pass -/

theorem store_near {x : Nat} {a b o o' : List Byte} {k : Nat} {bs : List Byte} (h : Near x a b) (e1 : store a k bs = some o) (e2 : store b k bs = some o') : Near x o o' := by
  unfold store at e1 e2
  split at e1 <;> [skip; cases e1]
  split at e2 <;> [skip; cases e2]
  next g1 g2 =>
  obtain rfl := Option.some.inj e1
  obtain rfl := Option.some.inj e2
  refine ⟨by simp [h.1], fun i hi => ?_⟩
  have ht : ∀ c : List Byte, k + bs.length ≤ c.length → (c.take k ++ bs ++ c.drop (k + bs.length))[i]? = if i < k then c[i]? else if i < k + bs.length then bs[i - k]? else c[i]? := by
    intro c hc
    have l1 : (c.take k).length = k := by rw [List.length_take]; omega
    rw [List.append_assoc]
    by_cases h1 : i < k
    · rw [List.getElem?_append_left (by omega), List.getElem?_take, if_pos h1, if_pos h1]
    · rw [List.getElem?_append_right (by omega), if_neg h1, l1]
      by_cases h2 : i < k + bs.length
      · rw [List.getElem?_append_left (by omega), if_pos h2]
      · rw [List.getElem?_append_right (by omega), if_neg h2, List.getElem?_drop]
        congr 1; omega
  rw [ht a g1, ht b g2, h.2 i hi]

theorem store_slot {x : Nat} {a o : List Byte} {v : BitVec 64} (e : store a x (toLe 8 v) = some o) : Near x a o := by
  unfold store at e
  split at e <;> [skip; cases e]
  next g =>
  have l8 : (toLe 8 v).length = 8 := rfl
  rw [l8] at g
  obtain rfl := Option.some.inj e
  have l1 : (a.take x).length = x := by rw [List.length_take]; omega
  have ha : a = a.take x ++ ((a.drop x).take 8 ++ a.drop (x + 8)) := by
    rw [show a.drop (x + 8) = (a.drop x).drop 8 by rw [List.drop_drop], List.take_append_drop, List.take_append_drop]
  have hn := near_slot (a.take x) [] ((a.drop x).take 8) (toLe 8 v) (a.drop (x + 8)) (by rw [List.length_take, List.length_drop]; omega) l8
  rw [l1, List.nil_append, List.nil_append, ← ha, ← List.append_assoc] at hn
  exact hn

theorem Near.symm {x : Nat} {a b : List Byte} (h : Near x a b) : Near x b a := ⟨h.1.symm, fun i hi => (h.2 i hi).symm⟩
theorem Near.trans {x : Nat} {a b c : List Byte} (h : Near x a b) (g : Near x b c) : Near x a c := ⟨h.1.trans g.1, fun i hi => (h.2 i hi).trans (g.2 i hi)⟩

theorem patchOne_wide {x : Nat} {laddr : List (BitVec 64)} {p : Pending} (h : p.wide x) {a o : List Byte} (h1 : patchOne e laddr a p = some o) : Near x a o := by
  obtain ⟨w1, w2, w3⟩ := h
  unfold patchOne at h1
  rw [w1] at h1
  rcases w3 with w3 | w3
  · rw [w3] at h1
    rw [← w2]
    exact store_slot h1
  · rw [w3] at h1
    obtain rfl := Option.some.inj h1
    exact Near.refl _ _

theorem patchOne_near {x : Nat} {laddr : List (BitVec 64)} {p : Pending} {a b o o' : List Byte} (h : Near x a b) (h1 : patchOne e laddr a p = some o)
    (h2 : patchOne e laddr b p = some o') : Near x o o' := by
  unfold patchOne at h1 h2
  simp only at h1 h2
  split at h1
  · next hm =>
    rw [if_pos hm] at h2
    cases hp : p.patch <;> simp only [hp] at h1 h2 <;> exact store_near h h1 h2
  · next hm =>
    rw [if_neg hm] at h2
    cases hp : p.patch <;> simp only [hp] at h1 h2
    · exact store_near h h1 h2
    · exact store_near h h1 h2
    · exact store_near h h1 h2
    · rw [← Option.some.inj h1, ← Option.some.inj h2]; exact h

theorem store_length {a o : List Byte} {k : Nat} {bs : List Byte} (h : store a k bs = some o) : o.length = a.length := by
  unfold store at h
  split at h
  · rw [← Option.some.inj h]; simp; omega
  · cases h

theorem patchAll_length {laddr : List (BitVec 64)} : ∀ (ps : List Pending) {a o : List Byte}, patchAll e laddr ps a = some o → o.length = a.length
  | [], a, o, h => by rw [← Option.some.inj h]
  | p :: ps, a, o, h => by
    obtain ⟨a1, g1, g2⟩ := Option.bind_eq_some_iff.mp h
    rw [patchAll_length ps g2]
    unfold patchOne at g1
    simp only at g1
    split at g1 <;> split at g1 <;> first | exact store_length g1 | rw [← Option.some.inj g1]

theorem patchAll_near {x : Nat} {laddr : List (BitVec 64)} : ∀ {ps ps' : List Pending}, List.Forall₂ (PAlike x) ps ps' → ∀ {a b o o' : List Byte}, Near x a b →
    patchAll e laddr ps a = some o → patchAll e laddr ps' b = some o' → Near x o o'
  | _, _, .nil, a, b, o, o', h, h1, h2 => by rw [← Option.some.inj h1, ← Option.some.inj h2]; exact h
  | _, _, .cons hp hr, a, b, o, o', h, h1, h2 => by
    obtain ⟨a1, g1, g2⟩ := Option.bind_eq_some_iff.mp h1
    obtain ⟨b1, k1, k2⟩ := Option.bind_eq_some_iff.mp h2
    refine patchAll_near hr ?_ g2 k2
    rcases hp with rfl | ⟨w1, w2⟩
    · exact patchOne_near h g1 k1
    · exact ((patchOne_wide w1 g1).symm.trans h).trans (patchOne_wide w2 k1)

/-! ## The code of two programs which differ in one target or constant -/

/-- Where the slot of the item is. -/
def IsSlot (i : Item) (xs : List Item) (base : BitVec 64) (r : GenResult) (x : Nat) : Prop :=
  match i with
  | .jump _ => r.jaddr[recs xs]? = some x
  | _ => r.caddr[consts xs]? = some (base + BitVec.ofNat 64 (x + 8))

theorem generate_alike {win : Bool} (h : Alike i i') {base off : BitVec 64} {r r' : GenResult} (h1 : generate win (xs ++ i :: ys) base off = some r)
    (h2 : generate win (xs ++ i' :: ys) base off = some r') :
    r'.laddr = r.laddr ∧ r'.caddr = r.caddr ∧ r'.jaddr = r.jaddr ∧ r'.alloc = r.alloc ∧ ∃ x, IsSlot i xs base r x ∧ x + 8 ≤ r.code.length ∧ Near x r.code r'.code := by
  obtain ⟨q1, X, Y, ri, ri', q2, q3, q4, q5, q6, q7⟩ := reduce_alike (ys := ys) win h xs 0 0 0 false (labelSizes 0 (xs ++ i :: ys))
  unfold generate at h1 h2
  rw [← labelSizes_alike h, ← usize_alike h] at h2
  simp only at h1 h2
  rw [← q1, q3] at h2
  rw [q2] at h1
  generalize (reduce win (xs ++ i :: ys) 0 0 0 false (labelSizes 0 (xs ++ i :: ys))).2 = z at h1 h2
  generalize he : (⟨win, base, off, usize (xs ++ i :: ys) - z.2⟩ : Env) = e at h1 h2
  obtain ⟨t, a1, a2⟩ := Option.bind_eq_some_iff.mp h1
  obtain ⟨t', b1, b2⟩ := Option.bind_eq_some_iff.mp h2
  obtain ⟨o, a6, a3⟩ := Option.bind_eq_some_iff.mp a2
  obtain ⟨o', b6, b3⟩ := Option.bind_eq_some_iff.mp b2
  rw [genLoop_append] at a1 b1
  obtain ⟨s, a1, a4⟩ := Option.bind_eq_some_iff.mp a1
  obtain ⟨s', b1, b4⟩ := Option.bind_eq_some_iff.mp b1
  obtain rfl := Option.some.inj (a1.symm.trans b1)
  rw [← List.singleton_append, genLoop_append] at a4 b4
  obtain ⟨u, a4, a5⟩ := Option.bind_eq_some_iff.mp a4
  obtain ⟨u', b4, b5⟩ := Option.bind_eq_some_iff.mp b4
  obtain ⟨x, g1, g0, g2, g3⟩ := gen_alike q4 a4 b4
  have g4 := genLoop_near Y g1 a5 b5
  obtain ⟨⟨p1, p2, p3⟩, ⟨c1, c2, c3⟩⟩ := genLoop_adds X a1
  obtain ⟨⟨p4, p5, -⟩, ⟨c4, c5, -⟩⟩ := genLoop_adds Y a5
  simp only [List.nil_append] at p2 c2
  rw [q6] at p3
  rw [q7] at c3
  obtain rfl := Option.some.inj a3
  obtain rfl := Option.some.inj b3
  rw [← g4.laddr] at b6
  have haddr : t'.pend.map (·.addr) = t.pend.map (·.addr) := by
    have key : ∀ {a b : List Pending}, List.Forall₂ (PAlike x) a b → b.map (·.addr) = a.map (·.addr) := by
      intro a b h
      induction h with
      | nil => rfl
      | cons hp _ ih =>
        rw [List.map_cons, List.map_cons, ih]
        rcases hp with rfl | ⟨w1, w2⟩
        · rfl
        · rw [w1.2.1, w2.2.1]
    exact key g4.pend
  refine ⟨g4.laddr.symm, g4.caddr.symm, haddr, rfl, x, ?_, (by have := genLoop_length Y a5; rw [patchAll_length _ a6]; omega), patchAll_near g4.pend g4.out a6 b6⟩
  unfold IsSlot
  cases h with
  | jump type tg tg' =>
    obtain ⟨p, k1, k2⟩ := g2 q5
    show (t.pend.map (·.addr))[recs xs]? = some x
    rw [p5, k1, p2, List.append_assoc, List.map_append, List.getElem?_append_right (by simp [p3]), List.length_map, p3, Nat.sub_self, ← k2]
    rfl
  | const pre b b' h h' =>
    show t.caddr[consts xs]? = _
    rw [c5, g3 q5, c2, List.append_assoc, List.getElem?_append_right (by omega), c3, Nat.sub_self, ← he]
    rfl

/-! ## Memory -/

theorem bytesAt_iff {c : IMem} : ∀ {bs : List Byte} {a : BitVec 64}, BytesAt c a bs ↔ ∀ k, k < bs.length → bs[k]? = some (c (a + BitVec.ofNat 64 k))
  | [], a => by simp [BytesAt]
  | b :: bs, a => by
    rw [BytesAt, bytesAt_iff]
    constructor
    · rintro ⟨h1, h2⟩ k hk
      cases k with
      | zero => simp [← h1]
      | succ k =>
        rw [List.getElem?_cons_succ, h2 k (by simpa using hk), BitVec.add_assoc, Nat.add_comm k, BitVec.ofNat_add]
    · intro h
      refine ⟨?_, fun k hk => ?_⟩
      · have := h 0 (by simp)
        simpa using this.symm
      · have := h (k + 1) (by simp; omega)
        rw [List.getElem?_cons_succ] at this
        rw [this, BitVec.add_assoc, Nat.add_comm k, BitVec.ofNat_add]

theorem add_sub_toNat {a : BitVec 64} {k : Nat} (h : k < 2 ^ 64) : (a + BitVec.ofNat 64 k - a).toNat = k := by
  rw [BitVec.add_comm, BitVec.add_sub_cancel, BitVec.toNat_ofNat, Nat.mod_eq_of_lt h]

/-- A memory with these bytes. -/
theorem bytesAt_exists (a : BitVec 64) {bs : List Byte} (h : bs.length ≤ 2 ^ 64) : ∃ c : IMem, BytesAt c a bs := by
  refine ⟨fun q => bs.getD (q - a).toNat 0#8, bytesAt_iff.mpr fun k hk => ?_⟩
  rw [add_sub_toNat (by omega), List.getD_eq_getElem?_getD, List.getElem?_eq_getElem hk]; rfl

theorem toLe_get (v : BitVec 64) : ∀ n k, k < n → (toLe n v)[k]? = some ((v >>> (8 * k)).setWidth 8)
  | 0, k, h => by omega
  | n + 1, 0, _ => by simp [toLe]
  | n + 1, k + 1, h => by
    rw [toLe, List.getElem?_cons_succ, toLe_get (v >>> 8) n k (by omega), ← BitVec.shiftRight_add, show 8 + 8 * k = 8 * (k + 1) by omega]

/-- Changing the slot gives the other code. -/
theorem near_mem {a : BitVec 64} {x : Nat} {bs bs' : List Byte} {v : BitVec 64} (h : Near x bs bs') (hl : bs'.length < 2 ^ 64) (hx : x + 8 ≤ 2 ^ 64)
    (hs : ∀ c, BytesAt c a bs' → BytesAt c (a + BitVec.ofNat 64 x) (toLe 8 v)) {c : IMem} (hc : BytesAt c a bs) : BytesAt (wr c (a + BitVec.ofNat 64 x) 8 v) a bs' := by
  obtain ⟨d, hd⟩ := bytesAt_exists a (Nat.le_of_lt hl)
  have hsd := bytesAt_iff.mp (hs d hd)
  rw [bytesAt_iff] at hc hd ⊢
  intro k hk
  have hk64 : k < 2 ^ 64 := by omega
  have e : (a + BitVec.ofNat 64 k - (a + BitVec.ofNat 64 x)).toNat = if x ≤ k then k - x else 2 ^ 64 + k - x := by
    have : a + BitVec.ofNat 64 k - (a + BitVec.ofNat 64 x) = BitVec.ofNat 64 k - BitVec.ofNat 64 x := by
      apply BitVec.eq_of_toNat_eq
      simp only [BitVec.toNat_sub, BitVec.toNat_add, BitVec.toNat_ofNat]; omega
    rw [this, BitVec.toNat_sub, BitVec.toNat_ofNat, BitVec.toNat_ofNat, Nat.mod_eq_of_lt hk64, Nat.mod_eq_of_lt (show x < 2 ^ 64 by omega)]
    split <;> omega
  by_cases hi : x ≤ k ∧ k < x + 8
  · rw [hd k hk]
    have h1 := hsd (k - x) (show k - x < 8 by omega)
    rw [toLe_get v 8 (k - x) (by omega), BitVec.add_assoc, ← BitVec.ofNat_add, show x + (k - x) = k by omega] at h1
    rw [← h1]
    simp only [wr, e, if_pos hi.1]
    rw [if_pos (by omega)]
  · rw [← h.2 k (by omega), hc k (by rw [h.1]; exact hk)]
    simp only [wr, e]
    rw [if_neg]
    split <;> omega

variable {c : IMem} {win : Bool} {off a0 : BitVec 64} {laddr : List (BitVec 64)} {fin : BitVec 64}

/-- The slot of a rewritable jump has its target. -/
theorem placed_jump {type : Nat} {tg : Tgt} {x : Nat} : ∀ (xs : List Item) {a : BitVec 64} {li : Nat} {ca : List (BitVec 64)} {ja : List Nat},
    Placed c win off a0 laddr (xs ++ .jump ⟨type, true, tg⟩ :: ys) a li ca ja fin → ja[recs xs]? = some x → BytesAt c (a0 + BitVec.ofNat 64 x) (toLe 8 (tgtOf laddr tg))
  | [], a, li, ca, ja, h, hx => by
    obtain ⟨n, y, ja', rfl, -, hr, -⟩ := h
    obtain rfl : y = x := Option.some.inj hx
    obtain ⟨pre, post, e1, e2, -⟩ := hr rfl
    rw [e1]
    exact (BytesAt.append.mp (BytesAt.append.mp e2).1).2
  | .bytes bs :: xs, _, _, _, _, h, hx => placed_jump xs h.2 hx
  | .const bs :: xs, _, _, _, _, ⟨_, _, _, h⟩, hx => placed_jump xs h (by rw [recs, List.countP_cons] at hx; exact hx)
  | .label :: xs, _, _, _, _, h, hx => placed_jump xs h.2 hx
  | .alabel al :: xs, _, _, _, _, ⟨_, _, _, _, h⟩, hx => placed_jump xs h hx
  | .jump j :: xs, _, _, _, _, ⟨_, _, _, rfl, _, _, h⟩, hx => placed_jump xs h (by rw [recs, List.countP_cons] at hx; exact hx)
  | .mov r t :: xs, _, _, _, _, ⟨_, _, _, rfl, _, h⟩, hx => placed_jump xs h (by rw [recs, List.countP_cons] at hx; exact hx)

/-- The slot of a constant has its value. -/
theorem placed_const {pre : List Byte} {v : BitVec 64} {y : BitVec 64} : ∀ (xs : List Item) {a : BitVec 64} {li : Nat} {ca : List (BitVec 64)} {ja : List Nat},
    Placed c win off a0 laddr (xs ++ .const (pre ++ toLe 8 v) :: ys) a li ca ja fin → ca[consts xs]? = some y → BytesAt c (y + off - 8#64) (toLe 8 v)
  | [], a, li, ca, ja, h, hx => by
    obtain ⟨h1, ca', rfl, -⟩ := h
    have hy := Option.some.inj hx
    rw [← hy, List.length_append, show (toLe 8 v).length = 8 from rfl]
    have e : a + BitVec.ofNat 64 (pre.length + 8) - off + off - 8#64 = a + BitVec.ofNat 64 pre.length := by
      rw [BitVec.sub_add_cancel, BitVec.ofNat_add, ← BitVec.add_assoc, BitVec.add_sub_cancel]
    rw [e]
    exact (BytesAt.append.mp h1).2
  | .bytes bs :: xs, _, _, _, _, h, hx => placed_const xs h.2 hx
  | .const bs :: xs, _, _, _, _, ⟨_, _, rfl, h⟩, hx => placed_const xs h (by rw [consts, List.countP_cons] at hx; exact hx)
  | .label :: xs, _, _, _, _, h, hx => placed_const xs h.2 hx
  | .alabel al :: xs, _, _, _, _, ⟨_, _, _, _, h⟩, hx => placed_const xs h hx
  | .jump j :: xs, _, _, _, _, ⟨_, _, _, _, _, _, h⟩, hx => placed_const xs h (by rw [consts, List.countP_cons] at hx; exact hx)
  | .mov r t :: xs, _, _, _, _, ⟨_, _, _, _, _, h⟩, hx => placed_const xs h (by rw [consts, List.countP_cons] at hx; exact hx)

end Verif.X86
