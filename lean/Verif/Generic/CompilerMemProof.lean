import Verif.Generic.CompilerMem

/-!
# Invariant of the compiler memory
-/

namespace Verif.Generic

/-- The fragments reachable from `hd` are the blocks `l`, in this order. -/
def Chain (h : Heap) (cap : Nat) : Option Nat → List Nat → Prop
  | hd, [] => hd = none
  | hd, i :: l => hd = some i ∧ ∃ b, h.blks i = some b ∧ b.size = cap ∧ b.used ≤ cap - 16 ∧ Chain h cap b.next l

def usedOf (h : Heap) (i : Nat) : Nat := match h.blks i with | some b => b.used | none => 0
def dataOf (h : Heap) (i k : Nat) : Byte := match h.blks i with | some b => b.data k | none => 0
def bytesOf (h : Heap) (i : Nat) : List Byte := (List.range (usedOf h i)).map (dataOf h i)
/-- The contents of the fragments (newest first). -/
def codeOf (h : Heap) (l : List Nat) : List Byte := (l.reverse.map (bytesOf h)).flatten

theorem codeOf_cons (h : Heap) (i : Nat) (l : List Nat) : codeOf h (i :: l) = codeOf h l ++ bytesOf h i := by
  simp [codeOf]

theorem codeOf_congr {h h' : Heap} {l : List Nat} (e : ∀ i ∈ l, usedOf h' i = usedOf h i ∧ ∀ k, k < usedOf h i → dataOf h' i k = dataOf h i k) :
    codeOf h' l = codeOf h l := by
  unfold codeOf
  congr 1
  apply List.map_congr_left
  intro i hi
  obtain ⟨e1, e2⟩ := e i (by simpa using hi)
  unfold bytesOf
  rw [e1]
  apply List.map_congr_left
  intro k hk
  exact e2 k (by simpa using hk)

theorem Chain_congr {h h' : Heap} {cap : Nat} : ∀ (l : List Nat) (hd : Option Nat), (∀ i ∈ l, h'.blks i = h.blks i) → Chain h cap hd l → Chain h' cap hd l
  | [], _, _, c => c
  | i :: l, hd, e, ⟨c1, b, c2, c3, c4, c5⟩ =>
    ⟨c1, b, by rw [e i (by simp)]; exact c2, c3, c4, Chain_congr l _ (fun j hj => e j (by simp [hj])) c5⟩

theorem Chain_some {h : Heap} {cap i : Nat} {l : List Nat} (c : Chain h cap (some i) l) : ∃ t, l = i :: t := by
  cases l with
  | nil => exact absurd c (by simp [Chain])
  | cons j t => obtain ⟨c1, _⟩ := c; simp at c1; exact ⟨t, by rw [c1]⟩

theorem Chain_mem {h : Heap} {cap : Nat} : ∀ (l : List Nat) (hd : Option Nat), Chain h cap hd l → ∀ i ∈ l, ∃ b, h.blks i = some b ∧ b.size = cap ∧ b.used ≤ cap - 16
  | [], _, _, _, hi => by simp at hi
  | j :: l, hd, ⟨c1, b, c2, c3, c4, c5⟩, i, hi => by
    rcases List.mem_cons.mp hi with rfl | hi
    · exact ⟨b, c2, c3, c4⟩
    · exact Chain_mem l _ c5 i hi

/-- What a request did: nothing but recording the failed call, or it returned a new range `q` in a fragment of the chain. -/
structure Got (h h' : Heap) (cap : Nat) (l l' : List Nat) (head' size : Nat) (q : Ptr) : Prop where
  chain : Chain h' cap (some head') l'
  cnt : h.cnt ≤ h'.cnt
  ids : ∀ i ∈ l', i ∈ l ∨ (i = h.cnt ∧ h.cnt < h'.cnt)
  nodup : l.Nodup → l'.Nodup
  sub : ∀ i ∈ l, i ∈ l'
  out : ∀ i, i ∉ l' → h'.blks i = h.blks i
  data : ∀ i ∈ l, ∀ k, dataOf h' i k = dataOf h i k
  mono : ∀ i ∈ l, usedOf h i ≤ usedOf h' i
  new : q.blk ∈ l' ∧ q.off + size = usedOf h' q.blk ∧ (q.blk ∈ l → q.off = usedOf h q.blk) ∧ (q.blk ∉ l → q.off = 0)
  code : ∀ h'' bs, (∀ i ∈ l', usedOf h'' i = usedOf h' i) → (∀ i ∈ l, ∀ k, k < usedOf h i → dataOf h'' i k = dataOf h i k) →
    (List.range size).map (fun k => dataOf h'' q.blk (q.off + k)) = bs → codeOf h'' l' = codeOf h l ++ bs

theorem range_add_map {α : Type} (f : Nat → α) (n m : Nat) : (List.range (n + m)).map f = (List.range n).map f ++ (List.range m).map fun k => f (n + k) := by
  rw [List.range_add, List.map_append, List.map_map]; rfl

theorem ensure_ok (o : Oracle) (h : Heap) (cap head size : Nat) (l : List Nat) (hcap : 300 ≤ cap) (hsz : size ≤ 256)
    (hc : Chain h cap (some head) l) (hlt : ∀ i ∈ l, i < h.cnt) :
    ∃ h' head' p, ensure o h cap head size = some (h', head', p) ∧
      (p = none → h'.blks = h.blks ∧ head' = head ∧ h'.cnt = h.cnt) ∧
      (∀ q, p = some q → ∃ l', Got h h' cap l l' head' size q) := by
  obtain ⟨t, rfl⟩ := Chain_some hc
  obtain ⟨-, b, hb, hbs, hbu, hct⟩ := hc
  simp only [ensure, hb, Option.bind_some]
  by_cases hfit : b.used + size ≤ cap - 16
  · simp only [hfit, if_true]
    refine ⟨_, _, _, rfl, by simp, ?_⟩
    intro q hq
    simp only [Option.some.injEq] at hq
    subst hq
    by_cases hnd : head ∈ t
    · -- a chain which visits its head twice: not reachable, but the data facts still hold except for the tail
      refine ⟨head :: t, ?_⟩
      exfalso
      -- the tail contains head, whose next is the tail again: the list would be infinite
      have key : ∀ (l : List Nat) (hd : Option Nat), Chain h cap hd l → head ∈ l → ∃ l2, Chain h cap b.next l2 ∧ l2.length < l.length := by
        intro l
        induction l with
        | nil => intro _ _ hm; simp at hm
        | cons j l ih =>
          rintro hd ⟨c1, b', c2, c3, c4, c5⟩ hm
          rcases List.mem_cons.mp hm with rfl | hm
          · rw [hb] at c2; cases c2; exact ⟨l, c5, by simp⟩
          · obtain ⟨l2, q1, q2⟩ := ih _ c5 hm
            exact ⟨l2, q1, by simp; omega⟩
      have uniq : ∀ (l l2 : List Nat) (hd : Option Nat), Chain h cap hd l → Chain h cap hd l2 → l = l2 := by
        intro l
        induction l with
        | nil => intro l2 hd c1 c2; cases l2 with
          | nil => rfl
          | cons j l2 => obtain ⟨c3, _⟩ := c2; simp [Chain] at c1; simp [c1] at c3
        | cons j l ih =>
          rintro l2 hd ⟨c1, b1, c2, c3, c4, c5⟩ d
          cases l2 with
          | nil => simp [Chain] at d; simp [d] at c1
          | cons j2 l2 =>
            obtain ⟨d1, b2, d2, d3, d4, d5⟩ := d
            rw [c1] at d1; simp only [Option.some.injEq] at d1; subst d1
            rw [c2] at d2; cases d2
            rw [ih l2 _ c5 d5]
      obtain ⟨l2, q1, q2⟩ := key t _ hct hnd
      rw [uniq _ _ _ q1 hct] at q2
      omega
    · refine ⟨head :: t, ?_⟩
      have hset : ∀ i, i ≠ head → (h.set head { b with used := b.used + size }).blks i = h.blks i := by
        intro i hi; simp [Heap.set, hi]
      have hself : (h.set head { b with used := b.used + size }).blks head = some { b with used := b.used + size } := by simp [Heap.set]
      constructor
      · exact ⟨rfl, _, hself, hbs, hfit, Chain_congr t _ (fun i hi => hset i (by rintro rfl; exact hnd hi)) hct⟩
      · exact Nat.le_refl _
      · exact fun i hi => Or.inl hi
      · exact id
      · exact fun i hi => hi
      · intro i hi; exact hset i (by rintro rfl; simp at hi)
      · intro i hi k
        by_cases e : i = head
        · subst e; simp [dataOf, hself, hb]
        · simp only [dataOf, hset i e]
      · intro i hi
        by_cases e : i = head
        · subst e; simp [usedOf, hself, hb]
        · simp only [usedOf, hset i e]; exact Nat.le_refl _
      · exact ⟨by simp, by simp [usedOf, hself], fun _ => by simp [usedOf, hb], fun h => absurd (by simp) h⟩
      · intro h'' bs hu hd hbs
        rw [codeOf_cons, codeOf_cons, List.append_assoc]
        have u1 : usedOf h'' head = b.used + size := by rw [hu head (by simp)]; simp [usedOf, hself]
        have u0 : usedOf h head = b.used := by simp [usedOf, hb]
        congr 1
        · refine codeOf_congr fun i hi => ⟨?_, fun k hk => hd i (by simp [hi]) k hk⟩
          rw [hu i (by simp [hi])]
          have : i ≠ head := by rintro rfl; exact hnd hi
          simp only [usedOf, hset i this]
        · unfold bytesOf
          rw [u1, u0, range_add_map]
          congr 1
          apply List.map_congr_left
          intro k hk
          exact hd head (by simp) k (by rw [u0]; simpa using hk)
  · simp only [hfit, if_false]
    by_cases hf : o.fails h.calls = true
    · simp only [Heap.malloc, hf, if_true]
      exact ⟨_, _, _, rfl, by simp, by simp⟩
    · simp only [Heap.malloc, hf, Bool.false_eq_true, if_false, if_true, Option.bind_some]
      refine ⟨_, _, _, rfl, by simp, ?_⟩
      intro q hq
      simp only [Option.some.injEq] at hq
      subst hq
      have hne : ∀ i ∈ head :: t, i ≠ h.cnt := fun i hi => Nat.ne_of_lt (hlt i hi)
      refine ⟨h.cnt :: head :: t, ?_⟩
      constructor
      · refine ⟨rfl, _, by simp [Heap.set]; rfl, rfl, by simp only; omega, ?_⟩
        refine Chain_congr (h := h) (head :: t) _ (fun i hi => by simp [Heap.set, hne i hi]) ⟨rfl, b, hb, hbs, hbu, hct⟩
      · simp [Heap.set]
      · intro i hi
        rcases List.mem_cons.mp hi with rfl | hi
        · exact Or.inr ⟨rfl, by simp [Heap.set]⟩
        · exact Or.inl hi
      · intro hn
        exact List.nodup_cons.mpr ⟨fun hi => hne _ hi rfl, hn⟩
      · exact fun i hi => List.mem_cons_of_mem _ hi
      · intro i hi
        have : i ≠ h.cnt := by rintro rfl; simp at hi
        simp [Heap.set, this]
      · intro i hi k; simp [dataOf, Heap.set, hne i hi]
      · intro i hi; simp [usedOf, Heap.set, hne i hi]
      · exact ⟨by simp, by simp [usedOf, Heap.set], fun hi => absurd rfl (hne _ hi), fun _ => rfl⟩
      · intro h'' bs hu hd hbs
        rw [codeOf_cons]
        congr 1
        · refine codeOf_congr fun i hi => ⟨?_, fun k hk => hd i hi k hk⟩
          rw [hu i (List.mem_cons_of_mem _ hi)]
          simp [usedOf, Heap.set, hne i hi]
        · unfold bytesOf
          have u1 : usedOf h'' h.cnt = size := by rw [hu h.cnt (by simp)]; simp [usedOf, Heap.set]
          rw [u1, ← hbs]
          apply List.map_congr_left
          intro k _; simp

theorem store_ok {h : Heap} {p : Ptr} {bs : List Byte} {b : Blk} (hb : h.blks p.blk = some b) (hs : 16 + p.off + bs.length ≤ b.size) :
    ∃ h', h.store p bs = some h' ∧ h'.cnt = h.cnt ∧ (∀ i, i ≠ p.blk → h'.blks i = h.blks i) ∧
      (∃ b', h'.blks p.blk = some b' ∧ b'.size = b.size ∧ b'.next = b.next ∧ b'.used = b.used) ∧
      (∀ k, ¬ (p.off ≤ k ∧ k < p.off + bs.length) → dataOf h' p.blk k = dataOf h p.blk k) ∧
      (List.range bs.length).map (fun k => dataOf h' p.blk (p.off + k)) = bs := by
  have e : h.store p bs = some (h.set p.blk { b with data := fun k => if p.off ≤ k ∧ k < p.off + bs.length then bs.getD (k - p.off) 0 else b.data k }) := by
    simp only [Heap.store, hb, Option.bind_some, hs, if_true]
  refine ⟨_, e, rfl, ?_, ⟨{ b with data := fun k => if p.off ≤ k ∧ k < p.off + bs.length then bs.getD (k - p.off) 0 else b.data k }, by simp only [Heap.set, if_true], rfl, rfl, rfl⟩, ?_, ?_⟩
  · intro i hi; simp [Heap.set, hi]
  · intro k hk; simp [dataOf, Heap.set, hk, hb]
  · apply List.ext_getElem (by simp)
    intro k h1 h2
    simp only [List.length_map, List.length_range] at h1
    simp [dataOf, Heap.set, h1]

theorem Chain_store {h h' : Heap} {cap j : Nat} (ho : ∀ i, i ≠ j → h'.blks i = h.blks i)
    (hj : ∀ b, h.blks j = some b → ∃ b', h'.blks j = some b' ∧ b'.size = b.size ∧ b'.next = b.next ∧ b'.used = b.used) :
    ∀ (l : List Nat) (hd : Option Nat), Chain h cap hd l → Chain h' cap hd l
  | [], _, c => c
  | i :: l, hd, ⟨c1, b, c2, c3, c4, c5⟩ => by
    by_cases e : i = j
    · subst e
      obtain ⟨b', e1, e2, e3, e4⟩ := hj b c2
      exact ⟨c1, b', e1, by rw [e2]; exact c3, by rw [e4]; exact c4, by rw [e3]; exact Chain_store ho hj l _ c5⟩
    · exact ⟨c1, b, by rw [ho i e]; exact c2, c3, c4, Chain_store ho hj l _ c5⟩

/-! ## The invariant -/

/-- The code pushed so far (the log is newest first). -/
def insBytes : List Ev → List Byte
  | [] => []
  | .ins _ bs :: l => insBytes l ++ bs
  | _ :: l => insBytes l

/-- The memory range of an event. -/
def Ev.rng : Ev → Option (Ptr × Nat)
  | .ins p bs => some (p, bs.length)
  | .record p bs => some (p, bs.length)
  | .mem p n => some (p, n)
  | .gen _ => none

def Disj (a b : Ev) : Prop :=
  ∀ p n q m, a.rng = some (p, n) → b.rng = some (q, m) → p.blk ≠ q.blk ∨ p.off + n ≤ q.off ∨ q.off + m ≤ p.off

def Holds (h : Heap) (p : Ptr) (bs : List Byte) : Prop := (List.range bs.length).map (fun k => dataOf h p.blk (p.off + k)) = bs

def EvOk (h : Heap) (bufs abufs : List Nat) : Ev → Prop
  | .ins p bs => p.blk ∈ bufs ∧ p.off + bs.length ≤ usedOf h p.blk ∧ Holds h p bs
  | .record p bs => p.blk ∈ abufs ∧ p.off + bs.length ≤ usedOf h p.blk ∧ Holds h p bs
  | .mem p n => p.blk ∈ abufs ∧ p.off + n ≤ usedOf h p.blk
  | .gen _ => True

/-- Every code generation has seen exactly the code pushed before it. -/
def GensOk : List Ev → Prop
  | [] => True
  | .gen c :: l => c = insBytes l ∧ GensOk l
  | _ :: l => GensOk l

structure Inv (h0 : Heap) (s : St) (bufs abufs : List Nat) : Prop where
  buf : Chain s.h BUF_SIZE (some s.c.buf) bufs
  abuf : Chain s.h ABUF_SIZE (some s.c.abuf) abufs
  nodup : (s.c.self :: (bufs ++ abufs)).Nodup
  self : ∃ b, s.h.blks s.c.self = some b
  rng : ∀ i ∈ s.c.self :: (bufs ++ abufs), h0.cnt ≤ i ∧ i < s.h.cnt
  out : ∀ i, i ∉ s.c.self :: (bufs ++ abufs) → s.h.blks i = h0.blks i
  code : s.c.error = 0 → codeOf s.h bufs = insBytes s.log
  evs : ∀ e ∈ s.log, EvOk s.h bufs abufs e
  disj : s.log.Pairwise Disj
  gens : GensOk s.log

theorem Holds_congr {h h' : Heap} {p : Ptr} {bs : List Byte} (e : ∀ k, p.off ≤ k → k < p.off + bs.length → dataOf h' p.blk k = dataOf h p.blk k)
    (hh : Holds h p bs) : Holds h' p bs := by
  unfold Holds at *
  refine Eq.trans ?_ hh
  apply List.map_congr_left
  intro k hk
  exact e _ (by omega) (by have := List.mem_range.mp hk; omega)

theorem EvOk_mono {h h' : Heap} {bufs abufs bufs' abufs' : List Nat} (s1 : ∀ i ∈ bufs, i ∈ bufs') (s2 : ∀ i ∈ abufs, i ∈ abufs')
    (u : ∀ i ∈ bufs ++ abufs, usedOf h i ≤ usedOf h' i ∧ ∀ k, k < usedOf h i → dataOf h' i k = dataOf h i k) :
    ∀ e, EvOk h bufs abufs e → EvOk h' bufs' abufs' e
  | .ins p bs, ⟨a, b, c⟩ => by
    obtain ⟨u1, u2⟩ := u p.blk (by simp [a])
    exact ⟨s1 _ a, by omega, Holds_congr (fun k _ h2 => u2 k (by omega)) c⟩
  | .record p bs, ⟨a, b, c⟩ => by
    obtain ⟨u1, u2⟩ := u p.blk (by simp [a])
    exact ⟨s2 _ a, by omega, Holds_congr (fun k _ h2 => u2 k (by omega)) c⟩
  | .mem p n, ⟨a, b⟩ => by
    obtain ⟨u1, u2⟩ := u p.blk (by simp [a])
    exact ⟨s2 _ a, by omega⟩
  | .gen _, _ => trivial

theorem EvOk_end {h : Heap} {bufs abufs : List Nat} {e : Ev} {p : Ptr} {n : Nat} (he : EvOk h bufs abufs e) (hr : e.rng = some (p, n)) :
    p.blk ∈ bufs ++ abufs ∧ p.off + n ≤ usedOf h p.blk := by
  cases e <;> simp only [Ev.rng, Option.some.injEq, Prod.mk.injEq, reduceCtorEq] at hr
  all_goals obtain ⟨rfl, rfl⟩ := hr
  · exact ⟨by simp [he.1], he.2.1⟩
  · exact ⟨by simp [he.1], he.2.1⟩
  · exact ⟨by simp [he.1], he.2⟩

/-- Facts about a store into a new range. -/
theorem store_new {h : Heap} {cap head' size : Nat} {hold : Heap} {l l' : List Nat} {q : Ptr} {bs : List Byte}
    (g : Got hold h cap l l' head' size q) (hs : bs.length = size) (hcap : 16 ≤ cap) :
    ∃ h', h.store q bs = some h' ∧ h'.cnt = h.cnt ∧ (∀ i, i ≠ q.blk → h'.blks i = h.blks i) ∧
      (∀ (hd : Option Nat) (m : List Nat) (c : Nat), Chain h c hd m → Chain h' c hd m) ∧
      (∀ i, usedOf h' i = usedOf h i) ∧ (∀ i, (h.blks i).isSome → (h'.blks i).isSome) ∧
      (∀ i ∈ l, ∀ k, k < usedOf hold i → dataOf h' i k = dataOf hold i k) ∧ Holds h' q bs := by
  obtain ⟨n1, n2, n3, n4⟩ := g.new
  obtain ⟨b, hb, hbs, hbu⟩ := Chain_mem _ _ g.chain q.blk n1
  have hub : usedOf h q.blk = b.used := by simp [usedOf, hb]
  obtain ⟨h', e1, e2, e3, ⟨b', e4, e5, e6, e7⟩, e8, e9⟩ := store_ok (p := q) (bs := bs) hb (by rw [hbs]; omega)
  refine ⟨h', e1, e2, e3, ?_, ?_, ?_, ?_, e9⟩
  · intro hd m c hc
    exact Chain_store e3 (fun b0 hb0 => by rw [hb] at hb0; cases hb0; exact ⟨b', e4, e5, e6, e7⟩) _ _ hc
  · intro i
    by_cases e : i = q.blk
    · subst e; simp [usedOf, e4, hb, e7]
    · simp only [usedOf, e3 i e]
  · intro i hi
    by_cases e : i = q.blk
    · subst e; simp [e4]
    · rw [e3 i e]; exact hi
  · intro i hi k hk
    rw [← g.data i hi k]
    by_cases e : i = q.blk
    · subst e
      have := n3 hi
      exact e8 k (by omega)
    · simp only [dataOf, e3 i e]

/-- A new range is disjoint from every old one. -/
theorem new_disj {h0 : Heap} {s : St} {bufs abufs l l' : List Nat} {h' : Heap} {cap head' size : Nat} {q : Ptr} (I : Inv h0 s bufs abufs)
    (g : Got s.h h' cap l l' head' size q) (hl : l = bufs ∨ l = abufs) {ev : Ev} (hr : ev.rng = some (q, size)) :
    ∀ e ∈ s.log, Disj ev e := by
  intro e he p n q' m h1 h2
  rw [hr] at h1
  simp only [Option.some.injEq, Prod.mk.injEq] at h1
  obtain ⟨rfl, rfl⟩ := h1
  obtain ⟨a1, a2⟩ := EvOk_end (I.evs e he) h2
  by_cases hb : q.blk = q'.blk
  · refine Or.inr (Or.inr ?_)
    obtain ⟨n1, n2, n3, n4⟩ := g.new
    have hm : q.blk ∈ l := by
      rcases g.ids _ n1 with h | ⟨h, -⟩
      · exact h
      · rw [← hb] at a1
        have := (I.rng q.blk (List.mem_cons_of_mem _ a1)).2
        omega
    rw [n3 hm, hb]; exact a2
  · exact Or.inl hb

theorem inv_fail {h0 : Heap} {s : St} {bufs abufs : List Nat} {h' : Heap} {c' : Comp} (I : Inv h0 s bufs abufs) (hb : h'.blks = s.h.blks) (hc : h'.cnt = s.h.cnt)
    (c1 : c'.self = s.c.self) (c2 : c'.buf = s.c.buf) (c3 : c'.abuf = s.c.abuf) (c4 : c'.error ≠ 0 ∨ c'.error = s.c.error) :
    Inv h0 { s with h := h', c := c' } bufs abufs := by
  have hu : ∀ i, usedOf h' i = usedOf s.h i := fun i => by simp only [usedOf, hb]
  have hd : ∀ i k, dataOf h' i k = dataOf s.h i k := fun i k => by simp only [dataOf, hb]
  constructor
  · simp only [c2]; exact Chain_congr _ _ (fun i _ => by rw [hb]) I.buf
  · simp only [c3]; exact Chain_congr _ _ (fun i _ => by rw [hb]) I.abuf
  · simp only [c1]; exact I.nodup
  · simp only [c1, hb]; exact I.self
  · simp only [c1, hc]; exact I.rng
  · simp only [c1, hb]; exact I.out
  · intro he
    rcases c4 with c4 | c4
    · exact absurd he c4
    · rw [← I.code (by rw [← c4]; exact he)]
      exact codeOf_congr fun i _ => ⟨hu i, fun k _ => hd i k⟩
  · intro e he
    exact EvOk_mono (fun _ h => h) (fun _ h => h) (fun i _ => ⟨Nat.le_of_eq (hu i).symm, fun k _ => hd i k⟩) e (I.evs e he)
  · exact I.disj
  · exact I.gens

theorem chain_out {h0 : Heap} {s : St} {bufs abufs l l' : List Nat} {h' : Heap} {cap head' size : Nat} {q : Ptr} (I : Inv h0 s bufs abufs)
    (g : Got s.h h' cap l l' head' size q) {i : Nat} (hi : i ∈ s.c.self :: (bufs ++ abufs)) (hn : i ∉ l) : i ∉ l' := by
  intro h
  rcases g.ids i h with h | ⟨h, -⟩
  · exact hn h
  · have := (I.rng i hi).2; omega

theorem inv_ins {h0 : Heap} {s : St} {bufs abufs : List Nat} (I : Inv h0 s bufs abufs) (h00 : ∀ i, h0.cnt ≤ i → h0.blks i = none) {h1 h2 : Heap} {l' : List Nat} {head' : Nat} {q : Ptr} {bs : List Byte}
    (g : Got s.h h1 BUF_SIZE bufs l' head' bs.length q) (hs : h1.store q bs = some h2) :
    Inv h0 ⟨h2, { s.c with buf := head' }, .ins q bs :: s.log⟩ l' abufs := by
  obtain ⟨h', e1, e2, e3, e4, e5, e6, e7, e8⟩ := store_new (bs := bs) g rfl (by omega)
  rw [hs] at e1; cases e1
  obtain ⟨n1, n2, n3, n4⟩ := g.new
  have hcnt : s.h.cnt ≤ h1.cnt := g.cnt
  have hnd := I.nodup
  simp only [List.nodup_cons, List.nodup_append, List.mem_append, not_or] at hnd
  obtain ⟨⟨d1, d2⟩, d3, d4, d5⟩ := hnd
  have oa : ∀ i ∈ abufs, i ∉ l' := fun i hi => chain_out I g (by simp [hi]) (fun hb => d5 i hb i hi rfl)
  have os : s.c.self ∉ l' := chain_out I g (by simp) d1
  have keep : ∀ i, i ∉ l' → h2.blks i = s.h.blks i := fun i hi => by
    rw [e3 i (by rintro rfl; exact hi n1), g.out i hi]
  constructor
  · exact e4 _ _ _ g.chain
  · exact Chain_congr _ _ (fun i hi => keep i (oa i hi)) I.abuf
  · simp only [List.nodup_cons, List.nodup_append, List.mem_append, not_or]
    exact ⟨⟨os, d2⟩, g.nodup d3, d4, fun a ha b hb hab => oa b hb (hab ▸ ha)⟩
  · simp only [keep _ os]; exact I.self
  · intro i hi
    simp only [List.mem_cons, List.mem_append] at hi
    have base := (I.rng s.c.self (by simp)).1
    have hh := (I.rng s.c.self (by simp)).2
    rw [e2]
    rcases hi with rfl | hi | hi
    · exact ⟨base, by omega⟩
    · rcases g.ids i hi with hi | ⟨rfl, h⟩
      · have := I.rng i (by simp [hi]); omega
      · omega
    · have := I.rng i (by simp [hi]); omega
  · intro i hi
    simp only [List.mem_cons, List.mem_append, not_or] at hi
    rw [keep i hi.2.1]
    exact I.out i (by simp only [List.mem_cons, List.mem_append, not_or]; exact ⟨hi.1, fun h => hi.2.1 (g.sub i h), hi.2.2⟩)
  · intro he
    rw [insBytes, ← I.code he]
    exact g.code h2 bs (fun i _ => e5 i) e7 e8
  · have old : ∀ e ∈ s.log, EvOk h2 l' abufs e := fun e he => by
      refine EvOk_mono g.sub (fun _ h => h) (fun i hi => ?_) e (I.evs e he)
      rcases List.mem_append.mp hi with hi | hi
      · exact ⟨by rw [e5]; exact g.mono i hi, fun k hk => e7 i hi k hk⟩
      · simp only [usedOf, dataOf, keep i (oa i hi)]; exact ⟨Nat.le_refl _, fun _ _ => trivial⟩
    intro e he
    rcases List.mem_cons.mp he with rfl | he
    · exact ⟨n1, by rw [e5]; exact Nat.le_of_eq n2, e8⟩
    · exact old e he
  · exact List.pairwise_cons.mpr ⟨new_disj I g (Or.inl rfl) rfl, I.disj⟩
  · exact I.gens

theorem inv_abuf {h0 : Heap} {s : St} {bufs abufs : List Nat} (I : Inv h0 s bufs abufs) {h1 h2 : Heap} {l' : List Nat} {head' size : Nat} {q : Ptr} {ev : Ev}
    (g : Got s.h h1 ABUF_SIZE abufs l' head' size q) (hr : ev.rng = some (q, size)) (hi : insBytes (ev :: s.log) = insBytes s.log)
    (hg : GensOk s.log → GensOk (ev :: s.log))
    (e2 : h2.cnt = h1.cnt) (e3 : ∀ i, i ≠ q.blk → h2.blks i = h1.blks i)
    (e4 : ∀ (hd : Option Nat) (m : List Nat) (c : Nat), Chain h1 c hd m → Chain h2 c hd m)
    (e5 : ∀ i, usedOf h2 i = usedOf h1 i)
    (e7 : ∀ i ∈ abufs, ∀ k, k < usedOf s.h i → dataOf h2 i k = dataOf s.h i k)
    (e8 : EvOk h2 bufs l' ev) :
    Inv h0 ⟨h2, { s.c with abuf := head' }, ev :: s.log⟩ bufs l' := by
  obtain ⟨n1, n2, n3, n4⟩ := g.new
  have hcnt : s.h.cnt ≤ h1.cnt := g.cnt
  have hnd := I.nodup
  simp only [List.nodup_cons, List.nodup_append, List.mem_append, not_or] at hnd
  obtain ⟨⟨d1, d2⟩, d3, d4, d5⟩ := hnd
  have oa : ∀ i ∈ bufs, i ∉ l' := fun i hi => chain_out I g (by simp [hi]) (fun hb => d5 i hi i hb rfl)
  have os : s.c.self ∉ l' := chain_out I g (by simp) d2
  have keep : ∀ i, i ∉ l' → h2.blks i = s.h.blks i := fun i hi => by
    rw [e3 i (by rintro rfl; exact hi n1), g.out i hi]
  constructor
  · exact Chain_congr _ _ (fun i hi => keep i (oa i hi)) I.buf
  · exact e4 _ _ _ g.chain
  · simp only [List.nodup_cons, List.nodup_append, List.mem_append, not_or]
    exact ⟨⟨d1, os⟩, d3, g.nodup d4, fun a ha b hb hab => oa a ha (hab ▸ hb)⟩
  · simp only [keep _ os]; exact I.self
  · intro i hi
    simp only [List.mem_cons, List.mem_append] at hi
    have base := (I.rng s.c.self (by simp)).1
    have hh := (I.rng s.c.self (by simp)).2
    rw [e2]
    rcases hi with rfl | hi | hi
    · exact ⟨base, by omega⟩
    · have := I.rng i (by simp [hi]); omega
    · rcases g.ids i hi with hi | ⟨rfl, h⟩
      · have := I.rng i (by simp [hi]); omega
      · omega
  · intro i hi
    simp only [List.mem_cons, List.mem_append, not_or] at hi
    rw [keep i hi.2.2]
    exact I.out i (by simp only [List.mem_cons, List.mem_append, not_or]; exact ⟨hi.1, hi.2.1, fun h => hi.2.2 (g.sub i h)⟩)
  · intro he
    simp only [hi]
    rw [← I.code he]
    exact codeOf_congr fun i hi => by simp only [usedOf, dataOf, keep i (oa i hi)]; exact ⟨trivial, fun _ _ => trivial⟩
  · have old : ∀ e ∈ s.log, EvOk h2 bufs l' e := fun e he => by
      refine EvOk_mono (fun _ h => h) g.sub (fun i hi => ?_) e (I.evs e he)
      rcases List.mem_append.mp hi with hi | hi
      · simp only [usedOf, dataOf, keep i (oa i hi)]; exact ⟨Nat.le_refl _, fun _ _ => trivial⟩
      · exact ⟨by rw [e5]; exact g.mono i hi, fun k hk => e7 i hi k hk⟩
    intro e he
    rcases List.mem_cons.mp he with rfl | he
    · exact e8
    · exact old e he
  · exact List.pairwise_cons.mpr ⟨new_disj I g (Or.inr rfl) hr, I.disj⟩
  · exact hg I.gens

end Verif.Generic
