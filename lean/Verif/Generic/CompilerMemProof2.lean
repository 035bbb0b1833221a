import Verif.Generic.CompilerMemProof

/-!
# Invariant of the compiler memory: the API calls
-/

namespace Verif.Generic

/-- The assertion of ensure_buf and ensure_abuf (sljitLir.c:681, :700): requests have at most 256 bytes. -/
def Push.Ok : Push → Prop
  | .ins bs => bs.length ≤ 256
  | .record bs => bs.length ≤ 256

def Op.Ok : Op → Prop
  | .emit _ ps => ∀ p ∈ ps, p.Ok
  | _ => True

theorem pushAll_ok {h0 : Heap} (h00 : ∀ i, h0.cnt ≤ i → h0.blks i = none) (o : Oracle) : ∀ (ps : List Push) (s : St) (bufs abufs : List Nat),
    Inv h0 s bufs abufs → (∀ p ∈ ps, p.Ok) → ∃ s', pushAll o s ps = some s' ∧ ∃ bufs' abufs', Inv h0 s' bufs' abufs'
  | [], s, bufs, abufs, I, _ => ⟨s, rfl, bufs, abufs, I⟩
  | .ins bs :: ps, s, bufs, abufs, I, hp => by
    have hl : bs.length ≤ 256 := hp (.ins bs) (by simp)
    obtain ⟨h', head', p, e1, e2, e3⟩ := ensure_ok o s.h BUF_SIZE s.c.buf bs.length bufs (by omega) hl I.buf (fun i hi => (I.rng i (by simp [hi])).2)
    simp only [pushAll, ensureBuf, e1, Option.map_some, Option.bind_some]
    cases p with
    | none =>
      obtain ⟨a, b, c⟩ := e2 rfl
      exact ⟨_, rfl, bufs, abufs, inv_fail I a c rfl b rfl (Or.inl (by simp))⟩
    | some q =>
      obtain ⟨l', g⟩ := e3 q rfl
      obtain ⟨h2, f1, -⟩ := store_new (bs := bs) g rfl (by omega)
      simp only [f1, Option.bind_some, Option.isSome_some, if_true]
      exact pushAll_ok h00 o ps _ l' abufs (inv_ins I h00 g f1) (fun p hp' => hp p (by simp [hp']))
  | .record bs :: ps, s, bufs, abufs, I, hp => by
    have hl : bs.length ≤ 256 := hp (.record bs) (by simp)
    obtain ⟨h', head', p, e1, e2, e3⟩ := ensure_ok o s.h ABUF_SIZE s.c.abuf bs.length abufs (by omega) hl I.abuf (fun i hi => (I.rng i (by simp [hi])).2)
    simp only [pushAll, ensureAbuf, e1, Option.map_some, Option.bind_some]
    cases p with
    | none =>
      obtain ⟨a, b, c⟩ := e2 rfl
      exact ⟨_, rfl, bufs, abufs, inv_fail I a c rfl rfl b (Or.inl (by simp))⟩
    | some q =>
      obtain ⟨l', g⟩ := e3 q rfl
      obtain ⟨h2, f1, f2, f3, f4, f5, f6, f7, f8⟩ := store_new (bs := bs) g rfl (by omega)
      simp only [f1, Option.bind_some, Option.isSome_some, if_true]
      exact pushAll_ok h00 o ps _ bufs l' (inv_abuf I g (ev := .record q bs) rfl rfl id f2 f3 f4 f5 f7
        ⟨g.new.1, by rw [f5]; exact Nat.le_of_eq g.new.2.1, f8⟩) (fun p hp' => hp p (by simp [hp']))

theorem alloc_ok {h0 : Heap} (o : Oracle) (s : St) (bufs abufs : List Nat) (I : Inv h0 s bufs abufs) (size : Int) :
    ∃ s' r, step o s (.alloc size) = some (s', r) ∧ ∃ abufs', Inv h0 s' bufs abufs' := by
  simp only [step, allocMemory]
  by_cases h1 : s.c.error ≠ 0
  · rw [if_pos h1]; exact ⟨_, _, rfl, abufs, I⟩
  · rw [if_neg h1]
    by_cases h2 : size ≤ 0 ∨ size > 128
    · rw [if_pos h2]; exact ⟨_, _, rfl, abufs, I⟩
    · obtain ⟨h', head', p, e1, e2, e3⟩ := ensure_ok o s.h ABUF_SIZE s.c.abuf ((size.toNat + 7) / 8 * 8) abufs (by omega) (by omega) I.abuf
        (fun i hi => (I.rng i (by simp [hi])).2)
      simp only [h2, if_false, ensureAbuf, e1, Option.map_some]
      refine ⟨_, _, rfl, ?_⟩
      cases p with
      | none =>
        obtain ⟨a, b, c⟩ := e2 rfl
        exact ⟨abufs, inv_fail I a c rfl rfl b (Or.inl (by simp))⟩
      | some q =>
        obtain ⟨l', g⟩ := e3 q rfl
        exact ⟨l', inv_abuf I g (ev := .mem q ((size.toNat + 7) / 8 * 8)) rfl rfl id rfl (fun _ _ => rfl) (fun _ _ _ h => h) (fun _ => rfl)
          (fun i hi k _ => g.data i hi k) ⟨g.new.1, Nat.le_of_eq g.new.2.1⟩⟩

theorem mem_mems : ∀ (log : List Ev) (p : Ptr) (n : Nat), (p, n) ∈ mems log → Ev.mem p n ∈ log
  | [], p, n, h => by simp [mems] at h
  | .mem q m :: l, p, n, h => by
    simp only [mems, List.mem_append, List.mem_singleton, Prod.mk.injEq] at h
    rcases h with h | ⟨rfl, rfl⟩
    · exact List.mem_cons_of_mem _ (mem_mems l p n h)
    · simp
  | .ins q b :: l, p, n, h => List.mem_cons_of_mem _ (mem_mems l p n h)
  | .record q b :: l, p, n, h => List.mem_cons_of_mem _ (mem_mems l p n h)
  | .gen c :: l, p, n, h => List.mem_cons_of_mem _ (mem_mems l p n h)

/-- Client writes stay inside of the client memory. -/
theorem write_ok {h0 : Heap} (o : Oracle) (s : St) (bufs abufs : List Nat) (I : Inv h0 s bufs abufs) (k off : Nat) (bs : List Byte) :
    ∃ s' r, step o s (.write k off bs) = some (s', r) ∧ Inv h0 s' bufs abufs ∧ s'.c = s.c ∧ s'.log = s.log := by
  simp only [step]
  cases hm : (mems s.log)[k]? with
  | none => exact ⟨_, _, rfl, I, rfl, rfl⟩
  | some pn =>
    obtain ⟨p, n⟩ := pn
    by_cases hle : off + bs.length ≤ n
    · simp only [hle, if_true]
      have hev := mem_mems _ _ _ (List.mem_of_getElem? hm)
      obtain ⟨ha, hu⟩ := I.evs _ hev
      obtain ⟨b, hb, hbs, hbu⟩ := Chain_mem _ _ I.abuf p.blk ha
      have hub : usedOf s.h p.blk = b.used := by simp [usedOf, hb]
      obtain ⟨h', e1, e2, e3, ⟨b', e4, e5, e6, e7⟩, e8, e9⟩ := store_ok (p := ⟨p.blk, p.off + off⟩) (bs := bs) hb (by simp only [hbs]; omega)
      simp only at e3 e4 e8
      simp only [e1, Option.map_some]
      refine ⟨_, _, rfl, ?_, rfl, rfl⟩
      have hch : ∀ (hd : Option Nat) (m : List Nat) (c : Nat), Chain s.h c hd m → Chain h' c hd m := fun hd m c hc =>
        Chain_store e3 (fun b0 hb0 => by rw [hb] at hb0; cases hb0; exact ⟨b', e4, e5, e6, e7⟩) _ _ hc
      have hus : ∀ i, usedOf h' i = usedOf s.h i := fun i => by
        by_cases e : i = p.blk
        · subst e; simp [usedOf, e4, hb, e7]
        · simp only [usedOf, e3 i e]
      have hnd := I.nodup
      simp only [List.nodup_cons, List.nodup_append, List.mem_append, not_or] at hnd
      obtain ⟨⟨d1, d2⟩, d3, d4, d5⟩ := hnd
      have nb : ∀ i ∈ bufs, i ≠ p.blk := fun i hi e => d5 i hi p.blk ha e
      have ns : s.c.self ≠ p.blk := fun e => d2 (e ▸ ha)
      constructor
      · exact hch _ _ _ I.buf
      · exact hch _ _ _ I.abuf
      · exact I.nodup
      · simp only [e3 _ ns]; exact I.self
      · simp only [e2]; exact I.rng
      · intro i hi
        have : i ≠ p.blk := by rintro rfl; exact hi (by simp [ha])
        simp only [e3 i this]; exact I.out i hi
      · intro he
        rw [← I.code he]
        exact codeOf_congr fun i hi => ⟨hus i, fun k _ => by simp only [dataOf, e3 i (nb i hi)]⟩
      · intro e he
        have hold := I.evs e he
        have dj : ∀ q m, e.rng = some (q, m) → q.blk = p.blk → e ≠ .mem p n → q.off + m ≤ p.off ∨ p.off + n ≤ q.off := by
          intro q m hr hq hne
          have : Disj e (.mem p n) ∨ Disj (.mem p n) e := by
            have hpw := I.disj
            obtain ⟨i, hi, rfl⟩ := List.getElem_of_mem he
            obtain ⟨j, hj, hje⟩ := List.getElem_of_mem hev
            rw [List.pairwise_iff_getElem] at hpw
            rcases Nat.lt_trichotomy i j with h | h | h
            · left; rw [← hje]; exact hpw i j hi hj h
            · subst h; exact absurd hje hne
            · right; rw [← hje]; exact hpw j i hj hi h
          rcases this with h | h
          · rcases h q m p n hr rfl with h | h | h
            · exact absurd hq h
            · exact Or.inl h
            · exact Or.inr h
          · rcases h p n q m rfl hr with h | h | h
            · exact absurd hq.symm h
            · exact Or.inr h
            · exact Or.inl h
        cases e with
        | ins q bs' =>
          obtain ⟨a, b, c⟩ := hold
          exact ⟨a, by rw [hus]; exact b, Holds_congr (fun k _ _ => by simp only [dataOf, e3 _ (nb _ a)]) c⟩
        | record q bs' =>
          obtain ⟨a, b, c⟩ := hold
          refine ⟨a, by rw [hus]; exact b, Holds_congr (fun k h1 h2 => ?_) c⟩
          by_cases hq : q.blk = p.blk
          · have := dj q _ rfl hq (by intro h; cases h)
            rw [hq]
            exact e8 k (by omega)
          · simp only [dataOf, e3 _ hq]
        | mem q m => exact ⟨hold.1, by rw [hus]; exact hold.2⟩
        | gen c => trivial
      · exact I.disj
      · exact I.gens
    · simp only [hle, if_false]; exact ⟨_, _, rfl, I, rfl, rfl⟩

/-! ## Traversals -/

theorem nodup_le : ∀ (n : Nat) (l : List Nat), l.Nodup → (∀ i ∈ l, i < n) → l.length ≤ n
  | 0, l, _, h => by
    cases l with
    | nil => simp
    | cons a l => exact absurd (h a (by simp)) (by omega)
  | n + 1, l, hn, h => by
    by_cases hm : n ∈ l
    · have := nodup_le n (l.erase n) (hn.erase n) (fun i hi => by
        have := (List.Nodup.mem_erase_iff hn).mp hi
        have := h i this.2
        omega)
      rw [List.length_erase_of_mem hm] at this
      omega
    · have := nodup_le n l hn (fun i hi => by
        have := h i hi
        have : i ≠ n := by rintro rfl; exact hm hi
        omega)
      omega

theorem reverse_ok {cap : Nat} : ∀ (l : List Nat) (n : Nat) (h : Heap) (hd prev : Option Nat) (m : List Nat), Chain h cap hd l → Chain h cap prev m →
    (l ++ m).Nodup → l.length ≤ n → ∃ h' p, reverseLoop n h hd prev = some (h', p) ∧ Chain h' cap p (l.reverse ++ m) ∧ h'.cnt = h.cnt ∧
      (∀ i, i ∉ l → h'.blks i = h.blks i) ∧ (∀ i, usedOf h' i = usedOf h i) ∧ (∀ i k, dataOf h' i k = dataOf h i k)
  | [], n, h, hd, prev, m, c, d, _, _ => by
    simp only [Chain] at c; subst c
    refine ⟨h, prev, ?_, d, rfl, fun _ _ => rfl, fun _ => rfl, fun _ _ => rfl⟩
    cases n <;> rfl
  | i :: l, 0, h, hd, prev, m, _, _, _, hn => by simp at hn
  | i :: l, n + 1, h, hd, prev, m, ⟨c1, b, c2, c3, c4, c5⟩, d, hnd, hn => by
    subst c1
    simp only [List.cons_append, List.nodup_cons, List.mem_append, not_or] at hnd
    have ho : ∀ j, j ≠ i → (h.set i { b with next := prev }).blks j = h.blks j := fun j hj => by simp [Heap.set, hj]
    have hs : (h.set i { b with next := prev }).blks i = some { b with next := prev } := by simp [Heap.set]
    obtain ⟨h', p, e1, e2, e3, e4, e5, e6⟩ := reverse_ok l n (h.set i { b with next := prev }) b.next (some i) (i :: m)
      (Chain_congr _ _ (fun j hj => ho j (by rintro rfl; exact hnd.1.1 hj)) c5)
      ⟨rfl, _, hs, c3, c4, Chain_congr _ _ (fun j hj => ho j (by rintro rfl; exact hnd.1.2 hj)) d⟩
      (by
        have := hnd.2
        rw [List.nodup_append] at this ⊢
        refine ⟨this.1, List.nodup_cons.mpr ⟨hnd.1.2, this.2.1⟩, ?_⟩
        intro a ha b hb
        rcases List.mem_cons.mp hb with rfl | hb
        · rintro rfl; exact hnd.1.1 ha
        · exact this.2.2 a ha b hb)
      (by simp at hn; omega)
    refine ⟨h', p, ?_, by simpa using e2, e3, ?_, ?_, ?_⟩
    · simp only [reverseLoop, c2, Option.bind_some]; exact e1
    · intro j hj
      simp only [List.mem_cons, not_or] at hj
      rw [e4 j hj.2, ho j hj.1]
    · intro j
      rw [e5]
      by_cases e : j = i
      · subst e; simp [usedOf, hs, c2]
      · simp only [usedOf, ho j e]
    · intro j k
      rw [e6]
      by_cases e : j = i
      · subst e; simp [dataOf, hs, c2]
      · simp only [dataOf, ho j e]

theorem read_ok {cap : Nat} (hcap : 16 ≤ cap) : ∀ (l : List Nat) (n : Nat) (h : Heap) (hd : Option Nat), Chain h cap hd l → l.length ≤ n →
    readChain n h hd = some ((l.map (bytesOf h)).flatten)
  | [], n, h, hd, c, _ => by
    simp only [Chain] at c; subst c
    cases n <;> rfl
  | i :: l, 0, h, hd, _, hn => by simp at hn
  | i :: l, n + 1, h, hd, ⟨c1, b, c2, c3, c4, c5⟩, hn => by
    subst c1
    have hl : h.load ⟨i, 0⟩ b.used = some (bytesOf h i) := by
      have e : 16 + 0 + b.used ≤ b.size := by omega
      simp only [Heap.load, c2, Option.bind_some, e, if_true, bytesOf, usedOf]
      congr 1
      apply List.map_congr_left
      intro k _
      simp [dataOf, c2]
    simp only [readChain, c2, Option.bind_some, hl, read_ok hcap l n h b.next c5 (by simp at hn; omega), Option.map_some, List.map_cons, List.flatten_cons]

theorem freeChain_ok {cap : Nat} : ∀ (l : List Nat) (n : Nat) (h : Heap) (hd : Option Nat), Chain h cap hd l → l.Nodup → l.length ≤ n →
    ∃ h', freeChain n h hd = some h' ∧ h'.cnt = h.cnt ∧ ∀ i, h'.blks i = if i ∈ l then none else h.blks i
  | [], n, h, hd, c, _, _ => by
    simp only [Chain] at c; subst c
    exact ⟨h, by cases n <;> rfl, rfl, fun i => by simp⟩
  | i :: l, 0, h, hd, _, _, hn => by simp at hn
  | i :: l, n + 1, h, hd, ⟨c1, b, c2, c3, c4, c5⟩, hnd, hn => by
    subst c1
    rw [List.nodup_cons] at hnd
    obtain ⟨h', e1, e2, e3⟩ := freeChain_ok l n { h with blks := fun j => if j = i then none else h.blks j } b.next
      (Chain_congr (h := h) _ _ (fun j hj => by have : j ≠ i := by rintro rfl; exact hnd.1 hj
                                                simp [this]) c5) hnd.2 (by simp at hn; omega)
    refine ⟨h', ?_, e2, ?_⟩
    · simp only [freeChain, c2, Option.bind_some, Heap.free, Option.map_some]; exact e1
    · intro j
      rw [e3]
      by_cases e : j = i
      · subst e; simp
      · simp [e]

theorem generate_ok {h0 : Heap} (o : Oracle) (s : St) (bufs abufs : List Nat) (I : Inv h0 s bufs abufs) (bad exec : Bool) :
    ∃ s' r, step o s (.generate bad exec) = some (s', r) ∧ ∃ bufs', Inv h0 s' bufs' abufs := by
  simp only [step]
  by_cases h1 : s.c.error ≠ 0
  · rw [if_pos h1]; exact ⟨_, _, rfl, bufs, I⟩
  rw [if_neg h1]
  by_cases h2 : bad = true
  · rw [if_pos h2]; exact ⟨_, _, rfl, bufs, inv_fail I rfl rfl rfl rfl rfl (Or.inl (by simp))⟩
  rw [if_neg h2]
  have hnd := I.nodup
  simp only [List.nodup_cons, List.nodup_append, List.mem_append, not_or] at hnd
  obtain ⟨⟨d1, d2⟩, d3, d4, d5⟩ := hnd
  have hlen : bufs.length ≤ s.h.cnt := nodup_le _ _ d3 fun i hi => (I.rng i (by simp [hi])).2
  obtain ⟨h', p, e1, e2, e3, e4, e5, e6⟩ := reverse_ok bufs s.h.cnt s.h (some s.c.buf) none [] I.buf rfl (by simpa using d3) hlen
  rw [List.append_nil] at e2
  obtain ⟨t, rfl⟩ := Chain_some I.buf
  cases p with
  | none =>
    exfalso
    cases hr : (s.c.buf :: t).reverse with
    | nil => simp at hr
    | cons a l => rw [hr] at e2; obtain ⟨e2, -⟩ := e2; simp at e2
  | some head =>
    have code : codeOf s.h (s.c.buf :: t) = insBytes s.log := I.code (by simpa using h1)
    have hread : readChain h'.cnt h' (some head) = some (insBytes s.log) := by
      rw [read_ok (cap := BUF_SIZE) (by omega) _ _ _ _ e2 (by rw [e3, List.length_reverse]; exact hlen), ← code]
      unfold codeOf
      congr 2
      apply List.map_congr_left
      intro i _
      unfold bytesOf
      rw [e5]
      exact List.map_congr_left fun k _ => e6 i k
    have keepA : ∀ i ∈ abufs, h'.blks i = s.h.blks i := fun i hi => e4 i (fun hb => d5 i hb i hi rfl)
    have inv : ∀ (er : Int) (log : List Ev), er ≠ 0 → (log = s.log ∨ log = .gen (insBytes s.log) :: s.log) →
        Inv h0 ⟨h', { s.c with buf := head, error := er }, log⟩ (s.c.buf :: t).reverse abufs := by
      intro er log her hlog
      constructor
      · exact e2
      · exact Chain_congr _ _ keepA I.abuf
      · simp only [List.nodup_cons, List.nodup_append, List.mem_append, not_or, List.mem_reverse]
        exact ⟨⟨d1, d2⟩, (List.reverse_perm _).nodup_iff.mpr d3, d4, d5⟩
      · simp only [e4 _ d1]; exact I.self
      · intro i hi
        simp only [e3]
        exact I.rng i (by simp only [List.mem_cons, List.mem_append, List.mem_reverse] at hi ⊢; exact hi)
      · intro i hi
        have hi' : i ∉ s.c.self :: (s.c.buf :: t ++ abufs) := by
          simp only [List.mem_cons, List.mem_append, List.mem_reverse] at hi ⊢; exact hi
        simp only
        rw [e4 i (fun h => hi' (by simp only [List.mem_cons, List.mem_append] at h ⊢; exact Or.inr (Or.inl h))), I.out i hi']
      · exact fun h => absurd h her
      · have old : ∀ e ∈ s.log, EvOk h' (s.c.buf :: t).reverse abufs e := fun e he =>
          EvOk_mono (fun i hi => List.mem_reverse.mpr hi) (fun _ h => h) (fun i _ => ⟨Nat.le_of_eq (e5 i).symm, fun k _ => e6 i k⟩) e (I.evs e he)
        intro e he
        rcases hlog with rfl | rfl
        · exact old e he
        · rcases List.mem_cons.mp he with rfl | he
          · trivial
          · exact old e he
      · rcases hlog with rfl | rfl
        · exact I.disj
        · exact List.pairwise_cons.mpr ⟨fun e _ p n q m h => by simp [Ev.rng] at h, I.disj⟩
      · rcases hlog with rfl | rfl
        · exact I.gens
        · exact ⟨rfl, I.gens⟩
    simp only [e1, Option.bind_some]
    cases exec with
    | true => simp only [if_true, hread, Option.bind_some]; exact ⟨_, _, rfl, _, inv _ _ (by decide) (Or.inr rfl)⟩
    | false => simp only [Bool.false_eq_true, if_false]; exact ⟨_, _, rfl, _, inv _ _ (by decide) (Or.inl rfl)⟩

theorem step_ok {h0 : Heap} (h00 : ∀ i, h0.cnt ≤ i → h0.blks i = none) (o : Oracle) (s : St) (bufs abufs : List Nat) (I : Inv h0 s bufs abufs)
    (op : Op) (ho : op.Ok) : ∃ s' r, step o s op = some (s', r) ∧ ∃ bufs' abufs', Inv h0 s' bufs' abufs' := by
  cases op with
  | emit bad ps =>
    simp only [step]
    by_cases h1 : s.c.error ≠ 0
    · rw [if_pos h1]; exact ⟨_, _, rfl, bufs, abufs, I⟩
    rw [if_neg h1]
    by_cases h2 : bad = true
    · rw [if_pos h2]; exact ⟨_, _, rfl, bufs, abufs, inv_fail I rfl rfl rfl rfl rfl (Or.inl (by simp))⟩
    rw [if_neg h2]
    obtain ⟨s', e1, e2⟩ := pushAll_ok h00 o ps s bufs abufs I ho
    simp only [e1, Option.map_some]
    exact ⟨_, _, rfl, e2⟩
  | alloc size => obtain ⟨s', r, e1, e2⟩ := alloc_ok o s bufs abufs I size; exact ⟨s', r, e1, bufs, e2⟩
  | write k off bs => obtain ⟨s', r, e1, e2, -⟩ := write_ok o s bufs abufs I k off bs; exact ⟨s', r, e1, bufs, abufs, e2⟩
  | memError =>
    refine ⟨_, _, rfl, bufs, abufs, inv_fail I rfl rfl rfl rfl rfl ?_⟩
    by_cases h : s.c.error = 0
    · left; simp [h]
    · right; simp [h]
  | generate bad exec => obtain ⟨s', r, e1, bufs', e2⟩ := generate_ok o s bufs abufs I bad exec; exact ⟨s', r, e1, bufs', abufs, e2⟩

theorem run_ok {h0 : Heap} (h00 : ∀ i, h0.cnt ≤ i → h0.blks i = none) (o : Oracle) : ∀ (ops : List Op) (s : St) (bufs abufs : List Nat), Inv h0 s bufs abufs →
    (∀ op ∈ ops, op.Ok) → ∃ s' rs, run o s ops = some (s', rs) ∧ ∃ bufs' abufs', Inv h0 s' bufs' abufs'
  | [], s, bufs, abufs, I, _ => ⟨s, [], rfl, bufs, abufs, I⟩
  | op :: ops, s, bufs, abufs, I, ho => by
    obtain ⟨s', r, e1, bufs', abufs', I'⟩ := step_ok h00 o s bufs abufs I op (ho op (by simp))
    obtain ⟨s'', rs, f1, f2⟩ := run_ok h00 o ops s' bufs' abufs' I' (fun q hq => ho q (by simp [hq]))
    exact ⟨s'', r :: rs, by simp only [run, e1, Option.bind_some, f1, Option.map_some], f2⟩

theorem create_ok (o : Oracle) (h0 : Heap) (h00 : ∀ i, h0.cnt ≤ i → h0.blks i = none) :
    ∃ h c, create o h0 = some (h, c) ∧ (c = none → h.blks = h0.blks) ∧
      (∀ c', c = some c' → c'.error = 0 ∧ ∃ abufs, Inv h0 ⟨h, c', []⟩ [c'.buf] abufs) := by
  have n0 := h00 h0.cnt (Nat.le_refl _)
  have n1 := h00 (h0.cnt + 1) (by omega)
  have n2 := h00 (h0.cnt + 1 + 1) (by omega)
  unfold create
  cases f0 : o.fails h0.calls
  case true => simp only [Heap.malloc, f0, if_true]; exact ⟨_, _, rfl, fun _ => rfl, by simp⟩
  cases f1 : o.fails (h0.calls + 1) <;> cases f2 : o.fails (h0.calls + 1 + 1)
  case false.false =>
    simp only [Heap.malloc, f0, f1, f2, Bool.false_eq_true, if_false]
    have c1 : h0.cnt + 1 ≠ h0.cnt + 1 + 1 := by omega
    have c2 : h0.cnt + 1 + 1 ≠ h0.cnt + 1 := by omega
    have c3 : h0.cnt ≠ h0.cnt + 1 + 1 := by omega
    have c4 : h0.cnt ≠ h0.cnt + 1 := by omega
    simp only [c1, c2, if_true, if_false, Option.bind_some, Heap.set]
    refine ⟨_, _, rfl, by simp, ?_⟩
    intro c' hc
    simp only [Option.some.injEq] at hc
    subst hc
    refine ⟨rfl, [h0.cnt + 1 + 1], ?_⟩
    constructor
    · refine ⟨rfl, { o.junk (h0.calls + 1) with size := 4096, next := none, used := 0 }, by simp only [c1, if_true, if_false], rfl, by simp, ?_⟩
      simp only [Chain]
    · refine ⟨rfl, { o.junk (h0.calls + 1 + 1) with size := 4096, next := none, used := 0 }, by simp only [if_true], rfl, by simp, ?_⟩
      simp only [Chain]
    · simp [c3]
    · simp only [c3, c4, if_true, if_false]; exact ⟨_, rfl⟩
    · intro i hi
      simp only [List.cons_append, List.nil_append, List.mem_cons, List.not_mem_nil, or_false] at hi
      simp only
      omega
    · intro i hi
      simp only [List.cons_append, List.nil_append, List.mem_cons, List.not_mem_nil, or_false, not_or] at hi
      simp [hi]
    · intro _; simp [codeOf, insBytes, bytesOf, usedOf]
    · simp
    · exact List.Pairwise.nil
    · trivial
  all_goals
    simp only [Heap.malloc, f0, f1, f2, Bool.false_eq_true, if_false, if_true, Option.bind_some, Heap.free, Option.map_some,
      Nat.succ_ne_self, Nat.left_eq_add, Nat.one_ne_zero, reduceCtorEq]
    refine ⟨_, _, rfl, fun _ => ?_, by simp⟩
    funext i
    by_cases g0 : i = h0.cnt
    · subst g0; simp [n0]
    · by_cases g1 : i = h0.cnt + 1
      · subst g1; simp [n1]
      · simp [g0, g1]

theorem free_ok' {h0 : Heap} {s : St} {bufs abufs : List Nat} (I : Inv h0 s bufs abufs)
    (h00 : ∀ i ∈ s.c.self :: (bufs ++ abufs), h0.blks i = none) :
    ∃ h', freeCompiler s.h s.c = some h' ∧ h'.blks = h0.blks := by
  have hnd := I.nodup
  simp only [List.nodup_cons, List.nodup_append, List.mem_append, not_or] at hnd
  obtain ⟨⟨d1, d2⟩, d3, d4, d5⟩ := hnd
  obtain ⟨h1, e1, e2, e3⟩ := freeChain_ok bufs s.h.cnt s.h (some s.c.buf) I.buf d3 (nodup_le _ _ d3 fun i hi => (I.rng i (by simp [hi])).2)
  obtain ⟨h2, f1, f2, f3⟩ := freeChain_ok abufs h1.cnt h1 (some s.c.abuf)
    (Chain_congr _ _ (fun i hi => by rw [e3, if_neg (fun hb => d5 i hb i hi rfl)]) I.abuf) d4
    (nodup_le _ _ d4 fun i hi => by rw [e2]; exact (I.rng i (by simp [hi])).2)
  obtain ⟨b, hb⟩ := I.self
  have hs : h2.blks s.c.self = some b := by rw [f3, if_neg d2, e3, if_neg d1]; exact hb
  refine ⟨_, by simp only [freeCompiler, e1, Option.bind_some, f1, Heap.free, hs, Option.map_some]; rfl, ?_⟩
  funext i
  simp only
  by_cases h : i ∈ s.c.self :: (bufs ++ abufs)
  · rw [h00 i h]
    simp only [List.mem_cons, List.mem_append] at h
    split
    · rfl
    · next hne =>
      rw [f3]
      split
      · rfl
      · next ha =>
        rw [e3, if_pos]
        rcases h with h | h | h
        · exact absurd h hne
        · exact h
        · exact absurd h ha
  · rw [← I.out i h]
    simp only [List.mem_cons, List.mem_append, not_or] at h
    rw [if_neg h.1, f3, if_neg h.2.2, e3, if_neg h.2.1]

theorem free_ok {h0 : Heap} (h00 : ∀ i, h0.cnt ≤ i → h0.blks i = none) {s : St} {bufs abufs : List Nat} (I : Inv h0 s bufs abufs) :
    ∃ h', freeCompiler s.h s.c = some h' ∧ h'.blks = h0.blks :=
  free_ok' I fun i hi => h00 i (I.rng i hi).1

end Verif.Generic
