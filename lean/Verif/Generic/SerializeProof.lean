import Verif.Generic.Serialize
import Verif.Generic.CompilerMemProof2
import Verif.Util.Page

/-!
# Deserialization: memory safety
-/

namespace Verif.Generic

/-- A heap with an additional block (label_list). -/
def withL (h0 : Heap) : Option (Nat × Blk) → Heap
  | none => h0
  | some (l, b) => { h0 with blks := fun i => if i = l then some b else h0.blks i }

/-- The state of the deserializer: as between API calls, but label_list may be allocated; `fr` are the fragments. -/
def DInv (h0 : Heap) (L : Option (Nat × Blk)) (fr : List (List Byte)) (s : DS) : Prop :=
  ∃ log bufs abufs, Inv (withL h0 L) ⟨s.h, s.c, log⟩ bufs abufs ∧ bufs.map (bytesOf s.h) = fr ∧
    (∀ l b, L = some (l, b) → h0.cnt ≤ l ∧ l < s.h.cnt ∧ l ∉ s.c.self :: (bufs ++ abufs))

theorem withL_cnt (h0 : Heap) (L : Option (Nat × Blk)) : (withL h0 L).cnt = h0.cnt := by
  cases L <;> rfl

theorem desError_ok {h0 : Heap} (h00 : ∀ i, h0.cnt ≤ i → h0.blks i = none) {L : Option (Nat × Blk)} {fr : List (List Byte)} {s : DS}
    (D : DInv h0 L fr s) : ∃ h', desError s.h s.c (L.map Prod.fst) = some (h', none) ∧ h'.blks = h0.blks := by
  obtain ⟨log, bufs, abufs, I, -, hL⟩ := D
  obtain ⟨h', e1, e2⟩ := free_ok' I (fun i hi => by
    have hc := (I.rng i hi).1
    rw [withL_cnt] at hc
    cases L with
    | none => exact h00 i hc
    | some lb =>
      obtain ⟨l, b⟩ := lb
      have := (hL l b rfl).2.2
      simp only [withL]
      rw [if_neg (by rintro rfl; exact this hi)]
      exact h00 i hc)
  simp only at e1
  cases L with
  | none => exact ⟨h', by simp only [desError, e1, Option.bind_some, Option.map_none], e2⟩
  | some lb =>
    obtain ⟨l, b⟩ := lb
    have hl : h'.blks l = some b := by rw [e2]; simp [withL]
    refine ⟨{ h' with blks := fun j => if j = l then none else h'.blks j }, ?_, ?_⟩
    · simp only [desError, e1, Option.bind_some, Option.map_some, Heap.free, hl]
    · funext j
      simp only [e2, withL]
      by_cases e : j = l
      · subst e; simp [h00 j (hL j b rfl).1]
      · simp [e]

theorem bytesOf_congr {h h' : Heap} {i : Nat} (e : h'.blks i = h.blks i) : bytesOf h' i = bytesOf h i := by
  have h1 : dataOf h' i = dataOf h i := by funext k; simp only [dataOf, e]
  simp only [bytesOf, usedOf, h1, e]

theorem ensure_fails (o : Oracle) {h h' : Heap} {cap head size head' : Nat} (e : ensure o h cap head size = some (h', head', none)) : ∃ n, o.fails n = true := by
  simp only [ensure, Option.bind_eq_some_iff] at e
  obtain ⟨b, -, e⟩ := e
  split at e
  · simp at e
  · split at e
    · next hm =>
      unfold Heap.malloc at hm
      split at hm
      · next hf => exact ⟨_, hf⟩
      · simp at hm
    · simp [Option.bind_eq_some_iff] at e

theorem desRecord_ok {h0 : Heap} (o : Oracle) {L : Option (Nat × Blk)} {fr : List (List Byte)} {s : DS} (D : DInv h0 L fr s) (n : Nat) (hn : n ≤ 256) :
    ∃ s' ok, desRecord o s n = some (s', ok) ∧ DInv h0 L fr s' ∧ s'.off = s.off ∧ (ok = false → ∃ k, o.fails k = true) ∧
      (ok = true → s'.c.error = s.c.error) := by
  obtain ⟨log, bufs, abufs, I, hfr, hL⟩ := D
  obtain ⟨h', head', p, e1, e2, e3⟩ := ensure_ok o s.h ABUF_SIZE s.c.abuf n abufs (by omega) hn I.abuf (fun i hi => (I.rng i (by simp [hi])).2)
  simp only [desRecord, ensureAbuf, e1, Option.map_some, Option.bind_some]
  have hnd := I.nodup
  simp only [List.nodup_cons, List.nodup_append, List.mem_append, not_or] at hnd
  obtain ⟨⟨d1, d2⟩, d3, d4, d5⟩ := hnd
  cases p with
  | none =>
    obtain ⟨a, b, c⟩ := e2 rfl
    refine ⟨_, _, rfl, ⟨log, bufs, abufs, inv_fail I a c rfl rfl b (Or.inl (by simp)), ?_, ?_⟩, rfl, fun _ => ensure_fails o e1, by simp⟩
    · rw [← hfr]; exact List.map_congr_left fun i _ => bytesOf_congr (by rw [a])
    · intro l b hl
      have := hL l b hl
      simp only [c]; exact this
  | some q =>
    obtain ⟨l', g⟩ := e3 q rfl
    have hlen : (List.replicate n (0 : Byte)).length = n := by simp
    obtain ⟨h2, f1, f2, f3, f4, f5, f6, f7, f8⟩ := store_new (bs := List.replicate n (0 : Byte)) g hlen (by omega)
    simp only [f1, Option.map_some, Option.isSome_some, if_true]
    have hI := inv_abuf I g (ev := .record q (List.replicate n 0)) (by simp [Ev.rng]) rfl id f2 f3 f4 f5 f7
        ⟨g.new.1, by rw [f5, hlen]; exact Nat.le_of_eq g.new.2.1, f8⟩
    refine ⟨_, _, rfl, ⟨_, bufs, l', hI, ?_, ?_⟩, rfl, by simp, fun _ => rfl⟩
    · rw [← hfr]
      refine List.map_congr_left fun i hi => bytesOf_congr ?_
      have hi' : i ∉ l' := chain_out I g (by simp [hi]) (fun hb => d5 i hi i hb rfl)
      rw [f3 i (by rintro rfl; exact hi' g.new.1), g.out i hi']
    · intro l b hl
      obtain ⟨a1, a2, a3⟩ := hL l b hl
      have hc := g.cnt
      refine ⟨a1, by simp only [f2]; omega, ?_⟩
      simp only [List.mem_cons, List.mem_append, not_or] at a3 ⊢
      refine ⟨a3.1, a3.2.1, fun hm => ?_⟩
      rcases g.ids l hm with h | ⟨h, -⟩
      · exact a3.2.2 h
      · omega

theorem DInv_L {h0 : Heap} {l : Nat} {b : Blk} {fr : List (List Byte)} {s : DS} (D : DInv h0 (some (l, b)) fr s) : s.h.blks l = some b := by
  obtain ⟨log, bufs, abufs, I, hfr, hL⟩ := D
  have := I.out l (hL l b rfl).2.2
  simp only at this
  rw [this]; simp [withL]

theorem DInv_off {h0 : Heap} {L : Option (Nat × Blk)} {fr : List (List Byte)} {s : DS} (D : DInv h0 L fr s) (off : Nat) : DInv h0 L fr { s with off := off } := D

theorem rdBytes_some {buf : List Byte} {off n : Nat} (h : off + n ≤ buf.length) : ∃ l, rdBytes buf off n = some l ∧ l.length = n := by
  refine ⟨(buf.drop off).take n, by simp [rdBytes, h], by simp; omega⟩

theorem rd64_some {buf : List Byte} {off : Nat} (h : off + 8 ≤ buf.length) : ∃ v, rd64 buf off = some v := by
  obtain ⟨l, e, -⟩ := rdBytes_some h
  exact ⟨_, by rw [rd64, e]; rfl⟩

theorem rd32_some {buf : List Byte} {off : Nat} (h : off + 4 ≤ buf.length) : ∃ v, rd32 buf off = some v := by
  obtain ⟨l, e, -⟩ := rdBytes_some h
  exact ⟨_, by rw [rd32, e]; rfl⟩

theorem rd16_some {buf : List Byte} {off : Nat} (h : off + 2 ≤ buf.length) : ∃ v, rd16 buf off = some v := by
  obtain ⟨l, e, -⟩ := rdBytes_some h
  exact ⟨_, by rw [rd16, e]; rfl⟩

theorem desLabels_ok {h0 : Heap} (o : Oracle) (buf : List Byte) {ll : Nat} {b : Blk} {fr : List (List Byte)} : ∀ (n i al : Nat) (s : DS) (acc : List Lab),
    DInv h0 (some (ll, b)) fr s → 8 * (i + n) ≤ b.size → s.off + 8 * n + 16 * al ≤ buf.length →
    ∃ s' r, desLabels o buf ll n i al s acc = some (s', r) ∧ DInv h0 (some (ll, b)) fr s' ∧
      (∀ al' ls, r = some (al', ls) → s'.off + 16 * al' ≤ buf.length ∧ s'.c.error = s.c.error)
  | 0, i, al, s, acc, D, hb, ho => ⟨s, _, rfl, D, by intro al' ls h; simp only [Option.some.injEq, Prod.mk.injEq] at h; rw [← h.1]; exact ⟨by omega, rfl⟩⟩
  | n + 1, i, al, s, acc, D, hb, ho => by
    obtain ⟨type, ht⟩ := rd64_some (buf := buf) (off := s.off) (by omega)
    obtain ⟨s1, ok, e1, D1, e2, e3, e4⟩ := desRecord_ok o D (if type < LABEL_ALIGNED then 24 else 40) (by split <;> omega)
    simp only [desLabels, ht, Option.bind_some, e1]
    cases ok with
    | false => simp only [Bool.not_false, if_true]; exact ⟨_, _, rfl, D1, by simp⟩
    | true =>
      have hla : listAccess s1.h ll i = some () := by
        simp only [listAccess, DInv_L D1, Option.bind_some]
        rw [if_pos (by omega)]
      simp only [Bool.not_true, Bool.false_eq_true, if_false, hla, Option.bind_some]
      by_cases hty : type < LABEL_ALIGNED
      · simp only [hty, if_true]
        obtain ⟨s', r, f1, f2, f3⟩ := desLabels_ok o buf n (i + 1) al { s1 with off := s1.off + 8 } (.plain type :: acc) (DInv_off D1 _) (by omega) (by simp only; omega)
        refine ⟨s', r, f1, f2, fun al' ls h => ?_⟩
        obtain ⟨g1, g2⟩ := f3 al' ls h
        exact ⟨g1, g2.trans (e4 rfl)⟩
      · simp only [hty, if_false]
        by_cases hal : al = 0
        · simp only [hal, if_true]; exact ⟨_, _, rfl, DInv_off D1 _, by simp⟩
        · simp only [hal, if_false]
          obtain ⟨v1, h1⟩ := rd64_some (buf := buf) (off := s1.off + 8) (by omega)
          obtain ⟨v2, h2⟩ := rd64_some (buf := buf) (off := s1.off + 8 + 8) (by omega)
          simp only [h1, h2, Option.bind_some]
          obtain ⟨s', r, f1, f2, f3⟩ := desLabels_ok o buf n (i + 1) (al - 1) { s1 with off := s1.off + 8 + 16 } (.ext type v1 v2 :: acc) (DInv_off D1 _) (by omega) (by simp only; omega)
          refine ⟨s', r, f1, f2, fun al' ls h => ?_⟩
          obtain ⟨g1, g2⟩ := f3 al' ls h
          exact ⟨g1, g2.trans (e4 rfl)⟩

theorem desJumps_ok {h0 : Heap} (o : Oracle) (buf : List Byte) {ll : Nat} {b : Blk} {fr : List (List Byte)} (lc : BitVec 64) (hlc : 8 * lc.toNat ≤ b.size) :
    ∀ (n : Nat) (s : DS) (acc : List Jmp), DInv h0 (some (ll, b)) fr s → s.off + 24 * n ≤ buf.length →
    ∃ s' r, desJumps o buf ll lc n s acc = some (s', r) ∧ DInv h0 (some (ll, b)) fr s' ∧
      (∀ js, r = some js → s'.off = s.off + 24 * n ∧ s'.c.error = s.c.error)
  | 0, s, acc, D, ho => ⟨s, _, rfl, D, fun _ _ => ⟨rfl, rfl⟩⟩
  | n + 1, s, acc, D, ho => by
    obtain ⟨s1, ok, e1, D1, e2, e3, e4⟩ := desRecord_ok o D 32 (by omega)
    simp only [desJumps, e1, Option.bind_some]
    cases ok with
    | false => simp only [Bool.not_false, if_true]; exact ⟨_, _, rfl, D1, by simp⟩
    | true =>
      obtain ⟨v1, h1⟩ := rd64_some (buf := buf) (off := s1.off) (by omega)
      obtain ⟨v2, h2⟩ := rd64_some (buf := buf) (off := s1.off + 8) (by omega)
      obtain ⟨v3, h3⟩ := rd64_some (buf := buf) (off := s1.off + 16) (by omega)
      simp only [Bool.not_true, Bool.false_eq_true, if_false, h1, h2, h3, Option.bind_some]
      have key : ∀ a, ∃ s' r, desJumps o buf ll lc n { s1 with off := s1.off + 24 } a = some (s', r) ∧ DInv h0 (some (ll, b)) fr s' ∧
          (∀ js, r = some js → s'.off = s.off + 24 * (n + 1) ∧ s'.c.error = s.c.error) := by
        intro a
        obtain ⟨s', r, f1, f2, f3⟩ := desJumps_ok o buf lc hlc n { s1 with off := s1.off + 24 } a (DInv_off D1 _) (by simp only; omega)
        refine ⟨s', r, f1, f2, fun js h => ?_⟩
        obtain ⟨g1, g2⟩ := f3 js h
        simp only at g1
        exact ⟨by omega, g2.trans (e4 rfl)⟩
      split
      · split
        · split
          · exact ⟨_, _, rfl, D1, by simp⟩
          · next hlt =>
            have hv : v3.toNat < lc.toNat := by
              have : ¬ lc.toNat ≤ v3.toNat := fun h => hlt (BitVec.le_def.mpr h)
              omega
            have hla : listAccess s1.h ll v3.toNat = some () := by
              simp only [listAccess, DInv_L D1, Option.bind_some]
              rw [if_pos (by omega)]
            simp only [hla, Option.bind_some]
            exact key _
        · exact key _
      · exact key _

theorem desConsts_ok {h0 : Heap} (o : Oracle) (buf : List Byte) {L : Option (Nat × Blk)} {fr : List (List Byte)} :
    ∀ (n : Nat) (s : DS) (acc : List (BitVec 64)), DInv h0 L fr s → s.off + 8 * n ≤ buf.length →
    ∃ s' r, desConsts o buf n s acc = some (s', r) ∧ DInv h0 L fr s' ∧ (∀ cs, r = some cs → s'.off = s.off + 8 * n ∧ s'.c.error = s.c.error)
  | 0, s, acc, D, ho => ⟨s, _, rfl, D, fun _ _ => ⟨rfl, rfl⟩⟩
  | n + 1, s, acc, D, ho => by
    obtain ⟨s1, ok, e1, D1, e2, e3, e4⟩ := desRecord_ok o D 16 (by omega)
    simp only [desConsts, e1, Option.bind_some]
    cases ok with
    | false => simp only [Bool.not_false, if_true]; exact ⟨_, _, rfl, D1, by simp⟩
    | true =>
      obtain ⟨v1, h1⟩ := rd64_some (buf := buf) (off := s1.off) (by omega)
      simp only [Bool.not_true, Bool.false_eq_true, if_false, h1, Option.bind_some]
      obtain ⟨s', r, f1, f2, f3⟩ := desConsts_ok o buf n { s1 with off := s1.off + 8 } (v1 :: acc) (DInv_off D1 _) (by simp only; omega)
      refine ⟨s', r, f1, f2, fun js h => ?_⟩
      obtain ⟨g1, g2⟩ := f3 js h
      simp only at g1
      exact ⟨by omega, g2.trans (e4 rfl)⟩

/-! ## Fragments -/

theorem chain_append {h h' : Heap} {cap l i : Nat} {lb nb : Blk} (hlb : h.blks l = some lb) (hl : h'.blks l = some { lb with next := some i })
    (hi : h'.blks i = some nb) (hs : nb.size = cap) (hu : nb.used ≤ cap - 16) (hnx : nb.next = none) :
    ∀ (pre : List Nat) (hd : Option Nat), (∀ j ∈ pre, h'.blks j = h.blks j) → Chain h cap hd (pre ++ [l]) → Chain h' cap hd (pre ++ [l] ++ [i])
  | [], hd, _, ⟨c1, b, c2, c3, c4, c5⟩ => by
    rw [hlb] at c2; cases c2
    exact ⟨c1, _, hl, c3, c4, rfl, nb, hi, hs, hu, hnx⟩
  | j :: pre, hd, hk, ⟨c1, b, c2, c3, c4, c5⟩ =>
    ⟨c1, b, by rw [hk j (by simp)]; exact c2, c3, c4, chain_append hlb hl hi hs hu hnx pre _ (fun k hk' => hk k (by simp [hk'])) c5⟩

theorem insBytes_append (l1 l2 : List Ev) : insBytes (l1 ++ l2) = insBytes l2 ++ insBytes l1 := by
  induction l1 with
  | nil => simp [insBytes]
  | cons e l1 ih => cases e <;> simp [insBytes, ih]

theorem gensOk_append : ∀ (l1 l2 : List Ev), (∀ e ∈ l1, ∀ c, e ≠ .gen c) → GensOk l2 → GensOk (l1 ++ l2)
  | [], l2, _, h => h
  | e :: l1, l2, hn, h => by
    have := gensOk_append l1 l2 (fun e he => hn e (by simp [he])) h
    cases e with
    | gen c => exact absurd rfl (hn _ (by simp) c)
    | _ => exact this

/-- The first fragment. -/
theorem frag_first {h0 h h' : Heap} {c : Comp} {abufs : List Nat} (I : Inv h0 ⟨h, c, []⟩ [c.buf] abufs) {bs : List Byte} {nb : Blk} (hc : h'.cnt = h.cnt)
    (hk : ∀ j, j ≠ c.buf → h'.blks j = h.blks j) (hb : h'.blks c.buf = some nb) (hs : nb.size = 4096) (hu : nb.used = bs.length) (hl : bs.length ≤ 4080)
    (hnx : nb.next = none) (hh : Holds h' ⟨c.buf, 0⟩ bs) :
    Inv h0 ⟨h', c, [.ins ⟨c.buf, 0⟩ bs]⟩ [c.buf] abufs ∧ bytesOf h' c.buf = bs := by
  have hnd := I.nodup
  simp only [List.nodup_cons, List.nodup_append, List.mem_append, not_or] at hnd
  obtain ⟨⟨d1, d2⟩, d3, d4, d5⟩ := hnd
  have ub : usedOf h' c.buf = bs.length := by simp [usedOf, hb, hu]
  have hby : bytesOf h' c.buf = bs := by
    have := hh
    unfold Holds at this
    simp only [Nat.zero_add] at this
    rw [bytesOf, ub]; exact this
  refine ⟨?_, hby⟩
  constructor
  · exact ⟨rfl, nb, hb, hs, by omega, hnx⟩
  · exact Chain_congr _ _ (fun i hi => hk i (by rintro rfl; exact d5 c.buf (by simp) c.buf hi rfl)) I.abuf
  · exact I.nodup
  · simp only; rw [hk _ (by rintro h; exact d1 (by simp [h]))]; exact I.self
  · simp only [hc]; exact I.rng
  · intro i hi
    simp only
    rw [hk i (by rintro rfl; simp at hi)]
    exact I.out i hi
  · intro _; simp [codeOf, hby, insBytes]
  · intro e he
    simp only [List.mem_singleton] at he
    subst he
    exact ⟨by simp, by simp [ub], hh⟩
  · simp
  · trivial

/-- A further fragment. -/
theorem frag_next {h0 h h' : Heap} {c : Comp} {pre abufs : List Nat} {l : Nat} {log : List Ev} (I : Inv h0 ⟨h, c, log⟩ (pre ++ [l]) abufs) (hng : ∀ e ∈ log, ∀ c, e ≠ .gen c)
    {bs : List Byte} {lb nb : Blk} (hlb : h.blks l = some lb) (hc : h'.cnt = h.cnt + 1)
    (hk : ∀ j, j ≠ h.cnt → j ≠ l → h'.blks j = h.blks j) (hl' : h'.blks l = some { lb with next := some h.cnt })
    (hb : h'.blks h.cnt = some nb) (hs : nb.size = 4096) (hu : nb.used = bs.length) (hl : bs.length ≤ 4080)
    (hnx : nb.next = none) (hh : Holds h' ⟨h.cnt, 0⟩ bs) (herr : c.error = 0) :
    Inv h0 ⟨h', c, log ++ [.ins ⟨h.cnt, 0⟩ bs]⟩ (pre ++ [l] ++ [h.cnt]) abufs ∧
      (pre ++ [l] ++ [h.cnt]).map (bytesOf h') = (pre ++ [l]).map (bytesOf h) ++ [bs] := by
  have hnd := I.nodup
  simp only [List.nodup_cons, List.nodup_append, List.mem_append, not_or, List.mem_singleton] at hnd
  obtain ⟨⟨⟨d1, d1'⟩, d2⟩, ⟨d3, -, d3'⟩, d4, d5⟩ := hnd
  have hlt : ∀ i ∈ c.self :: (pre ++ [l] ++ abufs), i < h.cnt := fun i hi => (I.rng i hi).2
  have kpre : ∀ j ∈ pre, h'.blks j = h.blks j := fun j hj =>
    hk j (Nat.ne_of_lt (hlt j (by simp [hj]))) (d3' j hj l rfl)
  have kab : ∀ j ∈ abufs, h'.blks j = h.blks j := fun j hj =>
    hk j (Nat.ne_of_lt (hlt j (by simp [hj]))) (fun e => d5 l (by simp) j hj e.symm)
  have ub : usedOf h' h.cnt = bs.length := by simp [usedOf, hb, hu]
  have hby : bytesOf h' h.cnt = bs := by
    have := hh
    unfold Holds at this
    simp only [Nat.zero_add] at this
    rw [bytesOf, ub]; exact this
  have ul : usedOf h' l = usedOf h l := by simp [usedOf, hl', hlb]
  have dl : dataOf h' l = dataOf h l := by funext k; simp [dataOf, hl', hlb]
  have hud : ∀ i ∈ pre ++ [l] ++ abufs, usedOf h' i = usedOf h i ∧ dataOf h' i = dataOf h i := by
    intro i hi
    simp only [List.mem_append, List.mem_singleton] at hi
    rcases hi with (hi | rfl) | hi
    · exact ⟨by simp only [usedOf, kpre i hi], by funext k; simp only [dataOf, kpre i hi]⟩
    · exact ⟨ul, dl⟩
    · exact ⟨by simp only [usedOf, kab i hi], by funext k; simp only [dataOf, kab i hi]⟩
  have hmap : (pre ++ [l]).map (bytesOf h') = (pre ++ [l]).map (bytesOf h) := by
    refine List.map_congr_left fun i hi => ?_
    obtain ⟨a, b⟩ := hud i (by simp only [List.mem_append] at hi ⊢; exact Or.inl hi)
    simp only [bytesOf, a, b]
  refine ⟨?_, by rw [List.map_append, hmap]; simp [hby]⟩
  constructor
  · exact chain_append hlb hl' hb hs (by omega) hnx pre _ kpre I.buf
  · exact Chain_congr _ _ kab I.abuf
  · have := I.nodup
    have hn : h.cnt ∉ c.self :: (pre ++ [l] ++ abufs) := fun hm => Nat.lt_irrefl _ (hlt _ hm)
    have hp : List.Perm (c.self :: (pre ++ [l] ++ [h.cnt] ++ abufs)) (h.cnt :: c.self :: (pre ++ [l] ++ abufs)) := by
      refine List.Perm.trans (List.Perm.cons _ ?_) (List.Perm.swap _ _ _)
      rw [List.append_assoc _ [h.cnt], List.singleton_append]
      exact List.perm_middle
    exact hp.nodup_iff.mpr (List.nodup_cons.mpr ⟨hn, this⟩)
  · simp only
    rw [hk _ (Nat.ne_of_lt (hlt _ (by simp))) d1']
    exact I.self
  · intro i hi
    simp only [hc]
    simp only [List.mem_cons, List.mem_append, List.mem_singleton, List.not_mem_nil, or_false] at hi
    have := (I.rng c.self (by simp))
    simp only at this
    rcases hi with rfl | ((hi | rfl) | rfl) | hi
    · omega
    · have := I.rng i (by simp [hi]); simp only at this; omega
    · have := I.rng i (by simp); simp only at this; omega
    · omega
    · have := I.rng i (by simp [hi]); simp only at this; omega
  · intro i hi
    simp only [List.mem_cons, List.mem_append, List.mem_singleton, List.not_mem_nil, or_false, not_or] at hi
    simp only
    rw [hk i hi.2.1.2 hi.2.1.1.2]
    exact I.out i (by simp only [List.mem_cons, List.mem_append, List.mem_singleton, List.not_mem_nil, or_false, not_or]; exact ⟨hi.1, hi.2.1.1, hi.2.2⟩)
  · intro _
    have hcode := I.code herr
    simp only at hcode ⊢
    rw [insBytes_append, ← hcode]
    simp only [insBytes, List.nil_append, codeOf, List.reverse_append, List.reverse_singleton, List.singleton_append, List.map_cons, List.flatten_cons, hby]
    congr 1
    rw [List.map_reverse, List.map_reverse]
    have hm2 : pre.map (bytesOf h') = pre.map (bytesOf h) := List.map_congr_left fun i hi => bytesOf_congr (kpre i hi)
    have hl2 : bytesOf h' l = bytesOf h l := by simp only [bytesOf, ul, dl]
    rw [hm2, hl2]
  · intro e he
    rcases List.mem_append.mp he with he | he
    · refine EvOk_mono (fun i hi => by simp only [List.mem_append] at hi ⊢; exact Or.inl hi) (fun _ h => h) (fun i hi => ?_) e (I.evs e he)
      obtain ⟨a, b⟩ := hud i hi
      simp only
      rw [a, b]; exact ⟨Nat.le_refl _, fun _ _ => rfl⟩
    · simp only [List.mem_singleton] at he
      subst he
      exact ⟨by simp, by simp [ub], hh⟩
  · refine List.pairwise_append.mpr ⟨I.disj, by simp, ?_⟩
    intro e he e' he' p n q m h1 h2
    simp only [List.mem_singleton] at he'
    subst he'
    simp only [Ev.rng, Option.some.injEq, Prod.mk.injEq] at h2
    obtain ⟨rfl, rfl⟩ := h2
    obtain ⟨a1, -⟩ := EvOk_end (I.evs e he) h1
    exact Or.inl (Nat.ne_of_lt (hlt _ (by simp only [List.mem_cons]; exact Or.inr a1)))
  · exact gensOk_append log _ hng trivial

end Verif.Generic
