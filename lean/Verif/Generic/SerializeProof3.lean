import Verif.Generic.SerializeProof2

/-!
# Deserialization: the whole function, and the contents
-/

namespace Verif.Generic

/-- Header counts whose products do not wrap around, and fragments which fit. -/
def SizesOk (buf : List Byte) : Prop :=
  ∀ hd, rdHeader buf = some hd → hd.lc.toNat * 8 + hd.alc.toNat * 16 < 2 ^ 64 ∧ hd.jc.toNat * 24 < 2 ^ 64 ∧ hd.cc.toNat * 8 < 2 ^ 64 ∧
    FragsFit buf hd.segs.toNat 80

/-- A good outcome: no undefined behaviour; the heap is restored if it fails, otherwise there is a compiler. -/
def DGood (h0 : Heap) (fr : List (List Byte)) (res : Option (Heap × Option (Comp × Recs))) : Prop :=
  ∃ h r, res = some (h, r) ∧ (r = none → h.blks = h0.blks) ∧ ∀ c rc, r = some (c, rc) → c.error = 0 ∧ DInv h0 none fr ⟨h, c, 0⟩

theorem dgood_err {h0 : Heap} (h00 : ∀ i, h0.cnt ≤ i → h0.blks i = none) {L : Option (Nat × Blk)} {fr : List (List Byte)} {s : DS} (D : DInv h0 L fr s) :
    DGood h0 fr (desError s.h s.c (L.map Prod.fst)) := by
  obtain ⟨h', e1, e2⟩ := desError_ok h00 D
  exact ⟨h', none, e1, fun _ => e2, by simp⟩

theorem mulw (a : BitVec 64) (k : Nat) (hk : k < 2 ^ 64) (h : a.toNat * k < 2 ^ 64) : (a * BitVec.ofNat 64 k).toNat = a.toNat * k := by
  rw [BitVec.toNat_mul, BitVec.toNat_ofNat, Nat.mod_eq_of_lt hk, Nat.mod_eq_of_lt h]

theorem desTail_ok {h0 : Heap} (h00 : ∀ i, h0.cnt ≤ i → h0.blks i = none) (o : Oracle) (buf : List Byte) (dbg : Bool) (cc : BitVec 64) {fr : List (List Byte)} (s : DS) (r : Recs)
    (D : DInv h0 none fr s) (hc : cc.toNat * 8 < 2 ^ 64) (ho : s.off ≤ buf.length) (herr : s.c.error = 0) : DGood h0 fr (desTail o buf dbg cc s r) := by
  have hm := mulw cc 8 (by omega) hc
  simp only [desTail]
  by_cases h1 : short buf s.off (cc * 8#64) = true
  · simp only [h1, if_true]; exact dgood_err h00 D
  simp only [h1, Bool.false_eq_true, if_false]
  have h2 := short_false (by simpa using h1) ho
  rw [hm] at h2
  obtain ⟨s', r', e1, e2, e3⟩ := desConsts_ok o buf cc.toNat s [] D (by omega)
  simp only [e1, Option.bind_some]
  cases r' with
  | none => exact dgood_err h00 e2
  | some cs =>
    obtain ⟨e4, e5⟩ := e3 cs rfl
    simp only
    cases dbg with
    | false =>
      simp only [Bool.false_eq_true, if_false]
      refine ⟨_, _, rfl, by simp, fun c rc h => ?_⟩
      simp only [Option.some.injEq, Prod.mk.injEq] at h
      rw [← h.1]
      exact ⟨by rw [e5]; exact herr, e2⟩
    | true =>
      simp only [if_true]
      by_cases h3 : short buf s'.off 16#64 = true
      · simp only [h3, if_true]; exact dgood_err h00 e2
      simp only [h3, Bool.false_eq_true, if_false]
      have h4 := short_false (by simpa using h3) (by omega)
      have : (16#64).toNat = 16 := by decide
      rw [this] at h4
      obtain ⟨v1, g1⟩ := rd64_some (buf := buf) (off := s'.off) (by omega)
      obtain ⟨v2, g2⟩ := rd32_some (buf := buf) (off := s'.off + 8) (by omega)
      obtain ⟨v3, g3⟩ := rd32_some (buf := buf) (off := s'.off + 12) (by omega)
      simp only [g1, g2, g3, Option.bind_some]
      refine ⟨_, _, rfl, by simp, fun c rc h => ?_⟩
      simp only [Option.some.injEq, Prod.mk.injEq] at h
      rw [← h.1]
      exact ⟨by rw [e5]; exact herr, e2⟩

/-- Allocating label_list. -/
theorem dinv_malloc {h0 : Heap} (o : Oracle) {fr : List (List Byte)} {s : DS} (D : DInv h0 none fr s) (n : Nat) :
    ∃ h' p, s.h.malloc o n = (h', p) ∧
      (p = none → DInv h0 none fr { s with h := h' } ∧ ∃ k, o.fails k = true) ∧
      (∀ l, p = some l → ∃ b : Blk, b.size = n ∧ DInv h0 (some (l, b)) fr { s with h := h' }) := by
  obtain ⟨log, bufs, abufs, I, hfr, -⟩ := D
  unfold Heap.malloc
  split
  · next hf =>
    refine ⟨_, _, rfl, fun _ => ⟨⟨log, bufs, abufs, inv_fail I rfl rfl rfl rfl rfl (Or.inr rfl), hfr, by simp⟩, _, hf⟩, by simp⟩
  · refine ⟨_, _, rfl, by simp, fun l hl => ?_⟩
    simp only [Option.some.injEq] at hl
    subst hl
    have hlt : ∀ i ∈ s.c.self :: (bufs ++ abufs), i < s.h.cnt := fun i hi => (I.rng i hi).2
    have keep : ∀ i ∈ s.c.self :: (bufs ++ abufs), (if i = s.h.cnt then some { o.junk s.h.calls with size := n } else s.h.blks i) = s.h.blks i := fun i hi => by
      rw [if_neg (Nat.ne_of_lt (hlt i hi))]
    have hc0 : h0.cnt ≤ s.h.cnt := by have := I.rng s.c.self (by simp); simp only [withL] at this; omega
    refine ⟨{ o.junk s.h.calls with size := n }, rfl, log, bufs, abufs, ?_, ?_, ?_⟩
    · constructor
      · exact Chain_congr _ _ (fun i hi => keep i (by simp [hi])) I.buf
      · exact Chain_congr _ _ (fun i hi => keep i (by simp [hi])) I.abuf
      · exact I.nodup
      · simp only; rw [keep _ (by simp)]; exact I.self
      · intro i hi
        have := I.rng i hi
        simp only [withL] at this ⊢
        omega
      · intro i hi
        simp only [withL]
        split
        · rfl
        · exact I.out i hi
      · intro he
        rw [← I.code he]
        refine codeOf_congr fun i hi => ?_
        simp only [usedOf, dataOf, keep i (by simp [hi])]
        exact ⟨trivial, fun _ _ => trivial⟩
      · intro e he
        refine EvOk_mono (fun _ h => h) (fun _ h => h) (fun i hi => ?_) e (I.evs e he)
        simp only [usedOf, dataOf, keep i (List.mem_cons_of_mem _ hi)]
        exact ⟨Nat.le_refl _, fun _ _ => trivial⟩
      · exact I.disj
      · exact I.gens
    · rw [← hfr]; exact List.map_congr_left fun i hi => bytesOf_congr (keep i (by simp [hi]))
    · intro l b hl
      simp only [Option.some.injEq, Prod.mk.injEq] at hl
      rw [← hl.1]
      exact ⟨hc0, Nat.lt_succ_self _, fun hm => Nat.lt_irrefl _ (hlt _ hm)⟩

/-- Freeing label_list. -/
theorem dinv_free {h0 : Heap} (h00 : ∀ i, h0.cnt ≤ i → h0.blks i = none) {l : Nat} {b : Blk} {fr : List (List Byte)} {s : DS} (D : DInv h0 (some (l, b)) fr s) :
    ∃ h', s.h.free l = some h' ∧ DInv h0 none fr { s with h := h' } := by
  have hb := DInv_L D
  obtain ⟨log, bufs, abufs, I, hfr, hL⟩ := D
  obtain ⟨l1, l2, l3⟩ := hL l b rfl
  refine ⟨{ s.h with blks := fun j => if j = l then none else s.h.blks j }, by simp only [Heap.free, hb, Option.map_some], ?_⟩
  have keep : ∀ i ∈ s.c.self :: (bufs ++ abufs), (if i = l then none else s.h.blks i) = s.h.blks i := fun i hi => by
    rw [if_neg (by rintro rfl; exact l3 hi)]
  refine ⟨log, bufs, abufs, ?_, ?_, by simp⟩
  · constructor
    · exact Chain_congr _ _ (fun i hi => keep i (by simp [hi])) I.buf
    · exact Chain_congr _ _ (fun i hi => keep i (by simp [hi])) I.abuf
    · exact I.nodup
    · simp only; rw [keep _ (by simp)]; exact I.self
    · intro i hi
      exact I.rng i hi
    · intro i hi
      have := I.out i hi
      simp only [withL] at this ⊢
      split
      · next e => rw [e, h00 l l1]
      · next e => rw [this, if_neg e]
    · intro he
      rw [← I.code he]
      refine codeOf_congr fun i hi => ?_
      simp only [usedOf, dataOf, keep i (by simp [hi])]
      exact ⟨trivial, fun _ _ => trivial⟩
    · intro e he
      refine EvOk_mono (fun _ h => h) (fun _ h => h) (fun i hi => ?_) e (I.evs e he)
      simp only [usedOf, dataOf, keep i (List.mem_cons_of_mem _ hi)]
      exact ⟨Nat.le_refl _, fun _ _ => trivial⟩
    · exact I.disj
    · exact I.gens
  · rw [← hfr]; exact List.map_congr_left fun i hi => bytesOf_congr (keep i (by simp [hi]))

theorem desBody_ok {h0 : Heap} (h00 : ∀ i, h0.cnt ≤ i → h0.blks i = none) (o : Oracle) (buf : List Byte) (dbg : Bool) (lc alc jc cc : BitVec 64) {fr : List (List Byte)} (s : DS) (r : Recs)
    (D : DInv h0 none fr s) (hlc : lc.toNat * 8 + alc.toNat * 16 < 2 ^ 64) (hjc : jc.toNat * 24 < 2 ^ 64) (hcc : cc.toNat * 8 < 2 ^ 64) (ho : s.off ≤ buf.length) (herr : s.c.error = 0) :
    DGood h0 fr (desBody o buf dbg lc alc jc cc s r) := by
  have m1 := mulw lc 8 (by omega) (by omega)
  have m2 := mulw alc 16 (by omega) (by omega)
  have m3 := mulw jc 24 (by omega) (by omega)
  simp only [desBody]
  by_cases h1 : short buf s.off (lc * 8#64 + alc * 16#64) = true
  · simp only [h1, if_true]; exact dgood_err h00 D
  simp only [h1, Bool.false_eq_true, if_false]
  have h2 := short_false (by simpa using h1) ho
  rw [BitVec.toNat_add, m1, m2, Nat.mod_eq_of_lt hlc] at h2
  obtain ⟨h', p, e1, e2, e3⟩ := dinv_malloc o D (lc * 8#64).toNat
  simp only [e1]
  cases p with
  | none => exact dgood_err (s := { s with h := h' }) h00 (e2 rfl).1
  | some l =>
    obtain ⟨b, hb, D1⟩ := e3 l rfl
    rw [m1] at hb
    obtain ⟨s1, r1, f1, f2, f3⟩ := desLabels_ok o buf lc.toNat 0 alc.toNat { s with h := h' } [] D1 (by omega) (by simp only; omega)
    simp only [f1, Option.bind_some]
    cases r1 with
    | none => exact dgood_err h00 f2
    | some al =>
      obtain ⟨al, ls⟩ := al
      obtain ⟨f4, f5⟩ := f3 al ls rfl
      simp only
      by_cases hal : al ≠ 0
      · rw [if_pos hal]; exact dgood_err h00 f2
      rw [if_neg hal]
      by_cases h3 : short buf s1.off (jc * 24#64) = true
      · simp only [h3, if_true]; exact dgood_err h00 f2
      simp only [h3, Bool.false_eq_true, if_false]
      have h4 := short_false (by simpa using h3) (by omega)
      rw [m3] at h4
      obtain ⟨s2, r2, g1, g2, g3⟩ := desJumps_ok o buf lc (by omega) jc.toNat s1 [] f2 (by omega)
      simp only [g1, Option.bind_some]
      cases r2 with
      | none => exact dgood_err h00 g2
      | some js =>
        obtain ⟨g4, g5⟩ := g3 js rfl
        obtain ⟨h2, k1, k2⟩ := dinv_free h00 g2
        simp only [k1, Option.bind_some]
        exact desTail_ok h00 o buf dbg cc { s2 with h := h2 } _ k2 hcc (by simp only; omega) (by simp only; rw [g5, f5]; exact herr)

theorem rdHeader_some {buf : List Byte} (h : 80 ≤ buf.length) : ∃ hd, rdHeader buf = some hd := by
  obtain ⟨v1, h1⟩ := rd16_some (buf := buf) (off := 6) (by omega)
  obtain ⟨v2, h2⟩ := rd64_some (buf := buf) (off := 8) (by omega)
  obtain ⟨v3, h3⟩ := rd64_some (buf := buf) (off := 16) (by omega)
  obtain ⟨v4, h4⟩ := rd64_some (buf := buf) (off := 24) (by omega)
  obtain ⟨v5, h5⟩ := rd64_some (buf := buf) (off := 32) (by omega)
  obtain ⟨v6, h6⟩ := rd64_some (buf := buf) (off := 40) (by omega)
  obtain ⟨v7, h7⟩ := rd32_some (buf := buf) (off := 48) (by omega)
  obtain ⟨v8, h8⟩ := rd32_some (buf := buf) (off := 52) (by omega)
  obtain ⟨v9, h9⟩ := rd32_some (buf := buf) (off := 56) (by omega)
  obtain ⟨v10, h10⟩ := rd32_some (buf := buf) (off := 60) (by omega)
  obtain ⟨v11, h11⟩ := rd32_some (buf := buf) (off := 64) (by omega)
  obtain ⟨v12, h12⟩ := rd32_some (buf := buf) (off := 68) (by omega)
  obtain ⟨v13, h13⟩ := rd64_some (buf := buf) (off := 72) (by omega)
  simp only [rdHeader, h1, h2, h3, h4, h5, h6, h7, h8, h9, h10, h11, h12, h13, Option.bind_some]
  exact ⟨_, rfl⟩

/-- The whole function on an arbitrary buffer which satisfies `SizesOk`. -/
theorem deserialize_ok {h0 : Heap} (h00 : ∀ i, h0.cnt ≤ i → h0.blks i = none) (dbg : Bool) (o : Oracle) (buf : List Byte) (hs : SizesOk buf) :
    ∃ fr, DGood h0 fr (deserialize dbg o h0 buf) := by
  simp only [deserialize]
  by_cases h1 : buf.length < 80 ∨ buf.length % 8 ≠ 0
  · rw [if_pos h1]; exact ⟨[], _, _, rfl, fun _ => rfl, by simp⟩
  rw [if_neg h1]
  have h80 : 80 ≤ buf.length := by omega
  obtain ⟨sig, e1⟩ := rd32_some (buf := buf) (off := 0) (by omega)
  obtain ⟨ver, e2⟩ := rd16_some (buf := buf) (off := 4) (by omega)
  simp only [e1, e2, Option.bind_some]
  by_cases h2 : sig ≠ 0x534c4a54 ∨ ver ≠ 1
  · rw [if_pos h2]; exact ⟨[], _, _, rfl, fun _ => rfl, by simp⟩
  rw [if_neg h2]
  obtain ⟨h, c, c1, c2, c3⟩ := create_ok o h0 h00
  simp only [c1, Option.bind_some]
  cases c with
  | none => exact ⟨[], _, _, rfl, fun _ => c2 rfl, by simp⟩
  | some c =>
    obtain ⟨herr, abufs, I⟩ := c3 c rfl
    obtain ⟨hd, hhd⟩ := rdHeader_some h80
    obtain ⟨s1, s2, s3, s4⟩ := hs hd hhd
    have F : FState h0 h c [] none := ⟨rfl, abufs, I⟩
    simp only [hhd, Option.bind_some]
    split
    · obtain ⟨fr, D, -⟩ := FState_DInv F 0
      exact ⟨fr, dgood_err h00 D⟩
    · obtain ⟨h', r, g1, fr', last', g2, g3, -⟩ := desFrags_ok o buf c herr (fun _ => 0) hd.segs.toNat 80 h none [] F s4 h80
      simp only [g1, Option.bind_some]
      cases r with
      | none =>
        obtain ⟨fr, D, -⟩ := FState_DInv g2 0
        exact ⟨fr, dgood_err h00 D⟩
      | some off =>
        obtain ⟨fr, D, -⟩ := FState_DInv g2 off
        exact ⟨fr, desBody_ok h00 o buf dbg _ _ _ _ ⟨h', c, off⟩ _ D s1 s2 s3 (g3 off rfl) herr⟩

end Verif.Generic
