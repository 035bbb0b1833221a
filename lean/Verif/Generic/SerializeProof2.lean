import Verif.Generic.SerializeProof

/-!
# Deserialization: fragments and the whole function
-/

namespace Verif.Generic

theorem serAlign_toNat (v : BitVec 64) (h : v.toNat ≤ 4080) : (serAlign v).toNat = (v.toNat + 7) / 8 * 8 := by
  have e := Util.and_mask 3 (by omega) (v + 7)
  have e2 : ~~~Util.pageMask 3 = ~~~7#64 := by decide
  rw [e2] at e
  have e3 : (serAlign v).toNat = (v + 7#64).toNat / 2 ^ 3 * 2 ^ 3 := e
  have h7 : (7#64).toNat = 7 := by decide
  rw [e3, BitVec.toNat_add, h7, Nat.mod_eq_of_lt (by omega)]

/-! ## Reading what was written -/

theorem le_length (n v : Nat) : (le n v).length = n := by simp [le]

theorem leVal_le : ∀ (n v : Nat), leVal (le n v) = v % 256 ^ n
  | 0, v => by simp [le, leVal, Nat.mod_one]
  | n + 1, v => by
    have ih := leVal_le n (v / 256)
    have e : le (n + 1) v = BitVec.ofNat 8 v :: le n (v / 256) := by
      simp only [le, List.range_succ_eq_map, List.map_cons, List.map_map, Nat.pow_zero, Nat.div_one]
      congr 1
      refine List.map_congr_left fun k _ => ?_
      simp only [Function.comp, Nat.succ_eq_add_one, Nat.pow_succ, Nat.div_div_eq_div_mul, Nat.mul_comm]
    rw [e, leVal, ih, BitVec.toNat_ofNat, show 256 ^ (n + 1) = 256 * 256 ^ n by rw [Nat.pow_succ, Nat.mul_comm], Nat.mod_mul]

theorem rdBytes_at {buf l rest : List Byte} {off n : Nat} (h : buf.drop off = l ++ rest) (hn : l.length = n) (ho : off ≤ buf.length) :
    rdBytes buf off n = some l ∧ buf.drop (off + n) = rest ∧ off + n ≤ buf.length := by
  have hlen : buf.length - off = n + rest.length := by
    have := congrArg List.length h
    simpa [hn] using this
  refine ⟨?_, ?_, by omega⟩
  · rw [rdBytes, if_pos (by omega), h, ← hn, List.take_left']
    rfl
  · rw [← List.drop_drop, h, ← hn, List.drop_left']
    rfl

theorem rd64_at {buf rest : List Byte} {off : Nat} {v : BitVec 64} (h : buf.drop off = le64 v ++ rest) (ho : off ≤ buf.length) :
    rd64 buf off = some v ∧ buf.drop (off + 8) = rest ∧ off + 8 ≤ buf.length := by
  obtain ⟨a, b⟩ := rdBytes_at h (le_length 8 _) ho
  refine ⟨?_, b⟩
  rw [rd64, a, Option.map_some, le64, leVal_le]
  congr 1
  exact BitVec.eq_of_toNat_eq (by rw [BitVec.toNat_ofNat]; have := v.isLt; omega)

theorem rd32_at {buf rest : List Byte} {off : Nat} {v : BitVec 32} (h : buf.drop off = le32 v ++ rest) (ho : off ≤ buf.length) :
    rd32 buf off = some v ∧ buf.drop (off + 4) = rest ∧ off + 4 ≤ buf.length := by
  obtain ⟨a, b⟩ := rdBytes_at h (le_length 4 _) ho
  refine ⟨?_, b⟩
  rw [rd32, a, Option.map_some, le32, leVal_le]
  congr 1
  exact BitVec.eq_of_toNat_eq (by rw [BitVec.toNat_ofNat]; have := v.isLt; omega)

theorem rd16_at {buf rest : List Byte} {off : Nat} {v : BitVec 16} (h : buf.drop off = le16 v ++ rest) (ho : off ≤ buf.length) :
    rd16 buf off = some v ∧ buf.drop (off + 2) = rest ∧ off + 2 ≤ buf.length := by
  obtain ⟨a, b⟩ := rdBytes_at h (le_length 2 _) ho
  refine ⟨?_, b⟩
  rw [rd16, a, Option.map_some, le16, leVal_le]
  congr 1
  exact BitVec.eq_of_toNat_eq (by rw [BitVec.toNat_ofNat]; have := v.isLt; omega)

/-- Every fragment of the buffer fits into a fragment of the compiler. -/
def FragsFit (buf : List Byte) : Nat → Nat → Prop
  | 0, _ => True
  | n + 1, off => ∀ used, rd64 buf off = some used → used.toNat ≤ 4080 ∧ FragsFit buf n (off + 8 + (used.toNat + 7) / 8 * 8)

def FState (h0 h : Heap) (c : Comp) (fr : List (List Byte)) : Option Nat → Prop
  | none => fr = [] ∧ ∃ abufs, Inv h0 ⟨h, c, []⟩ [c.buf] abufs
  | some l => ∃ pre abufs log, Inv h0 ⟨h, c, log⟩ (pre ++ [l]) abufs ∧ (∀ e ∈ log, ∀ c, e ≠ .gen c) ∧ (pre ++ [l]).map (bytesOf h) = fr

theorem FState_DInv {h0 h : Heap} {c : Comp} {fr : List (List Byte)} {last : Option Nat} (F : FState h0 h c fr last) (off : Nat) :
    ∃ fr', DInv h0 none fr' ⟨h, c, off⟩ ∧ (last.isSome = true → fr' = fr) := by
  cases last with
  | none => obtain ⟨-, abufs, I⟩ := F; exact ⟨_, ⟨_, _, _, I, rfl, by simp⟩, by simp⟩
  | some l => obtain ⟨pre, abufs, log, I, -, e⟩ := F; exact ⟨fr, ⟨_, _, _, I, e, by simp⟩, fun _ => rfl⟩

theorem short_false {buf : List Byte} {off : Nat} {n : BitVec 64} (h : short buf off n = false) (ho : off ≤ buf.length) : off + n.toNat ≤ buf.length := by
  simp only [short, decide_eq_false_iff_not, Nat.not_lt] at h
  omega

theorem map_eq_of_getD (l : List Byte) (f : Nat → Byte) (h : ∀ k, k < l.length → f k = l.getD k 0) : (List.range l.length).map f = l := by
  apply List.ext_getElem (by simp)
  intro k h1 h2
  simp only [List.getElem_map, List.getElem_range]
  rw [h k h2]
  simp [List.getD_eq_getElem?_getD, h2]

/-- One fragment: the outcome of the memory operations. -/
theorem desFrag_step {h0 h : Heap} (o : Oracle) (c : Comp) {fr : List (List Byte)} {last : Option Nat} (F : FState h0 h c fr last) (herr : c.error = 0) (used : Nat) (bs : List Byte)
    (hlen : bs.length = used) (hu : used ≤ 4080) (h1 : Heap) (cur : Nat)
    (hm : fragBlock o c h last = (h1, some cur)) :
    ∃ b, h1.blks cur = some b ∧
    ∃ h2, (h1.set cur { b with next := if last.isSome then none else b.next, used := used }).store ⟨cur, 0⟩ bs = some h2 ∧
    ∃ h3, linkFrag h2 last cur = some h3 ∧
      FState h0 h3 c (fr ++ [bs]) (some cur) := by
  cases last with
  | none =>
    simp only [fragBlock, Prod.mk.injEq, Option.some.injEq] at hm
    obtain ⟨rfl, rfl⟩ := hm
    obtain ⟨rfl, abufs, I⟩ := F
    obtain ⟨-, b, c2, c3, c4, c5⟩ := I.buf
    simp only at c2
    refine ⟨b, c2, ?_⟩
    have e : 16 + 0 + bs.length ≤ b.size := by rw [c3]; omega
    simp only [Heap.store, Heap.set, if_true, Option.bind_some, e]
    refine ⟨_, rfl, _, rfl, ?_⟩
    have hh : ∀ (h' : Heap), h'.blks c.buf = some { b with used := used, data := fun k => if 0 ≤ k ∧ k < 0 + bs.length then bs.getD (k - 0) 0 else b.data k } →
        Holds h' ⟨c.buf, 0⟩ bs := by
      intro h' hb'
      refine map_eq_of_getD bs _ fun k hk => ?_
      simp [dataOf, hb', hk]
    obtain ⟨J, hby⟩ := frag_first (h' := { h with blks := fun j => if j = c.buf then some { b with next := b.next, used := used, data := fun k => if 0 ≤ k ∧ k < 0 + bs.length then bs.getD (k - 0) 0 else b.data k } else if j = c.buf then some { b with used := used } else h.blks j })
      I (bs := bs) (nb := { b with used := used, data := fun k => if 0 ≤ k ∧ k < 0 + bs.length then bs.getD (k - 0) 0 else b.data k }) rfl
      (fun j hj => by simp [hj]) (by simp) c3 hlen.symm (by omega) c5 (hh _ (by simp))
    exact ⟨[], abufs, _, J, by simp, congrArg (fun x => [x]) hby⟩
  | some l =>
    obtain ⟨pre, abufs, log, I, hng, hfr⟩ := F
    simp only [fragBlock, Heap.malloc] at hm
    split at hm
    · simp at hm
    · simp only [Prod.mk.injEq, Option.some.injEq] at hm
      obtain ⟨rfl, rfl⟩ := hm
      obtain ⟨lb, hlb, -, -⟩ := Chain_mem _ _ I.buf l (by simp)
      simp only at hlb
      have hll : l < h.cnt := (I.rng l (by simp)).2
      have hne : l ≠ h.cnt := Nat.ne_of_lt hll
      refine ⟨{ o.junk h.calls with size := 4096 }, by simp, ?_⟩
      have e : 16 + 0 + bs.length ≤ 4096 := by omega
      simp only [Heap.store, Heap.set, if_true, Option.bind_some, e, Option.isSome_some, hne, if_false, hlb]
      refine ⟨_, rfl, _, by simp only [linkFrag, hne, if_false, hlb, Option.bind_some]; rfl, ?_⟩
      have hh : ∀ (h' : Heap) (b : Blk), h'.blks h.cnt = some { b with data := fun k => if 0 ≤ k ∧ k < 0 + bs.length then bs.getD (k - 0) 0 else b.data k } →
          Holds h' ⟨h.cnt, 0⟩ bs := by
        intro h' b hb'
        refine map_eq_of_getD bs _ fun k hk => ?_
        simp [dataOf, hb', hk]
      have J := frag_next (h' := ⟨fun j => if j = l then some { lb with next := some h.cnt } else
          if j = h.cnt then some { o.junk h.calls with size := 4096, next := none, used := used, data := fun k => if 0 ≤ k ∧ k < 0 + bs.length then bs.getD (k - 0) 0 else (o.junk h.calls).data k }
          else if j = h.cnt then some { o.junk h.calls with size := 4096, next := none, used := used } else
          if j = h.cnt then some { o.junk h.calls with size := 4096 } else h.blks j, h.cnt + 1, h.calls + 1⟩) I hng (bs := bs) (lb := lb)
        (nb := { o.junk h.calls with size := 4096, next := none, used := used, data := fun k => if 0 ≤ k ∧ k < 0 + bs.length then bs.getD (k - 0) 0 else (o.junk h.calls).data k })
        hlb rfl (fun j h1 h2 => by simp [h1, h2]) (by simp) (by simp [Ne.symm hne]) rfl hlen.symm (by omega) rfl
        (hh _ { o.junk h.calls with size := 4096, next := none, used := used } (by simp [Ne.symm hne])) herr
      exact ⟨pre ++ [l], abufs, _, J.1, by
        intro e he c' hc'
        rcases List.mem_append.mp he with he | he
        · exact hng e he c' hc'
        · simp only [List.mem_singleton] at he; subst he; simp at hc', by rw [← hfr]; exact J.2⟩

theorem desFrags_ok {h0 : Heap} (o : Oracle) (buf : List Byte) (c : Comp) (herr : c.error = 0) (junk : Nat → Byte) :
    ∀ (n off : Nat) (h : Heap) (last : Option Nat) (fr : List (List Byte)),
    FState h0 h c fr last → FragsFit buf n off → off ≤ buf.length →
    ∃ h' r, desFrags o buf c n off h last = some (h', r) ∧ ∃ fr' last', FState h0 h' c fr' last' ∧
      (∀ off', r = some off' → off' ≤ buf.length) ∧
      ∀ frags rest, buf.drop off = frags.flatMap (serFrag junk) ++ rest → frags.length = n → (∀ f ∈ frags, f.length ≤ 4080) →
        (r = none → ∃ k, o.fails k = true) ∧
        ∀ off', r = some off' → buf.drop off' = rest ∧ fr' = fr ++ frags ∧ (0 < n → last'.isSome = true)
  | 0, off, h, last, fr, F, _, ho => ⟨h, _, rfl, fr, last, F, fun off' h => by simp only [Option.some.injEq] at h; omega,
      fun frags rest hd hn _ => by
        have : frags = [] := List.eq_nil_of_length_eq_zero hn
        subst this
        refine ⟨by simp, fun off' h => ?_⟩
        simp only [Option.some.injEq] at h
        subst h
        exact ⟨by simpa using hd, by simp, by simp⟩⟩
  | n + 1, off, h, last, fr, F, hf, ho => by
    have parse : ∀ frags rest, buf.drop off = frags.flatMap (serFrag junk) ++ rest → frags.length = n + 1 → (∀ f ∈ frags, f.length ≤ 4080) →
        ∃ f fs, frags = f :: fs ∧ f.length ≤ 4080 ∧ fs.length = n ∧ (∀ g ∈ fs, g.length ≤ 4080) ∧ rd64 buf off = some (BitVec.ofNat 64 f.length) ∧ off + 8 ≤ buf.length ∧
          rdBytes buf (off + 8) f.length = some f ∧ off + 8 + (f.length + 7) / 8 * 8 ≤ buf.length ∧
          buf.drop (off + 8 + (f.length + 7) / 8 * 8) = fs.flatMap (serFrag junk) ++ rest := by
      intro frags rest hd hn hl
      cases frags with
      | nil => simp at hn
      | cons f fs =>
        simp only [List.flatMap_cons, serFrag, List.append_assoc] at hd
        obtain ⟨a1, a2, a3⟩ := rd64_at hd ho
        obtain ⟨b1, b2, b3⟩ := rdBytes_at a2 rfl a3
        obtain ⟨c1, c2, c3⟩ := rdBytes_at b2 rfl b3
        simp only [List.length_map, List.length_range] at c2 c3
        have hle : f.length ≤ (f.length + 7) / 8 * 8 := by omega
        refine ⟨f, fs, rfl, hl f (by simp), by simpa using hn, fun g hg => hl g (by simp [hg]), a1, a3, b1, by omega, ?_⟩
        rw [← c2]; congr 1; omega
    simp only [desFrags]
    by_cases hs : short buf off 8#64 = true
    · simp only [hs, if_true]
      refine ⟨_, _, rfl, fr, last, F, by simp, fun frags rest hd hn hl => ?_⟩
      obtain ⟨f, fs, -, -, -, -, -, a3, -⟩ := parse frags rest hd hn hl
      simp only [short, decide_eq_true_eq] at hs
      have : (8#64).toNat = 8 := by decide
      rw [this] at hs
      omega
    simp only [hs, Bool.false_eq_true, if_false]
    have h8 := short_false (by simpa using hs) ho
    have : (8#64).toNat = 8 := by decide
    rw [this] at h8
    obtain ⟨used, hr⟩ := rd64_some h8
    obtain ⟨hu, hf'⟩ := hf used hr
    simp only [hr, Option.bind_some]
    have hal := serAlign_toNat used hu
    have parse2 : ∀ frags rest, buf.drop off = frags.flatMap (serFrag junk) ++ rest → frags.length = n + 1 → (∀ f ∈ frags, f.length ≤ 4080) →
        ∃ f fs, frags = f :: fs ∧ fs.length = n ∧ (∀ g ∈ fs, g.length ≤ 4080) ∧ f.length = used.toNat ∧ rdBytes buf (off + 8) used.toNat = some f ∧
          off + 8 + (used.toNat + 7) / 8 * 8 ≤ buf.length ∧ buf.drop (off + 8 + (used.toNat + 7) / 8 * 8) = fs.flatMap (serFrag junk) ++ rest := by
      intro frags rest hd hn hl
      obtain ⟨f, fs, a1, a2, a3, a4, a5, a6, a7, a8, a9⟩ := parse frags rest hd hn hl
      rw [hr] at a5
      simp only [Option.some.injEq] at a5
      have e : used.toNat = f.length := by rw [a5, BitVec.toNat_ofNat]; omega
      rw [e]
      exact ⟨f, fs, a1, a3, a4, rfl, a7, a8, a9⟩
    by_cases hs2 : short buf (off + 8) (serAlign used) = true
    · simp only [hs2, if_true]
      refine ⟨_, _, rfl, fr, last, F, by simp, fun frags rest hd hn hl => ?_⟩
      obtain ⟨f, fs, -, -, -, -, -, a3, -⟩ := parse2 frags rest hd hn hl
      simp only [short, decide_eq_true_eq] at hs2
      omega
    simp only [hs2, Bool.false_eq_true, if_false]
    have h9 := short_false (by simpa using hs2) h8
    rw [hal] at h9
    have hle : used.toNat ≤ (used.toNat + 7) / 8 * 8 := by omega
    obtain ⟨bs, hbs, hbl⟩ := rdBytes_some (buf := buf) (off := off + 8) (n := used.toNat) (by omega)
    generalize hm : fragBlock o c h last = hc
    obtain ⟨h1, cur⟩ := hc
    cases cur with
    | none =>
      simp only
      refine ⟨_, _, rfl, fr, last, ?_⟩
      cases last with
      | none => simp [fragBlock] at hm
      | some l =>
        obtain ⟨pre, abufs, log, I, hng, hfr⟩ := F
        simp only [fragBlock, Heap.malloc] at hm
        split at hm
        · next hfl =>
          simp only [Prod.mk.injEq, and_true] at hm
          subst hm
          exact ⟨⟨pre, abufs, log, inv_fail I rfl rfl rfl rfl rfl (Or.inr rfl), hng, hfr⟩, by simp, fun _ _ _ _ _ => ⟨fun _ => ⟨_, hfl⟩, by simp⟩⟩
        · simp at hm
    | some cur =>
      obtain ⟨b, e1, h2, e2, h3, e3, F'⟩ := desFrag_step o c F herr used.toNat bs hbl hu h1 cur hm
      simp only [e1, Option.bind_some, hbs, e2, e3]
      rw [hal]
      obtain ⟨h', r, g1, fr', last', g2, g3, g4⟩ := desFrags_ok o buf c herr junk n _ h3 (some cur) (fr ++ [bs]) F' hf' (by omega)
      refine ⟨h', r, g1, fr', last', g2, g3, fun frags rest hd hn hl => ?_⟩
      obtain ⟨f, fs, rfl, a3, a4, a5, a7, a8, a9⟩ := parse2 frags rest hd hn hl
      rw [hbs] at a7
      simp only [Option.some.injEq] at a7
      subst a7
      obtain ⟨k1, k2⟩ := g4 fs rest a9 a3 a4
      refine ⟨k1, fun off' ho' => ?_⟩
      obtain ⟨m1, m2, m3⟩ := k2 off' ho'
      refine ⟨m1, by rw [m2]; simp, fun _ => ?_⟩
      cases n with
      | zero =>
        have : fs = [] := List.eq_nil_of_length_eq_zero a3
        subst this
        simp only [desFrags, Option.some.injEq, Prod.mk.injEq] at g1
        cases last' with
        | some _ => rfl
        | none => obtain ⟨w, -⟩ := g2; rw [m2] at w; simp at w
      | succ n => exact m3 (by omega)

end Verif.Generic
