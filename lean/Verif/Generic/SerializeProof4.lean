import Verif.Generic.SerializeProof3

/-!
# Round trip
-/

namespace Verif.Generic

theorem desRecord_at {o : Oracle} {s s' : DS} {n : Nat} {ok : Bool} (h : desRecord o s n = some (s', ok)) : s'.off = s.off ∧ (ok = false → ∃ k, o.fails k = true) := by
  simp only [desRecord, ensureAbuf, Option.bind_eq_some_iff, Option.map_eq_some_iff] at h
  obtain ⟨⟨h1, c1, p⟩, ⟨⟨a, b, q⟩, e1, e2⟩, e3⟩ := h
  simp only [Prod.mk.injEq] at e2
  obtain ⟨rfl, rfl, rfl⟩ := e2
  cases q with
  | none =>
    simp only [Option.some.injEq, Prod.mk.injEq] at e3
    obtain ⟨rfl, rfl⟩ := e3
    exact ⟨rfl, fun _ => ensure_fails o e1⟩
  | some q =>
    simp only [Option.map_eq_some_iff, Prod.mk.injEq] at e3
    obtain ⟨_, -, rfl, rfl⟩ := e3
    exact ⟨rfl, by simp⟩

/-- A label of a compiler: sizes are below SLJIT_LABEL_ALIGNED, types are not. -/
def Lab.Ok : Lab → Prop
  | .plain size => size < LABEL_ALIGNED
  | .ext type _ _ => ¬ type < LABEL_ALIGNED

/-- A jump of a compiler with `n` labels: the flag JUMP_ADDR says which member of the union is valid. -/
def Jmp.Ok (n : Nat) (j : Jmp) : Prop :=
  match j.tgt with
  | .addr _ => j.flags &&& JUMP_ADDR ≠ 0
  | .label k => j.flags &&& JUMP_ADDR = 0 ∧ k < n
  | .null => j.flags &&& JUMP_ADDR = 0

theorem desLabels_at {o : Oracle} {buf : List Byte} {ll : Nat} : ∀ (labels : List Lab) (i al : Nat) (s s' : DS) (acc : List Lab) (rest : List Byte) (r : Option (Nat × List Lab)),
    buf.drop s.off = labels.flatMap serLabel ++ rest → s.off ≤ buf.length → (∀ l ∈ labels, l.Ok) → labels.countP Lab.isExt ≤ al →
    desLabels o buf ll labels.length i al s acc = some (s', r) →
    (r = none → ∃ k, o.fails k = true) ∧ ∀ al' ls, r = some (al', ls) → ls = acc.reverse ++ labels ∧ al' = al - labels.countP Lab.isExt ∧ buf.drop s'.off = rest ∧ s'.off ≤ buf.length
  | [], i, al, s, s', acc, rest, r, hd, ho, _, _, h => by
    simp only [List.length_nil, desLabels, Option.some.injEq, Prod.mk.injEq] at h
    obtain ⟨rfl, rfl⟩ := h
    refine ⟨by simp, fun al' ls h => ?_⟩
    simp only [Option.some.injEq, Prod.mk.injEq] at h
    obtain ⟨rfl, rfl⟩ := h
    exact ⟨by simp, by simp, by simpa using hd, ho⟩
  | lab :: labels, i, al, s, s', acc, rest, r, hd, ho, hok, hal, h => by
    have hl := hok lab (by simp)
    simp only [List.length_cons, desLabels, Option.bind_eq_some_iff] at h
    obtain ⟨type, e1, ⟨s1, ok⟩, e2, e3⟩ := h
    obtain ⟨e4, e5⟩ := desRecord_at e2
    cases ok with
    | false =>
      simp only [Bool.not_false, if_true, Option.some.injEq, Prod.mk.injEq] at e3
      exact ⟨fun _ => e5 rfl, fun al' ls hr => by rw [hr] at e3; simp at e3⟩
    | true =>
      simp only [Bool.not_true, Bool.false_eq_true, if_false, Option.bind_eq_some_iff] at e3
      obtain ⟨-, -, e3⟩ := e3
      cases lab with
      | plain size =>
        simp only [List.flatMap_cons, serLabel, List.append_assoc] at hd
        obtain ⟨a1, a2, a3⟩ := rd64_at hd ho
        rw [e1] at a1; simp only [Option.some.injEq] at a1; subst a1
        simp only [Lab.Ok] at hl
        simp only [hl, if_true] at e3
        obtain ⟨k1, k2⟩ := desLabels_at labels (i + 1) al { s1 with off := s1.off + 8 } s' _ rest r (by rw [← a2]; simp only [e4]) (by simp only [e4]; exact a3)
          (fun l hl => hok l (by simp [hl])) (by simpa [List.countP_cons, Lab.isExt] using hal) e3
        refine ⟨k1, fun al' ls hr => ?_⟩
        obtain ⟨m1, m2, m3⟩ := k2 al' ls hr
        exact ⟨by rw [m1]; simp, by rw [m2]; simp [List.countP_cons, Lab.isExt], m3⟩
      | ext ty size data =>
        simp only [List.flatMap_cons, serLabel, List.append_assoc] at hd
        obtain ⟨a1, a2, a3⟩ := rd64_at hd ho
        rw [e1] at a1; simp only [Option.some.injEq] at a1; subst a1
        obtain ⟨b1, b2, b3⟩ := rd64_at a2 a3
        obtain ⟨c1, c2, c3⟩ := rd64_at b2 b3
        simp only [Lab.Ok] at hl
        simp only [List.countP_cons, Lab.isExt, if_true] at hal
        have hne : al ≠ 0 := by omega
        simp only [hl, if_false, hne, e4, b1, c1, Option.bind_some] at e3
        obtain ⟨k1, k2⟩ := desLabels_at labels (i + 1) (al - 1) { s1 with off := s.off + 8 + 16 } s' _ rest r (by rw [← c2]) (by simp only; omega)
          (fun l hl => hok l (by simp [hl])) (by omega) e3
        refine ⟨k1, fun al' ls hr => ?_⟩
        obtain ⟨m1, m2, m3⟩ := k2 al' ls hr
        exact ⟨by rw [m1]; simp, by rw [m2]; simp only [List.countP_cons, Lab.isExt, if_true]; omega, m3⟩

theorem desJumps_at {o : Oracle} {buf : List Byte} {ll n : Nat} (hn : n < 2 ^ 63) : ∀ (jumps : List Jmp) (s s' : DS) (acc : List Jmp) (rest : List Byte) (r : Option (List Jmp)),
    buf.drop s.off = jumps.flatMap serJump ++ rest → s.off ≤ buf.length → (∀ j ∈ jumps, j.Ok n) →
    desJumps o buf ll (BitVec.ofNat 64 n) jumps.length s acc = some (s', r) →
    (r = none → ∃ k, o.fails k = true) ∧ ∀ js, r = some js → js = acc.reverse ++ jumps ∧ buf.drop s'.off = rest ∧ s'.off ≤ buf.length
  | [], s, s', acc, rest, r, hd, ho, _, h => by
    simp only [List.length_nil, desJumps, Option.some.injEq, Prod.mk.injEq] at h
    obtain ⟨rfl, rfl⟩ := h
    refine ⟨by simp, fun ls h => ?_⟩
    simp only [Option.some.injEq] at h
    subst h
    exact ⟨by simp, by simpa using hd, ho⟩
  | j :: jumps, s, s', acc, rest, r, hd, ho, hok, h => by
    have hj := hok j (by simp)
    simp only [List.length_cons, desJumps, Option.bind_eq_some_iff] at h
    obtain ⟨⟨s1, ok⟩, e2, e3⟩ := h
    obtain ⟨e4, e5⟩ := desRecord_at e2
    cases ok with
    | false =>
      simp only [Bool.not_false, if_true, Option.some.injEq, Prod.mk.injEq] at e3
      exact ⟨fun _ => e5 rfl, fun ls hr => by rw [hr] at e3; simp at e3⟩
    | true =>
      simp only [List.flatMap_cons, serJump, List.append_assoc] at hd
      obtain ⟨a1, a2, a3⟩ := rd64_at hd ho
      obtain ⟨b1, b2, b3⟩ := rd64_at a2 a3
      obtain ⟨c1, c2, c3⟩ := rd64_at b2 b3
      simp only [Bool.not_true, Bool.false_eq_true, if_false, e4, a1, b1, c1, Option.bind_some] at e3
      have key : desJumps o buf ll (BitVec.ofNat 64 n) jumps.length { s1 with off := s.off + 24 } (j :: acc) = some (s', r) →
          (r = none → ∃ k, o.fails k = true) ∧ ∀ js, r = some js → js = acc.reverse ++ j :: jumps ∧ buf.drop s'.off = rest ∧ s'.off ≤ buf.length := by
        intro hk
        obtain ⟨k1, k2⟩ := desJumps_at hn jumps { s1 with off := s.off + 24 } s' _ rest r (by rw [← c2]) (by simp only; omega)
          (fun l hl => hok l (by simp [hl])) hk
        refine ⟨k1, fun ls hr => ?_⟩
        obtain ⟨m1, m2⟩ := k2 ls hr
        exact ⟨by rw [m1]; simp, m2⟩
      obtain ⟨addr, flags, tgt⟩ := j
      cases tgt with
      | addr a =>
        simp only [Jmp.Ok] at hj
        simp only [hj, if_false] at e3
        exact key e3
      | label k =>
        simp only [Jmp.Ok] at hj
        have h1 : (BitVec.ofNat 64 k).toNat = k := by rw [BitVec.toNat_ofNat]; omega
        have h2 : (BitVec.ofNat 64 n).toNat = n := by rw [BitVec.toNat_ofNat]; omega
        have h3 : BitVec.ofNat 64 k ≠ MAX_ADDRESS := by
          intro he
          have := congrArg BitVec.toNat he
          rw [h1] at this
          have hm : (MAX_ADDRESS).toNat = 2 ^ 64 - 1 := by decide
          omega
        have h4 : ¬ BitVec.ofNat 64 k ≥ BitVec.ofNat 64 n := by
          intro he
          have := BitVec.le_def.mp he
          omega
        simp only [hj.1, if_true] at e3
        rw [if_pos h3, if_neg h4] at e3
        simp only [Option.bind_eq_some_iff] at e3
        obtain ⟨-, -, e3⟩ := e3
        rw [h1] at e3
        exact key e3
      | null =>
        simp only [Jmp.Ok] at hj
        simp only [hj, if_true, ne_eq, not_true_eq_false, if_false] at e3
        exact key e3

theorem desConsts_at {o : Oracle} {buf : List Byte} : ∀ (cs : List (BitVec 64)) (s s' : DS) (acc : List (BitVec 64)) (rest : List Byte) (r : Option (List (BitVec 64))),
    buf.drop s.off = cs.flatMap le64 ++ rest → s.off ≤ buf.length → desConsts o buf cs.length s acc = some (s', r) →
    (r = none → ∃ k, o.fails k = true) ∧ ∀ l, r = some l → l = acc.reverse ++ cs ∧ buf.drop s'.off = rest ∧ s'.off ≤ buf.length
  | [], s, s', acc, rest, r, hd, ho, h => by
    simp only [List.length_nil, desConsts, Option.some.injEq, Prod.mk.injEq] at h
    obtain ⟨rfl, rfl⟩ := h
    refine ⟨by simp, fun ls h => ?_⟩
    simp only [Option.some.injEq] at h
    subst h
    exact ⟨by simp, by simpa using hd, ho⟩
  | c :: cs, s, s', acc, rest, r, hd, ho, h => by
    simp only [List.length_cons, desConsts, Option.bind_eq_some_iff] at h
    obtain ⟨⟨s1, ok⟩, e2, e3⟩ := h
    obtain ⟨e4, e5⟩ := desRecord_at e2
    cases ok with
    | false =>
      simp only [Bool.not_false, if_true, Option.some.injEq, Prod.mk.injEq] at e3
      exact ⟨fun _ => e5 rfl, fun ls hr => by rw [hr] at e3; simp at e3⟩
    | true =>
      simp only [List.flatMap_cons, List.append_assoc] at hd
      obtain ⟨a1, a2, a3⟩ := rd64_at hd ho
      simp only [Bool.not_true, Bool.false_eq_true, if_false, e4, a1, Option.bind_some] at e3
      obtain ⟨k1, k2⟩ := desConsts_at cs { s1 with off := s.off + 8 } s' _ rest r (by rw [← a2]) (by simp only; omega) e3
      refine ⟨k1, fun ls hr => ?_⟩
      obtain ⟨m1, m2⟩ := k2 ls hr
      exact ⟨by rw [m1]; simp, m2⟩

theorem flatMap_len {α : Type} (f : α → List Byte) (n : Nat) (h : ∀ x, (f x).length = n) : ∀ l : List α, (l.flatMap f).length = n * l.length
  | [] => rfl
  | x :: l => by
    rw [List.flatMap_cons, List.length_append, h x, flatMap_len f n h l, List.length_cons]
    rw [Nat.mul_add]; omega

theorem le64_length (v : BitVec 64) : (le64 v).length = 8 := le_length _ _
theorem le32_length (v : BitVec 32) : (le32 v).length = 4 := le_length _ _
theorem le16_length (v : BitVec 16) : (le16 v).length = 2 := le_length _ _
theorem serJump_length (j : Jmp) : (serJump j).length = 24 := by simp only [serJump, List.length_append, le64_length]

theorem labels_length : ∀ l : List Lab, (l.flatMap serLabel).length = 8 * l.length + 16 * l.countP Lab.isExt
  | [] => rfl
  | .plain s :: l => by
    rw [List.flatMap_cons, List.length_append, labels_length l]
    simp [serLabel, le64_length, List.countP_cons, Lab.isExt]; omega
  | .ext t s d :: l => by
    rw [List.flatMap_cons, List.length_append, labels_length l]
    simp [serLabel, le64_length, List.countP_cons, Lab.isExt]; omega

theorem desError_none {h : Heap} {c : Comp} {ll : Option Nat} {h' : Heap} {res : Option (Comp × Recs)} (e : desError h c ll = some (h', res)) : res = none := by
  simp only [desError, Option.bind_eq_some_iff] at e
  obtain ⟨h1, -, e⟩ := e
  cases ll <;> simp only [Option.some.injEq, Option.map_eq_some_iff, Prod.mk.injEq] at e
  · exact e.2.symm
  · obtain ⟨_, _, _, rfl⟩ := e; rfl

/-- What a compiler gets: without debug information its fields have the values of sljit_create_compiler. -/
def Recs.read (dbg : Bool) (r : Recs) : Recs :=
  if dbg then r else { r with lastFlags := 0, lastReturn := -1, logicalLocalSize := 0 }

/-- What the counts and members of a compiler satisfy. -/
structure Recs.Ok (r : Recs) : Prop where
  labels : ∀ l ∈ r.labels, l.Ok
  jumps : ∀ j ∈ r.jumps, j.Ok r.labels.length
  nlabels : r.labels.length * 24 < 2 ^ 63
  njumps : r.jumps.length * 24 < 2 ^ 63
  nconsts : r.consts.length * 8 < 2 ^ 63

theorem sx_setWidth (v : BitVec 32) : (v.signExtend 64).setWidth 32 = v := by
  apply BitVec.eq_of_getLsbD_eq
  intro i hi
  rw [BitVec.getLsbD_setWidth, BitVec.getLsbD_signExtend]
  simp [hi, show i < 64 by omega]

theorem short_drop {buf l rest : List Byte} {off : Nat} {n : BitVec 64} (h : buf.drop off = l ++ rest) (hn : n.toNat ≤ l.length) : short buf off n = false := by
  have := congrArg List.length h
  simp only [List.length_drop, List.length_append] at this
  simp only [short, decide_eq_false_iff_not]
  omega

theorem desTail_at {o : Oracle} {buf : List Byte} {dbg : Bool} {r r0 : Recs} {s : DS} {rest h' res} (hd : buf.drop s.off = r.consts.flatMap le64 ++ rest)
    (hrest : dbg = true → rest = serDebug r) (ho : s.off ≤ buf.length) (hn : r.consts.length * 8 < 2 ^ 63)
    (h : desTail o buf dbg (BitVec.ofNat 64 r.consts.length) s r0 = some (h', res)) :
    (res = none → ∃ k, o.fails k = true) ∧ ∀ c' r', res = some (c', r') →
      r' = { r0 with consts := r.consts, lastFlags := if dbg then r.lastFlags else r0.lastFlags, lastReturn := if dbg then r.lastReturn else r0.lastReturn, logicalLocalSize := if dbg then r.logicalLocalSize else r0.logicalLocalSize } := by
  have t1 : (BitVec.ofNat 64 r.consts.length).toNat = r.consts.length := by rw [BitVec.toNat_ofNat]; omega
  have m1 := mulw (BitVec.ofNat 64 r.consts.length) 8 (by omega) (by omega)
  have hs := short_drop (n := BitVec.ofNat 64 r.consts.length * 8#64) hd (by rw [m1, t1, flatMap_len le64 8 le64_length]; omega)
  simp only [desTail, hs, Bool.false_eq_true, if_false, t1, Option.bind_eq_some_iff] at h
  obtain ⟨⟨s1, cs⟩, e1, e2⟩ := h
  obtain ⟨k1, k2⟩ := desConsts_at _ _ _ _ _ _ hd ho e1
  cases cs with
  | none =>
    refine ⟨fun _ => k1 rfl, fun c' r' hr => ?_⟩
    have := desError_none e2
    rw [hr] at this; simp at this
  | some cs =>
    obtain ⟨rfl, m2, m3⟩ := k2 cs rfl
    simp only [List.reverse_nil, List.nil_append] at e2
    cases dbg with
    | false =>
      simp only [Bool.false_eq_true, if_false, Option.some.injEq, Prod.mk.injEq] at e2 ⊢
      obtain ⟨-, rfl⟩ := e2
      refine ⟨by simp, fun c' r' hr => ?_⟩
      simp only [Option.some.injEq, Prod.mk.injEq] at hr
      rw [← hr.2]
    | true =>
      rw [hrest rfl, serDebug, List.append_assoc] at m2
      have m2' : List.drop s1.off buf = (le64 (BitVec.signExtend 64 r.lastFlags) ++ (le32 r.lastReturn ++ le32 r.logicalLocalSize)) ++ [] := by rw [m2]; simp
      have hs2 := short_drop (n := 16#64) m2' (by simp only [List.length_append, le64_length, le32_length]; decide)
      obtain ⟨a1, a2, a3⟩ := rd64_at m2 m3
      obtain ⟨b1, b2, b3⟩ := rd32_at a2 a3
      obtain ⟨c1, -⟩ := rd32_at (rest := []) (by rw [List.append_nil]; exact b2) b3
      simp only [if_true, hs2, Bool.false_eq_true, if_false, a1, b1, c1, Option.bind_some, Option.some.injEq, Prod.mk.injEq] at e2 ⊢
      obtain ⟨-, rfl⟩ := e2
      refine ⟨by simp, fun c' r' hr => ?_⟩
      simp only [Option.some.injEq, Prod.mk.injEq] at hr
      rw [← hr.2]
      congr 1
      exact sx_setWidth _

theorem desBody_at {o : Oracle} {buf : List Byte} {dbg : Bool} {r r0 : Recs} {s : DS} {rest h' res} (hok : r.Ok)
    (hd : buf.drop s.off = r.labels.flatMap serLabel ++ (r.jumps.flatMap serJump ++ (r.consts.flatMap le64 ++ rest)))
    (hrest : dbg = true → rest = serDebug r) (ho : s.off ≤ buf.length)
    (h : desBody o buf dbg (BitVec.ofNat 64 r.labels.length) (BitVec.ofNat 64 (r.labels.countP Lab.isExt)) (BitVec.ofNat 64 r.jumps.length)
      (BitVec.ofNat 64 r.consts.length) s r0 = some (h', res)) :
    (res = none → ∃ k, o.fails k = true) ∧ ∀ c' r', res = some (c', r') →
      r' = { r0 with labels := r.labels, jumps := r.jumps, consts := r.consts, lastFlags := if dbg then r.lastFlags else r0.lastFlags, lastReturn := if dbg then r.lastReturn else r0.lastReturn, logicalLocalSize := if dbg then r.logicalLocalSize else r0.logicalLocalSize } := by
  have n1 := hok.nlabels
  have n2 := hok.njumps
  have nc : r.labels.countP Lab.isExt ≤ r.labels.length := List.countP_le_length
  have t1 : (BitVec.ofNat 64 r.labels.length).toNat = r.labels.length := by rw [BitVec.toNat_ofNat]; omega
  have t2 : (BitVec.ofNat 64 (r.labels.countP Lab.isExt)).toNat = r.labels.countP Lab.isExt := by rw [BitVec.toNat_ofNat]; omega
  have t3 : (BitVec.ofNat 64 r.jumps.length).toNat = r.jumps.length := by rw [BitVec.toNat_ofNat]; omega
  have m1 := mulw (BitVec.ofNat 64 r.labels.length) 8 (by omega) (by omega)
  have m2 := mulw (BitVec.ofNat 64 (r.labels.countP Lab.isExt)) 16 (by omega) (by omega)
  have m3 := mulw (BitVec.ofNat 64 r.jumps.length) 24 (by omega) (by omega)
  have hs := short_drop (n := BitVec.ofNat 64 r.labels.length * 8#64 + BitVec.ofNat 64 (r.labels.countP Lab.isExt) * 16#64) hd
    (by rw [BitVec.toNat_add, m1, m2, t1, t2, labels_length]; omega)
  simp only [desBody, hs, Bool.false_eq_true, if_false, t1, t2, t3] at h
  split at h
  · next hm =>
    refine ⟨fun _ => ?_, fun c' r' hr => ?_⟩
    · unfold Heap.malloc at hm
      split at hm
      · next hf => exact ⟨_, hf⟩
      · simp at hm
    · have := desError_none h
      rw [hr] at this; simp at this
  · next hh ll hm =>
    simp only [Option.bind_eq_some_iff] at h
    obtain ⟨⟨s1, ls⟩, e1, e2⟩ := h
    obtain ⟨k1, k2⟩ := desLabels_at _ _ _ _ _ _ _ _ (by exact hd) (by exact ho) hok.labels (Nat.le_refl _) e1
    cases ls with
    | none =>
      refine ⟨fun _ => k1 rfl, fun c' r' hr => ?_⟩
      have := desError_none e2
      rw [hr] at this; simp at this
    | some als =>
      obtain ⟨al, ls⟩ := als
      obtain ⟨rfl, rfl, m2, m3'⟩ := k2 al ls rfl
      simp only [Nat.sub_self, ne_eq, not_true_eq_false, if_false, List.reverse_nil, List.nil_append] at e2
      have hs2 := short_drop (n := BitVec.ofNat 64 r.jumps.length * 24#64) m2 (by rw [m3, t3, flatMap_len serJump 24 serJump_length]; omega)
      simp only [hs2, Bool.false_eq_true, if_false, Option.bind_eq_some_iff] at e2
      obtain ⟨⟨s2, js⟩, f1, f2⟩ := e2
      obtain ⟨p1, p2⟩ := desJumps_at (by omega) _ _ _ _ _ _ m2 m3' hok.jumps f1
      cases js with
      | none =>
        refine ⟨fun _ => p1 rfl, fun c' r' hr => ?_⟩
        have := desError_none f2
        rw [hr] at this; simp at this
      | some js =>
        obtain ⟨rfl, q1, q2⟩ := p2 js rfl
        simp only [List.reverse_nil, List.nil_append, Option.bind_eq_some_iff] at f2
        obtain ⟨h2, -, f2⟩ := f2
        exact desTail_at (r := r) (by exact q1) hrest (by exact q2) hok.nconsts f2

theorem fragsFit_at {buf : List Byte} {junk : Nat → Byte} : ∀ (frags : List (List Byte)) (off : Nat) (rest : List Byte),
    buf.drop off = frags.flatMap (serFrag junk) ++ rest → off ≤ buf.length → (∀ f ∈ frags, f.length ≤ 4080) → FragsFit buf frags.length off
  | [], _, _, _, _, _ => trivial
  | f :: frags, off, rest, hd, ho, hl => by
    intro used hu
    simp only [List.flatMap_cons, serFrag, List.append_assoc] at hd
    obtain ⟨a1, a2, a3⟩ := rd64_at hd ho
    obtain ⟨b1, b2, b3⟩ := rdBytes_at a2 rfl a3
    obtain ⟨c1, c2, c3⟩ := rdBytes_at b2 rfl b3
    simp only [List.length_map, List.length_range] at c2 c3
    have hf := hl f (by simp)
    rw [a1] at hu
    simp only [Option.some.injEq] at hu
    have e : used.toNat = f.length := by rw [← hu, BitVec.toNat_ofNat]; omega
    rw [e]
    have e2 : off + 8 + f.length + ((f.length + 7) / 8 * 8 - f.length) = off + 8 + (f.length + 7) / 8 * 8 := by omega
    rw [e2] at c2 c3
    exact ⟨hf, fragsFit_at frags _ rest c2 c3 (fun g hg => hl g (by simp [hg]))⟩

theorem frags_mod {junk : Nat → Byte} : ∀ (frags : List (List Byte)), (frags.flatMap (serFrag junk)).length % 8 = 0
  | [] => rfl
  | f :: frags => by
    rw [List.flatMap_cons, List.length_append, Nat.add_mod, frags_mod frags]
    simp only [serFrag, List.length_append, le64_length, List.length_map, List.length_range]
    omega

theorem header_at {buf rest : List Byte} {dbg : Bool} {segs : Nat} {r : Recs} (h : buf = serHeader dbg segs r ++ rest) :
    80 ≤ buf.length ∧ buf.drop 80 = rest ∧ rd32 buf 0 = some 0x534c4a54#32 ∧ rd16 buf 4 = some 1#16 ∧
    rdHeader buf = some ⟨if dbg then 1 else 0, BitVec.ofNat 64 segs, BitVec.ofNat 64 r.labels.length, BitVec.ofNat 64 (r.labels.countP Lab.isExt),
      BitVec.ofNat 64 r.jumps.length, BitVec.ofNat 64 r.consts.length,
      ⟨[], [], [], r.options, r.scratches, r.saveds, r.fscratches, r.fsaveds, r.localSize, r.size, 0, -1, 0⟩⟩ := by
  have h0 : buf.drop 0 = serHeader dbg segs r ++ rest := by simpa using h
  simp only [serHeader, List.append_assoc] at h0
  obtain ⟨a1, b1, c1⟩ := rd32_at h0 (Nat.zero_le _)
  obtain ⟨a2, b2, c2⟩ := rd16_at b1 c1
  obtain ⟨a3, b3, c3⟩ := rd16_at b2 c2
  obtain ⟨a4, b4, c4⟩ := rd64_at b3 c3
  obtain ⟨a5, b5, c5⟩ := rd64_at b4 c4
  obtain ⟨a6, b6, c6⟩ := rd64_at b5 c5
  obtain ⟨a7, b7, c7⟩ := rd64_at b6 c6
  obtain ⟨a8, b8, c8⟩ := rd64_at b7 c7
  obtain ⟨a9, b9, c9⟩ := rd32_at b8 c8
  obtain ⟨a10, b10, c10⟩ := rd32_at b9 c9
  obtain ⟨a11, b11, c11⟩ := rd32_at b10 c10
  obtain ⟨a12, b12, c12⟩ := rd32_at b11 c11
  obtain ⟨a13, b13, c13⟩ := rd32_at b12 c12
  obtain ⟨a14, b14, c14⟩ := rd32_at b13 c13
  obtain ⟨a15, b15, c15⟩ := rd64_at b14 c14
  simp only [Nat.zero_add, Nat.reduceAdd] at a1 a2 a3 a4 a5 a6 a7 a8 a9 a10 a11 a12 a13 a14 a15 b15 c15
  refine ⟨c15, b15, a1, a2, ?_⟩
  simp only [rdHeader, a3, a4, a5, a6, a7, a8, a9, a10, a11, a12, a13, a14, a15, Option.bind_some]

/-- Deserializing the result of a serialization. -/
theorem roundtrip {h0 : Heap} (h00 : ∀ i, h0.cnt ≤ i → h0.blks i = none) (wd dbg : Bool) (hwd : dbg = true → wd = true) (o : Oracle) (junk : Nat → Byte) (frags : List (List Byte)) (r : Recs)
    (hne : frags ≠ []) (hf : ∀ f ∈ frags, f.length ≤ 4080) (hseg : frags.length < 2 ^ 64) (hok : r.Ok) :
    ∃ h res, deserialize dbg o h0 (serHeader wd frags.length r ++ frags.flatMap (serFrag junk) ++ r.labels.flatMap serLabel ++
      r.jumps.flatMap serJump ++ r.consts.flatMap le64 ++ (if wd then serDebug r else [])) = some (h, res) ∧
      (res = none → h.blks = h0.blks ∧ ∃ k, o.fails k = true) ∧
      ∀ c' r', res = some (c', r') → c'.error = 0 ∧ r' = r.read dbg ∧ DInv h0 none frags ⟨h, c', 0⟩ := by
  generalize hb : serHeader wd frags.length r ++ frags.flatMap (serFrag junk) ++ r.labels.flatMap serLabel ++
      r.jumps.flatMap serJump ++ r.consts.flatMap le64 ++ (if wd then serDebug r else []) = buf
  simp only [List.append_assoc] at hb
  obtain ⟨g1, g2, g3, g4, g5⟩ := header_at hb.symm
  have n1 := hok.nlabels
  have n2 := hok.njumps
  have n3 := hok.nconsts
  have nc : r.labels.countP Lab.isExt ≤ r.labels.length := List.countP_le_length
  have hlen : buf.length % 8 = 0 := by
    rw [← hb]
    have e1 := frags_mod (junk := junk) frags
    have e2 : (if wd then serDebug r else []).length % 8 = 0 := by
      cases wd
      · rfl
      · simp only [if_true, serDebug, List.length_append, le64_length, le32_length]
    simp only [List.length_append, labels_length, flatMap_len serJump 24 serJump_length, flatMap_len le64 8 le64_length, serHeader, le64_length, le32_length, le16_length]
    omega
  have hsz : ¬ (buf.length < 80 ∨ buf.length % 8 ≠ 0) := by omega
  simp only [deserialize]
  rw [if_neg hsz, g3, g4]
  simp only [Option.bind_some]
  rw [if_neg (by simp)]
  obtain ⟨h, c, c1, c2, c3⟩ := create_ok o h0 h00
  simp only [c1, Option.bind_some]
  cases c with
  | none =>
    refine ⟨_, _, rfl, fun _ => ⟨c2 rfl, ?_⟩, by simp⟩
    refine Classical.byContradiction fun hk => ?_
    have hk' : ∀ k, o.fails k = false := fun k => by
      cases hh : o.fails k with
      | false => rfl
      | true => exact absurd ⟨k, hh⟩ hk
    simp [create, Heap.malloc, hk', Heap.set] at c1
  | some c =>
    obtain ⟨herr, abufs, I⟩ := c3 c rfl
    have F : FState h0 h c [] none := ⟨rfl, abufs, I⟩
    simp only [g5, Option.bind_some]
    have hcpu : (dbg && ((if wd then 1 else 0 : BitVec 16) &&& 1 == 0)) = false := by
      cases dbg
      · rfl
      · rw [hwd rfl]; decide
    rw [hcpu]
    have tseg : (BitVec.ofNat 64 frags.length).toNat = frags.length := by rw [BitVec.toNat_ofNat]; omega
    obtain ⟨h', rr, d1, fr', last', d2, d3, d4⟩ := desFrags_ok o buf c herr junk frags.length 80 h none [] F (fragsFit_at _ _ _ g2 g1 hf) g1
    obtain ⟨d5, d6⟩ := d4 frags _ g2 rfl hf
    simp only [Bool.false_eq_true, if_false, tseg, d1, Option.bind_some]
    cases rr with
    | none =>
      obtain ⟨fr, D, -⟩ := FState_DInv d2 0
      obtain ⟨h2, x1, x2⟩ := desError_ok h00 D
      simp only [Option.map_none] at x1
      exact ⟨h2, none, x1, fun _ => ⟨x2, d5 rfl⟩, by simp⟩
    | some off =>
      obtain ⟨m1, m2, m3⟩ := d6 off rfl
      have hpos : 0 < frags.length := List.length_pos_iff.mpr hne
      obtain ⟨fr, D, hfr⟩ := FState_DInv d2 off
      rw [hfr (m3 hpos), m2] at D
      have t1 : (BitVec.ofNat 64 r.labels.length).toNat = r.labels.length := by rw [BitVec.toNat_ofNat]; omega
      have t2 : (BitVec.ofNat 64 (r.labels.countP Lab.isExt)).toNat = r.labels.countP Lab.isExt := by rw [BitVec.toNat_ofNat]; omega
      have t3 : (BitVec.ofNat 64 r.jumps.length).toNat = r.jumps.length := by rw [BitVec.toNat_ofNat]; omega
      have t4 : (BitVec.ofNat 64 r.consts.length).toNat = r.consts.length := by rw [BitVec.toNat_ofNat]; omega
      obtain ⟨h2, res, y1, y2, y3⟩ := desBody_ok h00 o buf dbg (BitVec.ofNat 64 r.labels.length) (BitVec.ofNat 64 (r.labels.countP Lab.isExt))
        (BitVec.ofNat 64 r.jumps.length) (BitVec.ofNat 64 r.consts.length) ⟨h', c, off⟩
        ⟨[], [], [], r.options, r.scratches, r.saveds, r.fscratches, r.fsaveds, r.localSize, r.size, 0, -1, 0⟩ D
        (by rw [t1, t2]; omega) (by rw [t3]; omega) (by rw [t4]; omega) (d3 off rfl) herr
      obtain ⟨z1, z2⟩ := desBody_at (r := r) hok (by exact m1) (fun hdb => by rw [if_pos (hwd hdb)]) (d3 off rfl) y1
      refine ⟨h2, res, y1, fun hr => ⟨y2 hr, z1 hr⟩, fun c' r' hr => ?_⟩
      obtain ⟨w1, w2⟩ := y3 c' r' hr
      refine ⟨w1, ?_, by simpa using w2⟩
      rw [z2 c' r' hr, Recs.read]
      cases dbg <;> rfl

theorem readFrags_ok {cap : Nat} (hcap : 16 ≤ cap) : ∀ (l : List Nat) (n : Nat) (h : Heap) (hd : Option Nat), Chain h cap hd l → l.length ≤ n →
    readFrags n h hd = some (l.map (bytesOf h))
  | [], n, h, hd, c, _ => by
    simp only [Chain] at c; subst c
    cases n <;> rfl
  | i :: l, 0, h, hd, _, hn => by simp at hn
  | i :: l, n + 1, h, hd, ⟨c1, b, c2, c3, c4, c5⟩, hn => by
    subst c1
    have hl : h.load ⟨i, 0⟩ b.used = some (bytesOf h i) := by
      have e : 16 + 0 + b.used ≤ b.size := by omega
      simp only [Heap.load, c2, Option.bind_some, e, if_true, bytesOf, usedOf]
      congr 1
      apply List.map_congr_left
      intro k _
      simp [dataOf, c2]
    simp only [readFrags, c2, Option.bind_some, hl, readFrags_ok hcap l n h _ c5 (by simpa using hn), Option.map_some, List.map_cons]

end Verif.Generic
