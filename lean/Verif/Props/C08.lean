import Verif.Generic.CompilerMemProof2

/-!
# C08, C09, C10: memory of the compiler

The model (Generic/CompilerMem.lean) runs arbitrary sequences of API calls with an arbitrary oracle for the answers of
malloc.  `none` is the outcome of a bad memory access (use after free, double free, out of bounds).
-/

namespace Verif.Props
open Verif.Generic

/-- A heap: the block numbers from `cnt` on are not in use. -/
def HeapOk (h : Heap) : Prop := ∀ i, h.cnt ≤ i → h.blks i = none

/-- The code an API call writes when it succeeds. -/
def opBytes : Op → List Byte
  | .emit _ ps => ps.flatMap fun p => match p with | .ins bs => bs | .record _ => []
  | _ => []

theorem pushAll_bytes (o : Oracle) : ∀ (ps : List Push) (s s' : St), pushAll o s ps = some s' → s.c.error = 0 → s'.c.error = 0 →
    insBytes s'.log = insBytes s.log ++ opBytes (.emit false ps)
  | [], s, s', h, _, _ => by simp only [pushAll, Option.some.injEq] at h; subst h; simp [opBytes]
  | .ins bs :: ps, s, s', h, h0, h1 => by
    simp only [pushAll, ensureBuf, Option.bind_eq_some_iff, Option.map_eq_some_iff] at h
    obtain ⟨⟨h', c', p⟩, ⟨⟨a, b, q⟩, e1, e2⟩, e3⟩ := h
    simp only [Prod.mk.injEq] at e2
    obtain ⟨rfl, rfl, rfl⟩ := e2
    cases q with
    | none => simp only [Option.some.injEq] at e3; subst e3; simp at h1
    | some q =>
      simp only [Option.bind_eq_some_iff] at e3
      obtain ⟨h2, e4, e5⟩ := e3
      rw [pushAll_bytes o ps _ s' e5 (by simpa using h0) h1]
      simp [insBytes, opBytes]
  | .record bs :: ps, s, s', h, h0, h1 => by
    simp only [pushAll, ensureAbuf, Option.bind_eq_some_iff, Option.map_eq_some_iff] at h
    obtain ⟨⟨h', c', p⟩, ⟨⟨a, b, q⟩, e1, e2⟩, e3⟩ := h
    simp only [Prod.mk.injEq] at e2
    obtain ⟨rfl, rfl, rfl⟩ := e2
    cases q with
    | none => simp only [Option.some.injEq] at e3; subst e3; simp at h1
    | some q =>
      simp only [Option.bind_eq_some_iff] at e3
      obtain ⟨h2, e4, e5⟩ := e3
      rw [pushAll_bytes o ps _ s' e5 (by simpa using h0) h1]
      simp [insBytes, opBytes]

/-- A call on a compiler with an error changes nothing but (for client writes) the memory of the client, and reports the
error. -/
def Refused (s s' : St) (op : Op) (r : Ret) : Prop :=
  s'.c = s.c ∧ s'.log = s.log ∧
    match op with
    | .emit .. => r = .code s.c.error ∧ s'.h = s.h
    | .alloc _ | .generate .. => r = .ptr none ∧ s'.h = s.h
    | .memError => s'.h = s.h
    | .write .. => True

theorem step_refused (o : Oracle) (s s' : St) (op : Op) (r : Ret) (he : s.c.error ≠ 0) (h : step o s op = some (s', r)) : Refused s s' op r := by
  cases op with
  | emit bad ps => rw [step, if_pos he] at h; simp only [Option.some.injEq, Prod.mk.injEq] at h; obtain ⟨rfl, rfl⟩ := h; exact ⟨rfl, rfl, rfl, rfl⟩
  | alloc size =>
    simp only [step, allocMemory] at h
    rw [if_pos he] at h
    simp only [Option.map_some, Option.some.injEq, Prod.mk.injEq] at h; obtain ⟨rfl, rfl⟩ := h; exact ⟨rfl, rfl, rfl, rfl⟩
  | write k off bs =>
    simp only [step] at h
    split at h
    · simp only [Option.some.injEq, Prod.mk.injEq] at h; obtain ⟨rfl, rfl⟩ := h; exact ⟨rfl, rfl, trivial⟩
    · split at h
      · simp only [Option.map_eq_some_iff, Prod.mk.injEq] at h; obtain ⟨_, _, rfl, rfl⟩ := h; exact ⟨rfl, rfl, trivial⟩
      · simp only [Option.some.injEq, Prod.mk.injEq] at h; obtain ⟨rfl, rfl⟩ := h; exact ⟨rfl, rfl, trivial⟩
  | memError =>
    simp only [step, Option.some.injEq, Prod.mk.injEq] at h; obtain ⟨rfl, rfl⟩ := h
    refine ⟨?_, rfl, rfl⟩
    rw [if_neg he]
  | generate bad exec =>
    simp only [step] at h
    rw [if_pos he] at h
    simp only [Option.some.injEq, Prod.mk.injEq] at h; obtain ⟨rfl, rfl⟩ := h; exact ⟨rfl, rfl, rfl, rfl⟩

/-- C09: after the first error every call is refused and returns that error; the error never changes. -/
theorem c09_sticky (o : Oracle) : ∀ (ops : List Op) (s s' : St) (rs : List Ret), s.c.error ≠ 0 → run o s ops = some (s', rs) →
    s'.c = s.c ∧ s'.log = s.log ∧ rs.length = ops.length ∧
    ∀ (k : Nat) (op : Op) (r : Ret), ops[k]? = some op → rs[k]? = some r →
      match op with
      | .emit .. => r = .code s.c.error
      | .alloc _ | .generate .. => r = .ptr none
      | _ => True
  | [], s, s', rs, he, h => by
    simp only [run, Option.some.injEq, Prod.mk.injEq] at h
    obtain ⟨rfl, rfl⟩ := h
    exact ⟨rfl, rfl, rfl, by simp⟩
  | op :: ops, s, s', rs, he, h => by
    simp only [run, Option.bind_eq_some_iff, Option.map_eq_some_iff] at h
    obtain ⟨⟨s1, r1⟩, e1, ⟨s2, rs2⟩, e2, e3⟩ := h
    simp only [Prod.mk.injEq] at e3
    obtain ⟨rfl, rfl⟩ := e3
    obtain ⟨q1, q2, q3⟩ := step_refused o s s1 op r1 he e1
    obtain ⟨p1, p2, p3, p4⟩ := c09_sticky o ops s1 s2 rs2 (by rw [q1]; exact he) e2
    refine ⟨p1.trans q1, p2.trans q2, by simp [p3], ?_⟩
    intro k op' r' h1 h2
    cases k with
    | zero =>
      simp only [List.getElem?_cons_zero, Option.some.injEq] at h1 h2
      subst h1 h2
      cases op <;> first | exact q3.1 | trivial
    | succ k =>
      simp only [List.getElem?_cons_succ] at h1 h2
      have := p4 k op' r' h1 h2
      rw [q1] at this
      exact this

/-- C09: the error code an emit function returns is the recorded one: a call which is not refused and returns 0 leaves the
compiler without an error, and a non zero return value is the error every later call reports. -/
theorem c09_reported (o : Oracle) (s s' : St) (bad : Bool) (ps : List Push) (r : Ret) (h : step o s (.emit bad ps) = some (s', r)) :
    r = .code s'.c.error := by
  simp only [step] at h
  split at h
  · simp only [Option.some.injEq, Prod.mk.injEq] at h; obtain ⟨rfl, rfl⟩ := h; rfl
  · split at h
    · simp only [Option.some.injEq, Prod.mk.injEq] at h; obtain ⟨rfl, rfl⟩ := h; rfl
    · simp only [Option.map_eq_some_iff, Prod.mk.injEq] at h; obtain ⟨_, _, rfl, rfl⟩ := h; rfl

theorem run_bytes (o : Oracle) : ∀ (ops : List Op) (s s' : St) (rs : List Ret), run o s ops = some (s', rs) → s.c.error = 0 → s'.c.error = 0 →
    insBytes s'.log = insBytes s.log ++ ops.flatMap opBytes
  | [], s, s', rs, h, _, _ => by
    simp only [run, Option.some.injEq, Prod.mk.injEq] at h
    obtain ⟨rfl, rfl⟩ := h; simp
  | op :: ops, s, s', rs, h, h0, h1 => by
    simp only [run, Option.bind_eq_some_iff, Option.map_eq_some_iff] at h
    obtain ⟨⟨s1, r1⟩, e1, ⟨s2, rs2⟩, e2, e3⟩ := h
    simp only [Prod.mk.injEq] at e3
    obtain ⟨rfl, rfl⟩ := e3
    have hs1 : s1.c.error = 0 := by
      refine Classical.byContradiction fun hne => ?_
      have := (c09_sticky o ops s1 s2 rs2 hne e2).1
      rw [this] at h1; exact hne h1
    rw [run_bytes o ops s1 s2 rs2 e2 hs1 h1, List.flatMap_cons, ← List.append_assoc]
    congr 1
    cases op with
    | emit bad ps =>
      simp only [step, h0, ne_eq, not_true_eq_false, if_false] at e1
      cases bad with
      | true => simp only [if_true, Option.some.injEq, Prod.mk.injEq] at e1; obtain ⟨rfl, rfl⟩ := e1; simp at hs1
      | false =>
        simp only [Bool.false_eq_true, if_false, Option.map_eq_some_iff, Prod.mk.injEq] at e1
        obtain ⟨s3, e4, rfl, rfl⟩ := e1
        rw [pushAll_bytes o ps s s3 e4 h0 hs1]
    | alloc size =>
      simp only [step, Option.map_eq_some_iff] at e1
      obtain ⟨⟨a, b, p⟩, -, e5⟩ := e1
      simp only [Prod.mk.injEq] at e5
      obtain ⟨rfl, rfl⟩ := e5
      cases p <;> simp [insBytes, opBytes]
    | write k off bs =>
      simp only [step] at e1
      have : s1.log = s.log := by
        split at e1
        · simp only [Option.some.injEq, Prod.mk.injEq] at e1; obtain ⟨rfl, rfl⟩ := e1; rfl
        · split at e1
          · simp only [Option.map_eq_some_iff, Prod.mk.injEq] at e1; obtain ⟨_, _, rfl, rfl⟩ := e1; rfl
          · simp only [Option.some.injEq, Prod.mk.injEq] at e1; obtain ⟨rfl, rfl⟩ := e1; rfl
      simp [this, opBytes]
    | memError =>
      simp only [step, Option.some.injEq, Prod.mk.injEq] at e1; obtain ⟨rfl, rfl⟩ := e1
      simp [h0] at hs1
    | generate bad exec =>
      exfalso
      simp only [step, h0, ne_eq, not_true_eq_false, if_false] at e1
      split at e1
      · simp only [Option.some.injEq, Prod.mk.injEq] at e1; obtain ⟨rfl, rfl⟩ := e1; simp at hs1
      · simp only [Option.bind_eq_some_iff] at e1
        obtain ⟨⟨a, b⟩, -, c, -, e1⟩ := e1
        split at e1
        · simp only [Option.bind_eq_some_iff, Option.some.injEq, Prod.mk.injEq] at e1
          obtain ⟨_, _, rfl, rfl⟩ := e1; simp at hs1
        · simp only [Option.some.injEq, Prod.mk.injEq] at e1; obtain ⟨rfl, rfl⟩ := e1; simp at hs1

/-- C08: no call does a bad memory access, and if all of them succeeded, the code generator sees exactly the concatenation
of what the emit functions wrote, in call order. -/
theorem c08_code (o : Oracle) (h0 h : Heap) (c : Comp) (ops : List Op) (hh : HeapOk h0) (hc : create o h0 = some (h, some c))
    (ho : ∀ op ∈ ops, op.Ok) :
    ∃ s rs, run o ⟨h, c, []⟩ ops = some (s, rs) ∧
      (s.c.error = 0 → ∃ s' r, step o s (.generate false true) = some (s', r) ∧ r ≠ .ptr none ∧
        s'.log = .gen (ops.flatMap opBytes) :: s.log) := by
  obtain ⟨h1, c1, e1, -, e3⟩ := create_ok o h0 hh
  rw [hc] at e1; simp only [Option.some.injEq, Prod.mk.injEq] at e1; obtain ⟨rfl, rfl⟩ := e1
  obtain ⟨hce, abufs, I⟩ := e3 c rfl
  obtain ⟨s, rs, f1, bufs', abufs', I'⟩ := run_ok hh o ops _ _ _ I ho
  refine ⟨s, rs, f1, fun hs => ?_⟩
  have hb := run_bytes o ops _ _ _ f1 hce hs
  obtain ⟨s', r, g1, bufs'', g2⟩ := generate_ok o s bufs' abufs' I' false true
  refine ⟨s', r, g1, ?_⟩
  simp only [step, hs, ne_eq, not_true_eq_false, if_false, Bool.false_eq_true, if_true, Option.bind_eq_some_iff, Option.some.injEq, Prod.mk.injEq] at g1
  obtain ⟨⟨a, b⟩, -, d, -, code, -, rfl, rfl⟩ := g1
  have hg := g2.gens
  simp only [GensOk] at hg
  refine ⟨by simp, ?_⟩
  rw [hg.1, hb]; rfl

/-- C08: whatever is called afterwards (including failing calls and client writes), a piece of code or a record stays where
it is, with its contents, and does not overlap any other piece or memory of the client. -/
theorem c08_stable (o : Oracle) (h0 h : Heap) (c : Comp) (ops : List Op) (hh : HeapOk h0) (hc : create o h0 = some (h, some c))
    (ho : ∀ op ∈ ops, op.Ok) (s : St) (rs : List Ret) (hr : run o ⟨h, c, []⟩ ops = some (s, rs)) :
    (∀ p bs, (Ev.ins p bs ∈ s.log ∨ Ev.record p bs ∈ s.log) → s.h.load p bs.length = some bs) ∧ s.log.Pairwise Disj := by
  obtain ⟨h1, c1, e1, -, e3⟩ := create_ok o h0 hh
  rw [hc] at e1; simp only [Option.some.injEq, Prod.mk.injEq] at e1; obtain ⟨rfl, rfl⟩ := e1
  obtain ⟨hce, abufs, I⟩ := e3 c rfl
  obtain ⟨s', rs', f1, bufs', abufs', I'⟩ := run_ok hh o ops _ _ _ I ho
  rw [hr] at f1; simp only [Option.some.injEq, Prod.mk.injEq] at f1; obtain ⟨rfl, rfl⟩ := f1
  refine ⟨fun p bs hev => ?_, I'.disj⟩
  have key : ∀ l cap hd, Chain s.h cap hd l → 16 ≤ cap → p.blk ∈ l → p.off + bs.length ≤ usedOf s.h p.blk → Holds s.h p bs → s.h.load p bs.length = some bs := by
    intro l cap hd hch hcap hm hu hh
    obtain ⟨b, hb, hs, hub⟩ := Chain_mem _ _ hch _ hm
    have : usedOf s.h p.blk = b.used := by simp [usedOf, hb]
    have e : 16 + p.off + bs.length ≤ b.size := by omega
    simp only [Heap.load, hb, Option.bind_some, e, if_true]
    have hh' := hh
    unfold Holds at hh'
    rw [← hh']
    simp [dataOf, hb]
  rcases hev with hev | hev
  · obtain ⟨a1, a2, a3⟩ := I'.evs _ hev
    exact key _ _ _ I'.buf (by omega) a1 a2 a3
  · obtain ⟨a1, a2, a3⟩ := I'.evs _ hev
    exact key _ _ _ I'.abuf (by omega) a1 a2 a3

/-! C10 -/

def Live (h h' : Heap) : Prop := ∀ i, (h.blks i).isSome = true → (h'.blks i).isSome = true

theorem live_set {h h' : Heap} (hl : Live h h') (i : Nat) (b : Blk) : Live h (h'.set i b) := by
  intro j hj
  by_cases e : j = i
  · simp [Heap.set, e]
  · simp [Heap.set, e, hl j hj]

theorem live_malloc (o : Oracle) {h h' h'' : Heap} {n : Nat} {p : Option Nat} (hl : Live h h') (e : h'.malloc o n = (h'', p)) : Live h h'' := by
  intro j hj
  have := hl j hj
  unfold Heap.malloc at e
  split at e <;> simp only [Prod.mk.injEq] at e <;> obtain ⟨rfl, -⟩ := e
  · exact this
  · by_cases c : j = h'.cnt
    · simp [c]
    · simp [c, this]

theorem live_ensure (o : Oracle) {h h' : Heap} {cap head size head' : Nat} {p : Option Ptr} (e : ensure o h cap head size = some (h', head', p)) : Live h h' := by
  simp only [ensure, Option.bind_eq_some_iff] at e
  obtain ⟨b, -, e⟩ := e
  split at e
  · simp only [Option.some.injEq, Prod.mk.injEq] at e; obtain ⟨rfl, -⟩ := e
    exact live_set (fun _ h => h) _ _
  · split at e
    · next hm => simp only [Option.some.injEq, Prod.mk.injEq] at e; obtain ⟨rfl, -⟩ := e; exact live_malloc o (fun _ h => h) hm
    · next hm =>
      simp only [Option.bind_eq_some_iff, Option.some.injEq, Prod.mk.injEq] at e
      obtain ⟨_, -, rfl, -⟩ := e
      exact live_set (live_malloc o (fun _ h => h) hm) _ _

theorem live_store {h h' : Heap} {p : Ptr} {bs : List Byte} (e : h.store p bs = some h') : Live h h' := by
  simp only [Heap.store, Option.bind_eq_some_iff] at e
  obtain ⟨b, -, e⟩ := e
  split at e
  · simp only [Option.some.injEq] at e; subst e; exact live_set (fun _ h => h) _ _
  · simp at e

theorem live_reverse : ∀ (n : Nat) (h h' : Heap) (b p q : Option Nat), reverseLoop n h b p = some (h', q) → Live h h'
  | n, h, h', none, p, q, e => by
    cases n <;> simp only [reverseLoop, Option.some.injEq, Prod.mk.injEq] at e <;> obtain ⟨rfl, -⟩ := e <;> exact fun _ h => h
  | 0, h, h', some i, p, q, e => by simp [reverseLoop] at e
  | n + 1, h, h', some i, p, q, e => by
    simp only [reverseLoop, Option.bind_eq_some_iff] at e
    obtain ⟨b, -, e⟩ := e
    intro j hj
    exact live_reverse n _ h' _ _ _ e j (live_set (fun _ h => h) _ _ j hj)

theorem live_pushAll (o : Oracle) : ∀ (ps : List Push) (s s' : St), pushAll o s ps = some s' → Live s.h s'.h
  | [], s, s', h => by simp only [pushAll, Option.some.injEq] at h; subst h; exact fun _ h => h
  | .ins bs :: ps, s, s', h => by
    simp only [pushAll, ensureBuf, Option.bind_eq_some_iff, Option.map_eq_some_iff] at h
    obtain ⟨⟨h', c', p⟩, ⟨⟨a, b, q⟩, e1, e2⟩, e3⟩ := h
    simp only [Prod.mk.injEq] at e2
    obtain ⟨rfl, rfl, rfl⟩ := e2
    cases q with
    | none => simp only [Option.some.injEq] at e3; subst e3; exact live_ensure o e1
    | some q =>
      simp only [Option.bind_eq_some_iff] at e3
      obtain ⟨h2, e4, e5⟩ := e3
      exact fun i hi => live_pushAll o ps _ _ e5 i (live_store e4 i (live_ensure o e1 i hi))
  | .record bs :: ps, s, s', h => by
    simp only [pushAll, ensureAbuf, Option.bind_eq_some_iff, Option.map_eq_some_iff] at h
    obtain ⟨⟨h', c', p⟩, ⟨⟨a, b, q⟩, e1, e2⟩, e3⟩ := h
    simp only [Prod.mk.injEq] at e2
    obtain ⟨rfl, rfl, rfl⟩ := e2
    cases q with
    | none => simp only [Option.some.injEq] at e3; subst e3; exact live_ensure o e1
    | some q =>
      simp only [Option.bind_eq_some_iff] at e3
      obtain ⟨h2, e4, e5⟩ := e3
      exact fun i hi => live_pushAll o ps _ _ e5 i (live_store e4 i (live_ensure o e1 i hi))

/-- C10: no call before sljit_free_compiler frees anything. -/
theorem c10_not_before (o : Oracle) (s s' : St) (op : Op) (r : Ret) (h : step o s op = some (s', r)) : Live s.h s'.h := by
  cases op with
  | emit bad ps =>
    simp only [step] at h
    split at h
    · simp only [Option.some.injEq, Prod.mk.injEq] at h; obtain ⟨rfl, rfl⟩ := h; exact fun _ h => h
    · split at h
      · simp only [Option.some.injEq, Prod.mk.injEq] at h; obtain ⟨rfl, rfl⟩ := h; exact fun _ h => h
      · simp only [Option.map_eq_some_iff, Prod.mk.injEq] at h; obtain ⟨_, e, rfl, rfl⟩ := h; exact live_pushAll o ps s _ e
  | alloc size =>
    simp only [step, allocMemory, Option.map_eq_some_iff] at h
    obtain ⟨⟨a, b, p⟩, e, e5⟩ := h
    simp only [Prod.mk.injEq] at e5
    obtain ⟨rfl, rfl⟩ := e5
    split at e
    · simp only [Option.some.injEq, Prod.mk.injEq] at e; obtain ⟨rfl, -⟩ := e; exact fun _ h => h
    · split at e
      · simp only [Option.some.injEq, Prod.mk.injEq] at e; obtain ⟨rfl, -⟩ := e; exact fun _ h => h
      · simp only [ensureAbuf, Option.map_eq_some_iff] at e
        obtain ⟨⟨a', b', q⟩, e1, e2⟩ := e
        simp only [Prod.mk.injEq] at e2
        obtain ⟨rfl, -⟩ := e2
        exact live_ensure o e1
  | write k off bs =>
    simp only [step] at h
    split at h
    · simp only [Option.some.injEq, Prod.mk.injEq] at h; obtain ⟨rfl, rfl⟩ := h; exact fun _ h => h
    · split at h
      · simp only [Option.map_eq_some_iff, Prod.mk.injEq] at h; obtain ⟨_, e, rfl, rfl⟩ := h; exact live_store e
      · simp only [Option.some.injEq, Prod.mk.injEq] at h; obtain ⟨rfl, rfl⟩ := h; exact fun _ h => h
  | memError => simp only [step, Option.some.injEq, Prod.mk.injEq] at h; obtain ⟨rfl, rfl⟩ := h; exact fun _ h => h
  | generate bad exec =>
    simp only [step] at h
    split at h
    · simp only [Option.some.injEq, Prod.mk.injEq] at h; obtain ⟨rfl, rfl⟩ := h; exact fun _ h => h
    · split at h
      · simp only [Option.some.injEq, Prod.mk.injEq] at h; obtain ⟨rfl, rfl⟩ := h; exact fun _ h => h
      · simp only [Option.bind_eq_some_iff] at h
        obtain ⟨⟨a, b⟩, e0, c, -, h⟩ := h
        split at h
        · simp only [Option.bind_eq_some_iff, Option.some.injEq, Prod.mk.injEq] at h
          obtain ⟨_, _, rfl, rfl⟩ := h; exact live_reverse _ _ _ _ _ _ e0
        · simp only [Option.some.injEq, Prod.mk.injEq] at h; obtain ⟨rfl, rfl⟩ := h; exact live_reverse _ _ _ _ _ _ e0

/-- C10: after any calls with any failing allocations, sljit_free_compiler restores the heap: every block of the compiler is
freed, none of them twice, and nothing else. If sljit_create_compiler fails, it has already done so. -/
theorem c10_freed (o : Oracle) (h0 : Heap) (ops : List Op) (hh : HeapOk h0) (ho : ∀ op ∈ ops, op.Ok) :
    ∃ h c, create o h0 = some (h, c) ∧
      match c with
      | none => h.blks = h0.blks
      | some c => ∃ s rs h', run o ⟨h, c, []⟩ ops = some (s, rs) ∧ freeCompiler s.h s.c = some h' ∧ h'.blks = h0.blks := by
  obtain ⟨h, c, e1, e2, e3⟩ := create_ok o h0 hh
  refine ⟨h, c, e1, ?_⟩
  cases c with
  | none => exact e2 rfl
  | some c =>
    obtain ⟨-, abufs, I⟩ := e3 c rfl
    obtain ⟨s, rs, f1, bufs', abufs', I'⟩ := run_ok hh o ops _ _ _ I ho
    obtain ⟨h', g1, g2⟩ := free_ok hh I'
    exact ⟨s, rs, h', f1, g1, g2⟩

/-! ## A case which uses several fragments and a failing allocation -/

namespace C08Demo

/-- The fifth call of malloc fails. -/
def o : Oracle := ⟨fun n => n == 4, fun _ => ⟨0, some 7, 99, fun _ => 0xaa#8⟩⟩
def h0 : Heap := ⟨fun _ => none, 0, 0⟩
def big : Push := .ins (List.replicate 250 0x13#8)
def ops : List Op := (List.replicate 17 (.emit false [.record (List.replicate 24 1#8), big])) ++ [.alloc 100, .write 0 3 [1#8, 2#8]]

end C08Demo

/-- 17 pieces of 250 bytes need two fragments (the fourth call of malloc); nothing failed yet, so the hypotheses of
`c08_code` hold with `s.c.error = 0`. -/
example : ((create C08Demo.o C08Demo.h0).bind fun (h, c) => c.bind fun c => (run C08Demo.o ⟨h, c, []⟩ C08Demo.ops).map fun (s, _) =>
    (s.c.error, s.h.cnt)) = some (0, 4) := by decide +kernel

/-- 34 pieces need a third fragment: the fifth call of malloc fails and the error is sticky. -/
example : ((create C08Demo.o C08Demo.h0).bind fun (h, c) => c.bind fun c => (run C08Demo.o ⟨h, c, []⟩ (C08Demo.ops ++ C08Demo.ops)).map fun (s, rs) =>
    (s.c.error, s.h.cnt, rs.getLast?)) = some (2, 4, some .nothing) := by decide +kernel

end Verif.Props
