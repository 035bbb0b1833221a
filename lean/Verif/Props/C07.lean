import Verif.Util.Stack

/-!
# C07: `struct sljit_stack`

Histories: a stack is allocated, then resized any number of times with any addresses and any answers of the system.
-/

namespace Verif.Props

open Verif.Util

/-- The answer to a request of `n` bytes: never for zero bytes, page aligned, above the zero page, no wrap around. -/
def MmapOk (k : Nat) (mmap : BitVec 64 → Option (BitVec 64)) : Prop :=
  ∀ n p, mmap n = some p → n ≠ 0 ∧ p.toNat % 2 ^ k = 0 ∧ 0 < p.toNat ∧ p.toNat + n.toNat < 2 ^ 64

/-- POSIX histories: first argument is the stack as it was allocated. -/
inductive StackHist (k : Nat) (startSize maxSize : BitVec 64) : Stack → Stack → Prop
  | alloc (mallocOk : Bool) (mmap : BitVec 64 → Option (BitVec 64)) (s : Stack) : MmapOk k mmap →
      allocStack (pageMask k) startSize maxSize mallocOk mmap = some s → StackHist k startSize maxSize s s
  | resize (s₀ s s' : Stack) (new : BitVec 64) : StackHist k startSize maxSize s₀ s →
      (resizeStack (pageMask k) s new).1 = some s' → StackHist k startSize maxSize s₀ s'

theorem round_up {k : Nat} (hk : k ≤ 63) {x : BitVec 64} (h0 : (x + pageMask k) &&& ~~~pageMask k ≠ 0) (hx : 0 < x.toNat) :
    x.toNat ≤ ((x + pageMask k) &&& ~~~pageMask k).toNat ∧ ((x + pageMask k) &&& ~~~pageMask k).toNat % 2 ^ k = 0 := by
  have hp : 0 < 2 ^ k := Nat.two_pow_pos k
  have hle : 2 ^ k ≤ 2 ^ 63 := Nat.pow_le_pow_right (by omega) hk
  have h1 := and_mask k hk (x + pageMask k)
  have hne : ((x + pageMask k) &&& ~~~pageMask k).toNat ≠ 0 := fun h => h0 (BitVec.eq_of_toNat_eq h)
  rw [h1] at hne ⊢
  rw [BitVec.toNat_add, mask_toNat k hk] at hne ⊢
  refine ⟨?_, Nat.mul_mod_left _ _⟩
  generalize hP : 2 ^ k = P at *
  have hx2 := x.isLt
  by_cases hw : x.toNat + (P - 1) < 2 ^ 64
  · rw [Nat.mod_eq_of_lt hw]
    have := Nat.div_add_mod (x.toNat + (P - 1)) P
    have := Nat.mod_lt (x.toNat + (P - 1)) hp
    rw [Nat.mul_comm]
    omega
  · exfalso
    apply hne
    rw [Nat.mod_eq_sub_mod (by omega), Nat.mod_eq_of_lt (by omega), Nat.div_eq_of_lt (by omega), Nat.zero_mul]

/-- Initial state of every version of `sljit_allocate_stack`. -/
theorem alloc_state {k : Nat} (hk : k ≤ 63) {p maxSize startSize : BitVec 64}
    (hc : ¬ (startSize > maxSize ∨ startSize < 1))
    (hm : (maxSize + pageMask k) &&& ~~~pageMask k ≠ 0 ∧ p.toNat % 2 ^ k = 0 ∧ 0 < p.toNat ∧
      p.toNat + ((maxSize + pageMask k) &&& ~~~pageMask k).toNat < 2 ^ 64) :
    let n := (maxSize + pageMask k) &&& ~~~pageMask k
    (p + n).toNat = p.toNat + n.toNat ∧ maxSize.toNat ≤ n.toNat ∧ n.toNat % 2 ^ k = 0 ∧
    (p + n - startSize).toNat = p.toNat + n.toNat - startSize.toNat ∧ 1 ≤ startSize.toNat ∧ startSize.toNat ≤ maxSize.toNat := by
  intro n
  have hs : 1 ≤ startSize.toNat ∧ startSize.toNat ≤ maxSize.toNat := by
    simp only [not_or, BitVec.lt_def, GT.gt] at hc
    have : (1 : BitVec 64).toNat = 1 := rfl
    omega
  obtain ⟨r1, r2⟩ := round_up hk hm.1 (by omega)
  have e1 : (p + n).toNat = p.toNat + n.toNat := by
    rw [BitVec.toNat_add]; exact Nat.mod_eq_of_lt hm.2.2.2
  refine ⟨e1, r1, r2, ?_, hs.1, hs.2⟩
  have h3 := hm.2.2.2
  have r1' : maxSize.toNat ≤ n.toNat := r1
  have h3' : p.toNat + n.toNat < 2 ^ 64 := h3
  rw [BitVec.toNat_sub, e1]
  omega

/-- C07, POSIX: bounds after any history; `top`, `end` and `min_start` never change. -/
theorem c07_stack_bounds {k : Nat} (hk : k ≤ 63) {startSize maxSize : BitVec 64} {s₀ s : Stack}
    (h : StackHist k startSize maxSize s₀ s) :
    s.minStart ≤ s.start ∧ s.start < s.fin ∧ s.top = s.fin ∧ s.fin = s₀.fin ∧ s.minStart = s₀.minStart ∧
    maxSize.toNat ≤ s.fin.toNat - s.minStart.toNat ∧ s₀.start.toNat = s₀.fin.toNat - startSize.toNat ∧
    s.minStart.toNat % 2 ^ k = 0 ∧ s.fin.toNat % 2 ^ k = 0 := by
  induction h with
  | alloc mallocOk mmap s hm ha =>
    unfold allocStack at ha
    split at ha
    · cases ha
    · next hc =>
      split at ha
      · cases ha
      · simp only at ha
        split at ha
        · cases ha
        · next p hp =>
          cases ha
          have m := hm _ _ hp
          obtain ⟨e1, e2, e3, e4, e5, e6⟩ := alloc_state hk hc m
          simp only [BitVec.le_def, BitVec.lt_def, e1, e4]
          refine ⟨by omega, by omega, trivial, trivial, trivial, by omega, trivial, m.2.1, ?_⟩
          rw [Nat.add_mod, m.2.1, e3]; simp
  | resize s₀ s s' new h hr ih =>
    unfold resizeStack at hr
    split at hr
    · cases hr
    · next hc =>
      simp only [Option.some.injEq] at hr
      subst hr
      simp only [not_or, BitVec.not_lt, ge_iff_le, BitVec.not_le] at hc
      exact ⟨hc.1, hc.2, ih.2.2.1, ih.2.2.2.1, ih.2.2.2.2.1, ih.2.2.2.2.2.1, ih.2.2.2.2.2.2⟩

/-- C07, POSIX: a resize is accepted exactly when the address is inside the reserved area; then `start` is exactly this
address; the memory advised away is inside the reserved area, page aligned, and does not intersect the live part. -/
theorem c07_resize {k : Nat} (hk : k ≤ 63) {startSize maxSize : BitVec 64} {s₀ s : Stack}
    (h : StackHist k startSize maxSize s₀ s) (new : BitVec 64) :
    ((resizeStack (pageMask k) s new).1 ≠ none ↔ s.minStart ≤ new ∧ new < s.fin) ∧
    (∀ s', (resizeStack (pageMask k) s new).1 = some s' → s' = { s with start := new }) ∧
    (∀ r ∈ (resizeStack (pageMask k) s new).2, s.minStart.toNat ≤ r.1.toNat ∧ r.1.toNat + r.2.toNat ≤ new.toNat ∧
      r.1.toNat % 2 ^ k = 0 ∧ r.2.toNat % 2 ^ k = 0 ∧ 0 < r.2.toNat) := by
  obtain ⟨b1, b2, _, _, _, _, _, b8, b9⟩ := c07_stack_bounds hk h
  have hp : 0 < 2 ^ k := Nat.two_pow_pos k
  unfold resizeStack
  split
  · next hc =>
    refine ⟨?_, by simp, by simp⟩
    simp only [ne_eq, not_true_eq_false, false_iff, not_and, BitVec.not_lt]
    rcases hc with hc | hc
    · intro h; simp only [BitVec.lt_def, BitVec.le_def] at hc h; omega
    · exact fun _ => hc
  · next hc =>
    simp only [not_or, BitVec.not_lt, ge_iff_le, BitVec.not_le] at hc
    refine ⟨by simp [hc], by simp only [Option.some.injEq]; rintro s' rfl; rfl, ?_⟩
    dsimp only
    split
    · next hlt =>
      split
      · next hgt =>
        intro r hr
        simp only [List.mem_singleton] at hr
        subst hr
        simp only [BitVec.lt_def, BitVec.le_def, GT.gt] at *
        have e1 := and_mask k hk new
        have e2 := and_mask k hk s.start
        have e3 : (((new &&& ~~~pageMask k) - (s.start &&& ~~~pageMask k))).toNat =
            (new &&& ~~~pageMask k).toNat - (s.start &&& ~~~pageMask k).toNat := BitVec.toNat_sub_of_le (by rw [BitVec.le_def]; omega)
        rw [e3]
        rw [e1, e2] at hgt ⊢
        have l1 := Nat.div_mul_le_self new.toNat (2 ^ k)
        have l2 : s.minStart.toNat ≤ s.start.toNat / 2 ^ k * 2 ^ k := by
          have d := Nat.div_add_mod s.minStart.toNat (2 ^ k)
          have := Nat.div_le_div_right (c := 2 ^ k) b1
          have := Nat.mul_le_mul_right (2 ^ k) this
          rw [Nat.mul_comm] at d
          omega
        refine ⟨l2, by omega, Nat.mul_mod_left _ _, ?_, by omega⟩
        rw [← Nat.sub_mul]; exact Nat.mul_mod_left _ _
      · simp
    · simp

/-- Histories of the simple version (memory from `malloc`). -/
inductive SimpleHist (startSize maxSize : BitVec 64) : Stack → Stack → Prop
  | alloc (mallocOk : Bool) (malloc : BitVec 64 → Option (BitVec 64)) (s : Stack) :
      (∀ n p, malloc n = some p → p.toNat + n.toNat < 2 ^ 64) →
      allocStackSimple startSize maxSize mallocOk malloc = some s → SimpleHist startSize maxSize s s
  | resize (s₀ s s' : Stack) (new : BitVec 64) : SimpleHist startSize maxSize s₀ s →
      resizeStackSimple s new = some s' → SimpleHist startSize maxSize s₀ s'

/-- C07, simple version. -/
theorem c07_stack_bounds_simple {startSize maxSize : BitVec 64} {s₀ s : Stack} (h : SimpleHist startSize maxSize s₀ s) :
    s.minStart ≤ s.start ∧ s.start < s.fin ∧ s.top = s.fin ∧ s.fin = s₀.fin ∧ s.minStart = s₀.minStart ∧
    s.fin.toNat - s.minStart.toNat = maxSize.toNat ∧ s₀.start.toNat = s₀.fin.toNat - startSize.toNat ∧
    ∀ new, (∀ s', resizeStackSimple s new = some s' → s' = { s with start := new }) ∧
      (resizeStackSimple s new ≠ none ↔ s.minStart ≤ new ∧ new < s.fin) := by
  have last : ∀ (s : Stack) new, (∀ s', resizeStackSimple s new = some s' → s' = { s with start := new }) ∧
      (resizeStackSimple s new ≠ none ↔ s.minStart ≤ new ∧ new < s.fin) := by
    intro s new
    unfold resizeStackSimple
    split
    · next hc =>
      refine ⟨by simp, ?_⟩
      simp only [ne_eq, not_true_eq_false, false_iff, not_and, BitVec.not_lt]
      rcases hc with hc | hc
      · intro h; simp only [BitVec.lt_def, BitVec.le_def] at hc h; omega
      · exact fun _ => hc
    · next hc =>
      simp only [not_or, BitVec.not_lt, ge_iff_le, BitVec.not_le] at hc
      refine ⟨by simp only [Option.some.injEq]; rintro s' rfl; rfl, by simp [hc]⟩
  induction h with
  | alloc mallocOk mmap s hm ha =>
    unfold allocStackSimple at ha
    split at ha
    · cases ha
    · next hc =>
      split at ha
      · cases ha
      · split at ha
        · cases ha
        · next p hp =>
          cases ha
          have m := hm _ _ hp
          simp only [not_or, BitVec.lt_def, GT.gt] at hc
          have one : (1 : BitVec 64).toNat = 1 := rfl
          have e1 : (p + maxSize).toNat = p.toNat + maxSize.toNat := by
            rw [BitVec.toNat_add]; exact Nat.mod_eq_of_lt m
          have e4 : (p + maxSize - startSize).toNat = p.toNat + maxSize.toNat - startSize.toNat := by
            rw [BitVec.toNat_sub, e1]; omega
          simp only [BitVec.le_def, BitVec.lt_def, e1, e4]
          refine ⟨by omega, by omega, trivial, trivial, trivial, by omega, trivial, ?_⟩
          intro new
          have := last { minStart := p, fin := p + maxSize, start := p + maxSize - startSize, top := p + maxSize } new
          simpa only [BitVec.le_def, BitVec.lt_def, e1] using this
  | resize s₀ s s' new h hr ih =>
    obtain ⟨_, _, i3, i4, i5, i6, i7, i8⟩ := ih
    obtain ⟨j1, j2⟩ := i8 new
    have hb := j2.mp (by rw [hr]; simp)
    obtain rfl := j1 _ hr
    exact ⟨hb.1, hb.2, i3, i4, i5, i6, i7, last _⟩

/-- Histories of the Windows version. -/
inductive WinHist (k : Nat) (startSize maxSize : BitVec 64) : WinStack → Prop
  | alloc (mallocOk ok : Bool) (reserve : BitVec 64 → Option (BitVec 64)) (w : WinStack) : MmapOk k reserve →
      allocStackWin (pageMask k) startSize maxSize mallocOk reserve ok = some w → WinHist k startSize maxSize w
  | resize (w w' : WinStack) (new : BitVec 64) (ok : Bool) : WinHist k startSize maxSize w →
      resizeStackWin (pageMask k) w new ok = some w' → WinHist k startSize maxSize w'

/-- Invariant: the committed memory is the page aligned hull of the live part. -/
structure WinInv (k : Nat) (maxSize : BitVec 64) (w : WinStack) : Prop where
  lo : w.s.minStart ≤ w.s.start
  hi : w.s.start ≤ w.s.fin
  top : w.s.top = w.s.fin
  size : maxSize.toNat ≤ w.s.fin.toNat - w.s.minStart.toNat
  am : w.s.minStart.toNat % 2 ^ k = 0
  af : w.s.fin.toNat % 2 ^ k = 0
  com : ∀ a, w.committed a ↔ w.s.start.toNat / 2 ^ k * 2 ^ k ≤ a ∧ a < w.s.fin.toNat

theorem win_resize {k : Nat} (hk : k ≤ 63) {maxSize : BitVec 64} {w w' : WinStack} (h : WinInv k maxSize w) {new : BitVec 64} {ok : Bool}
    (hr : resizeStackWin (pageMask k) w new ok = some w') :
    WinInv k maxSize w' ∧ w'.s = { w.s with start := new } ∧ w.s.minStart ≤ new ∧ new < w.s.fin := by
  have hp : 0 < 2 ^ k := Nat.two_pow_pos k
  have e1 := and_mask k hk new
  have e2 := and_mask k hk w.s.start
  have mono : ∀ {a b : Nat}, a ≤ b → a / 2 ^ k * 2 ^ k ≤ b / 2 ^ k * 2 ^ k := fun h =>
    Nat.mul_le_mul_right _ (Nat.div_le_div_right h)
  have hle := h.hi
  have hlo := h.lo
  have ffix : w.s.fin.toNat / 2 ^ k * 2 ^ k = w.s.fin.toNat := Nat.div_mul_cancel (Nat.dvd_of_mod_eq_zero h.af)
  unfold resizeStackWin at hr
  split at hr
  · cases hr
  · next hc =>
    simp only [not_or, BitVec.not_lt, ge_iff_le, BitVec.not_le] at hc
    obtain ⟨c1, c2⟩ := hc
    dsimp only at hr
    have c2' := c2
    rw [BitVec.lt_def] at c2'
    rw [BitVec.le_def] at hle
    have m1 := mono hle
    have m2 := mono (Nat.le_of_lt c2')
    rw [ffix] at m1 m2
    split at hr
    · next hne =>
      split at hr
      · cases hr
      · split at hr
        · next hlt =>
          obtain rfl := Option.some.inj hr
          have e3 := BitVec.toNat_sub_of_le (BitVec.le_of_lt hlt)
          rw [BitVec.lt_def] at hlt
          refine ⟨⟨c1, BitVec.le_of_lt c2, h.top, h.size, h.am, h.af, ?_⟩, rfl, c1, c2⟩
          intro a
          dsimp only
          rw [h.com, e3, e1, e2]
          rw [e1, e2] at hlt
          omega
        · next hnlt =>
          obtain rfl := Option.some.inj hr
          have hge : (w.s.start &&& ~~~pageMask k) ≤ (new &&& ~~~pageMask k) := BitVec.not_lt.mp hnlt
          have e3 := BitVec.toNat_sub_of_le hge
          rw [BitVec.le_def] at hge
          refine ⟨⟨c1, BitVec.le_of_lt c2, h.top, h.size, h.am, h.af, ?_⟩, rfl, c1, c2⟩
          intro a
          dsimp only
          rw [h.com, e3, e1, e2]
          rw [e1, e2] at hge
          omega
    · next heq =>
      obtain rfl := Option.some.inj hr
      refine ⟨⟨c1, BitVec.le_of_lt c2, h.top, h.size, h.am, h.af, ?_⟩, rfl, c1, c2⟩
      intro a
      have : new.toNat / 2 ^ k * 2 ^ k = w.s.start.toNat / 2 ^ k * 2 ^ k := by
        rw [← e1, ← e2]; congr 1; exact Decidable.not_not.mp heq
      dsimp only
      rw [h.com, this]

/-- C07, Windows: bounds after any history; exactly the pages of the live part `[start, end)` are committed. -/
theorem c07_stack_windows {k : Nat} (hk : k ≤ 63) {startSize maxSize : BitVec 64} {w : WinStack}
    (h : WinHist k startSize maxSize w) :
    w.s.minStart ≤ w.s.start ∧ w.s.start < w.s.fin ∧ w.s.top = w.s.fin ∧ maxSize.toNat ≤ w.s.fin.toNat - w.s.minStart.toNat ∧
    (∀ a, w.s.start.toNat ≤ a → a < w.s.fin.toNat → w.committed a) ∧
    (∀ a, w.committed a → a < w.s.fin.toNat ∧ ∃ b, w.s.start.toNat ≤ b ∧ b < w.s.fin.toNat ∧ a / 2 ^ k = b / 2 ^ k) := by
  have hp : 0 < 2 ^ k := Nat.two_pow_pos k
  have key : WinInv k maxSize w ∧ w.s.start < w.s.fin := by
    induction h with
    | alloc mallocOk ok mmap w hm ha =>
      unfold allocStackWin at ha
      split at ha
      · cases ha
      · next hc =>
        split at ha
        · cases ha
        · simp only at ha
          split at ha
          · cases ha
          · next p hp' =>
            have m := hm _ _ hp'
            obtain ⟨e1, e2, e3, e4, e5, e6⟩ := alloc_state hk hc m
            generalize (maxSize + pageMask k) &&& ~~~pageMask k = n at *
            have af : (p.toNat + n.toNat) % 2 ^ k = 0 := by rw [Nat.add_mod, m.2.1, e3]; simp
            obtain ⟨i, e, _, i2⟩ := win_resize hk (maxSize := maxSize) (w := ⟨{ minStart := p, fin := p + n, start := p + n, top := p + n }, fun _ => False⟩) (by
              refine ⟨?_, BitVec.le_refl _, rfl, ?_, m.2.1, ?_, ?_⟩
              · simp only [BitVec.le_def, e1]; omega
              · simp only [e1]; omega
              · simp only [e1]; exact af
              · intro a
                simp only [e1, false_iff]
                rw [Nat.div_mul_cancel (Nat.dvd_of_mod_eq_zero af)]
                omega) ha
            exact ⟨i, by rw [e]; exact i2⟩
    | resize w w' new ok h hr ih =>
      obtain ⟨i, e, _, i2⟩ := win_resize hk ih.1 hr
      exact ⟨i, by rw [e]; exact i2⟩
  obtain ⟨i, hlt⟩ := key
  rw [BitVec.lt_def] at hlt
  refine ⟨i.lo, by rw [BitVec.lt_def]; exact hlt, i.top, i.size, ?_, ?_⟩
  · intro a h1 h2
    exact (i.com a).mpr ⟨Nat.le_trans (Nat.div_mul_le_self _ _) h1, h2⟩
  · intro a ha
    obtain ⟨h1, h2⟩ := (i.com a).mp ha
    refine ⟨h2, ?_⟩
    by_cases hs : w.s.start.toNat ≤ a
    · exact ⟨a, hs, h2, rfl⟩
    · refine ⟨w.s.start.toNat, Nat.le_refl _, hlt, ?_⟩
      apply Nat.le_antisymm
      · exact Nat.div_le_div_right (by omega)
      · exact (Nat.le_div_iff_mul_le hp).mpr h1

/-- The hypotheses are satisfiable: a stack of 10000 bytes with 100 bytes in use, grown to 9000 bytes and then shrunk. -/
example : ∃ s₀ s, StackHist 12 100 10000 s₀ s ∧ s₀.fin = 0x13000 ∧ s.start = 0x12fff ∧
    (resizeStack (pageMask 12) ⟨0x13000, 0x13000, 0x10cd8, 0x10000⟩ 0x12fff).2 = [(0x10000, 0x2000)] := by
  refine ⟨⟨0x13000, 0x13000, 0x12f9c, 0x10000⟩, ⟨0x13000, 0x13000, 0x12fff, 0x10000⟩, ?_, rfl, rfl, by decide⟩
  refine .resize _ ⟨0x13000, 0x13000, 0x10cd8, 0x10000⟩ _ 0x12fff (.resize _ _ _ 0x10cd8 (.alloc true
    (fun n => if n = 0x3000 then some 0x10000 else none) _ ?_ (by decide)) (by decide)) (by decide)
  intro n p h
  dsimp only at h
  split at h
  · next e => subst e; cases h; decide
  · cases h

end Verif.Props
