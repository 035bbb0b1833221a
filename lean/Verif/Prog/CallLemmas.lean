import Verif.Prog.Calls
import Verif.Prog.Rel

/-!
# The interpreter does not depend on memory which it must not touch
-/

namespace Verif.Lir
open Verif.RV

/-- Equal but for the memory in `pr`. -/
structure Agree (pr : BitVec 64 → Bool) (l k : LSt) : Prop where
  reg : k.reg = l.reg
  mem : ∀ q, pr q = false → k.mem q = l.mem q
  z : k.z = l.z
  v : k.v = l.v

/-- The step of one state is the step of the other one, which does not change the memory in `pr`. -/
def Follows (pr : BitVec 64 → Bool) (k : LSt) (l' : LSt) (o : Option LSt) : Prop := ∃ k', o = some k' ∧ Agree pr l' k' ∧ ∀ q, pr q = true → k'.mem q = k.mem q

section
variable {pr pr0 : BitVec 64 → Bool} {l k l' : LSt}

theorem free_mono (hp : ∀ q, pr0 q = true → pr q = true) {n : Nat} {a : BitVec 64} (h : free pr n a = true) : free pr0 n a = true := by
  simp only [free, List.all_eq_true, List.mem_range, Bool.not_eq_true'] at h ⊢
  intro x hx
  have := h x hx
  cases e : pr0 (a + BitVec.ofNat 64 x)
  · rfl
  · rw [hp _ e] at this; cases this

theorem free_get {n : Nat} {a : BitVec 64} (h : free pr n a = true) {i : Nat} (hi : i < n) : pr (a + BitVec.ofNat 64 i) = false := by
  simp only [free, List.all_eq_true, List.mem_range, Bool.not_eq_true'] at h
  exact h i hi

theorem addr_agree (h : Agree pr l k) (b i : Nat) (w : BitVec 64) : addr k b i w = addr l b i w := by
  simp only [addr, word, h.reg]

theorem cell_agree (h : Agree pr l k) (hp : ∀ q, pr0 q = true → pr q = true) {n b i : Nat} {w a : BitVec 64} (e : cell pr n l b i w = some a) :
    cell pr0 n k b i w = some a ∧ free pr (n / 8) a = true := by
  obtain ⟨x, e1, e2⟩ := Option.bind_eq_some_iff.mp e
  split at e2
  · next hf =>
    cases e2
    exact ⟨by rw [cell, addr_agree h, e1]; simp only [Option.bind_some, if_pos (free_mono hp hf)], hf⟩
  · cases e2

theorem ldv_agree (h : Agree pr l k) {n : Nat} {a : BitVec 64} (hf : free pr (n / 8) a = true) : ldv n k.mem a = ldv n l.mem a := by
  have g : ∀ i, i < n / 8 → k.mem (a + BitVec.ofNat 64 i) = l.mem (a + BitVec.ofNat 64 i) := fun i hi => h.mem _ (free_get hf hi)
  have g0 : 0 < n / 8 → k.mem a = l.mem a := fun h0 => by have := g 0 h0; rwa [add_zero64] at this
  unfold ldv
  split
  · simp only [ld8, g0 (by decide)]
  · simp only [ld16, ld8, g0 (by decide), g 1 (by decide)]
  · simp only [ld32, ld16, ld8, BitVec.add_assoc, BitVec.reduceAdd, g0 (by decide), g 1 (by decide), g 2 (by decide), g 3 (by decide)]
  · simp only [ld64, ld32, ld16, ld8, BitVec.add_assoc, BitVec.reduceAdd, g0 (by decide), g 1 (by decide), g 2 (by decide), g 3 (by decide), g 4 (by decide), g 5 (by decide),
      g 6 (by decide), g 7 (by decide)]
  · rfl

theorem read_agree (h : Agree pr l k) (hp : ∀ q, pr0 q = true → pr q = true) {is32 : Bool} {o : Opd} {x : BitVec (wd is32)} (e : read pr is32 l o = some x) :
    read pr0 is32 k o = some x := by
  cases o with
  | reg r => simp only [read, h.reg] at e ⊢; exact e
  | imm v => exact e
  | mem b i w =>
    obtain ⟨a, e1, e2⟩ := Option.map_eq_some_iff.mp e
    obtain ⟨c1, c2⟩ := cell_agree h hp e1
    simp only [read, c1, Option.map_some, ldv_agree h c2, e2]

theorem readN_agree (h : Agree pr l k) (hp : ∀ q, pr0 q = true → pr q = true) {n : Nat} {o : Opd} {x : BitVec n} (e : readN pr n l o = some x) :
    readN pr0 n k o = some x := by
  cases o with
  | reg r => simp only [readN, h.reg] at e ⊢; exact e
  | imm v => exact e
  | mem b i w =>
    obtain ⟨a, e1, e2⟩ := Option.map_eq_some_iff.mp e
    obtain ⟨c1, c2⟩ := cell_agree h hp e1
    simp only [readN, c1, Option.map_some, ldv_agree h c2, e2]

theorem Agree.set (h : Agree pr l k) (r : Nat) (v : Val) : Agree pr (l.set r v) (k.set r v) := ⟨by simp only [LSt.set, h.reg], h.mem, h.z, h.v⟩
theorem Agree.noFlags (h : Agree pr l k) : Agree pr l.noFlags k.noFlags := ⟨h.reg, h.mem, rfl, rfl⟩
theorem Agree.setFlags (h : Agree pr l k) (op : Op) (r : BitVec (wd op.is32)) (f : Bool) : Agree pr (l.setFlags op r f) (k.setFlags op r f) := ⟨h.reg, h.mem, rfl, rfl⟩

theorem writeN_agree (h : Agree pr l k) (hp : ∀ q, pr0 q = true → pr q = true) {n : Nat} {dst : Opd} {v : Val} {x : BitVec n} (e : writeN pr n l dst v x = some l') :
    Follows pr k l' (writeN pr0 n k dst v x) := by
  cases dst with
  | reg r => cases e; exact ⟨_, rfl, h.set r v, fun _ _ => rfl⟩
  | imm v => cases e
  | mem b i w =>
    obtain ⟨a, e1, e2⟩ := Option.map_eq_some_iff.mp e
    obtain ⟨c1, c2⟩ := cell_agree h hp e1
    subst e2
    refine ⟨{ k with mem := stv n k.mem a x }, by simp only [writeN, c1, Option.map_some], ⟨h.reg, fun q hq => ?_, h.z, h.v⟩, fun q hq => ?_⟩
    · exact stv_same (h.mem q hq)
    · refine stv_other fun i hi e => ?_
      rw [e, free_get c2 hi] at hq; cases hq

theorem write_agree (h : Agree pr l k) (hp : ∀ q, pr0 q = true → pr q = true) {is32 : Bool} {dst : Opd} {x : BitVec (wd is32)} (e : write pr is32 l dst x = some l') :
    Follows pr k l' (write pr0 is32 k dst x) := writeN_agree h hp e

theorem unary_agree (h : Agree pr l k) (hp : ∀ q, pr0 q = true → pr q = true) {o : Op1C} {is32 : Bool} {dst src : Opd} (e : unary pr o is32 l dst src = some l') :
    Follows pr k l' (unary pr0 o is32 k dst src) := by
  have hn := h.noFlags
  have rw1 : ∀ {b : Bool} {f : BitVec (wd b) → Option LSt} {g : BitVec (wd b) → Option LSt}, (read pr b l src).bind f = some l' →
      (∀ x, f x = some l' → Follows pr k l' (g x)) → Follows pr k l' ((read pr0 b k src).bind g) := by
    intro b f g e hg
    obtain ⟨x, e1, e2⟩ := Option.bind_eq_some_iff.mp e
    rw [read_agree h hp e1]
    exact hg x e2
  have rw2 : ∀ {n : Nat} {f : BitVec n → Option LSt} {g : BitVec n → Option LSt}, (readN pr n l src).bind f = some l' →
      (∀ x, f x = some l' → Follows pr k l' (g x)) → Follows pr k l' ((readN pr0 n k src).bind g) := by
    intro b f g e hg
    obtain ⟨x, e1, e2⟩ := Option.bind_eq_some_iff.mp e
    rw [readN_agree h hp e1]
    exact hg x e2
  cases o
  case rev =>
    simp only [unary] at e ⊢
    split at e
    · rw [if_pos ‹_›]; exact rw1 e fun x ex => writeN_agree hn hp ex
    · rw [if_neg ‹_›]; exact rw1 e fun x ex => writeN_agree hn hp ex
  all_goals first
    | exact rw1 e fun x ex => write_agree h hp ex
    | exact rw1 e fun x ex => write_agree hn hp ex
    | exact rw2 e fun x ex => write_agree h hp ex
    | exact rw2 e fun x ex => writeN_agree h hp ex
    | exact rw2 e fun x ex => writeN_agree hn hp ex

theorem binary_agree (h : Agree pr l k) (op : Op) (a b : BitVec (wd op.is32)) : binary op k a b = binary op l a b := by
  simp only [binary, h.v]

theorem cond_agree (h : Agree pr l k) (type : Nat) : cond k type = cond l type := by
  simp only [cond, h.v, h.z]

theorem exec_agree (h : Agree pr l k) (hp : ∀ q, pr0 q = true → pr q = true) {ins : Ins} (e : exec pr ins l = some l') : Follows pr k l' (exec pr0 ins k) := by
  have hn := h.noFlags
  cases ins with
  | op0 o is32 =>
    simp only [exec] at e ⊢
    split at e
    · rw [if_pos ‹_›]; cases e; exact ⟨_, rfl, hn, fun _ _ => rfl⟩
    · rw [if_neg ‹_›]
      obtain ⟨a, e1, e⟩ := Option.bind_eq_some_iff.mp e
      obtain ⟨b, e2, e⟩ := Option.bind_eq_some_iff.mp e
      obtain ⟨ab, e3, e⟩ := Option.bind_eq_some_iff.mp e
      cases e
      rw [read_agree h hp e1, Option.bind_some, read_agree h hp e2, Option.bind_some, e3]
      exact ⟨_, rfl, (hn.set _ _).set _ _, fun _ _ => rfl⟩
  | op1 o is32 dst src => exact unary_agree h hp e
  | op2 op dst s1 s2 =>
    obtain ⟨a, e1, e⟩ := Option.bind_eq_some_iff.mp e
    obtain ⟨b, e2, e⟩ := Option.bind_eq_some_iff.mp e
    obtain ⟨rf, e3, e⟩ := Option.bind_eq_some_iff.mp e
    simp only [exec]
    rw [read_agree h hp e1, Option.bind_some, read_agree h hp e2, Option.bind_some, binary_agree h, e3]
    exact write_agree (h.setFlags op rf.1 rf.2) hp e
  | op2u op s1 s2 =>
    obtain ⟨a, e1, e⟩ := Option.bind_eq_some_iff.mp e
    obtain ⟨b, e2, e⟩ := Option.bind_eq_some_iff.mp e
    obtain ⟨rf, e3, e⟩ := Option.bind_eq_some_iff.mp e
    simp only [exec]
    rw [read_agree h hp e1, Option.bind_some, read_agree h hp e2, Option.bind_some, binary_agree h, e3]
    cases e
    exact ⟨_, rfl, h.setFlags op rf.1 rf.2, fun _ _ => rfl⟩
  | shiftInto left is32 nz dst s1 s2 s3 =>
    obtain ⟨a, e1, e⟩ := Option.bind_eq_some_iff.mp e
    obtain ⟨b, e2, e⟩ := Option.bind_eq_some_iff.mp e
    obtain ⟨n, e3, e⟩ := Option.bind_eq_some_iff.mp e
    simp only [exec]
    rw [read_agree h hp e1, Option.bind_some, read_agree h hp e2, Option.bind_some, read_agree h hp e3, Option.bind_some]
    split at e
    · cases e
    · rw [if_neg ‹_›]; exact write_agree hn hp e
  | opFlags code is32 setZ dst type =>
    obtain ⟨t, e1, e⟩ := Option.bind_eq_some_iff.mp e
    simp only [exec]
    rw [cond_agree h, e1, Option.bind_some]
    split at e
    · rw [if_pos ‹_›]; exact write_agree h hp e
    · rw [if_neg ‹_›]
      obtain ⟨old, e2, e⟩ := Option.bind_eq_some_iff.mp e
      rw [read_agree h hp e2, Option.bind_some]
      have h2 : ∀ z, Agree pr { l with z := z, v := none } { k with z := z, v := none } := fun _ => ⟨h.reg, h.mem, rfl, rfl⟩
      exact write_agree (h2 _) hp e
  | select type is32 dst s1 s2 =>
    obtain ⟨t, e1, e⟩ := Option.bind_eq_some_iff.mp e
    obtain ⟨a, e2, e⟩ := Option.bind_eq_some_iff.mp e
    obtain ⟨b, e3, e⟩ := Option.bind_eq_some_iff.mp e
    simp only [exec]
    rw [cond_agree h, e1, Option.bind_some, read_agree h hp e2, Option.bind_some, read_agree h hp e3, Option.bind_some]
    exact write_agree h hp e
  | label => cases e; exact ⟨_, rfl, hn, fun _ _ => rfl⟩
  | _ => cases e

/-- The same for a configuration. -/
def AgreeC (pr : BitVec 64 → Bool) : Conf → Conf → Prop
  | .run r l, .run r' k => r' = r ∧ Agree pr l k
  | .done v m, .done v' m' => v' = v ∧ ∀ q, pr q = false → m' q = m q
  | _, _ => False

def Conf.mem : Conf → Mem
  | .run _ l => l.mem
  | .done _ m => m

theorem step_agree {P : List Ins} (hp : ∀ q, pr0 q = true → pr q = true) {c c' d : Conf} (h : AgreeC pr c d) (e : step pr P c = some c') :
    ∃ d', step pr0 P d = some d' ∧ AgreeC pr c' d' ∧ ∀ q, pr q = true → d'.mem q = d.mem q := by
  match c, d, h with
  | .done v m, _, _ => cases e
  | .run [] l, _, _ => cases e
  | .run (ins :: rest) l, .run _ k, ⟨rfl, h⟩ =>
    have hn := h.noFlags
    have plain : (exec pr ins l).map (Conf.run rest) = some c' → step pr0 P (.run (ins :: rest) k) = (exec pr0 ins k).map (Conf.run rest) →
        ∃ d', step pr0 P (.run (ins :: rest) k) = some d' ∧ AgreeC pr c' d' ∧ ∀ q, pr q = true → d'.mem q = (Conf.run (ins :: rest) k).mem q := by
      intro e es
      obtain ⟨l', e1, e2⟩ := Option.map_eq_some_iff.mp e
      obtain ⟨k', g1, g2, g3⟩ := exec_agree h hp e1
      exact ⟨.run rest k', by rw [es, g1]; rfl, by rw [← e2]; exact ⟨rfl, g2⟩, g3⟩
    have goto : ∀ {n : Nat}, (after n P).map (fun r => Conf.run r l.noFlags) = some c' → step pr0 P (.run (ins :: rest) k) = (after n P).map (fun r => Conf.run r k.noFlags) →
        ∃ d', step pr0 P (.run (ins :: rest) k) = some d' ∧ AgreeC pr c' d' ∧ ∀ q, pr q = true → d'.mem q = (Conf.run (ins :: rest) k).mem q := by
      intro n e es
      obtain ⟨r, e1, e2⟩ := Option.map_eq_some_iff.mp e
      exact ⟨.run r k.noFlags, by rw [es, e1]; rfl, by rw [← e2]; exact ⟨rfl, hn⟩, fun _ _ => rfl⟩
    cases ins with
    | jump type rew n =>
      cases type with
      | none => exact goto e rfl
      | some type =>
        obtain ⟨t, e1, e⟩ := Option.bind_eq_some_iff.mp e
        have es : step pr0 P (.run (.jump (some type) rew n :: rest) k) = if t then (after n P).map fun r => .run r k.noFlags else some (.run rest k) := by
          simp only [step, cond_agree h, e1, Option.bind_some]
        cases t with
        | true => exact goto e es
        | false => exact ⟨_, es, by cases e; exact ⟨rfl, h⟩, fun _ _ => rfl⟩
    | cmp type is32 s1 s2 rew n =>
      obtain ⟨a, e1, e⟩ := Option.bind_eq_some_iff.mp e
      obtain ⟨b, e2, e⟩ := Option.bind_eq_some_iff.mp e
      have es : step pr0 P (.run (.cmp type is32 s1 s2 rew n :: rest) k) = if holds type a b then (after n P).map fun r => .run r k.noFlags else some (.run rest k.noFlags) := by
        simp only [step, read_agree h hp e1, read_agree h hp e2, Option.bind_some]
      cases ht : holds type a b with
      | true => rw [ht] at e es; exact goto e es
      | false => rw [ht] at e es; exact ⟨_, es, by cases e; exact ⟨rfl, hn⟩, fun _ _ => rfl⟩
    | ret o is32 src =>
      obtain ⟨v, e1, e2⟩ := Option.map_eq_some_iff.mp e
      obtain ⟨l1, e3, e4⟩ := Option.bind_eq_some_iff.mp e1
      obtain ⟨k1, g1, g2, g3⟩ := unary_agree h hp e3
      refine ⟨.done (some v) k.mem, ?_, by rw [← e2]; exact ⟨rfl, h.mem⟩, fun _ _ => rfl⟩
      simp only [step, returned, g1, Option.bind_some, g2.reg, e4, Option.map_some]
    | retVoid => cases e; exact ⟨_, rfl, ⟨rfl, h.mem⟩, fun _ _ => rfl⟩
    | call => cases e
    | _ => exact plain e rfl

end
/-! ## Arguments, the stack -/

theorem of_get {b : Bool} {v : Val} {x : BitVec (wd b)} (h : Val.get b v = some x) : Val.of b x = v := by
  cases b <;> cases v <;> first | (cases h; done) | (rw [← Option.some.inj h]; rfl)

theorem argVals_get {l : LSt} : ∀ {args : List Bool} {r : Nat} {vals : List Val}, argVals l r args = some vals →
    ∀ n v, vals[n]? = some v → n < args.length ∧ l.reg (r + n) = some v
  | [], _, vals, h, n, v, hv => by rw [← Option.some.inj h] at hv; simp at hv
  | b :: bs, r, vals, h, n, v, hv => by
    obtain ⟨x, h1, h2⟩ := Option.bind_eq_some_iff.mp h
    obtain ⟨w, h3, h4⟩ := Option.bind_eq_some_iff.mp h1
    obtain ⟨vs, h5, h6⟩ := Option.map_eq_some_iff.mp h2
    rw [← h6] at hv
    cases n with
    | zero =>
      refine ⟨by simp, ?_⟩
      rw [← Option.some.inj hv, of_get h4]; exact h3
    | succ n =>
      obtain ⟨g1, g2⟩ := argVals_get h5 n v hv
      exact ⟨by simpa using g1, by rw [show r + (n + 1) = r + 1 + n by omega]; exact g2⟩

/-- The parts of the stack, `d` being the distance from the stack pointer of the function. -/
theorem within_iff {sp q : BitVec 64} {D : Nat} (hD : D < 2 ^ 64) : within (sp - BitVec.ofNat 64 D) D q = true ↔ 2 ^ 64 ≤ (q - sp).toNat + D := by
  have e : q - (sp - BitVec.ofNat 64 D) = (q - sp) + BitVec.ofNat 64 D := by
    apply BitVec.eq_of_toNat_eq
    simp only [BitVec.toNat_sub, BitVec.toNat_add, BitVec.toNat_ofNat]; omega
  rw [within, decide_eq_true_iff, e, BitVec.toNat_add, BitVec.toNat_ofNat, Nat.mod_eq_of_lt hD]
  have := (q - sp).isLt
  omega

/-- The distance from the stack pointer of the caller. -/
theorem dist_sub {sp q : BitVec 64} {F D : Nat} (hF : F ≤ D) (hD : D < 2 ^ 64) :
    2 ^ 64 ≤ (q - sp).toNat + D ↔ (q - (sp - BitVec.ofNat 64 F)).toNat < F ∨ 2 ^ 64 ≤ (q - (sp - BitVec.ofNat 64 F)).toNat + (D - F) := by
  have e : q - (sp - BitVec.ofNat 64 F) = (q - sp) + BitVec.ofNat 64 F := by
    apply BitVec.eq_of_toNat_eq
    simp only [BitVec.toNat_sub, BitVec.toNat_add, BitVec.toNat_ofNat]; omega
  rw [e, BitVec.toNat_add, BitVec.toNat_ofNat, Nat.mod_eq_of_lt (show F < 2 ^ 64 by omega)]
  have := (q - sp).isLt
  omega

end Verif.Lir
