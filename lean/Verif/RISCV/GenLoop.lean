import Verif.RISCV.GenKind2

/-! # The generating loop: helper lemmas -/

namespace Verif.RV

/-- The memory holds the half words from position `p` on. -/
def MHas (m : HMem) : Nat → List (BitVec 16) → Prop
  | _, [] => True
  | p, h :: hs => m p = h ∧ MHas m (p + 1) hs

theorem MHas_congr {m m' : HMem} {p : Nat} {hs : List (BitVec 16)} (h : ∀ k, p ≤ k → k < p + hs.length → m' k = m k)
    (hm : MHas m p hs) : MHas m' p hs := by
  induction hs generalizing p with
  | nil => trivial
  | cons x xs ih =>
    simp only [List.length_cons] at h
    exact ⟨(h p (by omega) (by omega)).trans hm.1, ih (fun k a b => h k (by omega) (by omega)) hm.2⟩

theorem MHas_append {m : HMem} {p : Nat} {a b : List (BitVec 16)} : MHas m p (a ++ b) ↔ MHas m p a ∧ MHas m (p + a.length) b := by
  induction a generalizing p with
  | nil => simp [MHas]
  | cons x xs ih =>
    simp only [List.cons_append, MHas, ih, List.length_cons, and_assoc]
    rw [show p + (xs.length + 1) = p + 1 + xs.length by omega]

theorem MHas_take {m : HMem} {p : Nat} {a : List (BitVec 16)} (n : Nat) (h : MHas m p a) : MHas m p (a.take n) := by
  rw [← List.take_append_drop n a, MHas_append] at h
  exact h.1

theorem hwr_some {n : Nat} {m : HMem} {i : Nat} {h : BitVec 16} (hi : i < n) :
    hwr n m i h = some (fun k => if k = i then h else m k) := by rw [hwr, if_pos hi]

theorem hcopy_ok {n : Nat} {hs : List (BitVec 16)} : ∀ {m : HMem} {p : Nat}, p + hs.length ≤ n →
    ∃ m', hcopy n hs m p = some m' ∧ MHas m' p hs ∧ ∀ k, k < p ∨ p + hs.length ≤ k → m' k = m k := by
  induction hs with
  | nil => intro m p _; exact ⟨m, rfl, trivial, fun _ _ => rfl⟩
  | cons x xs ih =>
    intro m p hp
    simp only [List.length_cons] at hp
    obtain ⟨m', e, h1, h2⟩ := ih (m := fun k => if k = p then x else m k) (p := p + 1) (by omega)
    refine ⟨m', by rw [hcopy, hwr_some (by omega), Option.bind_some, e], ⟨?_, h1⟩, fun k hk => ?_⟩
    · rw [h2 p (by omega)]; simp
    · simp only [List.length_cons] at hk
      rw [h2 k (by omega), if_neg (by omega)]

/-- The branch in front of a jump once it skips the final jump sequence. -/
def brSkip (k : Kind) : Br → List (BitVec 16)
  | .none => []
  | .b32 f3 a b =>
    let w := BRANCH f3 ||| RS1 a ||| RS2 b ||| BRANCH_LENGTH
    [w.setWidth 16 ^^^ (BRANCH_LENGTH ^^^ (k.skip32 <<< 7)).setWidth 16, (w >>> 16).setWidth 16]
  | .b16 ne r => [((if ne then C_BNEZ else C_BEQZ) ||| C_RS1_R3 r ||| BRANCH16_LENGTH) ^^^ (BRANCH16_LENGTH ^^^ C_BRN16 k.skip16)]

/-- The half words in front of, or below, the final patch. -/
def preW (j : JInfo) (k : Kind) : List (BitVec 16) :=
  match k, j.br with
  | .b16, .b16 ne r => [(((if ne then C_BNEZ else C_BEQZ) ||| C_RS1_R3 r ||| BRANCH16_LENGTH) &&& 0xe383#16) ^^^ 0x2000#16]
  | .b32, .b16 ne r =>
    let c0 := (if ne then C_BNEZ else C_BEQZ) ||| C_RS1_R3 r ||| BRANCH16_LENGTH
    [((BNE.setWidth 16 : BitVec 16) ^^^ ((c0 &&& 0x2000#16) >>> 1)) ||| ((c0 &&& 0x80#16) <<< 8),
     ((c0 &&& 0x300#16) >>> 8) ||| 0x4#16]
  | .b32, .b32 f3 a b =>
    let w := BRANCH f3 ||| RS1 a ||| RS2 b ||| BRANCH_LENGTH
    [((w.setWidth 16 : BitVec 16) &&& 0xf07f#16) ^^^ 0x1000#16, ((w >>> 16).setWidth 16 : BitVec 16) &&& 0x1ff#16]
  | .j16, _ => []
  | k, b => brSkip k b

theorem applyKind_ok (cfg : Cfg) (e : Env) (j : JInfo) (k : Kind) (m : HMem) (p : Nat) (hf : KindFor cfg j k)
    (hm : MHas m p j.br.words) (hn : p + j.br.words.length + ksz j k ≤ e.n) :
    ∃ m', applyKind e j k m (p + j.br.words.length) =
        some (m', p + j.br.words.length + ksz j k, p + j.br.words.length - kback j k) ∧
      kback j k ≤ j.br.words.length ∧ MHas m' p (preW j k) ∧ ∀ q, q < p → m' q = m q := by
  obtain ⟨br, rew, call, tgt⟩ := j
  cases k with
  | b16 =>
    cases br with
    | none => simp [KindFor, Br.cond16] at hf
    | b32 => simp [KindFor, Br.cond16] at hf
    | b16 ne r =>
      simp only [Br.words, w16, List.length_cons, List.length_nil, Nat.zero_add, ksz] at hn ⊢
      simp only [Br.words, w16, MHas, and_true] at hm
      refine ⟨_, by rw [applyKind, Nat.add_sub_cancel, hwr_some (by omega), Option.bind_some]; rfl, by simp [kback], ?_, ?_⟩
      · simp only [preW, MHas, if_true, hm, and_true]
      · intro q hq; (try simp only); rw [if_neg (by omega)]
  | b32 =>
    cases br with
    | none => simp [KindFor, Br.cond] at hf
    | b32 f3 a b =>
      simp only [Br.words, w32, List.length_cons, List.length_nil, Nat.zero_add, Nat.reduceAdd, ksz, Br.cond16, Bool.false_eq_true, if_false] at hn ⊢
      simp only [Br.words, w32, MHas, and_true] at hm
      refine ⟨_, by
        simp only [applyKind, Br.cond16, Bool.false_eq_true, if_false]
        rw [Nat.add_sub_cancel, hwr_some (by omega), Option.bind_some, show p + 2 - 1 = p + 1 by omega, hwr_some (by omega), Option.bind_some]
        rfl, by simp [kback, Br.cond16], ?_, ?_⟩
      · simp only [preW, MHas, and_true, if_true]
        refine ⟨?_, ?_⟩
        · rw [if_neg (by omega), hm.1]
        · rw [if_neg (by omega), hm.2]
      · intro q hq; (try simp only); rw [if_neg (by omega), if_neg (by omega)]
    | b16 ne r =>
      simp only [Br.words, w16, List.length_cons, List.length_nil, Nat.zero_add, Nat.reduceAdd, ksz, Br.cond16, if_true] at hn ⊢
      simp only [Br.words, w16, MHas, and_true] at hm
      refine ⟨_, by
        simp only [applyKind, Br.cond16, if_true]
        rw [Nat.add_sub_cancel, hwr_some (by omega), Option.bind_some, hwr_some (by omega), Option.bind_some]
        rfl, by simp [kback, Br.cond16], ?_, ?_⟩
      · simp only [preW, MHas, and_true, if_true]
        refine ⟨?_, ?_⟩
        · rw [hm]
        · rw [if_neg (by omega), hm]
      · intro q hq; (try simp only); rw [if_neg (by omega), if_neg (by omega)]
  | j16 =>
    refine ⟨m, by rw [applyKind]; simp [ksz, kback], by simp [kback], by simp [preW, MHas], fun _ _ => rfl⟩
  | j32 =>
    cases br with
    | none =>
      refine ⟨m, by simp [applyKind, Br.words, ksz, kback], by simp [kback], by simp [preW, brSkip, MHas], fun _ _ => rfl⟩
    | b32 f3 a b =>
      simp only [Br.words, w32, List.length_cons, List.length_nil, Nat.zero_add, Nat.reduceAdd, ksz] at hn ⊢
      simp only [Br.words, w32, MHas, and_true] at hm
      refine ⟨_, by
        simp only [applyKind]
        rw [Nat.add_sub_cancel, hwr_some (by omega), Option.bind_some]
        rfl, by simp [kback], ?_, ?_⟩
      · simp only [preW, brSkip, MHas, and_true, if_true]
        refine ⟨?_, ?_⟩
        · rw [hm.1]
        · rw [if_neg (by omega), hm.2]
      · intro q hq; (try simp only); rw [if_neg (by omega)]
    | b16 ne r =>
      simp only [Br.words, w16, List.length_cons, List.length_nil, Nat.zero_add, Nat.reduceAdd, ksz] at hn ⊢
      simp only [Br.words, w16, MHas, and_true] at hm
      refine ⟨_, by
        simp only [applyKind]
        rw [Nat.add_sub_cancel, hwr_some (by omega), Option.bind_some]
        rfl, by simp [kback], ?_, ?_⟩
      · simp only [preW, brSkip, MHas, and_true, if_true]
        rw [hm]
      · intro q hq; (try simp only); rw [if_neg (by omega)]
  | seq pt =>
    have hq : ∃ q, q + 1 = ksz ⟨br, rew, call, tgt⟩ (.seq pt) ∧ 1 ≤ q ∧ (Kind.seq pt).jalrOffset = q := by
      cases pt <;> simp [ksz, Patch.len, Kind.jalrOffset]
    obtain ⟨q, hq1, hq2, hq3⟩ := hq
    rw [← hq1] at hn ⊢
    cases br with
    | none =>
      simp only [Br.words, List.length_nil, Nat.add_zero] at hn ⊢
      refine ⟨_, by
        simp only [applyKind, hq3, Option.bind_some]
        rw [hwr_some (by omega), Option.bind_some, hwr_some (by omega), Option.bind_some]
        rfl, by simp [kback], by simp [preW, brSkip, MHas], ?_⟩
      intro x hx; (try simp only); rw [if_neg (by omega), if_neg (by omega)]
    | b32 f3 a b =>
      simp only [Br.words, w32, List.length_cons, List.length_nil, Nat.zero_add, Nat.reduceAdd] at hn ⊢
      simp only [Br.words, w32, MHas, and_true] at hm
      refine ⟨_, by
        simp only [applyKind, hq3]
        rw [Nat.add_sub_cancel, hwr_some (by omega), Option.bind_some, hwr_some (by omega), Option.bind_some, hwr_some (by omega), Option.bind_some]
        rfl, by simp [kback], ?_, ?_⟩
      · simp only [preW, brSkip, MHas, and_true, if_true]
        refine ⟨?_, ?_⟩
        · rw [if_neg (by omega), if_neg (by omega), hm.1]
        · rw [if_neg (by omega), if_neg (by omega), if_neg (by omega), hm.2]
      · intro x hx; (try simp only); rw [if_neg (by omega), if_neg (by omega), if_neg (by omega)]
    | b16 ne r =>
      simp only [Br.words, w16, List.length_cons, List.length_nil, Nat.zero_add, Nat.reduceAdd] at hn ⊢
      simp only [Br.words, w16, MHas, and_true] at hm
      refine ⟨_, by
        simp only [applyKind, hq3]
        rw [Nat.add_sub_cancel, hwr_some (by omega), Option.bind_some, hwr_some (by omega), Option.bind_some, hwr_some (by omega), Option.bind_some]
        rfl, by simp [kback], ?_, ?_⟩
      · simp only [preW, brSkip, MHas, and_true, if_true]
        rw [if_neg (by omega), if_neg (by omega), hm]
      · intro x hx; (try simp only); rw [if_neg (by omega), if_neg (by omega), if_neg (by omega)]

end Verif.RV
