import Verif.Calls.Shuffle
/-
Helper lemmas for the argument shuffles: which half a half holds after a list of copies, and that the emitted code depends only on
the classes of the argument types.
-/

namespace Verif.Calls

/-- Where the value of a half comes from after the effects. -/
def origin : List Step → Loc → Option Loc
  | [], l => some l
  | s :: ss, l =>
    match origin ss l with
    | none => none
    | some l' =>
      match s with
      | .copy d x => if l' = d then some x else some l'
      | .junk d => if l' = d then none else some l'

theorem origin_exec (j : Loc → BitVec 32) (ss : List Step) (r : Regs) (l l' : Loc) (h : origin ss l = some l') :
    execAll j ss r l = r l' := by
  induction ss generalizing r l' with
  | nil => simp only [origin, Option.some.injEq] at h; subst h; rfl
  | cons s ss ih =>
    simp only [origin] at h
    cases ho : origin ss l with
    | none => rw [ho] at h; cases h
    | some l1 =>
      rw [ho] at h
      simp only [execAll]
      rw [ih _ _ ho]
      cases s with
      | copy d x =>
        simp only [Step.exec]
        simp only at h
        split at h <;> rename_i hl <;> simp only [Option.some.injEq] at h <;> subst h <;> simp [hl]
      | junk d =>
        simp only [Step.exec]
        simp only at h
        split at h <;> rename_i hl
        · cases h
        · simp only [Option.some.injEq] at h; subst h; simp [hl]

/-- The half an effect writes. -/
def Step.dst : Step → Loc
  | .copy d _ => d
  | .junk d => d

theorem exec_out (j : Loc → BitVec 32) (ss : List Step) (r : Regs) (l : Loc) (h : ∀ s ∈ ss, s.dst ≠ l) : execAll j ss r l = r l := by
  induction ss generalizing r with
  | nil => rfl
  | cons s ss ih =>
    simp only [execAll]
    rw [ih _ fun x hx => h x (List.mem_cons_of_mem _ hx)]
    have := h s List.mem_cons_self
    cases s <;> simp only [Step.exec, Step.dst] at * <;> rw [if_neg (Ne.symm this)]

/-! ## Descriptors -/

/-- The descriptor without the type of the result. -/
def pack : List Nat → Nat
  | [] => 0
  | c :: cs => c + 16 * pack cs

/-- Two type codes which every loop treats alike. -/
def Alike (a b : Nat) : Prop :=
  0 < a % 8 ∧ a < 16 ∧ 0 < b % 8 ∧ b < 16 ∧ (a % 8 = 4 ↔ b % 8 = 4) ∧ (a % 8 = 5 ↔ b % 8 = 5) ∧ (a % 8 < 4 ↔ b % 8 < 4)

/-- Lists of alike codes. -/
inductive Same (R : Nat → Nat → Prop) : List Nat → List Nat → Prop
  | nil : Same R [] []
  | cons {a b l m} : R a b → Same R l m → Same R (a :: l) (b :: m)

theorem pack_facts {c : Nat} {cs : List Nat} (h0 : 0 < c % 8) (h : c < 16) :
    pack (c :: cs) ≠ 0 ∧ pack (c :: cs) % 8 = c % 8 ∧ pack (c :: cs) / 16 = pack cs ∧ pack (c :: cs) / 8 % 2 = c / 8 % 2 := by
  simp only [pack]; omega

theorem isFloat_alike {a b : Nat} (h : Alike a b) : isFloat (a % 8) = isFloat (b % 8) := by
  obtain ⟨_, _, _, _, h4, h5, _⟩ := h
  simp only [isFloat]
  rw [Bool.eq_iff_iff]
  simp [h4, h5]

/-- The loops see the same classes and the same counters. -/
def ScanSame (c d : Scan) : Prop :=
  (∃ l m, Same Alike l m ∧ c.types = pack l ∧ d.types = pack m) ∧ c.args = d.args ∧ c.words = d.words ∧ c.floats = d.floats

theorem scan_same {l m : List Nat} (h : Same Alike l m) : ∀ {c d : Scan}, ScanSame c d → ScanSame (scan (pack l) c) (scan (pack m) d) := by
  induction h with
  | nil => intro c d h; have e : pack [] = 0 := rfl; rw [scan.eq_def _ c, scan.eq_def _ d, dif_pos e, dif_pos e]; exact h
  | @cons a b l m hab _ ih =>
    intro c d hcd
    obtain ⟨⟨tl, tm, ht, e1, e2⟩, h1, h2, h3⟩ := hcd
    obtain ⟨n1, n2, n3, _⟩ := pack_facts (cs := l) hab.1 hab.2.1
    obtain ⟨m1, m2, m3, _⟩ := pack_facts (cs := m) hab.2.2.1 hab.2.2.2.1
    rw [scan.eq_def (pack (a :: l)), dif_neg n1, scan.eq_def (pack (b :: m)), dif_neg m1, n2, n3, m2, m3]
    apply ih
    refine ⟨⟨a % 8 :: tl, b % 8 :: tm, .cons ?_ ht, ?_, ?_⟩, ?_, ?_, ?_⟩
    · obtain ⟨p1, p2, p3, p4, p5, p6, p7⟩ := hab
      unfold Alike; simp only [Nat.mod_mod]; exact ⟨p1, by omega, p3, by omega, p5, p6, p7⟩
    · simp only [pack, e1]; omega
    · simp only [pack, e2]; omega
    · simp only [h1]
    · simp only [isFloat_alike hab, h2]
    · simp only [isFloat_alike hab, h3]

theorem scan_start {l m : List Nat} (h : Same Alike l m) : ScanSame (scan (pack l) ⟨0, 0, 0, 0⟩) (scan (pack m) ⟨0, 0, 0, 0⟩) :=
  scan_same h ⟨⟨[], [], .nil, rfl, rfl⟩, rfl, rfl, rfl⟩

theorem mips_moveOf {a b : Nat} (h : Alike a b) (x w f : Nat) : Mips.moveOf (a % 8) x w f = Mips.moveOf (b % 8) x w f := by
  obtain ⟨_, _, _, _, h4, h5, _⟩ := h
  simp only [Mips.moveOf, h4, h5]

theorem mips_moves {l m : List Nat} (h : Same Alike l m) (a w f : Nat) (p : BitVec 32) : Mips.moves (pack l) a w f p = Mips.moves (pack m) a w f p := by
  induction h generalizing a w f p with
  | nil => rfl
  | @cons x y l m hab _ ih =>
    obtain ⟨n1, n2, n3, _⟩ := pack_facts (cs := l) hab.1 hab.2.1
    obtain ⟨m1, m2, m3, _⟩ := pack_facts (cs := m) hab.2.2.1 hab.2.2.2.1
    rw [Mips.moves.eq_def (pack (x :: l)), dif_neg n1, Mips.moves.eq_def (pack (y :: m)), dif_neg m1, n2, n3, m2, m3]
    simp only [isFloat_alike hab, mips_moveOf hab, ih]

theorem mips_same {l m : List Nat} (h : Same Alike l m) (p : BitVec 32) :
    (fun c : Scan => Mips.moves c.types c.args c.words c.floats p) (scan (pack l) ⟨0, 0, 0, 0⟩) =
      (fun c : Scan => Mips.moves c.types c.args c.words c.floats p) (scan (pack m) ⟨0, 0, 0, 0⟩) := by
  obtain ⟨⟨tl, tm, ht, e1, e2⟩, h1, h2, h3⟩ := scan_start h
  simp only [e1, e2, h1, h2, h3]
  exact mips_moves ht _ _ _ _

theorem ppc_moves {l m : List Nat} (h : Same Alike l m) (a w : Nat) : Ppc.moves (pack l) a w = Ppc.moves (pack m) a w := by
  induction h generalizing a w with
  | nil => rfl
  | @cons x y l m hab _ ih =>
    obtain ⟨n1, n2, n3, _⟩ := pack_facts (cs := l) hab.1 hab.2.1
    obtain ⟨m1, m2, m3, _⟩ := pack_facts (cs := m) hab.2.2.1 hab.2.2.2.1
    rw [Ppc.moves.eq_def (pack (x :: l)), dif_neg n1, Ppc.moves.eq_def (pack (y :: m)), dif_neg m1, n2, n3, m2, m3]
    simp only [isFloat_alike hab, ih]

theorem ppc_saveSrc {l m : List Nat} (h : Same Alike l m) (a w reg src : Nat) :
    Ppc.saveSrc (pack l) a w reg src = Ppc.saveSrc (pack m) a w reg src := by
  induction h generalizing a w src with
  | nil => rfl
  | @cons x y l m hab _ ih =>
    obtain ⟨n1, n2, n3, _⟩ := pack_facts (cs := l) hab.1 hab.2.1
    obtain ⟨m1, m2, m3, _⟩ := pack_facts (cs := m) hab.2.2.1 hab.2.2.2.1
    rw [Ppc.saveSrc.eq_def (pack (x :: l)), dif_neg n1, Ppc.saveSrc.eq_def (pack (y :: m)), dif_neg m1, n2, n3, m2, m3]
    simp only [isFloat_alike hab, ih]

theorem x86_countWords {l m : List Nat} (h : Same Alike l m) (n : Nat) : X86.countWords (pack l) n = X86.countWords (pack m) n := by
  induction h generalizing n with
  | nil => rfl
  | @cons x y l m hab _ ih =>
    obtain ⟨n1, n2, n3, _⟩ := pack_facts (cs := l) hab.1 hab.2.1
    obtain ⟨m1, m2, m3, _⟩ := pack_facts (cs := m) hab.2.2.1 hab.2.2.2.1
    rw [X86.countWords.eq_def (pack (x :: l)), dif_neg n1, X86.countWords.eq_def (pack (y :: m)), dif_neg m1, n2, n3, m2, m3]
    simp only [hab.2.2.2.2.2.2, ih]

theorem x86_winScan {l m : List Nat} (h : Same Alike l m) (a w f src : Nat) (tr : Bool) (now : Nat) :
    X86.winScan (pack l) a w f src tr now = X86.winScan (pack m) a w f src tr now := by
  induction h generalizing a w f tr now with
  | nil => rfl
  | @cons x y l m hab _ ih =>
    obtain ⟨n1, n2, n3, _⟩ := pack_facts (cs := l) hab.1 hab.2.1
    obtain ⟨m1, m2, m3, _⟩ := pack_facts (cs := m) hab.2.2.1 hab.2.2.2.1
    rw [X86.winScan.eq_def (pack (x :: l)), dif_neg n1, X86.winScan.eq_def (pack (y :: m)), dif_neg m1, n2, n3, m2, m3]
    simp only [isFloat_alike hab, ih]

theorem x86_winMoves {l m : List Nat} (h : Same Alike l m) (a w f : Nat) : X86.winMoves (pack l) a w f = X86.winMoves (pack m) a w f := by
  induction h generalizing a w f with
  | nil => rfl
  | @cons x y l m hab _ ih =>
    obtain ⟨n1, n2, n3, _⟩ := pack_facts (cs := l) hab.1 hab.2.1
    obtain ⟨m1, m2, m3, _⟩ := pack_facts (cs := m) hab.2.2.1 hab.2.2.2.1
    rw [X86.winMoves.eq_def (pack (x :: l)), dif_neg n1, X86.winMoves.eq_def (pack (y :: m)), dif_neg m1, n2, n3, m2, m3]
    simp only [hab.2.2.2.2.1, hab.2.2.2.2.2.1, ih]

theorem arm_moves {l m : List Nat} (h : Same Alike l m) (th : Bool) (o n f : Nat) : Arm.moves th (pack l) o n f = Arm.moves th (pack m) o n f := by
  induction h generalizing o n f with
  | nil => rfl
  | @cons x y l m hab _ ih =>
    obtain ⟨n1, n2, n3, _⟩ := pack_facts (cs := l) hab.1 hab.2.1
    obtain ⟨m1, m2, m3, _⟩ := pack_facts (cs := m) hab.2.2.1 hab.2.2.2.1
    rw [Arm.moves.eq_def _ (pack (x :: l)), dif_neg n1, Arm.moves.eq_def _ (pack (y :: m)), dif_neg m1, n2, n3, m2, m3]
    simp only [hab.2.2.2.2.1, hab.2.2.2.2.2.1, ih]

/-- Alike, and both kept in a scratch register or both not (it matters for words only). -/
def AlikeS (a b : Nat) : Prop := Alike a b ∧ a / 8 % 2 = b / 8 % 2

theorem arm_enter {l m : List Nat} (h : Same AlikeS l m) (o n f w s : Nat) (rm : List (BitVec 32)) :
    Arm.enterMoves (pack l) o n f w s rm = Arm.enterMoves (pack m) o n f w s rm := by
  induction h generalizing o n f w s rm with
  | nil => rfl
  | @cons x y l m hab _ ih =>
    obtain ⟨hab, hs⟩ := hab
    obtain ⟨n1, n2, n3, n4⟩ := pack_facts (cs := l) hab.1 hab.2.1
    obtain ⟨m1, m2, m3, m4⟩ := pack_facts (cs := m) hab.2.2.1 hab.2.2.2.1
    rw [Arm.enterMoves.eq_def (pack (x :: l)), dif_neg n1, Arm.enterMoves.eq_def (pack (y :: m)), dif_neg m1, n2, n3, n4, m2, m3, m4, hs]
    simp only [hab.2.2.2.2.1, hab.2.2.2.2.2.1, ih]

theorem Same.mono {R S : Nat → Nat → Prop} (h : ∀ a b, R a b → S a b) {l m : List Nat} (hs : Same R l m) : Same S l m := by
  induction hs with
  | nil => exact .nil
  | cons hab _ ih => exact .cons (h _ _ hab) ih

end Verif.Calls
