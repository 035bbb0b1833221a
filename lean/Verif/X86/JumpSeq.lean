import Verif.X86.JumpExec

/-! # The final jump and move address sequences (helper lemmas) -/

namespace Verif.X86

inductive Kind | far (short : Bool) | short | near deriving DecidableEq

/-- The parts of a far jump in front of and after the address. -/
def farPre (win : Bool) (type : Nat) (short : Bool) : List Byte :=
  (if type < JUMP then [getJumpCode (type ^^^ 1) - 0x10#8, if short then 6 + 3 else 10 + 3] else []) ++
    [if short then 0x41#8 else 0x49#8, 0xb8#8 ||| regLmap win TMP_REG2]
def farPost (win : Bool) (type : Nat) : List Byte :=
  [0x41#8, 0xff#8, 0xc0#8 ||| (if 37 ≤ type then 0x10#8 else 0x20#8) ||| regLmap win TMP_REG2]

/-- The bytes of a jump at `a` to `t`. -/
def jumpB (win : Bool) (type : Nat) (t a : BitVec 64) : Kind → List Byte
  | .far s => farPre win type s ++ toLe (if s then 4 else 8) t ++ farPost win type
  | .short => nearOp type true ++ toLe 1 (t - a - BitVec.ofNat 64 (nearOp type true).length - 1#64)
  | .near => nearOp type false ++ toLe 4 (t - a - BitVec.ofNat 64 (nearOp type false).length - 4#64)

/-- The target can be reached. -/
def KindOk (type : Nat) (t a : BitVec 64) : Kind → Prop
  | .far s => s = true → t.toNat ≤ 0xffffffff
  | .short => type ≤ JUMP ∧ isByte (t - a - BitVec.ofNat 64 (nearOp type true).length - 1#64) = true
  | .near => isHalf (t - a - BitVec.ofNat 64 (nearOp type false).length - 4#64) = true

theorem goes_of {c : IMem} {W : List (BitVec 4)} {p : PSt} {b : BitVec 64} (h : step c p = some ⟨p.s, b⟩) : Goes c W p b fun _ => True :=
  ⟨⟨p.s, b⟩, .one h, rfl, fun _ _ => rfl, rfl, rfl, trivial⟩

theorem push_keep (s : St) (v : BitVec 64) : (∀ q, q ≠ 4#4 → (s.push v).r q = s.r q) ∧ (s.push v).f = s.f ∧ (s.push v).r 4#4 = s.r 4#4 - 8#64 ∧
    (s.push v).m = wr s.m (s.r 4#4 - 8#64) 8 v := by
  refine ⟨fun q hq => ?_, rfl, ?_, rfl⟩ <;> simp only [St.push, St.set]
  · rw [if_neg hq]
  · rw [if_true]

theorem near_back (t a : BitVec 64) (n m k : Nat) (h : n + m = k) : a + BitVec.ofNat 64 k + (t - a - BitVec.ofNat 64 n - BitVec.ofNat 64 m) = t := by
  subst h
  rw [BitVec.ofNat_add]
  generalize BitVec.ofNat 64 n = x
  generalize BitVec.ofNat 64 m = y
  bv_omega

theorem short_does {c : IMem} {win : Bool} {type : Nat} {t : BitVec 64} {p : PSt} (hb : BytesAt c p.pc (jumpB win type t p.pc .short))
    (hk : KindOk type t p.pc .short) : JumpDoes c win type t (jumpB win type t p.pc .short).length p := by
  obtain ⟨hty, hd⟩ := hk
  by_cases h : type < JUMP
  · have e : nearOp type true = [getJumpCode type - 0x10#8] := by
      simp only [nearOp, show type ≠ 36 by omega, show ¬ (36 < type) by omega, if_false, if_true]
    simp only [jumpB, e, List.length_cons, List.length_nil, List.cons_append, List.nil_append, toLe_length] at hb hd ⊢
    rw [JumpDoes, if_pos h]
    intro b hc
    rw [taken_cc h] at hc
    have := jcc8_step (code_tab ⟨type, h⟩) hb hd hc
    refine goes_of (this.trans ?_)
    congr 2
    cases b
    · rfl
    · exact near_back t p.pc 1 1 2 rfl
  · have h : type = 36 := by omega
    subst h
    have e : nearOp 36 true = [0xeb#8] := rfl
    simp only [jumpB, e, List.length_cons, List.length_nil, List.cons_append, List.nil_append, toLe_length] at hb hd ⊢
    rw [JumpDoes, if_neg (by decide), if_pos rfl]
    refine goes_of ((jmp8_step hb hd).trans ?_)
    congr 2
    exact near_back t p.pc 1 1 2 rfl

theorem near_does {c : IMem} {win : Bool} {type : Nat} {t : BitVec 64} {p : PSt} (hb : BytesAt c p.pc (jumpB win type t p.pc .near))
    (hk : KindOk type t p.pc .near) : JumpDoes c win type t (jumpB win type t p.pc .near).length p := by
  have hd := hk
  simp only [KindOk] at hd
  by_cases h : type < JUMP
  · have e : nearOp type false = [0x0f#8, getJumpCode type] := by
      simp only [nearOp, show type ≠ 36 by omega, show ¬ (36 < type) by omega, if_false, Bool.false_eq_true]
    simp only [jumpB, e, List.length_cons, List.length_nil, List.cons_append, List.nil_append, toLe_length] at hb hd ⊢
    rw [JumpDoes, if_pos h]
    intro b hc
    rw [taken_cc h] at hc
    have := jcc32_step (code_tab ⟨type, h⟩) hb hd hc
    refine goes_of (this.trans ?_)
    congr 2
    cases b
    · rfl
    · exact near_back t p.pc 2 4 6 rfl
  · by_cases h' : type = 36
    · subst h'
      have e : nearOp 36 false = [0xe9#8] := rfl
      simp only [jumpB, e, List.length_cons, List.length_nil, List.cons_append, List.nil_append, toLe_length] at hb hd ⊢
      rw [JumpDoes, if_neg (by decide), if_pos rfl]
      refine goes_of ((jmp32_step hb hd).trans ?_)
      congr 2
      exact near_back t p.pc 1 4 5 rfl
    · have e : nearOp type false = [0xe8#8] := by
        simp only [nearOp, h', show 36 < type by omega, if_false, if_true]
      simp only [jumpB, e, List.length_cons, List.length_nil, List.cons_append, List.nil_append, toLe_length] at hb hd ⊢
      rw [JumpDoes, if_neg h, if_neg h']
      obtain ⟨k1, k2, k3, k4⟩ := push_keep p.s (p.pc + 5#64)
      exact ⟨_, .one (call32_step hb hd), near_back t p.pc 1 4 5 rfl, fun q _ hq => k1 q hq, k2, k3, k4⟩

theorem tmp2_map (win : Bool) : ∃ k : BitVec 3, regLmap win TMP_REG2 = k.setWidth 8 ∧ num win TMP_REG2 = ext true k := by
  cases win
  · exact ⟨1#3, by decide, by decide⟩
  · exact ⟨2#3, by decide, by decide⟩

theorem num_tmp2 (win : Bool) : num win TMP_REG2 ≠ 4#4 := by cases win <;> decide

/-- mov TMP_REG2, t; jmp TMP_REG2 or call TMP_REG2 -/
theorem far_core {c : IMem} {win : Bool} {s : Bool} {t : BitVec 64} {p : PSt} (ht : s = true → t.toNat ≤ 0xffffffff)
    (hb : BytesAt c p.pc ([if s then 0x41#8 else 0x49#8, 0xb8#8 ||| regLmap win TMP_REG2] ++ toLe (if s then 4 else 8) t)) :
    step c p = some ⟨p.s.set (num win TMP_REG2) t, p.pc + BitVec.ofNat 64 (if s then 6 else 10)⟩ := by
  obtain ⟨k, e1, e2⟩ := tmp2_map win
  have hq : ([if s then 0x41#8 else 0x49#8, 0xb8#8 ||| regLmap win TMP_REG2] ++ toLe (if s then 4 else 8) t) =
      ((if s then 0x41#8 else 0x49#8) :: (0xb8#8 ||| regLmap win TMP_REG2) :: toLe (if !s then 8 else 4) t) := by cases s <;> rfl
  rw [hq] at hb
  have h1 : fld (if s then (0x41#8 : Byte) else 0x49#8) 4 4 = 4#4 := by cases s <;> decide
  have h2 : (if s then (0x41#8 : Byte) else 0x49#8).getLsbD 3 = !s := by cases s <;> decide
  have h3 : (if s then (0x41#8 : Byte) else 0x49#8).getLsbD 0 = true := by cases s <;> decide
  have := step_ins _ hb (by simp only [List.length_cons, toLe_length]; cases s <;> decide)
    (b8_parse k t (by rw [e1]) (!s) h1 h2) (b8_exec k t (by rw [e1]) (!s) h2 (by intro h; exact ht (by simpa using h)) p.s)
  rw [this, h3, ← e2, List.length_cons, List.length_cons, toLe_length]
  cases s <;> rfl

theorem far_does {c : IMem} {win : Bool} {type : Nat} {t : BitVec 64} {p : PSt} {s : Bool} (hb : BytesAt c p.pc (jumpB win type t p.pc (.far s)))
    (hk : KindOk type t p.pc (.far s)) : JumpDoes c win type t (jumpB win type t p.pc (.far s)).length p := by
  obtain ⟨k, e1, e2⟩ := tmp2_map win
  by_cases h : type < JUMP
  · rw [JumpDoes, if_pos h]
    intro b hc
    simp only [jumpB, farPre, h, if_true, List.append_assoc, farPost, show ¬ (37 ≤ type) by omega, if_false] at hb ⊢
    rw [BytesAt.append] at hb
    obtain ⟨hb1, hb2⟩ := hb
    rw [← List.append_assoc, BytesAt.append] at hb2
    obtain ⟨hb2, hb3⟩ := hb2
    have hi : taken (type ^^^ 1) p.s.f = some (!b) := by rw [taken_inv h, hc]; rfl
    rw [taken_cc (inv_tab ⟨type, h⟩)] at hi
    have hj := jcc8_step (d := BitVec.ofNat 64 (if s then 9 else 13)) (code_tab ⟨_, inv_tab ⟨type, h⟩⟩)
      (by have e : toLe 1 (BitVec.ofNat 64 (if s then 9 else 13)) = [if s then 6 + 3 else 10 + 3] := by cases s <;> decide
          rw [e]; exact hb1) (by cases s <;> decide) hi
    cases b
    · refine ⟨_, .one hj, ?_, fun _ _ => rfl, rfl, rfl, trivial⟩
      cases s <;>
        simp only [Bool.not_false, if_true, Bool.false_eq_true, if_false, BitVec.add_assoc, List.length_append, List.length_cons, List.length_nil, toLe_length] <;> rfl
    · have hj' : step c p = some ⟨p.s, p.pc + 2#64⟩ := hj
      have hm := far_core (win := win) (s := s) (t := t) (p := ⟨p.s, p.pc + 2#64⟩) hk hb2
      have hf := jmpReg_step (c := c) (p := ⟨p.s.set (num win TMP_REG2) t, p.pc + 2#64 + BitVec.ofNat 64 (if s then 6 else 10)⟩) k (by
        have e : (0xc0#8 ||| 0x20#8 ||| regLmap win TMP_REG2) = 0xe0#8 ||| k.setWidth 8 := by rw [e1]; rfl
        rw [e] at hb3
        have e' : ([if s then 0x41#8 else 0x49#8, 0xb8#8 ||| regLmap win TMP_REG2] ++ toLe (if s then 4 else 8) t).length = if s then 6 else 10 := by
          simp only [List.length_append, toLe_length]; cases s <;> rfl
        rw [e'] at hb3
        exact hb3)
      refine ⟨_, .step hj' (.step hm (.one hf)), ?_, fun q hq => ?_, rfl, rfl, trivial⟩
      · simp only [St.set, e2, if_true]
      · simp only [St.set]; rw [if_neg (by simpa using hq)]
  · simp only [jumpB, farPre, h, if_false, List.nil_append] at hb ⊢
    rw [BytesAt.append] at hb
    obtain ⟨hb2, hb3⟩ := hb
    have hm := far_core hk hb2
    have e' : ([if s then 0x41#8 else 0x49#8, 0xb8#8 ||| regLmap win TMP_REG2] ++ toLe (if s then 4 else 8) t).length = if s then 6 else 10 := by
      simp only [List.length_append, toLe_length]; cases s <;> rfl
    by_cases h' : type = 36
    · subst h'
      rw [JumpDoes, if_neg (by decide), if_pos rfl]
      have hf := jmpReg_step (c := c) (p := ⟨p.s.set (num win TMP_REG2) t, p.pc + BitVec.ofNat 64 (if s then 6 else 10)⟩) k (by
        rw [e', farPost] at hb3
        have e : (0xc0#8 ||| 0x20#8 ||| regLmap win TMP_REG2) = 0xe0#8 ||| k.setWidth 8 := by rw [e1]; rfl
        simp only [show ¬ (37 ≤ 36) by decide, if_false, e] at hb3
        exact hb3)
      refine ⟨_, .step hm (.one hf), ?_, fun q hq => ?_, rfl, rfl, trivial⟩
      · simp only [St.set, e2, if_true]
      · simp only [St.set]; rw [if_neg (by simpa using hq)]
    · rw [JumpDoes, if_neg h, if_neg h']
      have hf := callReg_step (c := c) (p := ⟨p.s.set (num win TMP_REG2) t, p.pc + BitVec.ofNat 64 (if s then 6 else 10)⟩) k (by
        rw [e', farPost] at hb3
        have e : (0xc0#8 ||| 0x10#8 ||| regLmap win TMP_REG2) = 0xd0#8 ||| k.setWidth 8 := by rw [e1]; rfl
        simp only [show (37 ≤ type) by omega, if_true, e] at hb3
        exact hb3)
      obtain ⟨k1, k2, k3, k4⟩ := push_keep (p.s.set (num win TMP_REG2) t) (p.pc + BitVec.ofNat 64 (if s then 6 else 10) + 3#64)
      have hr4 : (p.s.set (num win TMP_REG2) t).r 4#4 = p.s.r 4#4 := by simp only [St.set]; rw [if_neg (num_tmp2 win).symm]
      refine ⟨_, .step hm (.one hf), ?_, fun q hq hq4 => ?_, k2, ?_, ?_⟩
      · simp only [St.set, e2, if_true]
      · rw [k1 q hq4]; simp only [St.set]; rw [if_neg hq]
      · rw [k3, hr4]
      · rw [k4, hr4]
        congr 1
        rw [List.length_append, e']
        cases s <;> simp only [BitVec.add_assoc, if_true, Bool.false_eq_true, if_false] <;> rfl

theorem jump_does {c : IMem} {win : Bool} {type : Nat} {t : BitVec 64} {p : PSt} {k : Kind} (hb : BytesAt c p.pc (jumpB win type t p.pc k))
    (hk : KindOk type t p.pc k) : JumpDoes c win type t (jumpB win type t p.pc k).length p := by
  cases k with
  | far s => exact far_does hb hk
  | short => exact short_does hb hk
  | near => exact near_does hb hk

/-! ## Move address -/

inductive MKind | lea | full | half deriving DecidableEq

/-- The bytes of a move address at `a`. -/
def movB (win : Bool) (reg : Nat) (t a : BitVec 64) : MKind → List Byte
  | .lea => [if movHi win reg then 0x4c#8 else 0x48#8, 0x8d#8, (((0xb8#8 ||| regLmap win reg) &&& 7#8) <<< 3) ||| 5#8] ++ toLe 4 (t - a - 7#64)
  | .full => (if movHi win reg then 0x49#8 else 0x48#8) :: (0xb8#8 ||| regLmap win reg) :: toLe 8 t
  | .half => (if movHi win reg then [0x41#8] else []) ++ (0xb8#8 ||| regLmap win reg) :: toLe 4 t

def MKindOk (t a : BitVec 64) : MKind → Prop
  | .lea => isHalf (t - a - 7#64) = true
  | .full => True
  | .half => t.toNat ≤ 0xffffffff

theorem lea_tab : ∀ k : BitVec 3, fld ((((0xb8#8 ||| k.setWidth 8) &&& 7#8) <<< 3) ||| 5#8) 6 2 = 0#2 ∧ fld ((((0xb8#8 ||| k.setWidth 8) &&& 7#8) <<< 3) ||| 5#8) 0 3 = 5#3 ∧
    fld ((((0xb8#8 ||| k.setWidth 8) &&& 7#8) <<< 3) ||| 5#8) 3 3 = k := by decide

theorem movHi_high (win : Bool) (reg : Nat) : movHi win reg = high win reg := rfl

theorem mov_does {c : IMem} {win : Bool} {reg : Nat} {t : BitVec 64} {p : PSt} {k : MKind} (hb : BytesAt c p.pc (movB win reg t p.pc k))
    (hk : MKindOk t p.pc k) : Goes c [num win reg] p (p.pc + BitVec.ofNat 64 (movB win reg t p.pc k).length) fun p' => p'.s.r (num win reg) = t := by
  have fin : ∀ b, step c p = some ⟨p.s.set (num win reg) t, b⟩ → Goes c [num win reg] p b fun p' => p'.s.r (num win reg) = t := by
    intro b h
    refine ⟨_, .one h, rfl, fun q hq => ?_, rfl, rfl, ?_⟩ <;> simp only [St.set]
    · rw [if_neg (by simpa using hq)]
    · rw [if_true]
  apply fin
  cases k with
  | lea =>
    simp only [movB, movHi_high, lmap_eq, List.cons_append, List.nil_append] at hb ⊢
    obtain ⟨l1, l2, l3⟩ := lea_tab (low win reg)
    have h1 : fld (if high win reg then (0x4c#8 : Byte) else 0x48#8) 4 4 = 4#4 := by cases high win reg <;> decide
    have h3 : (if high win reg then (0x4c#8 : Byte) else 0x48#8).getLsbD 3 = true := by cases high win reg <;> decide
    have h2 : (if high win reg then (0x4c#8 : Byte) else 0x48#8).getLsbD 2 = high win reg := by cases high win reg <;> decide
    rw [lea_step h1 h3 l1 l2 hb hk, h2, l3, ← num_eq]
    have : p.pc + 7#64 + (t - p.pc - 7#64) = t := by generalize p.pc = a; bv_omega
    rw [this]
    simp only [List.length_cons, toLe_length]
  | full =>
    simp only [movB, movHi_high] at hb ⊢
    have h1 : fld (if high win reg then (0x49#8 : Byte) else 0x48#8) 4 4 = 4#4 := by cases high win reg <;> decide
    have h3 : (if high win reg then (0x49#8 : Byte) else 0x48#8).getLsbD 3 = true := by cases high win reg <;> decide
    have h2 : (if high win reg then (0x49#8 : Byte) else 0x48#8).getLsbD 0 = high win reg := by cases high win reg <;> decide
    have := step_ins _ hb (by simp only [List.length_cons, toLe_length]; decide)
      (b8_parse (low win reg) t (by rw [lmap_eq]) true h1 h3) (b8_exec (low win reg) t (by rw [lmap_eq]) true h3 (by simp) p.s)
    rw [this, h2, ← num_eq]
  | half =>
    simp only [movB, movHi_high] at hb ⊢
    by_cases hh : high win reg = true
    swap
    · have hh : high win reg = false := by simpa using hh
      simp only [hh, Bool.false_eq_true, if_false, List.nil_append] at hb ⊢
      have := step_ins _ hb (by simp only [List.length_cons, toLe_length]; decide)
        (b8_parse0 (low win reg) t (by rw [lmap_eq])) (b8_exec (low win reg) t (by rw [lmap_eq]) false rfl (fun _ => hk) p.s)
      rw [this, num_eq, hh]
      rfl
    · simp only [hh, if_true, List.cons_append, List.nil_append] at hb ⊢
      have := step_ins _ hb (by simp only [List.length_cons, toLe_length]; decide)
        (b8_parse (rex := 0x41#8) (low win reg) t (by rw [lmap_eq]) false (by decide) (by decide)) (b8_exec (low win reg) t (by rw [lmap_eq]) false (by decide) (fun _ => hk) p.s)
      rw [this, num_eq, hh]
      rfl

end Verif.X86
