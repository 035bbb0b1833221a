import Verif.X86.GenSpec
import Verif.X86.MachLemmas

/-! # Executing the jump sequences (helper lemmas) -/

namespace Verif.X86

theorem step_ins {c : IMem} {p : PSt} {bs : List Byte} (i : Inst) {s' : St} (hb : BytesAt c p.pc bs) (hl : bs.length ≤ 15)
    (hp : ∀ rest, parse (bs ++ rest) = some (i, rest)) (he : exec i p.s = some s') : step c p = some ⟨s', p.pc + BitVec.ofNat 64 bs.length⟩ := by
  obtain ⟨rest, e, l⟩ := fetch_append hb hl
  have : 15 - rest.length = bs.length := by omega
  simp only [step, e, hp, he, Option.bind_some, Option.map_some, this]

/-! ## mov r, imm -/

/-- mov r, imm64 and mov r, imm32. -/
theorem b8_parse {rex op : Byte} (k : BitVec 3) (v : BitVec 64) (ho : op = 0xb8#8 ||| k.setWidth 8) (w : Bool) (hr : fld rex 4 4 = 4#4)
    (hw : rex.getLsbD 3 = w) (rest : List Byte) : parse ((rex :: op :: toLe (if w then 8 else 4) v) ++ rest) =
      some (.short 0#8 rex 0 op (sext (if w then 8 else 4) v), rest) := by
  have hop : ∀ k : BitVec 3, (0xb8#8 ||| k.setWidth 8) ≠ 0x0f#8 ∧ (0xb8#8 ||| k.setWidth 8) ≠ 0xa9#8 ∧ fld (0xb8#8 ||| k.setWidth 8) 6 2 ≠ 0#2 ∧
      fld (0xb8#8 ||| k.setWidth 8) 3 5 = 0b10111#5 := by decide
  obtain ⟨o1, o2, o3, o4⟩ := hop k
  rw [← ho] at o1 o2 o3 o4
  have hs := sle_toLe (n := if w then 8 else 4) (by split <;> decide) (by split <;> decide) v rest
  rw [List.cons_append, List.cons_append, parse_rex hr o1]
  cases w <;> simp only [parseOp, shortSize, o2, o3, o4, hw, Nat.zero_ne_one, if_true, if_false, false_and, or_self, Bool.false_eq_true, show ¬ (0#8 = 0x66#8) by decide] at hs ⊢ <;>
    simp only [hs, Option.map_some]

/-- mov r, imm32 without a prefix. -/
theorem b8_parse0 {op : Byte} (k : BitVec 3) (v : BitVec 64) (ho : op = 0xb8#8 ||| k.setWidth 8) (rest : List Byte) :
    parse ((op :: toLe 4 v) ++ rest) = some (.short 0#8 0#8 0 op (sext 4 v), rest) := by
  have hop : ∀ k : BitVec 3, (0xb8#8 ||| k.setWidth 8) ≠ 0x0f#8 ∧ (0xb8#8 ||| k.setWidth 8) ≠ 0xa9#8 ∧ fld (0xb8#8 ||| k.setWidth 8) 6 2 ≠ 0#2 ∧
      fld (0xb8#8 ||| k.setWidth 8) 3 5 = 0b10111#5 ∧ ¬ ((0xb8#8 ||| k.setWidth 8) = 0x66#8 ∨ (0xb8#8 ||| k.setWidth 8) = 0xf2#8 ∨ (0xb8#8 ||| k.setWidth 8) = 0xf3#8) ∧
      fld (0xb8#8 ||| k.setWidth 8) 4 4 ≠ 4#4 := by decide
  obtain ⟨o1, o2, o3, o4, o5, o6⟩ := hop k
  rw [← ho] at o1 o2 o3 o4 o5 o6
  have hs := sle_toLe (n := 4) (by decide) (by decide) v rest
  simp only [List.cons_append, parse, o5, if_false, parseRex, o6, parseMap, o1, parseOp, shortSize, o2, o3, o4, Nat.zero_ne_one, if_true, false_and, or_self,
    show ¬ (0#8 = 0x66#8) by decide, show (0#8 : Byte).getLsbD 3 = false by decide, Bool.false_eq_true, hs, Option.map_some]

theorem sext8' (v : BitVec 64) : sext 8 v = v := by simp [sext]

theorem b8_exec {rex op : Byte} (k : BitVec 3) (v : BitVec 64) (ho : op = 0xb8#8 ||| k.setWidth 8) (w : Bool) (hw : rex.getLsbD 3 = w)
    (hv : w = false → v.toNat ≤ 0xffffffff) (s : St) :
    exec (.short 0#8 rex 0 op (sext (if w then 8 else 4) v)) s = some (s.set (ext (rex.getLsbD 0) k) v) := by
  have hop : ∀ k : BitVec 3, (0xb8#8 ||| k.setWidth 8) ≠ 0xa9#8 ∧ fld (0xb8#8 ||| k.setWidth 8) 3 5 = 0b10111#5 ∧ fld (0xb8#8 ||| k.setWidth 8) 0 3 = k := by decide
  obtain ⟨o2, o4, o5⟩ := hop k
  rw [← ho] at o2 o4 o5
  simp only [exec, Nat.zero_ne_one, if_false, o2, o4, if_true, o5, put]
  congr 2
  cases w
  · have e : opSize 0#8 rex = 4 := by simp only [opSize, hw, Bool.false_eq_true, if_false]; decide
    have h := hv rfl
    simp only [e, show ¬ (4 < 4) by decide, if_false]
    apply BitVec.eq_of_getLsbD_eq
    intro i hi
    rw [BitVec.getLsbD_and, sext_bit (by decide) (by decide) v hi, BitVec.getLsbD_ushiftRight, BitVec.getLsbD_allOnes]
    by_cases h8 : i < 32
    · simp [h8, -BitVec.getLsbD_eq_getElem, show 64 - 8 * 4 + i < 64 by omega]
    · have : v.getLsbD i = false := by
        rw [BitVec.getLsbD, Nat.testBit_lt_two_pow]
        exact Nat.lt_of_lt_of_le (show v.toNat < 2 ^ 32 by omega) (Nat.pow_le_pow_right (by decide) (by omega))
      rw [this]
      simp [h8]
      omega
  · have e : opSize 0#8 rex = 8 := by simp only [opSize, hw, if_true]
    simp only [e, show ¬ (8 < 4) by decide, if_false, if_true, sext8']
    exact BitVec.and_allOnes ..

/-! ## Control instructions -/

theorem jmp8_step {c : IMem} {p : PSt} {d : BitVec 64} (hb : BytesAt c p.pc (0xeb#8 :: toLe 1 d)) (hd : isByte d = true) :
    step c p = some ⟨p.s, p.pc + 2#64 + d⟩ := by
  refine step_ctl (k := .jmp d) hb (by rw [List.length_cons, toLe_length]; decide) (fun rest => ctl0_exec (by decide) _) (fun rest => ?_) (by rw [List.length_cons, toLe_length]; rfl)
  simp only [List.cons_append, ctl, if_true, sle_toLe (n := 1) (by decide) (by decide), sext_byte hd, Option.map_some]

theorem jmp32_step {c : IMem} {p : PSt} {d : BitVec 64} (hb : BytesAt c p.pc (0xe9#8 :: toLe 4 d)) (hd : isHalf d = true) :
    step c p = some ⟨p.s, p.pc + 5#64 + d⟩ := by
  refine step_ctl (k := .jmp d) hb (by rw [List.length_cons, toLe_length]; decide) (fun rest => ctl0_exec (by decide) _) (fun rest => ?_) (by rw [List.length_cons, toLe_length]; rfl)
  simp only [List.cons_append, ctl, if_true, show ¬ (0xe9#8 = 0xeb#8) by decide, if_false, sle_toLe (n := 4) (by decide) (by decide), sext_half hd, Option.map_some]

theorem call32_step {c : IMem} {p : PSt} {d : BitVec 64} (hb : BytesAt c p.pc (0xe8#8 :: toLe 4 d)) (hd : isHalf d = true) :
    step c p = some ⟨p.s.push (p.pc + 5#64), p.pc + 5#64 + d⟩ := by
  refine step_ctl (k := .call d) hb (by rw [List.length_cons, toLe_length]; decide) (fun rest => ctl0_exec (by decide) _) (fun rest => ?_) (by rw [List.length_cons, toLe_length]; rfl)
  simp only [List.cons_append, ctl, if_true, show ¬ (0xe8#8 = 0xeb#8) by decide, show ¬ (0xe8#8 = 0xe9#8) by decide, if_false, sle_toLe (n := 4) (by decide) (by decide), sext_half hd, Option.map_some]

theorem jcc_tab : ∀ op : Byte, fld op 4 4 = 8#4 → ctl0 (op - 0x10#8) = true ∧ op - 0x10#8 ≠ 0xeb#8 ∧ op - 0x10#8 ≠ 0xe9#8 ∧ op - 0x10#8 ≠ 0xe8#8 ∧
    op - 0x10#8 ≠ 0x90#8 ∧ op - 0x10#8 ≠ 0xc3#8 ∧ fld (op - 0x10#8) 4 4 = 7#4 ∧ fld (op - 0x10#8) 0 4 = fld op 0 4 := by decide +kernel

theorem jcc8_step {c : IMem} {p : PSt} {op : Byte} {d : BitVec 64} {b : Bool} (ho : fld op 4 4 = 8#4) (hb : BytesAt c p.pc ((op - 0x10#8) :: toLe 1 d))
    (hd : isByte d = true) (hc : ccF (fld op 0 4) p.s.f = some b) :
    step c p = some ⟨p.s, if b then p.pc + 2#64 + d else p.pc + 2#64⟩ := by
  obtain ⟨o1, o2, o3, o4, o5, o6, o7, o8⟩ := jcc_tab op ho
  refine step_ctl (k := .jcc (fld op 0 4) d) hb (by rw [List.length_cons, toLe_length]; decide) (fun rest => ctl0_exec o1 _) (fun rest => ?_) ?_
  · simp only [List.cons_append, ctl, o2, o3, o4, o5, o6, o7, o8, if_true, if_false, sle_toLe (n := 1) (by decide) (by decide), sext_byte hd, Option.map_some]
  · rw [List.length_cons, toLe_length]
    simp only [ctlExec, hc, Option.map_some]

theorem jcc32_step {c : IMem} {p : PSt} {op : Byte} {d : BitVec 64} {b : Bool} (ho : fld op 4 4 = 8#4) (hb : BytesAt c p.pc (0x0f#8 :: op :: toLe 4 d))
    (hd : isHalf d = true) (hc : ccF (fld op 0 4) p.s.f = some b) :
    step c p = some ⟨p.s, if b then p.pc + 6#64 + d else p.pc + 6#64⟩ := by
  refine step_ctl (k := .jcc (fld op 0 4) d) hb (by simp only [List.length_cons, toLe_length]; decide) (fun rest => ctl1_exec ho _) (fun rest => ?_) ?_
  · simp only [List.cons_append, ctl, show ¬ (0x0f#8 = 0xeb#8) by decide, show ¬ (0x0f#8 = 0xe9#8) by decide, show ¬ (0x0f#8 = 0xe8#8) by decide,
      show ¬ (0x0f#8 = 0x90#8) by decide, show ¬ (0x0f#8 = 0xc3#8) by decide, show ¬ (fld 0x0f#8 4 4 = 7#4) by decide, ho, if_true, if_false,
      sle_toLe (n := 4) (by decide) (by decide), sext_half hd, Option.map_some]
  · simp only [List.length_cons, toLe_length, ctlExec, hc, Option.map_some]

theorem nop_step {c : IMem} {p : PSt} (hb : BytesAt c p.pc [0x90#8]) : step c p = some ⟨p.s, p.pc + 1#64⟩ :=
  step_ctl (k := .nop) hb (by decide) (fun rest => ctl0_exec (by decide) _) (fun rest => rfl) rfl

theorem ff_tab : ∀ k : BitVec 3, fld (0xe0#8 ||| k.setWidth 8) 6 2 = 3#2 ∧ fld (0xe0#8 ||| k.setWidth 8) 3 3 = 4#3 ∧ fld (0xe0#8 ||| k.setWidth 8) 0 3 = k ∧
    fld (0xd0#8 ||| k.setWidth 8) 6 2 = 3#2 ∧ fld (0xd0#8 ||| k.setWidth 8) 3 3 = 2#3 ∧ fld (0xd0#8 ||| k.setWidth 8) 0 3 = k := by decide

theorem ctl_rex {rex : Byte} (bs : List Byte) (h : fld rex 4 4 = 4#4) : ctl (rex :: bs) = ctlRex rex bs := by
  have : ∀ rex : Byte, fld rex 4 4 = 4#4 → rex ≠ 0xeb#8 ∧ rex ≠ 0xe9#8 ∧ rex ≠ 0xe8#8 ∧ rex ≠ 0x90#8 ∧ rex ≠ 0xc3#8 ∧ fld rex 4 4 ≠ 7#4 ∧ rex ≠ 0x0f#8 := by decide +kernel
  obtain ⟨o1, o2, o3, o4, o5, o6, o7⟩ := this rex h
  simp only [ctl, o1, o2, o3, o4, o5, o7, if_false, h, if_true, show ¬ (4#4 = 7#4) by decide]

theorem jmpReg_step {c : IMem} {p : PSt} (k : BitVec 3) (hb : BytesAt c p.pc [0x41#8, 0xff#8, 0xe0#8 ||| k.setWidth 8]) :
    step c p = some ⟨p.s, p.s.r (ext true k)⟩ := by
  obtain ⟨o1, o2, o3, -⟩ := ff_tab k
  refine step_ctl (k := .jmpReg (ext true k)) hb (by simp) (fun rest => ff_exec (by decide) _) (fun rest => ?_) rfl
  rw [List.cons_append, ctl_rex _ (by decide)]
  simp only [List.cons_append, List.nil_append, ctlRex, o1, o2, o3, and_self, if_true]
  rfl

theorem callReg_step {c : IMem} {p : PSt} (k : BitVec 3) (hb : BytesAt c p.pc [0x41#8, 0xff#8, 0xd0#8 ||| k.setWidth 8]) :
    step c p = some ⟨p.s.push (p.pc + 3#64), p.s.r (ext true k)⟩ := by
  obtain ⟨-, -, -, o1, o2, o3⟩ := ff_tab k
  refine step_ctl (k := .callReg (ext true k)) hb (by simp) (fun rest => ff_exec (by decide) _) (fun rest => ?_) rfl
  rw [List.cons_append, ctl_rex _ (by decide)]
  simp only [List.cons_append, List.nil_append, ctlRex, o1, o2, o3, and_self, if_true, show ¬ (2#3 = 4#3) by decide, and_false, if_false]
  rfl

theorem lea_step {c : IMem} {p : PSt} {rex m : Byte} {d : BitVec 64} (h : fld rex 4 4 = 4#4) (h3 : rex.getLsbD 3 = true) (h1 : fld m 6 2 = 0#2) (h2 : fld m 0 3 = 5#3)
    (hb : BytesAt c p.pc (rex :: 0x8d#8 :: m :: toLe 4 d)) (hd : isHalf d = true) :
    step c p = some ⟨p.s.set (ext (rex.getLsbD 2) (fld m 3 3)) (p.pc + 7#64 + d), p.pc + 7#64⟩ := by
  refine step_ctl (k := .lea (ext (rex.getLsbD 2) (fld m 3 3)) d) hb (by simp only [List.length_cons, toLe_length]; decide) (fun rest => lea_exec h h1 h2 _) (fun rest => ?_) ?_
  · rw [List.cons_append, ctl_rex _ h]
    simp only [List.cons_append, ctlRex, h1, h2, h3, show ¬ (0x8d#8 = 0xff#8) by decide, false_and, if_false, and_self, if_true, sle_toLe (n := 4) (by decide) (by decide), sext_half hd, Option.map_some]
  · simp only [List.length_cons, toLe_length, ctlExec]

/-! ## Conditions -/

/-- A flag. -/
def flg (k : Fin 3) : Option Bool := if k = 0 then none else some (k = 1)
theorem flg_all (a : Option Bool) : ∃ k, a = flg k := by
  rcases a with _ | _ | _
  · exact ⟨0, rfl⟩
  · exact ⟨2, rfl⟩
  · exact ⟨1, rfl⟩

theorem code_tab : ∀ t : Fin 36, fld (getJumpCode t.val) 4 4 = 8#4 := by decide

/-- get_jump_code selects the right condition. -/
theorem code_taken : ∀ (t : Fin 36) (a b c d : Fin 3), taken t.val ⟨flg a, flg b, flg c, flg d⟩ = ccF (fld (getJumpCode t.val) 0 4) ⟨flg a, flg b, flg c, flg d⟩ := by decide +kernel

theorem taken_cc {type : Nat} (h : type < 36) (f : Flags) : taken type f = ccF (fld (getJumpCode type) 0 4) f := by
  obtain ⟨a, b, c, d⟩ := f
  obtain ⟨a, rfl⟩ := flg_all a
  obtain ⟨b, rfl⟩ := flg_all b
  obtain ⟨c, rfl⟩ := flg_all c
  obtain ⟨d, rfl⟩ := flg_all d
  exact code_taken ⟨type, h⟩ a b c d

theorem inv_tab : ∀ t : Fin 36, t.val ^^^ 1 < 36 := by decide
theorem taken_inv' : ∀ (t : Fin 36) (a b c d : Fin 3), taken (t.val ^^^ 1) ⟨flg a, flg b, flg c, flg d⟩ = (taken t.val ⟨flg a, flg b, flg c, flg d⟩).map (!·) := by decide +kernel
theorem taken_inv {type : Nat} (h : type < 36) (f : Flags) : taken (type ^^^ 1) f = (taken type f).map (!·) := by
  obtain ⟨a, b, c, d⟩ := f
  obtain ⟨a, rfl⟩ := flg_all a
  obtain ⟨b, rfl⟩ := flg_all b
  obtain ⟨c, rfl⟩ := flg_all c
  obtain ⟨d, rfl⟩ := flg_all d
  exact taken_inv' ⟨type, h⟩ a b c d

end Verif.X86
