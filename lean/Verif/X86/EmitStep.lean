import Verif.X86.Steps

/-! # One emitted instruction (helper lemmas) -/

namespace Verif.X86

variable {win m32 : Bool} {fl : Ins} {b : Opd} {o : Out}

/-- The lowest bits of the register number of the first operand. -/
def alow (win : Bool) (fl : Ins) (r : Nat) : BitVec 3 := (if fl.sseOp1 then fregMap r else regMap win r).setWidth 3
/-- Its highest bit. -/
def ahigh (win : Bool) (fl : Ins) (r : Nat) : Bool := decide ((if fl.sseOp1 then fregMap r else regMap win r) ≥ 8#8)

theorem anum_eq (win : Bool) (fl : Ins) (r : Nat) : anum win fl r = ext (ahigh win fl r) (alow win fl r) := by
  unfold anum ahigh alow
  by_cases h : fl.sseOp1 = true
  · simp only [h, if_true]; exact (fmap_eq r).2
  · simp only [h, if_false, Bool.false_eq_true]; exact num_eq win r

theorem alow_eq (win : Bool) (fl : Ins) (r : Nat) : (if fl.sseOp1 then fregLmap r else regLmap win r) = (alow win fl r).setWidth 8 := by
  unfold alow
  by_cases h : fl.sseOp1 = true
  · simp only [h, if_true]; exact (fmap_eq r).1
  · simp only [h, if_false, Bool.false_eq_true]; exact lmap_eq win r

/-- The number of opcode bytes. -/
def opcLen (m32 : Bool) (fl : Ins) (rexB : Byte) : Nat :=
  if fl.vexExt ∧ (rex0 m32 fl ||| rexB) &&& 3#8 ≠ 0#8 then fl.size + 1 else fl.size

theorem reg_inv {r : Nat} (h : emitX86 win m32 fl (.reg r) b = some o) :
    ∃ n b' rexB, sizeB win fl (prep win b).2 = some (n, b', rexB) ∧ o.pre = (prep win b).1 ∧ o.pref = (if fl.pref ≠ 0#8 then [fl.pref] else []) ∧
      o.rex = rex0 m32 fl ||| rexB ||| (if ahigh win fl r then REX_R else 0#8) ∧
      o.modrm = (if fl.shiftIns then 0#8 else (alow win fl r).setWidth 8 <<< 3) ||| (encB win fl b').1 ∧ o.tail = (encB win fl b').2 ∧
      o.opc = (if fl.shiftIns then [0xd3#8] else List.replicate (opcLen m32 fl rexB) 0#8) ∧
      o.instSize = opcLen m32 fl rexB + 1 + (if fl.pref ≠ 0#8 then 1 else 0) + n + (if o.rex ≠ 0#8 then 1 else 0) ∧
      (fl.shiftIns = true → r = PREF_SHIFT_REG) := by
  unfold emitX86 at h
  split at h
  · cases h
  · rw [show prep win b = ((prep win b).1, (prep win b).2) from rfl] at h
    simp only [Option.bind_eq_some_iff] at h
    obtain ⟨⟨n, b', rexB⟩, hs, h⟩ := h
    dsimp only at h
    split at h
    · cases h
    · rename_i hns
      simp only [Option.some.injEq] at h
      refine ⟨n, b', rexB, hs, ?_⟩
      rw [← h]
      refine ⟨rfl, rfl, ?_, ?_, rfl, ?_, ?_, ?_⟩
      · simp only [ahigh, decide_eq_true_eq]; rfl
      · rw [alow_eq]
      · rfl
      · rfl
      · intro hsh; by_contra hr; exact hns ⟨hsh, hr⟩

theorem ext_false (k : BitVec 3) : k.setWidth 4 = ext false k := by revert k; decide
theorem ext_low (k : BitVec 3) : k = (ext false k).setWidth 3 := by revert k; decide

theorem imm_inv {v : BitVec 64} (h : emitX86 win m32 fl (.imm v) b = some o) :
    ∃ n b' rexB, sizeB win fl (prep win b).2 = some (n, b', rexB) ∧ o.pre = (prep win b).1 ∧ o.pref = (if fl.pref ≠ 0#8 then [fl.pref] else []) ∧
      o.rex = rex0 m32 fl ||| rexB ∧ o.modrm = (encB win fl b').1 ∧
      o.tail = (encB win fl b').2 ++ (if (sizeA fl v).2 then toLe 1 v else if fl.halfArg then toLe 2 v else if ¬ fl.shiftIns then toLe 4 v else []) ∧
      o.opc = (if fl.shiftIns then [if v = 1#64 then 0xd1#8 else 0xc1#8] else if fl.binIns then [if (sizeA fl v).2 then 0x83#8 else 0x81#8]
        else List.replicate (opcLen m32 fl rexB) 0#8) ∧
      o.instSize = opcLen m32 fl rexB + 1 + (if fl.pref ≠ 0#8 then 1 else 0) + n + (sizeA fl v).1 + (if o.rex ≠ 0#8 then 1 else 0) ∧
      (m32 = false → isHalf v = true) ∧ (fl.shiftIns = true → v.sle (if m32 then 0x1f#64 else 0x3f#64) = true) := by
  unfold emitX86 at h
  split at h
  · cases h
  · rw [show prep win b = ((prep win b).1, (prep win b).2) from rfl] at h
    simp only [Option.bind_eq_some_iff] at h
    obtain ⟨⟨n, b', rexB⟩, hs, h⟩ := h
    dsimp only at h
    by_cases hns : (¬ m32 = true ∧ ¬ isHalf v = true) ∨ (fl.shiftIns = true ∧ ¬ v.sle (if m32 then 0x1f#64 else 0x3f#64) = true)
    · rw [if_pos hns] at h; cases h
    · rw [if_neg hns] at h
      simp only [Option.some.injEq] at h
      refine ⟨n, b', rexB, hs, ?_⟩
      rw [← h]
      refine ⟨rfl, rfl, rfl, rfl, rfl, rfl, rfl, ?_, ?_⟩
      · intro hm; by_contra hv; exact hns (Or.inl ⟨by simp [hm], by simpa using hv⟩)
      · intro hm; by_contra hv; exact hns (Or.inr ⟨hm, by simpa using hv⟩)

/-! ## Steps -/

/-- An instruction with a register as first operand; `ib` are immediate bytes stored by the caller after it. -/
theorem reg_step {r : Nat} (h : emitX86 win m32 fl (.reg r) b = some o) (hsh : fl.shiftIns = false) (hok : OpdOk win b) (hp : preOk fl.pref = true)
    {map : Nat} {op : Byte} (hm : map = 0 ∨ map = 1) (ho : map = 0 → plainOp op = true) (hrm : hasRM map op = true) {ib : List Byte} {imm : BitVec 64}
    (hi : ∀ rest, sle' (immSize fl.pref map op ((anum win fl r).setWidth 3)) (ib ++ rest) = some (imm, rest)) {s s' : St}
    (he : ∀ rex : Byte, rex.getLsbD 3 = (!m32 && !fl.noRexW) → (fl.rex = true → rex ≠ 0#8) →
      execRM fl.pref rex map op (anum win fl r) (some (btarget win fl s b)) (addrOf (btarget win fl s b)) imm (clob win s b) = some s') :
    Steps ((o.op (opBytes map op)).bytes ++ ib) s s' := by
  obtain ⟨n, b', rexB, hs, h1, h2, h3, h4, h5, -⟩ := reg_inv h
  rw [anum_eq] at hi he
  refine core_step hok hs hp hm ho hrm (ahigh win fl r) (alow win fl r) hi he h3 ?_
  simp only [Out.bytes, Out.body, Out.op, h1, h2, h4, h5, hsh, if_false, Bool.false_eq_true, List.append_assoc, List.cons_append]

/-- An instruction with a constant as first operand.  The caller sets the middle field of ModRM. -/
theorem imm_step {v : BitVec 64} (h : emitX86 win m32 fl (.imm v) b = some o) (hok : OpdOk win b) (hp : preOk fl.pref = true)
    {op : Byte} (ho : plainOp op = true) (hrm : hasRM 0 op = true) (k : BitVec 3) {ib : List Byte} {imm : BitVec 64}
    (hib : ib = (if (sizeA fl v).2 then toLe 1 v else if fl.halfArg then toLe 2 v else if ¬ fl.shiftIns then toLe 4 v else []))
    (hi : ∀ rest, sle' (immSize fl.pref 0 op k) (ib ++ rest) = some (imm, rest)) {s s' : St}
    (he : ∀ rex : Byte, rex.getLsbD 3 = (!m32 && !fl.noRexW) → (fl.rex = true → rex ≠ 0#8) →
      execRM fl.pref rex 0 op (k.setWidth 4) (some (btarget win fl s b)) (addrOf (btarget win fl s b)) imm (clob win s b) = some s')
    {o' : Out} (h1 : o'.pre = o.pre) (h2 : o'.pref = o.pref) (h3 : o'.rex = o.rex) (h4 : o'.modrm = o.modrm ||| k.setWidth 8 <<< 3) (h5 : o'.tail = o.tail)
    (h6 : o'.opc = [op]) :
    Steps o'.bytes s s' := by
  obtain ⟨n, b', rexB, hs, g1, g2, g3, g4, g5, -⟩ := imm_inv h
  have hx := ext_false k
  have hk := ext_low k
  rw [hx] at he
  rw [hk] at hi
  refine core_step (m32 := m32) (rex := o.rex) hok hs hp (map := 0) (op := op) (Or.inl rfl) (fun _ => ho) hrm false k hi he ?_ ?_
  · rw [g3]; simp
  · simp only [Out.bytes, Out.body, h1, h2, h3, h4, h5, h6, g1, g2, g4, g5, ← hib, opBytes, if_false, Nat.zero_ne_one, List.append_assoc, List.cons_append, List.nil_append]
    rw [BitVec.or_comm]

/-- A shift by CL. -/
theorem cl_step {r : Nat} (h : emitX86 win m32 fl (.reg r) b = some o) (hsh : fl.shiftIns = true) (hss : fl.sseOp1 = false) (hok : OpdOk win b) (hp : preOk fl.pref = true)
    (k : BitVec 3) {s s' : St}
    (he : ∀ rex : Byte, rex.getLsbD 3 = (!m32 && !fl.noRexW) → (fl.rex = true → rex ≠ 0#8) →
      execRM fl.pref rex 0 0xd3#8 (k.setWidth 4) (some (btarget win fl s b)) (addrOf (btarget win fl s b)) 0#64 (clob win s b) = some s')
    {o' : Out} (h1 : o'.pre = o.pre) (h2 : o'.pref = o.pref) (h3 : o'.rex = o.rex) (h4 : o'.modrm = o.modrm ||| k.setWidth 8 <<< 3) (h5 : o'.tail = o.tail)
    (h6 : o'.opc = o.opc) :
    Steps o'.bytes s s' := by
  obtain ⟨n, b', rexB, hs, g1, g2, g3, g4, g5, g6, -, g8⟩ := reg_inv h
  have hr := g8 hsh
  subst hr
  have hh : ahigh win fl PREF_SHIFT_REG = false := by
    simp only [ahigh, hss, if_false, Bool.false_eq_true]; cases win <;> decide
  have hx := ext_false k
  rw [hx] at he
  rw [hh] at g3
  refine core_step (m32 := m32) (rex := o.rex) (ib := []) hok hs hp (map := 0) (op := 0xd3#8) (Or.inl rfl) (fun _ => by decide) (by decide) false k (fun rest => ?_) he g3 ?_
  · have : immSize fl.pref 0 0xd3#8 (BitVec.setWidth 3 (ext false k)) = 0 := by
      simp only [immSize]
      generalize fl.pref = q
      simp
    rw [this, List.nil_append, sle_zero]
  · simp only [Out.bytes, Out.body, h1, h2, h3, h4, h5, h6, g1, g2, g4, g5, g6, hsh, if_true, opBytes, if_false, Nat.zero_ne_one, List.append_assoc, List.cons_append,
      List.nil_append, List.append_nil]
    rw [BitVec.or_comm, BitVec.zero_or]

/-! ## Size -/

theorem body_size {a : Opd} (h : emitX86 win m32 fl a b = some o) (hok : OpdOk win b) (hsz : fl.shiftIns = true ∨ (fl.binIns = true ∧ a.isImm = true) → fl.size = 1 ∧ fl.vexExt = false)
    (opc : List Byte) (hopc : opc.length = o.opc.length) : (o.op opc).body.length = o.instSize := by
  have key : ∀ n b' rexB, sizeB win fl (prep win b).2 = some (n, b', rexB) → (encB win fl b').2.length = n := by
    intro n b' rexB hs
    obtain ⟨rm, -, hl, -⟩ := b_parse (rex := rexB) hok hs rfl rfl 0#3
    exact hl
  have hpn : (if fl.pref ≠ 0#8 then [fl.pref] else []).length = if fl.pref ≠ 0#8 then 1 else 0 := by split <;> rfl
  have hrn : ∀ rex : Byte, (if rex ≠ 0#8 then [rex] else []).length = if rex ≠ 0#8 then 1 else 0 := by intro rex; split <;> rfl
  cases a with
  | mem _ _ _ =>
    exfalso
    unfold emitX86 at h
    split at h
    · cases h
    · simp only [Option.bind_eq_some_iff] at h
      obtain ⟨_, _, h⟩ := h
      simp at h
  | reg r =>
    obtain ⟨n, b', rexB, hs, -, h2, -, -, h5, h6, h7, -⟩ := reg_inv h
    have hl := key _ _ _ hs
    have ho : o.opc.length = opcLen m32 fl rexB := by
      rw [h6]
      by_cases hsh : fl.shiftIns = true
      · obtain ⟨e1, e2⟩ := hsz (Or.inl hsh)
        simp [hsh, opcLen, e1, e2]
      · simp [hsh]
    simp only [Out.body, Out.op, h2, h5, h7, List.length_append, List.length_cons, hpn, hrn, hl, hopc, ho]
    omega
  | imm v =>
    obtain ⟨n, b', rexB, hs, -, h2, -, -, h5, h6, h7, -, -⟩ := imm_inv h
    have hl := key _ _ _ hs
    have hflags : ¬ (fl.binIns = true ∧ fl.shiftIns = true) ∧ ¬ ((fl.binIns = true ∨ fl.shiftIns = true) ∧ (fl.byteArg = true ∨ fl.halfArg = true)) ∧
        ¬ (fl.byteArg = true ∧ fl.halfArg = true) := by
      unfold emitX86 at h
      split at h
      · cases h
      · rename_i hn
        simp only [not_or] at hn
        exact ⟨hn.2.1, hn.2.2.1, hn.2.2.2.1⟩
    have ho : o.opc.length = opcLen m32 fl rexB := by
      rw [h6]
      by_cases hsh : fl.shiftIns = true
      · obtain ⟨e1, e2⟩ := hsz (Or.inl hsh)
        simp [hsh, opcLen, e1, e2]
      · by_cases hbn : fl.binIns = true
        · obtain ⟨e1, e2⟩ := hsz (Or.inr ⟨hbn, rfl⟩)
          simp [hsh, hbn, opcLen, e1, e2]
        · simp [hsh, hbn]
    have him : (if (sizeA fl v).2 then toLe 1 v else if fl.halfArg then toLe 2 v else if ¬ fl.shiftIns then toLe 4 v else []).length = (sizeA fl v).1 := by
      obtain ⟨f1, f2, f3⟩ := hflags
      revert f1 f2 f3
      unfold sizeA
      cases fl.binIns <;> cases fl.shiftIns <;> cases fl.byteArg <;> cases fl.halfArg <;> simp [toLe_length] <;> split <;> simp [toLe_length, toLe]
    simp only [Out.body, Out.op, h2, h5, h7, List.length_append, List.length_cons, hpn, hrn, hl, hopc, ho, him]
    omega

end Verif.X86
