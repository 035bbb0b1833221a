import Verif.X86.EmitStep

/-!
# C35: x86-64 operand encodings

emit_x86_instruction (sljitNativeX86_64.c:61-284) is modelled by `emitX86` (X86/Emit.lean); the decoder is `parse` (X86/Arch.lean), written
from the Intel manual.  The caller stores the opcode, and the middle field of ModRM if the first operand is a constant.
-/

namespace Verif.Props.C35
open Verif.X86

/-! ## Specification -/

/-- Operands which the emitters pass: registers 1-13, SLJIT_SP (14) and the temporaries (15, 16); an offset register is not SLJIT_SP and
its shift is below 4 (sljitLir.c:987-1019); a base is not TMP_REG2, which the emitters use for constants only. -/
def Valid : Opd → Prop
  | .reg r => 1 ≤ r ∧ r ≤ 16
  | .mem base offs w => base ≤ 15 ∧ offs ≤ 16 ∧ offs ≠ 14 ∧ (offs ≠ 0 → base ≠ 0 ∧ w.toNat < 4)
  | .imm _ => False

/-- The machine register of a register: general purpose, or SSE if `f`. -/
def mreg (win f : Bool) (r : Nat) : BitVec 4 := if f then (fregMap r).setWidth 4 else (regMap win r).setWidth 4

/-- Where the operand is, by the documentation of sljit (sljitLir.h, "SLJIT_MEM"): absolute address, [base + displacement] or
[base + (offset << shift)]. -/
def place (win sse : Bool) (s : St) : Opd → Loc
  | .reg r => .reg (mreg win sse r)
  | .mem base offs w =>
    let b := if base = 0 then 0#64 else s.r (mreg win false base)
    .mem (if offs = 0 then b + w else b + s.r (mreg win false offs) <<< w.toNat)
  | .imm _ => .reg 0#4

/-- The instructions before it change nothing but TMP_REG2. -/
def OnlyTmp2 (win : Bool) (s s' : St) : Prop := s'.m = s.m ∧ s'.f = s.f ∧ ∀ q, q ≠ mreg win false 16 → s'.r q = s.r q

/-! ## Helper facts -/

theorem off_ne : ∀ win : Bool, ∀ r : Fin 17, r.val ≠ 14 → num win r.val ≠ 4#4 := by decide
theorem base_ne : ∀ win : Bool, ∀ r : Fin 16, r.val ≠ 0 → num win r.val ≠ num win TMP_REG2 := by decide

theorem pref_low : ∀ win : Bool, ahigh win { shiftIns := true } PREF_SHIFT_REG = false := by decide
theorem pref_cl : ∀ win : Bool, mreg win false PREF_SHIFT_REG = 1#4 := by decide

theorem valid_ok {win : Bool} {b : Opd} (h : Valid b) : OpdOk win b := by
  cases b with
  | reg r => trivial
  | imm v => exact h.elim
  | mem base offs w =>
    obtain ⟨h1, h2, h3, h4⟩ := h
    exact ⟨fun h => ⟨(h4 h).1, (h4 h).2, off_ne win ⟨offs, by omega⟩ h3⟩, fun _ hb _ => base_ne win ⟨base, by omega⟩ hb⟩

theorem place_eq (win : Bool) (fl : Ins) (s : St) (b : Opd) : btarget win fl s b = place win fl.sseOp2 s b := by
  cases b with
  | reg r => rfl
  | imm v => rfl
  | mem base offs w =>
    simp only [btarget, target, ea, place, mreg, num, if_false, Bool.false_eq_true]
    split <;> split <;> rfl

theorem clob_only (win : Bool) (s : St) (b : Opd) : OnlyTmp2 win s (clob win s b) := by
  cases b with
  | mem base offs w =>
    simp only [clob]
    split
    · exact ⟨rfl, rfl, fun q hq => by simp only [St.set]; exact if_neg hq⟩
    · exact ⟨rfl, rfl, fun _ _ => rfl⟩
  | _ => exact ⟨rfl, rfl, fun _ _ => rfl⟩

/-! ## Theorems -/

/-- A register as first operand.  Whatever opcode with a ModRM byte the caller stores, and whatever bytes follow, the emitted bytes are first
a (possibly empty) sequence which changes at most TMP_REG2, and then one instruction with this prefix and opcode, the operand size requested,
the requested register and the requested place as operands. -/
theorem c35_reg {win m32 : Bool} {fl : Ins} {r : Nat} {b : Opd} {o : Out} (h : emitX86 win m32 fl (.reg r) b = some o) (hsh : fl.shiftIns = false)
    (hb : Valid b) (hp : fl.pref = 0#8 ∨ fl.pref = 0x66#8 ∨ fl.pref = 0xf2#8 ∨ fl.pref = 0xf3#8) {map : Nat} {op : Byte} (hm : map = 0 ∨ map = 1)
    (ho : map = 0 → plainOp op = true) (hrm : hasRM map op = true) :
    ∃ rex rm, rex.getLsbD 3 = (!m32 && !fl.noRexW) ∧ (fl.rex = true → rex ≠ 0#8) ∧
      (∀ rest imm rest', sle' (immSize fl.pref map op ((mreg win fl.sseOp1 r).setWidth 3)) rest = some (imm, rest') →
        parse ((o.op (opBytes map op)).body ++ rest) = some (.rm fl.pref rex map op (mreg win fl.sseOp1 r) rm imm, rest')) ∧
      ∀ s, ∃ s', Steps o.pre s s' ∧ OnlyTmp2 win s s' ∧ loc s' rm = some (place win fl.sseOp2 s b) := by
  obtain ⟨n, b', rexB, hs, h1, h2, h3, h4, h5, -⟩ := reg_inv h
  obtain ⟨r1, r2, r3, r4, r5, r6⟩ := rex_bits (m32 := m32) (fl := fl) (sizeB_rex hs) (ahigh win fl r)
  rw [← h3] at r1 r2 r3 r4 r5 r6
  obtain ⟨rm, e1, -, e3, e4⟩ := b_parse (valid_ok hb) hs r2 r3 (alow win fl r)
  have ha : mreg win fl.sseOp1 r = ext (ahigh win fl r) (alow win fl r) := anum_eq win fl r
  refine ⟨o.rex, rm, r5, r6, fun rest imm rest' hi => ?_, fun s => ⟨clob win s b, by rw [h1]; exact pre_steps b s, clob_only win s b, by rw [e3 s, place_eq]⟩⟩
  have e1 := e1 rest
  rw [r4, ← ha] at e1
  simp only [Out.body, Out.op, h2, h4, h5, hsh, if_false, Bool.false_eq_true, List.append_assoc, List.cons_append]
  rw [parse_head (by simp [preOk, hp]) r1 hm ho]
  simp only [parseOp, short_none hrm, e1, Option.bind_some, hi, Option.map_some]

/-- A constant as first operand, of an instruction which is not a shift: the instruction has the requested middle field and place, and its
immediate is the constant (sign extended from the bytes which are stored). -/
theorem c35_imm {win m32 : Bool} {fl : Ins} {v : BitVec 64} {b : Opd} {o : Out} (h : emitX86 win m32 fl (.imm v) b = some o) (hsh : fl.shiftIns = false)
    (hbin : fl.binIns = false) (hb : Valid b) (hp : fl.pref = 0#8 ∨ fl.pref = 0x66#8 ∨ fl.pref = 0xf2#8 ∨ fl.pref = 0xf3#8) {op : Byte}
    (ho : plainOp op = true) (hrm : hasRM 0 op = true) (k : BitVec 3)
    (hn : immSize fl.pref 0 op k = if fl.byteArg then 1 else if fl.halfArg then 2 else 4) :
    ∃ rex rm, rex.getLsbD 3 = (!m32 && !fl.noRexW) ∧ (fl.rex = true → rex ≠ 0#8) ∧
      (∀ rest, parse (((o.op [op]).or (k.setWidth 8 <<< 3)).body ++ rest) = some (.rm fl.pref rex 0 op (k.setWidth 4) rm (sext (immSize fl.pref 0 op k) v), rest)) ∧
      ∀ s, ∃ s', Steps o.pre s s' ∧ OnlyTmp2 win s s' ∧ loc s' rm = some (place win fl.sseOp2 s b) := by
  obtain ⟨n, b', rexB, hs, h1, h2, h3, h4, h5, -⟩ := imm_inv h
  obtain ⟨r1, r2, r3, r4, r5, r6⟩ := rex_bits (m32 := m32) (fl := fl) (sizeB_rex hs) false
  simp only [Bool.false_eq_true, if_false, BitVec.or_zero] at r1 r2 r3 r4 r5 r6
  rw [← h3] at r1 r2 r3 r4 r5 r6
  obtain ⟨rm, e1, -, e3, e4⟩ := b_parse (valid_ok hb) hs r2 r3 k
  refine ⟨o.rex, rm, r5, r6, fun rest => ?_, fun s => ⟨clob win s b, by rw [h1]; exact pre_steps b s, clob_only win s b, by rw [e3 s, place_eq]⟩⟩
  have hA : (if (sizeA fl v).2 then toLe 1 v else if fl.halfArg then toLe 2 v else if ¬ fl.shiftIns then toLe 4 v else []) = toLe (immSize fl.pref 0 op k) v := by
    rw [hn]
    simp only [sizeA, hbin, hsh, Bool.false_eq_true, if_false, not_false_eq_true, if_true]
    cases fl.byteArg <;> cases fl.halfArg <;> simp
  have hi : sle' (immSize fl.pref 0 op k) (toLe (immSize fl.pref 0 op k) v ++ rest) = some (sext (immSize fl.pref 0 op k) v, rest) := by
    rw [hn]
    cases fl.byteArg <;> cases fl.halfArg <;> exact sle_toLe (by decide) (by decide) v rest
  have e1 := e1 (toLe (immSize fl.pref 0 op k) v ++ rest)
  rw [r4, ← ext_false] at e1
  have hk : (k.setWidth 4).setWidth 3 = k := by rw [ext_false]; exact (ext_low k).symm
  simp only [Out.body, Out.op, Out.or, h2, h4, h5, hA, List.append_assoc, List.cons_append]
  rw [BitVec.or_comm]
  have := parse_head (pre := fl.pref) (rex := o.rex) (map := 0) (op := op)
    (tl := (k.setWidth 8 <<< 3 ||| (encB win fl b').1) :: ((encB win fl b').2 ++ (toLe (immSize fl.pref 0 op k) v ++ rest))) (by simp [preOk, hp]) r1 (Or.inl rfl) (fun _ => ho)
  simp only [opBytes, Nat.zero_ne_one, if_false, List.cons_append, List.nil_append] at this
  simp only [List.nil_append]
  rw [this]
  simp only [parseOp, short_none hrm, e1, Option.bind_some, hk, hi, Option.map_some]

/-- A constant of an instruction of group 1 (EX86_BIN_INS): 83 or 81 is selected, and the immediate is the constant itself in 64 bit mode
and has the same lowest 32 bits in 32 bit mode. -/
theorem c35_bin {win m32 : Bool} {v : BitVec 64} {b : Opd} {o : Out} (h : emitX86 win m32 { binIns := true } (.imm v) b = some o) (hb : Valid b) (k : BitVec 3) :
    ∃ rex rm op imm, rex.getLsbD 3 = !m32 ∧ (op = 0x81#8 ∨ op = 0x83#8) ∧ (m32 = false → imm = v) ∧ imm.setWidth 32 = v.setWidth 32 ∧
      (∀ rest, parse ((o.or (k.setWidth 8 <<< 3)).body ++ rest) = some (.rm 0#8 rex 0 op (k.setWidth 4) rm imm, rest)) ∧
      ∀ s, ∃ s', Steps o.pre s s' ∧ OnlyTmp2 win s s' ∧ loc s' rm = some (place win false s b) := by
  obtain ⟨n, b', rexB, hs, h1, h2, h3, h4, h5, h6, -, h8, -⟩ := imm_inv h
  obtain ⟨r1, r2, r3, r4, r5, -⟩ := rex_bits (m32 := m32) (fl := { binIns := true }) (sizeB_rex hs) false
  simp only [Bool.false_eq_true, if_false, BitVec.or_zero] at r1 r2 r3 r4 r5
  rw [← h3] at r1 r2 r3 r4 r5
  obtain ⟨rm, e1, -, e3, e4⟩ := b_parse (valid_ok hb) hs r2 r3 k
  have hk : (k.setWidth 4).setWidth 3 = k := by rw [ext_false]; exact (ext_low k).symm
  have hl : (sext 4 v).setWidth 32 = v.setWidth 32 := by
    apply BitVec.eq_of_getLsbD_eq
    intro i hi
    rw [BitVec.getLsbD_setWidth, BitVec.getLsbD_setWidth, sext_bit (by decide) (by decide) _ (by omega), if_pos (by omega)]
  have key : ∀ op n, (op = 0x83#8 ∧ n = 1 ∨ op = 0x81#8 ∧ n = 4) → o.opc = [op] →
      o.tail = (encB win { binIns := true } b').2 ++ toLe n v → ∀ rest, parse ((o.or (k.setWidth 8 <<< 3)).body ++ rest) =
        some (.rm 0#8 o.rex 0 op (k.setWidth 4) rm (sext n v), rest) := by
    intro op n hop ho ht rest
    have e1 := e1 (toLe n v ++ rest)
    rw [r4, ← ext_false] at e1
    simp only [Out.body, Out.or, h2, h4, ht, ho, List.append_assoc, List.cons_append]
    rw [BitVec.or_comm]
    have := parse_head (pre := 0#8) (rex := o.rex) (map := 0) (op := op)
      (tl := (k.setWidth 8 <<< 3 ||| (encB win { binIns := true } b').1) :: ((encB win { binIns := true } b').2 ++ (toLe n v ++ rest))) (by decide) r1 (Or.inl rfl)
      (fun _ => by rcases hop with ⟨rfl, -⟩ | ⟨rfl, -⟩ <;> decide)
    simp only [opBytes, Nat.zero_ne_one, if_false, List.cons_append, List.nil_append] at this
    simp only [List.nil_append]
    rw [this]
    have hrm : hasRM 0 op = true := by rcases hop with ⟨rfl, -⟩ | ⟨rfl, -⟩ <;> decide
    have hi : sle' (immSize 0#8 0 op k) (toLe n v ++ rest) = some (sext n v, rest) := by
      have : immSize 0#8 0 op k = n := by rcases hop with ⟨rfl, rfl⟩ | ⟨rfl, rfl⟩ <;> simp [immSize]
      rw [this]
      rcases hop with ⟨rfl, rfl⟩ | ⟨rfl, rfl⟩ <;> exact sle_toLe (by decide) (by decide) v rest
    simp only [parseOp, short_none hrm, e1, Option.bind_some, hk, hi, Option.map_some]
  have fin : ∀ s, ∃ s', Steps o.pre s s' ∧ OnlyTmp2 win s s' ∧ loc s' rm = some (place win false s b) := fun s =>
    ⟨clob win s b, by rw [h1]; exact pre_steps b s, clob_only win s b, by rw [e3 s, place_eq]⟩
  simp only [Bool.not_false, Bool.and_true] at r5
  by_cases hby : isByte v = true
  · have hA : sizeA { binIns := true } v = (1, true) := by simp [sizeA, hby]
    refine ⟨o.rex, rm, 0x83#8, sext 1 v, r5, Or.inr rfl, fun _ => sext_byte hby, by rw [sext_byte hby], key _ 1 (Or.inl ⟨rfl, rfl⟩) ?_ ?_, fin⟩
    · rw [h6, hA]; simp
    · rw [h5, hA]; simp
  · have hA : sizeA { binIns := true } v = (4, false) := by simp [sizeA, hby]
    refine ⟨o.rex, rm, 0x81#8, sext 4 v, r5, Or.inl rfl, fun hm => sext_half (h8 hm), hl, key _ 4 (Or.inr ⟨rfl, rfl⟩) ?_ ?_, fin⟩
    · rw [h6, hA]; simp
    · rw [h5, hA]; simp

/-- Shifts (EX86_SHIFT_INS) by a constant are decoded as D1 or C1 with exactly this count, and shifts by SLJIT_PREF_SHIFT_REG as D3 (by CL). -/
theorem c35_shift {win m32 : Bool} {a b : Opd} {o : Out} (h : emitX86 win m32 { shiftIns := true } a b = some o) (hb : Valid b) (k : BitVec 3) :
    ∃ rex rm op imm, rex.getLsbD 3 = (!m32) ∧
      (match a with
        | .imm v => (op = 0xd1#8 ∧ v = 1#64 ∨ op = 0xc1#8 ∧ imm.setWidth 8 = v.setWidth 8)
        | .reg r => op = 0xd3#8 ∧ mreg win false r = 1#4
        | .mem .. => False) ∧
      (∀ rest, parse ((o.or (k.setWidth 8 <<< 3)).body ++ rest) = some (.rm 0#8 rex 0 op (k.setWidth 4) rm imm, rest)) ∧
      ∀ s, ∃ s', Steps o.pre s s' ∧ OnlyTmp2 win s s' ∧ loc s' rm = some (place win false s b) := by
  have hk : (k.setWidth 4).setWidth 3 = k := by rw [ext_false]; exact (ext_low k).symm
  -- what both cases share
  have key : ∀ n b' rexB, sizeB win { shiftIns := true } (prep win b).2 = some (n, b', rexB) → o.pre = (prep win b).1 → o.pref = [] →
      o.rex = rex0 m32 { shiftIns := true } ||| rexB → o.modrm = (encB win { shiftIns := true } b').1 → ∀ op ib imm, o.opc = [op] →
      o.tail = (encB win { shiftIns := true } b').2 ++ ib → plainOp op = true → hasRM 0 op = true →
      (∀ rest, sle' (immSize 0#8 0 op k) (ib ++ rest) = some (imm, rest)) →
      ∃ rm, o.rex.getLsbD 3 = (!m32) ∧ (∀ rest, parse ((o.or (k.setWidth 8 <<< 3)).body ++ rest) = some (.rm 0#8 o.rex 0 op (k.setWidth 4) rm imm, rest)) ∧
        ∀ s, ∃ s', Steps o.pre s s' ∧ OnlyTmp2 win s s' ∧ loc s' rm = some (place win false s b) := by
    intro n b' rexB hs h1 h2 h3 h4 op ib imm ho ht hpl hrm hi
    obtain ⟨r1, r2, r3, r4, r5, -⟩ := rex_bits (m32 := m32) (fl := { shiftIns := true }) (sizeB_rex hs) false
    simp only [Bool.false_eq_true, if_false, BitVec.or_zero] at r1 r2 r3 r4 r5
    rw [← h3] at r1 r2 r3 r4 r5
    obtain ⟨rm, e1, -, e3, e4⟩ := b_parse (valid_ok hb) hs r2 r3 k
    simp only [Bool.not_false, Bool.and_true] at r5
    refine ⟨rm, r5, fun rest => ?_, fun s => ⟨clob win s b, by rw [h1]; exact pre_steps b s, clob_only win s b, by rw [e3 s, place_eq]⟩⟩
    have e1 := e1 (ib ++ rest)
    rw [r4, ← ext_false] at e1
    simp only [Out.body, Out.or, h2, h4, ht, ho, List.append_assoc, List.cons_append, List.nil_append]
    rw [BitVec.or_comm]
    have := parse_head (pre := 0#8) (rex := o.rex) (map := 0) (op := op)
      (tl := (k.setWidth 8 <<< 3 ||| (encB win { shiftIns := true } b').1) :: ((encB win { shiftIns := true } b').2 ++ (ib ++ rest))) (by decide) r1 (Or.inl rfl)
      (fun _ => hpl)
    simp only [opBytes, Nat.zero_ne_one, if_false, ne_eq, not_true_eq_false, List.nil_append, List.cons_append] at this
    simp only [ne_eq]
    rw [this]
    simp only [parseOp, short_none hrm, e1, Option.bind_some, hk, hi, Option.map_some]
  cases a with
  | mem _ _ _ =>
    exfalso
    unfold emitX86 at h
    split at h
    · cases h
    · simp only [Option.bind_eq_some_iff] at h
      obtain ⟨_, _, h⟩ := h
      simp at h
  | reg r =>
    obtain ⟨n, b', rexB, hs, h1, h2, h3, h4, h5, h6, -, h8⟩ := reg_inv h
    have hr : r = PREF_SHIFT_REG := h8 rfl
    have hh : ahigh win { shiftIns := true } r = false := by rw [hr]; exact pref_low win
    obtain ⟨rm, k1, k2, k3⟩ := key n b' rexB hs h1 (by simpa using h2) (by rw [h3, hh]; simp) (by rw [h4]; simp) 0xd3#8 [] 0#64 (by rw [h6]; simp) (by rw [h5]; simp)
      (by decide) (by decide) (fun rest => by
        have : immSize 0#8 0 0xd3#8 k = 0 := by simp [immSize]
        rw [this, List.nil_append, sle_zero])
    exact ⟨o.rex, rm, 0xd3#8, 0#64, k1, ⟨rfl, by rw [hr]; exact pref_cl win⟩, k2, k3⟩
  | imm v =>
    obtain ⟨n, b', rexB, hs, h1, h2, h3, h4, h5, h6, -⟩ := imm_inv h
    by_cases hv : v = 1#64
    · obtain ⟨rm, k1, k2, k3⟩ := key n b' rexB hs h1 (by simpa using h2) h3 h4 0xd1#8 [] 0#64 (by rw [h6]; simp [hv]) (by rw [h5]; simp [sizeA, hv])
        (by decide) (by decide) (fun rest => by
          have : immSize 0#8 0 0xd1#8 k = 0 := by simp [immSize]
          rw [this, List.nil_append, sle_zero])
      exact ⟨o.rex, rm, 0xd1#8, 0#64, k1, Or.inl ⟨rfl, hv⟩, k2, k3⟩
    · obtain ⟨rm, k1, k2, k3⟩ := key n b' rexB hs h1 (by simpa using h2) h3 h4 0xc1#8 (toLe 1 v) (sext 1 v) (by rw [h6]; simp [hv]) (by rw [h5]; simp [sizeA, hv])
        (by decide) (by decide) (fun rest => by
          have : immSize 0#8 0 0xc1#8 k = 1 := by simp [immSize]
          rw [this]; exact sle_toLe (by decide) (by decide) v rest)
      refine ⟨o.rex, rm, 0xc1#8, sext 1 v, k1, Or.inr ⟨rfl, ?_⟩, k2, k3⟩
      apply BitVec.eq_of_getLsbD_eq
      intro i hi
      rw [BitVec.getLsbD_setWidth, BitVec.getLsbD_setWidth, sext_bit (by decide) (by decide) _ (by omega), if_pos (by omega)]

/-- The size which is reserved (`inst_size`) is the number of bytes which are stored. -/
theorem c35_size {win m32 : Bool} {fl : Ins} {a b : Opd} {o : Out} (h : emitX86 win m32 fl a b = some o) (hb : Valid b)
    (hsz : fl.shiftIns = true ∨ (fl.binIns = true ∧ a.isImm = true) → fl.size = 1 ∧ fl.vexExt = false) (opc : List Byte) (hopc : opc.length = o.opc.length) :
    (o.op opc).body.length = o.instSize := body_size h (valid_ok hb) hsz opc hopc

/-- No assertion fails for valid operands. -/
theorem c35_total {win m32 : Bool} {fl : Ins} {a b : Opd} (hb : Valid b) (hfl : ¬ (fl.binIns = true ∧ fl.shiftIns = true) ∧
      ¬ ((fl.binIns = true ∨ fl.shiftIns = true) ∧ (fl.byteArg = true ∨ fl.halfArg = true)) ∧ ¬ (fl.byteArg = true ∧ fl.halfArg = true) ∧
      ¬ (fl.vexExt = true ∧ fl.rex = false))
    (ha : match a with
      | .reg r => fl.shiftIns = true → r = PREF_SHIFT_REG
      | .imm v => fl.sseOp1 = false ∧ (m32 = false → isHalf v = true) ∧ (fl.shiftIns = true → v.sle (if m32 then 0x1f#64 else 0x3f#64) = true)
      | .mem .. => False) :
    (emitX86 win m32 fl a b).isSome = true := by
  obtain ⟨f1, f2, f3, f4⟩ := hfl
  have hs : ∃ x, sizeB win fl (prep win b).2 = some x := by
    have := prep_spec (win := win) (valid_ok hb)
    revert this
    generalize (prep win b).2 = q
    intro hq
    cases q with
    | imm v => exact hq.elim
    | reg r => exact ⟨_, rfl⟩
    | mem base offs w =>
      have : (sizeB win fl (.mem base offs w)).isSome = true := by
        simp only [sizeB]
        split
        · rfl
        · split <;> (try split) <;> (try split) <;> (try split) <;> (try split) <;> rfl
      exact Option.isSome_iff_exists.1 this
  obtain ⟨⟨n, b', rexB⟩, hs⟩ := hs
  have h0 : ¬ ((a.isImm = true ∧ fl.sseOp1 = true) ∨ (fl.binIns = true ∧ fl.shiftIns = true) ∨ ((fl.binIns = true ∨ fl.shiftIns = true) ∧ (fl.byteArg = true ∨ fl.halfArg = true)) ∨
      (fl.byteArg = true ∧ fl.halfArg = true) ∨ (fl.vexExt = true ∧ ¬ fl.rex = true)) := by
    intro hc
    rcases hc with hc | hc | hc | hc | hc
    · cases a with
      | imm v => rw [ha.1] at hc; cases hc.2
      | _ => cases hc.1
    · exact f1 hc
    · exact f2 hc
    · exact f3 hc
    · exact f4 ⟨hc.1, by simpa using hc.2⟩
  unfold emitX86
  rw [if_neg h0, show prep win b = ((prep win b).1, (prep win b).2) from rfl]
  simp only [hs, Option.bind_some]
  cases a with
  | mem _ _ _ => exact ha.elim
  | reg r =>
    have : ¬ (fl.shiftIns = true ∧ r ≠ PREF_SHIFT_REG) := fun hc => hc.2 (ha hc.1)
    simp only [this, if_false, Option.isSome_some]
  | imm v =>
    have : ¬ ((¬ m32 = true ∧ ¬ isHalf v = true) ∨ (fl.shiftIns = true ∧ ¬ v.sle (if m32 then 0x1f#64 else 0x3f#64) = true)) := by
      rintro (hc | hc)
      · exact hc.2 (ha.2.1 (by simpa using hc.1))
      · exact hc.2 (ha.2.2 hc.1)
    simp only [this, if_false, Option.isSome_some]

/-- Different registers of sljit are different registers of the machine, SLJIT_SP is RSP, SLJIT_PREF_SHIFT_REG is RCX, and SLJIT_R0 is RAX. -/
theorem c35_registers (win : Bool) : (∀ a b, 1 ≤ a → a ≤ 16 → 1 ≤ b → b ≤ 16 → mreg win false a = mreg win false b → a = b) ∧
    (∀ a b, 1 ≤ a → a ≤ 16 → 1 ≤ b → b ≤ 16 → mreg win true a = mreg win true b → a = b) ∧
    mreg win false 14 = 4#4 ∧ mreg win false 4 = 1#4 ∧ mreg win false 1 = 0#4 := by
  have A : ∀ win f : Bool, ∀ a b : Fin 17, 1 ≤ a.val → 1 ≤ b.val → mreg win f a.val = mreg win f b.val → a = b := by decide +kernel
  refine ⟨fun a b h1 h2 h3 h4 h => ?_, fun a b h1 h2 h3 h4 h => ?_, by revert win; decide, by revert win; decide, by revert win; decide⟩
  · exact Fin.mk.inj_iff.1 (A win false ⟨a, by omega⟩ ⟨b, by omega⟩ h1 h3 h)
  · exact Fin.mk.inj_iff.1 (A win true ⟨a, by omega⟩ ⟨b, by omega⟩ h1 h3 h)

/-! ## Cases which meet the hypotheses -/

-- RSP, RBP, R12 and R13 as base, with the displacements 0, 1, 128 and 2^32, and an absolute address
example : (emitX86 false false {} (.reg 1) (.mem 14 0 0#64)).map (fun o => (o.op [0x8b#8]).bytes) = some [0x48#8, 0x8b#8, 0x04#8, 0x24#8] := by decide
example : (emitX86 false false {} (.reg 1) (.mem 9 0 0#64)).map (fun o => (o.op [0x8b#8]).bytes) = some [0x48#8, 0x8b#8, 0x45#8, 0x00#8] := by decide
example : (emitX86 false true {} (.reg 12) (.mem 8 0 128#64)).map (fun o => (o.op [0x8b#8]).bytes) = some [0x45#8, 0x8b#8, 0xbc#8, 0x24#8, 0x80#8, 0#8, 0#8, 0#8] := by decide
example : (emitX86 false false {} (.reg 1) (.mem 10 9 3#64)).map (fun o => (o.op [0x8b#8]).bytes) = some [0x49#8, 0x8b#8, 0x44#8, 0xed#8, 0x00#8] := by decide
example : (emitX86 false true {} (.reg 1) (.mem 0 0 0x1000#64)).map (fun o => (o.op [0x8b#8]).bytes) = some [0x8b#8, 0x04#8, 0x25#8, 0#8, 0x10#8, 0#8, 0#8] := by decide
example : (emitX86 false false {} (.reg 1) (.mem 2 0 0x100000000#64)).map (fun o => (o.op [0x8b#8]).bytes) =
    some [0x49#8, 0xb9#8, 0#8, 0#8, 0#8, 0#8, 1#8, 0#8, 0#8, 0#8, 0x4a#8, 0x8b#8, 0x04#8, 0x0e#8] := by decide
example : Valid (.mem 14 0 0#64) ∧ Valid (.mem 10 9 3#64) ∧ Valid (.mem 0 0 0x1000#64) := ⟨by simp [Valid], by simp [Valid], by simp [Valid]⟩
example : parse [0x49#8, 0x8b#8, 0x44#8, 0xed#8, 0x00#8] = some (.rm 0#8 0x49#8 0 0x8b#8 0#4 (.mem (some 13#4) (some (5#4, 3#2)) 0#64) 0#64, []) := by decide

end Verif.Props.C35
