import Verif.X86.Atomic
import Verif.X86.MovEff

/-! # Atomic operations of the x86-64 backend (helper lemmas) -/

namespace Verif.X86
open Verif.RV (Op1C)

theorem Interf.refl (s : St) : Interf s s := ⟨s.m, rfl⟩

/-- The code can be executed to its end, and `Q` holds after every execution. -/
def wpX (e : List Byte) (s : St) (Q : St → XLog → Prop) : Prop := (∃ s' l, ExecX e s s' l) ∧ ∀ s' l, ExecX e s s' l → Q s' l

theorem wpX_mono {e : List Byte} {s : St} {Q R : St → XLog → Prop} (h : wpX e s Q) (hr : ∀ s' l, Q s' l → R s' l) : wpX e s R :=
  ⟨h.1, fun s' l hx => hr _ _ (h.2 _ _ hx)⟩

theorem wpX_nil {s : St} {Q : St → XLog → Prop} (h : ∀ s', Interf s s' → Q s' []) : wpX [] s Q := by
  refine ⟨⟨s, [], .nil (.refl s)⟩, fun s' l hx => ?_⟩
  cases hx with
  | nil hi => exact h _ hi
  | cons hi hs _ => cases hs

/-- One step which does the same for all memories. -/
theorem wpX_cons {bs r : List Byte} {s : St} {Q : St → XLog → Prop} (hp : ∃ t l, StepX bs r s t l)
    (hne : bs ≠ [])
    (h : ∀ s1, Interf s s1 → ∀ r' t l, StepX bs r' s1 t l → r' = r ∧ wpX r t fun s' l' => Q s' (l ++ l')) : wpX bs s Q := by
  constructor
  · obtain ⟨t, l, ht⟩ := hp
    obtain ⟨s', l', hx⟩ := (h s (.refl s) _ _ _ ht).2.1
    exact ⟨_, _, .cons (.refl s) ht hx⟩
  · intro s' l hx
    cases hx with
    | nil _ => exact absurd rfl hne
    | cons hi hs hx =>
      obtain ⟨rfl, hw⟩ := h _ hi _ _ _ hs
      exact hw.2 _ _ hx

/-- An instruction which does not write memory. -/
theorem wpX_ins {b : Byte} {bs r : List Byte} {i : Inst} {s : St} {Q : St → XLog → Prop} (hb : b ≠ 0xf0#8) (hp : parse (b :: bs) = some (i, r))
    (h : ∀ s1, Interf s s1 → ∃ t, exec i s1 = some t ∧ t.m = s1.m ∧ wpX r t Q) : wpX (b :: bs) s Q := by
  refine wpX_cons (r := r) ?_ (by simp) fun s1 hi r' t l hs => ?_
  · obtain ⟨t, ht, hm, -⟩ := h s (.refl s)
    exact ⟨t, [], .ins hb hp ht hm⟩
  · obtain ⟨t', ht, hm, hw⟩ := h s1 hi
    cases hs with
    | ins _ hp' ht' _ =>
      rw [hp] at hp'; cases hp'
      rw [ht] at ht'; cases ht'
      exact ⟨rfl, by simpa using hw⟩
    | str _ hp' ht' hm' =>
      rw [hp] at hp'; cases hp'
      rw [ht] at ht'; cases ht'
      exact absurd hm hm'
    | lock _ _ => exact absurd rfl hb

/-- LOCK CMPXCHG. -/
theorem wpX_lock {bs r : List Byte} {i : Inst} {s : St} {Q : St → XLog → Prop} (hp : parse bs = some (i, r)) (he : ∃ t l, CmpXchg i s t l)
    (h : ∀ s1 t l, Interf s s1 → CmpXchg i s1 t l → wpX r t fun s' l' => Q s' (l ++ l')) : wpX (0xf0#8 :: bs) s Q := by
  refine wpX_cons (r := r) ?_ (by simp) fun s1 hi r' t l hs => ?_
  · obtain ⟨t, l, hc⟩ := he
    exact ⟨t, l, .lock hp hc⟩
  · cases hs with
    | ins hb _ _ _ => exact absurd rfl hb
    | str hb _ _ _ => exact absurd rfl hb
    | lock hp' hc =>
      rw [hp] at hp'; cases hp'
      exact ⟨rfl, h _ _ _ hi hc⟩

/-! ## Decoding what emit_x86_instruction emits -/

/-- An instruction with a register and an operand without a long displacement. -/
theorem ins_parse {win m32 : Bool} {fl : Ins} {r : Nat} {b : Opd} {map : Nat} {op : Byte} {bs : List Byte} (h : ins win m32 fl (.reg r) b (opBytes map op) = some bs)
    (hsh : fl.shiftIns = false) (hss : fl.sseOp1 = false ∧ fl.sseOp2 = false) (hok : OpdOk win b) (hl : long b = false) (hp : preOk fl.pref = true) (hm : map = 0 ∨ map = 1) (ho : map = 0 → plainOp op = true ∧ op ≠ 0xf0#8)
    (hrm : hasRM map op = true) (hi : ∀ k, immSize fl.pref map op k = 0) :
    ∃ rex rm, (∀ rest, parse (bs ++ rest) = some (.rm fl.pref rex map op (num win r) rm 0#64, rest)) ∧ rex.getLsbD 3 = (!m32 && !fl.noRexW) ∧ (fl.rex = true → rex ≠ 0#8) ∧
      (∀ s, loc s rm = some (target win s b)) ∧ ∃ c cs, bs = c :: cs ∧ c ≠ 0xf0#8 := by
  simp only [ins, Option.map_eq_some_iff] at h
  obtain ⟨o, h, rfl⟩ := h
  obtain ⟨n, b', rexB, hs, h1, h2, h3, h4, h5, -⟩ := reg_inv h
  obtain ⟨r1, r2, r3, r4, r5, r6⟩ := rex_bits (m32 := m32) (fl := fl) (sizeB_rex hs) (ahigh win fl r)
  rw [← h3] at r1 r2 r3 r4 r5 r6
  obtain ⟨rm, e1, -, e3, -⟩ := b_parse hok hs r2 r3 (alow win fl r)
  have hpre : (prep win b).1 = [] := by
    cases b with
    | reg _ => rfl
    | imm _ => rfl
    | mem base offs w =>
      simp only [long, Bool.and_eq_false_iff, beq_eq_false_iff_ne, Bool.not_eq_false'] at hl
      simp only [prep]
      rw [if_neg]
      rintro ⟨ha, hb⟩
      rcases hl with hl | hl
      · exact hl ha
      · exact hb hl
  have hcl : ∀ s, clob win s b = s := by
    intro s
    cases b with
    | reg _ => rfl
    | imm _ => rfl
    | mem base offs w =>
      simp only [long, Bool.and_eq_false_iff, beq_eq_false_iff_ne, Bool.not_eq_false'] at hl
      simp only [clob]
      rw [if_neg]
      rintro ⟨ha, hb⟩
      rcases hl with hl | hl
      · exact hl ha
      · exact hb hl
  have hbt : ∀ s, btarget win fl s b = target win s b := by intro s; cases b <;> simp [btarget, target, hss.2]
  have hn : ext (ahigh win fl r) (alow win fl r) = num win r := by rw [← anum_eq]; simp [anum, hss.1]
  have hbytes : (o.op (opBytes map op)).bytes = (if fl.pref ≠ 0#8 then [fl.pref] else []) ++ ((if o.rex ≠ 0#8 then [o.rex] else []) ++
      (opBytes map op ++ ((alow win fl r).setWidth 8 <<< 3 ||| (encB win fl b').1) :: (encB win fl b').2)) := by
    simp only [Out.bytes, Out.body, Out.op, h1, h2, h4, h5, hsh, hpre, if_false, Bool.false_eq_true, List.append_assoc, List.cons_append, List.nil_append]
  refine ⟨o.rex, rm, fun rest => ?_, r5, r6, fun s => ?_, ?_⟩
  · have e1 := e1 ([] ++ rest)
    rw [r4] at e1
    have := parse_inst (ib := []) (imm := 0#64) hp r1 hm (fun h => (ho h).1) hrm e1 (by rw [hi]; exact sle_zero _)
    rw [hbytes, ← hn]
    simpa only [List.append_assoc, List.cons_append, List.nil_append] using this
  · have := e3 s
    rw [hcl, hbt] at this
    exact this
  · rw [hbytes]
    simp only [preOk, decide_eq_true_eq] at hp
    by_cases hf : fl.pref = 0#8
    · by_cases hr : o.rex = 0#8
      · rcases hm with rfl | rfl
        · exact ⟨op, _, by rw [if_neg (by simp [hf]), if_neg (by simp [hr])]; rfl, (ho rfl).2⟩
        · exact ⟨0x0f#8, _, by rw [if_neg (by simp [hf]), if_neg (by simp [hr])]; rfl, by decide⟩
      · refine ⟨o.rex, _, by rw [if_neg (by simp [hf]), if_pos (by simp [hr])]; rfl, ?_⟩
        intro hc
        rw [hc] at r1
        revert r1; decide
    · refine ⟨fl.pref, _, by rw [if_pos (by simp [hf])]; rfl, ?_⟩
      intro hc
      rw [hc] at hp
      revert hp; decide

theorem insX_some {win m32 : Bool} {fl : Ins} {r : Nat} {b : Opd} {opc : List Byte} (hb : b.isImm = false) (h : fl.shiftIns = false ∧ fl.binIns = false ∧ fl.vexExt = false ∧ ¬ (fl.byteArg = true ∧ fl.halfArg = true)) :
    ∃ bs, ins win m32 fl (.reg r) b opc = some bs := by
  obtain ⟨h1, h2, h3, h4⟩ := h
  have hs : ∀ b : Opd, b.isImm = false → ∃ x, sizeB win fl b = some x := by
    intro b hb
    cases b with
    | imm _ => cases hb
    | reg _ => exact ⟨_, rfl⟩
    | mem base offs w =>
      simp only [sizeB]
      repeat' split
      all_goals exact ⟨_, rfl⟩
  have hp : (prep win b).2.isImm = false := by
    cases b with
    | imm _ => cases hb
    | reg _ => rfl
    | mem base offs w =>
      simp only [prep]
      repeat' split
      all_goals rfl
  obtain ⟨x, hx⟩ := hs _ hp
  unfold ins emitX86
  rw [if_neg (by simp [h1, h2, h3, Opd.isImm]; simpa using h4)]
  rw [show prep win b = ((prep win b).1, (prep win b).2) from rfl]
  simp only [hx, Option.bind_some, h1, Bool.false_eq_true, false_and, if_false]
  exact ⟨_, rfl⟩

/-! ## Moves -/

theorem withM_exec (s : St) (m : XMem) (d : BitVec 4) (v : BitVec 64) : ({ s with m := m } : St).set d v = { s.set d v with m := m } := rfl

/-- A register is copied. -/
theorem mov_wp {win : Bool} {d r : Nat} {bs rest : List Byte} (h : emitMov win false (.reg d) (.reg r) = some bs) {s : St} {Q : St → XLog → Prop}
    (hw : ∀ m, wpX rest { s.set (num win d) (s.r (num win r)) with m := m } Q) : wpX (bs ++ rest) s Q := by
  have h : ins win false {} (.reg r) (.reg d) (opBytes 0 0x89#8) = some bs := h
  obtain ⟨rex, rm, h1, h2, -, h4, c, cs, h5, h6⟩ := ins_parse h rfl ⟨rfl, rfl⟩ trivial rfl (by decide) (Or.inl rfl) (fun _ => by decide) (by decide) (fun _ => by simp [immSize])
  have h1 := h1 rest
  rw [h5, List.cons_append] at h1 ⊢
  refine wpX_ins h6 h1 ?_
  rintro _ ⟨m, rfl⟩
  refine ⟨_, ?_, ?_, hw m⟩
  · have hn : opSize 0#8 rex = NB false := by simp [opSize, h2, NB]
    rw [show ({} : Ins).pref = 0#8 from rfl]
    simp only [exec, h4, target]
    unfold execRM
    rw [hn]
    simp only [Option.bind_some, show ¬ (0x89#8 : Byte) = 0x8d#8 by decide, and_false, if_false, if_true, show ¬ (fld 0x89#8 6 2 = 0#2 ∧ fld 0x89#8 0 3 = 1#3) by decide,
      show ¬ (fld 0x89#8 6 2 = 0#2 ∧ fld 0x89#8 0 3 = 3#3) by decide, show ¬ ((0x89#8 : Byte) = 0x81#8 ∨ (0x89#8 : Byte) = 0x83#8) by decide, show ¬ (0x89#8 : Byte) = 0x85#8 by decide,
      show ¬ (0x89#8 : Byte) = 0xf7#8 by decide, put_reg, trunc, Bool.false_eq_true]
    rfl
  · rfl

/-- A value is loaded by one instruction. -/
structure LoadOk (win : Bool) (n dst mem : Nat) (s s' : St) (l : XLog) : Prop where
  log : l = []
  val : ∃ m, s'.r (num win dst) = rd m (s.r (num win mem)) n
  kept : ∀ q, q ≠ num win dst → s'.r q = s.r q
  f : s'.f = s.f

theorem ea0 {win : Bool} {s : St} {b : Nat} (hb : b ≠ 0) : ea win s b 0 0#64 = s.r (num win b) := by simp [ea, hb]

theorem mem_ok {win : Bool} (b : Nat) : OpdOk win (.mem b 0 0#64) ∧ long (.mem b 0 0#64) = false := by
  refine ⟨⟨fun h => absurd rfl h, fun _ _ h => ?_⟩, ?_⟩
  · rw [isHalf0] at h; cases h
  · show (0 == 0 && !isHalf 0#64) = false
    rw [isHalf0]; rfl

theorem trunc_rd (m32 : Bool) (m : XMem) (a : BitVec 64) : trunc m32 (rd m a (NB m32)) = rd m a (NB m32) := by
  cases m32
  · rfl
  · apply BitVec.eq_of_getLsbD_eq
    intro k hk
    simp only [trunc, if_true, NB, BitVec.getLsbD_setWidth]
    by_cases h : k < 32
    · simp [h, hk]
    · rw [rd_bit m a 4 k (by omega)]; simp

/-- A load of n bytes with zero extension. -/
theorem load_wp {win m32 : Bool} {fl : Ins} {dst mem n map : Nat} {op : Byte} {bs : List Byte} (h : ins win m32 fl (.reg dst) (.mem mem 0 0#64) (opBytes map op) = some bs) (hb : mem ≠ 0)
    (hsh : fl.shiftIns = false) (hss : fl.sseOp1 = false ∧ fl.sseOp2 = false) (hp : fl.pref = 0#8 ∧ fl.noRexW = false) (hm : map = 0 ∨ map = 1) (ho : map = 0 → plainOp op = true ∧ op ≠ 0xf0#8)
    (hrm : hasRM map op = true) (hi : ∀ k, immSize fl.pref map op k = 0)
    (hx : ∀ rex a ea (s : St), rex.getLsbD 3 = !m32 → execRM 0#8 rex map op (num win dst) (some (.mem a)) ea 0#64 s = some (s.set (num win dst) (rd s.m a n))) (s : St) :
    wpX bs s (LoadOk win n dst mem s) := by
  obtain ⟨ok1, ok2⟩ := mem_ok (win := win) mem
  obtain ⟨rex, rm, h1, h2, -, h4, c, cs, h5, h6⟩ := ins_parse h hsh hss ok1 ok2 (by rw [hp.1]; decide) hm ho hrm hi
  have h1 := h1 []
  rw [List.append_nil, h5, hp.1] at h1
  rw [h5]
  refine wpX_ins h6 h1 ?_
  rintro _ ⟨m, rfl⟩
  have e : ∀ x, exec (.rm 0#8 rex map op (num win dst) rm 0#64) x = some (x.set (num win dst) (rd x.m (x.r (num win mem)) n)) := by
    intro x
    simp only [exec, h4, target, ea0 hb]
    exact hx _ _ _ _ (by rw [h2, hp.2]; simp)
  refine ⟨_, e _, rfl, wpX_nil ?_⟩
  rintro _ ⟨m', rfl⟩
  exact ⟨rfl, ⟨m, if_pos rfl⟩, fun q hq => if_neg hq, rfl⟩

theorem x_8b (m32 : Bool) (d : BitVec 4) (rex : Byte) (a : BitVec 64) (ea : Option (BitVec 64)) (s : St) (h : rex.getLsbD 3 = !m32) :
    execRM 0#8 rex 0 0x8b#8 d (some (.mem a)) ea 0#64 s = some (s.set d (rd s.m a (NB m32))) := by
  have hn : opSize 0#8 rex = NB m32 := by unfold opSize; rw [h]; cases m32 <;> rfl
  unfold execRM
  rw [hn]
  simp only [Option.bind_some, show ¬ (0x8b#8 : Byte) = 0x8d#8 by decide, and_false, if_false, if_true, show ¬ (fld 0x8b#8 6 2 = 0#2 ∧ fld 0x8b#8 0 3 = 1#3) by decide,
    show ¬ (fld 0x8b#8 6 2 = 0#2 ∧ fld 0x8b#8 0 3 = 3#3) by decide, show ¬ ((0x8b#8 : Byte) = 0x81#8 ∨ (0x8b#8 : Byte) = 0x83#8) by decide, show ¬ (0x8b#8 : Byte) = 0x85#8 by decide,
    show ¬ (0x8b#8 : Byte) = 0xf7#8 by decide, show ¬ (0x8b#8 : Byte) = 0x89#8 by decide, put_reg, get, trunc_rd]

theorem x_zx (op : Byte) (n : Nat) (ho : op = 0xb6#8 ∧ n = 1 ∨ op = 0xb7#8 ∧ n = 2) (d : BitVec 4) (rex : Byte) (a : BitVec 64) (ea : Option (BitVec 64)) (s : St) (h : rex.getLsbD 3 = !false) :
    execRM 0#8 rex 1 op d (some (.mem a)) ea 0#64 s = some (s.set d (rd s.m a n)) := by
  have hn : opSize 0#8 rex = NB false := by unfold opSize; rw [h]; rfl
  unfold execRM
  rw [hn]
  rcases ho with ⟨rfl, rfl⟩ | ⟨rfl, rfl⟩
  · simp only [Option.bind_some, show ¬ (1 = 0) by decide, false_and, if_false, if_true, show ¬ (0xb6#8 : Byte) = 0xaf#8 by decide, byteLoc, Bool.false_eq_true, put_reg, get, trunc]
  · simp only [Option.bind_some, show ¬ (1 = 0) by decide, false_and, if_false, if_true, show ¬ (0xb7#8 : Byte) = 0xaf#8 by decide, show ¬ (0xb7#8 : Byte) = 0xb6#8 by decide, put_reg, get, trunc,
      Bool.false_eq_true]

/-- Bytes of the atomic types. -/
def atBytes : Op1C → Nat
  | .movU8 | .movS8 => 1
  | .movU16 | .movS16 => 2
  | .movU32 | .movS32 | .mov32 => 4
  | _ => 8

/-- The operations of sljit_emit_atomic_load: SLJIT_MOV to SLJIT_MOV_P. -/
def IsMov (o : Op1C) : Prop := o ∈ [Op1C.mov, .movU8, .movS8, .movU16, .movS16, .movU32, .movS32, .mov32, .movP]

theorem load_ok {ft : Feat} {win ls : Bool} {o : Op1C} (hi : IsMov o) {dst mem : Nat} {bs : List Byte} (hb : mem ≠ 0) (h : emitAtomicLoad ft win ls o dst mem = some (some bs)) (s : St) :
    wpX bs s (LoadOk win (atBytes o) dst mem s) := by
  unfold emitAtomicLoad at h
  split at h
  · cases h
  · next hn =>
    have h := Option.some.inj h
    have mv : ∀ m32, emitMov win m32 (.reg dst) (.mem mem 0 0#64) = some bs → wpX bs s (LoadOk win (NB m32) dst mem s) := fun m32 h =>
      load_wp (fl := {}) (map := 0) (op := 0x8b#8) h hb rfl ⟨rfl, rfl⟩ ⟨rfl, rfl⟩ (Or.inl rfl) (fun _ => by decide) (by decide) (fun _ => by simp [immSize]) (fun rex a e s hr => x_8b m32 _ rex a e s hr) s
    have zx : ∀ op n, (op = 0xb6#8 ∧ n = 1 ∨ op = 0xb7#8 ∧ n = 2) → groupf win false op dst (.mem mem 0 0#64) = some bs → wpX bs s (LoadOk win n dst mem s) := fun op n ho h =>
      load_wp (fl := { size := 2 }) (map := 1) (op := op) h hb rfl ⟨rfl, rfl⟩ ⟨rfl, rfl⟩ (Or.inr rfl) (fun h => by cases h) (by rcases ho with ⟨rfl, rfl⟩ | ⟨rfl, rfl⟩ <;> decide)
        (fun _ => by rcases ho with ⟨rfl, rfl⟩ | ⟨rfl, rfl⟩ <;> simp [immSize]) (fun rex a e s hr => x_zx op n ho _ rex a e s hr) s
    have cn : ∀ c : Code, c +> some [] = some bs → c = some bs := by
      intro c h
      cases c with
      | none => cases h
      | some x => simpa [cat] using h
    simp only [IsMov, List.mem_cons, List.not_mem_nil, or_false] at hi
    rcases hi with rfl | rfl | rfl | rfl | rfl | rfl | rfl | rfl | rfl
    · exact mv false h
    · exact zx _ _ (Or.inl ⟨rfl, rfl⟩) (cn _ h)
    · exact absurd (Or.inr (Or.inl rfl)) hn
    · exact zx _ _ (Or.inr ⟨rfl, rfl⟩) (cn _ h)
    · exact absurd (Or.inr (Or.inr (Or.inl rfl))) hn
    · exact mv true (cn _ h)
    · exact absurd (Or.inr (Or.inr (Or.inr rfl))) hn
    · exact mv true h
    · exact mv false h

/-! ## LOCK CMPXCHG -/

theorem set_self (s : St) (d : BitVec 4) : s.set d (s.r d) = s := by
  have : (fun q => if q = d then s.r d else s.r q) = s.r := by
    funext q
    by_cases h : q = d
    · rw [if_pos h, h]
    · rw [if_neg h]
  show ({ s with r := _ } : St) = s
  rw [this]

/-- The n lowest bytes. -/
def lowN (n : Nat) (v : BitVec 64) : BitVec 64 := v &&& (BitVec.allOnes 64 >>> (64 - 8 * n))

theorem sub_zf {n : Nat} (h0 : 0 < n) (hn : n ≤ 8) (a v : BitVec 64) (hv : ∀ i, 8 * n ≤ i → v.getLsbD i = false) :
    (subF (a.setWidth (8 * n)) (v.setWidth (8 * n)) false).2.zf = some (decide (v = lowN n a)) := by
  have key : a.setWidth (8 * n) = v.setWidth (8 * n) ↔ v = lowN n a := by
    constructor
    · intro h
      apply BitVec.eq_of_getLsbD_eq
      intro i hi
      rw [lowN, mask_bit h0 hn]
      by_cases hk : i < 8 * n
      · have := congrArg (fun x => x.getLsbD i) h
        simp only [BitVec.getLsbD_setWidth, hk, decide_true, Bool.true_and] at this
        rw [this]; simp [hk]
      · rw [hv i (by omega)]; simp [hk]
    · intro h
      apply BitVec.eq_of_getLsbD_eq
      intro i hi
      rw [h]
      simp only [BitVec.getLsbD_setWidth, lowN, mask_bit h0 hn, hi, decide_true, Bool.true_and, Bool.and_true]
  have : (a.setWidth (8 * n) - v.setWidth (8 * n) - (BitVec.ofBool false).setWidth (8 * n) == 0#(8 * n)) = decide (v = lowN n a) := by
    rw [show (BitVec.ofBool false).setWidth (8 * n) = 0#(8 * n) by simp, BitVec.sub_zero]
    by_cases h : v = lowN n a
    · rw [decide_eq_true h, key.2 h, BitVec.sub_self]; simp
    · rw [decide_eq_false h]
      have : ¬ (a.setWidth (8 * n) - v.setWidth (8 * n) = 0#(8 * n)) := by
        intro hc
        exact h (key.1 (by rwa [BitVec.sub_eq_iff_eq_add, BitVec.zero_add] at hc))
      simpa using this
  simp only [subF, zs]
  rw [this]

theorem cas_wp {win m32 : Bool} {fl : Ins} {src mem n : Nat} {op : Byte} {bs rest : List Byte} (h : ins win m32 fl (.reg src) (.mem mem 0 0#64) [0x0f#8, op] = some bs) (hb : mem ≠ 0)
    (hsh : fl.shiftIns = false) (hss : fl.sseOp1 = false ∧ fl.sseOp2 = false) (hp : preOk fl.pref = true) (hw : fl.noRexW = false)
    (ho : op = 0xb0#8 ∧ n = 1 ∧ fl.rex = true ∨ op = 0xb1#8 ∧ n = (if m32 then (if fl.pref = 0x66#8 then 2 else 4) else 8)) {s : St} {Q : St → XLog → Prop}
    (heq : ∀ m v f, rd m (s.r (num win mem)) n = lowN n (s.r 0#4) → (v = s.r 0#4 ∨ n = 4 ∧ v = lowN 4 (s.r 0#4)) → f.zf = some true →
      wpX rest { s.set 0#4 v with m := wr m (s.r (num win mem)) n (s.r (num win src)), f := f } fun s' l => Q s' ((m, wr m (s.r (num win mem)) n (s.r (num win src))) :: l))
    (hne : ∀ m v f, rd m (s.r (num win mem)) n ≠ lowN n (s.r 0#4) → f.zf = some false → wpX rest { s.set 0#4 v with m := m, f := f } fun s' l => Q s' ((m, m) :: l)) :
    wpX (0xf0#8 :: (bs ++ rest)) s Q := by
  obtain ⟨ok1, ok2⟩ := mem_ok (win := win) mem
  have hop : op = 0xb0#8 ∨ op = 0xb1#8 := by rcases ho with h | h; exact Or.inl h.1; exact Or.inr h.1
  obtain ⟨rex, rm, h1, h2, h3, h4, -⟩ := ins_parse (map := 1) h hsh hss ok1 ok2 hp (Or.inr rfl) (fun h => by cases h) (by rcases hop with rfl | rfl <;> decide)
    (fun _ => by rcases hop with rfl | rfl <;> simp [immSize])
  have hloc : ∀ x : St, loc x rm = some (.mem (x.r (num win mem))) := by intro x; rw [h4 x]; simp only [target, ea0 hb]
  have hn : 0 < n ∧ n ≤ 8 := by
    rcases ho with ⟨-, rfl, -⟩ | ⟨-, rfl⟩
    · decide
    · split
      · split <;> decide
      · decide
  have hc : op = 0xb0#8 ∧ n = 1 ∧ byteReg rex (num win src) = false ∨ op = 0xb1#8 ∧ n = opSize fl.pref rex := by
    rcases ho with ⟨h, h', h''⟩ | ⟨h, h'⟩
    · exact Or.inl ⟨h, h', by simp [byteReg, h3 h'']⟩
    · refine Or.inr ⟨h, ?_⟩
      rw [h', opSize, h2, hw]
      cases m32 <;> simp
  have un : ∀ k, (op = 0xb0#8 ∧ k = 1 ∧ byteReg rex (num win src) = false ∨ op = 0xb1#8 ∧ k = opSize fl.pref rex) → k = n := by
    intro k hk
    rcases hc with ⟨a, b, -⟩ | ⟨a, b⟩ <;> rcases hk with ⟨a', b', -⟩ | ⟨a', b'⟩
    · rw [b, b']
    · rw [a] at a'; cases a'
    · rw [a] at a'; cases a'
    · rw [b, b']
  have zf : ∀ m, (subF ((s.r 0#4).setWidth (8 * n)) ((rd m (s.r (num win mem)) n).setWidth (8 * n)) false).2.zf = some (decide (rd m (s.r (num win mem)) n = lowN n (s.r 0#4))) := fun m =>
    sub_zf hn.1 hn.2 _ _ (fun i hi => rd_bit m _ n i hi)
  refine wpX_lock (h1 rest) ?_ ?_
  · by_cases he : rd s.m (s.r (num win mem)) n = get s n (.reg 0#4)
    · exact ⟨_, _, .eq false hc (hloc s) he⟩
    · exact ⟨_, _, .ne hc (hloc s) he⟩
  · rintro _ t l ⟨m, rfl⟩ hx
    cases hx with
    | eq z hk hl he =>
      cases un _ hk
      rw [hloc] at hl
      cases hl
      have he' : rd m (s.r (num win mem)) n = lowN n (s.r 0#4) := he
      have hv : (if z = true ∧ n = 4 then lowN 4 (s.r 0#4) else s.r 0#4) = s.r 0#4 ∨ n = 4 ∧ (if z = true ∧ n = 4 then lowN 4 (s.r 0#4) else s.r 0#4) = lowN 4 (s.r 0#4) := by
        by_cases h : z = true ∧ n = 4
        · exact Or.inr ⟨h.2, if_pos h⟩
        · exact Or.inl (if_neg h)
      have := heq m (if z = true ∧ n = 4 then lowN 4 (s.r 0#4) else s.r 0#4) (subF ((s.r 0#4).setWidth (8 * n)) ((rd m (s.r (num win mem)) n).setWidth (8 * n)) false).2 he'
        hv (by rw [zf, decide_eq_true he'])
      by_cases hz : z = true ∧ n = 4
      · rw [if_pos hz] at this ⊢
        exact this
      · rw [if_neg hz] at this ⊢
        rw [set_self] at this
        exact this
    | ne hk hl he =>
      cases un _ hk
      rw [hloc] at hl
      cases hl
      have he' : rd m (s.r (num win mem)) n ≠ lowN n (s.r 0#4) := he
      exact hne m _ (subF ((s.r 0#4).setWidth (8 * n)) ((rd m (s.r (num win mem)) n).setWidth (8 * n)) false).2 he' (by rw [zf, decide_eq_false he'])

/-! ## The store -/

/-- Registers of the application, and TMP_REG1 which is SLJIT_TMP_DEST_REG. -/
def Ux (r : Nat) : Prop := 1 ≤ r ∧ r ≤ 13 ∨ r = 15

theorem numX_tab : ∀ (win : Bool) (a b : Fin 17), 1 ≤ a.val → 1 ≤ b.val → num win a.val = num win b.val → a = b := by decide

theorem numX_inj {win : Bool} {a b : Nat} (ha : 1 ≤ a ∧ a ≤ 16) (hb : 1 ≤ b ∧ b ≤ 16) (h : a ≠ b) : num win a ≠ num win b := by
  intro e
  have := numX_tab win ⟨a, by omega⟩ ⟨b, by omega⟩ ha.1 hb.1 e
  exact h (congrArg Fin.val this)

theorem numX_r0 (win : Bool) : num win R0 = 0#4 := by cases win <;> rfl

theorem Ux.le {r : Nat} (h : Ux r) : 1 ≤ r ∧ r ≤ 16 := by unfold Ux at h; omega
theorem Ux.ne {r : Nat} (h : Ux r) : r ≠ TMP_REG2 := by unfold Ux at h; show r ≠ 16; omega

/-- What the store does. -/
structure CasOk (win : Bool) (n src mem temp : Nat) (s s' : St) (l : XLog) : Prop where
  kept : ∀ q, q ≠ num win temp → q ≠ num win TMP_REG2 → s'.r q = s.r q
  cell : ∃ m, (rd m (s.r (num win mem)) n = lowN n (s.r (num win temp)) ∧ l = [(m, wr m (s.r (num win mem)) n (s.r (num win src)))] ∧
        (s'.r (num win temp) = s.r (num win temp) ∨ n = 4 ∧ s'.r (num win temp) = lowN 4 (s.r (num win temp))) ∧ s'.f.zf = some true) ∨
      (rd m (s.r (num win mem)) n ≠ lowN n (s.r (num win temp)) ∧ l = [(m, m)] ∧ s'.f.zf = some false)

theorem store_ok {win ls : Bool} {o : Op1C} (hi : IsMov o) {src mem temp : Nat} (hs : Ux src) (hm : Ux mem) (ht : Ux temp) {bs : List Byte}
    (h : emitAtomicStore win ls o src mem temp = some (some bs)) (s : St) : wpX bs s (CasOk win (atBytes o) src mem temp s) := by
  unfold emitAtomicStore at h
  split at h
  · cases h
  next hn =>
  have h := Option.some.inj h
  dsimp only at h
  -- the instruction itself
  have core : ∀ (a b : Nat) (cs rest : List Byte) (s : St) (Q : St → XLog → Prop), b ≠ 0 →
      ins win (decide (o ≠ .mov ∧ o ≠ .movP)) { size := 2, halfArg := decide (o = .movU16), pref := if o = .movU16 then 0x66#8 else 0#8, rex := decide (o = .movU8) }
        (.reg a) (.mem b 0 0#64) [0x0f#8, if o = .movU8 then 0xb0#8 else 0xb1#8] = some cs →
      (∀ m v f, rd m (s.r (num win b)) (atBytes o) = lowN (atBytes o) (s.r 0#4) → (v = s.r 0#4 ∨ atBytes o = 4 ∧ v = lowN 4 (s.r 0#4)) → f.zf = some true →
        wpX rest { s.set 0#4 v with m := wr m (s.r (num win b)) (atBytes o) (s.r (num win a)), f := f } fun s' l => Q s' ((m, wr m (s.r (num win b)) (atBytes o) (s.r (num win a))) :: l)) →
      (∀ m v f, rd m (s.r (num win b)) (atBytes o) ≠ lowN (atBytes o) (s.r 0#4) → f.zf = some false → wpX rest { s.set 0#4 v with m := m, f := f } fun s' l => Q s' ((m, m) :: l)) →
      wpX (0xf0#8 :: (cs ++ rest)) s Q := by
    intro a b cs rest s Q hb hc h1 h2
    refine cas_wp hc hb rfl ⟨rfl, rfl⟩ ?_ rfl ?_ h1 h2
    · show preOk (if o = .movU16 then 0x66#8 else 0#8) = true
      split <;> decide
    · simp only [IsMov, List.mem_cons, List.not_mem_nil, or_false] at hi
      rcases hi with rfl | rfl | rfl | rfl | rfl | rfl | rfl | rfl | rfl <;> first | (simp [atBytes]; done) | (exfalso; exact hn (by simp))
  by_cases ht0 : temp = R0
  · subst ht0
    simp only [ne_eq, not_true_eq_false, false_and, if_false] at h
    simp only [cat, Option.bind_eq_some_iff, Option.map_eq_some_iff, Option.some.injEq] at h
    obtain ⟨_, rfl, _, ⟨_, rfl, _, ⟨cs, hc, _, rfl, rfl⟩, rfl⟩, rfl⟩ := h
    refine core src mem cs [] s _ (by have := hm.le; omega) hc (fun m v f h1 h2 h3 => wpX_nil ?_) (fun m v f h1 h3 => wpX_nil ?_)
    · rintro _ ⟨m', rfl⟩
      refine ⟨fun q h _ => if_neg (by rwa [numX_r0] at h), m, Or.inl ?_⟩
      rw [numX_r0]
      exact ⟨h1, rfl, h2, h3⟩
    · rintro _ ⟨m', rfl⟩
      refine ⟨fun q h _ => if_neg (by rwa [numX_r0] at h), m, Or.inr ?_⟩
      rw [numX_r0]
      exact ⟨h1, rfl, h3⟩
  · simp only [ne_eq, ht0, not_false_eq_true, true_and, if_true] at h
    simp only [cat, Option.bind_eq_some_iff, Option.map_eq_some_iff, Option.some.injEq] at h
    obtain ⟨_, ⟨b1, e1, b2, e2, rfl⟩, _, ⟨_, rfl, _, ⟨cs, hc, b3, e3, rfl⟩, rfl⟩, rfl⟩ := h
    have n0 : num win temp ≠ 0#4 := by rw [← numX_r0 win]; exact numX_inj ht.le ⟨by decide, by decide⟩ ht0
    have n2 : num win TMP_REG2 ≠ 0#4 := by cases win <;> decide
    have nt : num win temp ≠ num win TMP_REG2 := numX_inj ht.le ⟨by decide, by decide⟩ ht.ne
    -- a register after the two moves
    have sw : ∀ r, Ux r → ∀ m m', ({ ({ s.set (num win TMP_REG2) (s.r (num win R0)) with m := m } : St).set (num win R0)
        (({ s.set (num win TMP_REG2) (s.r (num win R0)) with m := m } : St).r (num win temp)) with m := m' } : St).r (num win (if r = R0 then TMP_REG2 else r)) = s.r (num win r) := by
      intro r hr m m'
      rw [numX_r0]
      by_cases h0 : r = R0
      · subst h0
        rw [if_pos rfl]
        show (if num win TMP_REG2 = 0#4 then _ else if num win TMP_REG2 = num win TMP_REG2 then s.r 0#4 else _) = _
        rw [if_neg n2, if_pos rfl, numX_r0]
      · rw [if_neg h0]
        have h1 : num win r ≠ 0#4 := by rw [← numX_r0 win]; exact numX_inj hr.le ⟨by decide, by decide⟩ h0
        show (if num win r = 0#4 then _ else if num win r = num win TMP_REG2 then _ else s.r (num win r)) = _
        rw [if_neg h1, if_neg (numX_inj hr.le ⟨by decide, by decide⟩ hr.ne)]
    have r0 : ∀ m m', ({ ({ s.set (num win TMP_REG2) (s.r (num win R0)) with m := m } : St).set (num win R0)
        (({ s.set (num win TMP_REG2) (s.r (num win R0)) with m := m } : St).r (num win temp)) with m := m' } : St).r 0#4 = s.r (num win temp) := by
      intro m m'
      rw [numX_r0]
      simp only [St.set, if_true, if_neg nt]
    rw [List.append_assoc]
    refine mov_wp e1 fun m1 => mov_wp e2 fun m2 => ?_
    have hb0 : (if mem = R0 then TMP_REG2 else mem) ≠ 0 := by
      split
      · decide
      · have := hm.le; omega
    have fin : ∀ (s2 : St), (∀ q, q ≠ 0#4 → q ≠ num win TMP_REG2 → s2.r q = s.r q) → s2.r (num win TMP_REG2) = s.r 0#4 →
        wpX b3 s2 fun s' l => l = [] ∧ s'.f = s2.f ∧ ∀ q, q ≠ num win TMP_REG2 → s'.r q = s.r q := by
      intro s2 k1 k2
      rw [← List.append_nil b3]
      refine mov_wp e3 fun m3 => wpX_nil ?_
      rintro _ ⟨m4, rfl⟩
      refine ⟨rfl, rfl, fun q hq => ?_⟩
      show (if q = num win R0 then s2.r (num win TMP_REG2) else s2.r q) = _
      rw [numX_r0]
      by_cases h0 : q = 0#4
      · rw [if_pos h0, k2, h0]
      · rw [if_neg h0, k1 q h0 hq]
    have k1 : ∀ (m' : XMem) (v : BitVec 64) (f : Flags) q, q ≠ 0#4 → q ≠ num win TMP_REG2 →
        ({ ({ ({ s.set (num win TMP_REG2) (s.r (num win R0)) with m := m1 } : St).set (num win R0)
        (({ s.set (num win TMP_REG2) (s.r (num win R0)) with m := m1 } : St).r (num win temp)) with m := m2 } : St).set 0#4 v with m := m', f := f } : St).r q = s.r q := by
      intro m' v f q h0 h2
      rw [numX_r0]
      show (if q = 0#4 then _ else if q = 0#4 then _ else if q = num win TMP_REG2 then _ else s.r q) = _
      rw [if_neg h0, if_neg h0, if_neg h2]
    have k2 : ∀ (m' : XMem) (v : BitVec 64) (f : Flags),
        ({ ({ ({ s.set (num win TMP_REG2) (s.r (num win R0)) with m := m1 } : St).set (num win R0)
        (({ s.set (num win TMP_REG2) (s.r (num win R0)) with m := m1 } : St).r (num win temp)) with m := m2 } : St).set 0#4 v with m := m', f := f } : St).r (num win TMP_REG2) = s.r 0#4 := by
      intro m' v f
      rw [numX_r0]
      show (if num win TMP_REG2 = 0#4 then _ else if num win TMP_REG2 = 0#4 then _ else if num win TMP_REG2 = num win TMP_REG2 then s.r 0#4 else _) = _
      rw [if_neg n2, if_neg n2, if_pos rfl]
    refine core _ _ cs b3 _ _ hb0 hc (fun m v f h1 h2 h3 => ?_) (fun m v f h1 h3 => ?_)
    · rw [sw mem hm, r0] at h1
      rw [sw mem hm, sw src hs]
      refine wpX_mono (fin _ (k1 _ _ _) (k2 _ _ _)) fun s' l g => ?_
      obtain ⟨rfl, g2, g3⟩ := g
      refine ⟨fun q _ hq => g3 q hq, m, Or.inl ⟨h1, rfl, Or.inl (g3 _ nt), ?_⟩⟩
      rw [g2]; exact h3
    · rw [sw mem hm, r0] at h1
      refine wpX_mono (fin _ (k1 _ _ _) (k2 _ _ _)) fun s' l g => ?_
      obtain ⟨rfl, g2, g3⟩ := g
      refine ⟨fun q _ hq => g3 q hq, m, Or.inr ⟨h1, rfl, ?_⟩⟩
      rw [g2]; exact h3

theorem cat_some {a b : Code} (ha : ∃ x, a = some x) (hb : ∃ x, b = some x) : ∃ x, a +> b = some x := by
  obtain ⟨x, rfl⟩ := ha
  obtain ⟨y, rfl⟩ := hb
  exact ⟨_, rfl⟩

/-- The code exists. -/
theorem store_some {win ls : Bool} {o : Op1C} {src mem temp : Nat} {c : Code} (h : emitAtomicStore win ls o src mem temp = some c) : ∃ bs, c = some bs := by
  unfold emitAtomicStore at h
  split at h
  · cases h
  · have h := (Option.some.inj h).symm
    subst h
    have mv : ∀ a b, ∃ x, emitMov win false (.reg a) (.reg b) = some x := fun a b => insX_some rfl ⟨rfl, rfl, rfl, by simp⟩
    refine cat_some ?_ (cat_some ⟨_, rfl⟩ (cat_some (insX_some rfl ⟨rfl, rfl, rfl, by simp⟩) ?_))
    · split
      · exact cat_some (mv _ _) (mv _ _)
      · exact ⟨_, rfl⟩
    · split
      · exact mv _ _
      · exact ⟨_, rfl⟩

@[inherit_doc store_some] theorem load_some {ft : Feat} {win ls : Bool} {o : Op1C} (hi : IsMov o) {dst mem : Nat} {c : Code} (h : emitAtomicLoad ft win ls o dst mem = some c) : ∃ bs, c = some bs := by
  unfold emitAtomicLoad at h
  split at h
  · cases h
  · next hn =>
    have h := (Option.some.inj h).symm
    subst h
    have mv : ∀ m32, ∃ x, emitMov win m32 (.reg dst) (.mem mem 0 0#64) = some x := fun m32 => insX_some rfl ⟨rfl, rfl, rfl, by simp⟩
    have zx : ∀ op, ∃ x, groupf win false op dst (.mem mem 0 0#64) = some x := fun op => insX_some rfl ⟨rfl, rfl, rfl, by simp⟩
    simp only [IsMov, List.mem_cons, List.not_mem_nil, or_false] at hi
    rcases hi with rfl | rfl | rfl | rfl | rfl | rfl | rfl | rfl | rfl
    · exact mv false
    · exact cat_some (zx _) ⟨_, rfl⟩
    · exact absurd (Or.inr (Or.inl rfl)) hn
    · exact cat_some (zx _) ⟨_, rfl⟩
    · exact absurd (Or.inr (Or.inr (Or.inl rfl))) hn
    · exact cat_some (mv true) ⟨_, rfl⟩
    · exact absurd (Or.inr (Or.inr (Or.inr rfl))) hn
    · exact mv true
    · exact mv false

end Verif.X86
