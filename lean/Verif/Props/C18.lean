import Verif.RISCV.GenFinal

/-!
# C18, C19, C40, C41: code generation (RV64)

The specification side is `Placed` (GenSpec.lean), which only talks about executions of the instruction memory, and the
conditions on programs `Prog.Ok`, `Prog.Tail` (same file).
-/

namespace Verif.Props
open Verif.RV

/-- The memory sljit_generate_code may use: `base` is what sljit_malloc_exec returned, `off` its executable offset. -/
structure Room (cfg : Cfg) (items : List Item) (base off : BitVec 64) : Prop where
  small : usize cfg items < 2 ^ 60
  /-- The executable mapping does not wrap around. -/
  noWrap : (base + off).toNat + 2 * usize cfg items < 2 ^ 64
  align : base.toNat % (if cfg.c then 2 else 4) = 0
  offEven : off &&& 1#64 = 0#64
  /-- No address of the code is in the 2 KB window below 2^51 (see `c18_window_false`). -/
  window : ∀ x, x ≤ usize cfg items → ¬ badWindow (base + BitVec.ofNat 64 (2 * x) + off)

theorem generate_spec (cfg : Cfg) (items : List Item) (base off : BitVec 64) (m0 : HMem)
    (hp : Prog.Ok cfg (Prog.labels items) items) (ht : Prog.Tail items) (hr : Room cfg items base off)
    (hend : off = 0#64 ∨ ¬ Prog.endsInLabel items) :
    ∃ r, generate cfg items base off m0 = some r ∧ r.len ≤ usize cfg items ∧ r.laddr.length = Prog.labels items ∧
      ∀ code, Loaded code base off r.m r.len →
        Placed code off r.laddr items (base + off) 0 r.caddr (base + off + BitVec.ofNat 64 (2 * r.len)) := by
  have hls := labelSizes_length cfg items 0
  obtain ⟨R, L, SR, hred⟩ : ∃ R L SR, reduce cfg items 0 0 0 false (labelSizes cfg 0 items) = (R, L, SR) := ⟨_, _, _, rfl⟩
  have hR : R.map RItem.toItem = items := by have := reduce_items cfg items 0 0 0 false (labelSizes cfg 0 items); rwa [hred] at this
  have hlc : lcount R = Prog.labels items := by rw [lcount_items, hR]
  obtain ⟨g1, g2, g3, g4, g5, g6, g7, g8⟩ := reduce_good cfg _ items 0 0 0 false _ R L SR hred hls rfl (Nat.le_refl _) hp (fun n h => by omega)
  simp only [Nat.zero_add, Nat.sub_zero] at g6 g7 g8
  have hT : TailOk cfg R := by have := tailOk_reduce cfg _ items 0 0 0 false (labelSizes cfg 0 items) hp ht; rwa [hred] at this
  have hL : L.length = Prog.labels items := by rw [g1, hls]
  have hLn : ∀ k, k < L.length → L.getD k 0 ≤ usize cfg items - SR := by
    intro k hk
    have := RGood_bounds R 0 _ 0 g8 k (by omega) (by omega)
    omega
  have hw : (⟨base, off, usize cfg items - SR⟩ : Env).NoWrap := by
    have := hr.noWrap; simp only [Env.NoWrap]; omega
  have hI : GInv ⟨base, off, usize cfg items - SR⟩ L ⟨m0, 0, L, 0, [], [], []⟩ 0 false 0 :=
    ⟨Nat.le_refl _, rfl, rfl, fun k hk => by simp at hk, fun _ _ => rfl, by simp, rfl⟩
  obtain ⟨s', f1, f2⟩ := genLoop_ok (cfg := cfg) (e := ⟨base, off, usize cfg items - SR⟩) hw (by have := hr.small; simp only; omega) hLn
    (fun x hx => hr.window x (by simp only at hx; omega)) R _ 0 false 0 hI (by simpa using g8) (by rw [hR, hL]; exact hp) hT (by simp only; omega) (by omega)
  obtain ⟨p1, p2, p3, p4, p5, p6, ⟨ps, cs, p7, p7c, p8⟩, p9, p10, p11⟩ := f2
  simp only [List.nil_append] at p7 p7c
  have hfin : s'.cp ≤ usize cfg items - SR := by simp only at p2; omega
  have hla : s'.laddr = s'.labels.map (Env.exec ⟨base, off, usize cfg items - SR⟩) := by
    rw [p9, p11, ← p3, List.take_length]
  have hel : endLabel ⟨base, off, usize cfg items - SR⟩ R s'.laddr = s'.laddr := endLabel_id _ _ _ (by rw [hR]; exact hend)
  obtain ⟨m', q1, q2, q3⟩ := patchAll_ok (nl := s'.labels.length) (laddr := s'.laddr) (e := ⟨base, off, usize cfg items - SR⟩) hfin (by
      intro t htk
      cases t with
      | label n => rw [hla]; exact getD_map _ _ n htk
      | addr a => rfl) R (by rw [hR, p3, hL]; exact hp) p8
  refine ⟨⟨m', s'.cp, s'.laddr, s'.caddr, s'.cp * 4, s'.pend.map Pending.addr⟩, ?_, by simp only; omega, by simp only [hla, List.length_map]; omega, fun code hc => ?_⟩
  · simp only [generate, hred, f1, Option.bind_some, hel, p7, q1]
  · have hfin2 := Placed_of_Fin (code := code) hc hr.align hr.offEven (by have := hr.small; omega) R (by rw [hR, p3, hL]; exact hp) (by omega) (fun _ => rfl) q3
    have e0 : ∀ x, Env.exec ⟨base, off, usize cfg items - SR⟩ x = base + off + BitVec.ofNat 64 (2 * x) := by
      intro x; rw [Env.exec, BitVec.add_assoc, BitVec.add_comm (BitVec.ofNat 64 _), ← BitVec.add_assoc]
    rw [e0, e0, hR] at hfin2
    simp only [hla, p7c]
    simpa using hfin2

/-- The pieces of a placed program are placed. -/
theorem placed_suffix {code : Code} {off : BitVec 64} {laddr : List (BitVec 64)} {suf : List Item} {fin : BitVec 64} :
    ∀ (pre : List Item) {a : BitVec 64} {li : Nat} {ca : List (BitVec 64)}, Placed code off laddr (pre ++ suf) a li ca fin →
      ∃ a' ca', Placed code off laddr suf a' (li + Prog.labels pre) ca' fin := by
  intro pre
  induction pre with
  | nil => intro a li ca h; exact ⟨a, ca, h⟩
  | cons i is ih =>
    intro a li ca h
    cases i with
    | code hs => exact ih h.2
    | label =>
      obtain ⟨x, y, z⟩ := ih h.2
      exact ⟨x, y, by rw [Prog.labels]; rwa [Nat.add_right_comm, Nat.add_assoc] at z⟩
    | alabel al =>
      obtain ⟨x, y, z⟩ := ih h.2.2
      exact ⟨x, y, by rw [Prog.labels]; rwa [Nat.add_right_comm, Nat.add_assoc] at z⟩
    | const hs => obtain ⟨_, ca', _, h⟩ := h; exact ih h
    | jump j => obtain ⟨n, _, _, h⟩ := h; exact ih h
    | mov r t => obtain ⟨n, _, h⟩ := h; exact ih h

/-- C18: a jump to a label continues with the code which was emitted after that label: wherever the jump and the label are
in the program, and whichever of the encodings the generator selected for the jump. -/
theorem c18_partial (cfg : Cfg) (items pre post pre' post' : List Item) (j : JInfo) (l : Item) (base off : BitVec 64) (m0 : HMem)
    (hp : Prog.Ok cfg (Prog.labels items) items) (ht : Prog.Tail items) (hr : Room cfg items base off)
    (hend : off = 0#64 ∨ ¬ Prog.endsInLabel items)
    (hj : items = pre ++ .jump j :: post) (hl : items = pre' ++ l :: post') (hlab : l = .label ∨ ∃ al, l = .alabel al)
    (hjl : j.tgt = .label (Prog.labels pre')) :
    ∃ r, generate cfg items base off m0 = some r ∧ ∀ code, Loaded code base off r.m r.len →
      ∃ aj al n ca ca', Placed code off r.laddr (.jump j :: post) aj (Prog.labels pre) ca (base + off + BitVec.ofNat 64 (2 * r.len)) ∧
        Placed code off r.laddr post' al (Prog.labels pre' + 1) ca' (base + off + BitVec.ofNat 64 (2 * r.len)) ∧
        r.laddr.getD (Prog.labels pre') 0#64 = al ∧ ∀ s : St, s.pc = aj → JumpDoes code j al n s := by
  obtain ⟨r, h1, h2, h3, h4⟩ := generate_spec cfg items base off m0 hp ht hr hend
  refine ⟨r, h1, fun code hc => ?_⟩
  have hP := h4 code hc
  obtain ⟨aj, ca, pj⟩ := placed_suffix pre (hj ▸ hP)
  obtain ⟨al, ca', pl⟩ := placed_suffix pre' (hl ▸ hP)
  rw [Nat.zero_add] at pj pl
  have pj' := pj
  obtain ⟨n, hn, -, -⟩ := pj'
  rw [hjl] at hn
  rcases hlab with rfl | ⟨k, rfl⟩
  · obtain ⟨q1, q2⟩ := pl
    exact ⟨aj, al, n, ca, ca', pj, q2, q1, fun s hs => by have := hn s hs; rwa [tgtOf, q1] at this⟩
  · obtain ⟨q0, q1, q2⟩ := pl
    exact ⟨aj, _, n, ca, ca', pj, q2, rfl, fun s hs => hn s hs⟩

/-- C19: no half word is written outside of the allocated buffer (`generate` would be `none`) and the code is not larger
than the buffer. -/
theorem c19_partial (cfg : Cfg) (items : List Item) (base off : BitVec 64) (m0 : HMem)
    (hp : Prog.Ok cfg (Prog.labels items) items) (ht : Prog.Tail items) (hr : Room cfg items base off)
    (hend : off = 0#64 ∨ ¬ Prog.endsInLabel items) :
    ∃ r, generate cfg items base off m0 = some r ∧ r.len ≤ usize cfg items := by
  obtain ⟨r, h1, h2, -⟩ := generate_spec cfg items base off m0 hp ht hr hend
  exact ⟨r, h1, h2⟩

/-- C40: the address of a label is the executable address of the code emitted after it (unless the program ends in a label
and the executable mapping differs from the writable one). -/
theorem c40_partial (cfg : Cfg) (items pre post : List Item) (l : Item) (base off : BitVec 64) (m0 : HMem)
    (hp : Prog.Ok cfg (Prog.labels items) items) (ht : Prog.Tail items) (hr : Room cfg items base off)
    (hend : off = 0#64 ∨ ¬ Prog.endsInLabel items)
    (hl : items = pre ++ l :: post) (hlab : l = .label ∨ ∃ al, l = .alabel al) :
    ∃ r, generate cfg items base off m0 = some r ∧ ∀ code, Loaded code base off r.m r.len →
      ∃ ca, Placed code off r.laddr post (r.laddr.getD (Prog.labels pre) 0#64) (Prog.labels pre + 1) ca (base + off + BitVec.ofNat 64 (2 * r.len)) := by
  obtain ⟨r, h1, h2, h3, h4⟩ := generate_spec cfg items base off m0 hp ht hr hend
  refine ⟨r, h1, fun code hc => ?_⟩
  obtain ⟨al, ca', pl⟩ := placed_suffix pre (hl ▸ h4 code hc)
  rw [Nat.zero_add] at pl
  rcases hlab with rfl | ⟨k, rfl⟩
  · obtain ⟨q1, q2⟩ := pl
    exact ⟨ca', by rwa [q1]⟩
  · exact ⟨ca', pl.2.2⟩

/-- C41: what sljit_get_generated_code_size reports is exactly twice the number of bytes which were generated. -/
theorem c41_partial (cfg : Cfg) (items : List Item) (base off : BitVec 64) (m0 : HMem) (r : GenResult)
    (h : generate cfg items base off m0 = some r) : r.execSize = 2 * (2 * r.len) := by
  simp only [generate, Option.bind_eq_some_iff, Option.some.injEq] at h
  obtain ⟨s, -, m, -, rfl⟩ := h
  simp only
  omega

/-! ## A program which meets the conditions -/

namespace C18Demo

def cfg : Cfg := ⟨true, false, false⟩

/-- Two loops, an aligned label, a rewritable jump, a call, a constant and a move address. -/
def items : List Item :=
  [.code (w32 NOP), .label, .code (w32 NOP), .jump ⟨.b16 true 1, false, false, .label 2⟩,
   .code (w16 C_NOP), .jump ⟨.b32 0 1 2, false, false, .label 0⟩, .alabel 4, .const (w32 NOP ++ w32 NOP), .mov 3 (.label 0),
   .jump ⟨.none, true, false, .label 1⟩, .label, .code (w32 NOP), .jump ⟨.none, false, true, .addr 0x123456789a#64⟩]

def base : BitVec 64 := 0x7f0012340000#64
def off : BitVec 64 := 0x100000#64

end C18Demo

theorem C18Demo.size : usize C18Demo.cfg C18Demo.items = 81 := by decide +kernel

theorem C18Demo.ok : Prog.Ok C18Demo.cfg (Prog.labels C18Demo.items) C18Demo.items := by
  simp [Prog.Ok, items, cfg, Prog.labels, Item.Ok, Tgt.Ok, Br.Ok, regMap, badWindow, w32, w16, Item.isLabel, Br.cond16]
  decide

theorem C18Demo.tail : Prog.Tail C18Demo.items := by
  have h : ∀ (b : Prop) (l : List Item) (hs : List (BitVec 16)), Item.code hs ∈ l → (b → ∃ i ∈ l, i ≠ .label) :=
    fun _ l hs hm _ => ⟨_, hm, by intro h; cases h⟩
  exact ⟨h _ _ (w16 C_NOP) (by simp), h _ _ (w32 NOP) (by simp), h _ _ (w32 NOP) (by simp), by intro h; simp [Br.cond] at h, trivial⟩

theorem C18Demo.room : Room C18Demo.cfg C18Demo.items C18Demo.base C18Demo.off := by
  constructor
  · rw [size]; omega
  · rw [size]; simp [base, off]
  · simp [base, cfg]
  · simp [off]
  · rw [size]
    intro x hx
    have : (base + BitVec.ofNat 64 (2 * x) + off).toNat = 0x7f0012440000 + 2 * x := by
      have h1 : base.toNat = 0x7f0012340000 := by rfl
      have h2 : off.toNat = 0x100000 := by rfl
      rw [BitVec.toNat_add, BitVec.toNat_add, h1, h2, BitVec.toNat_ofNat]; omega
    simp only [badWindow, this]; omega

theorem C18Demo.noEnd : ¬ Prog.endsInLabel C18Demo.items := by
  rintro ⟨i, hi, h⟩
  simp only [items, List.getLast?_cons_cons, List.getLast?_singleton, Option.some.injEq] at hi
  subst hi
  rcases h with h | ⟨_, h⟩ <;> cases h

/-! ## Findings: where the full statements fail -/

/-- C19 fails: when the last instruction is a conditional jump to a near label, generate_code copies the placeholder of the
jump one half word behind the buffer (sljitNativeRISCV_common.c:957-960 runs before the jump is shortened). Here: `L: if
(x10 == x11) goto L;`, the buffer has 2 half words. -/
theorem c19_false : ∃ (cfg : Cfg) (items : List Item) (base off : BitVec 64),
    Prog.Ok cfg (Prog.labels items) items ∧ Room cfg items base off ∧ off = 0#64 ∧ ∀ m0, generate cfg items base off m0 = none := by
  have hu : usize ⟨true, false, false⟩ [.label, .jump ⟨.b32 1 1 2, false, false, .label 0⟩] = 14 := rfl
  refine ⟨⟨true, false, false⟩, [.label, .jump ⟨.b32 1 1 2, false, false, .label 0⟩], 0x10000#64, 0#64, ?_, ⟨?_, ?_, ?_, ?_, ?_⟩, rfl, ?_⟩
  · refine ⟨rfl, ⟨rfl, fun _ => ?_, by simp [Tgt.Ok, Prog.labels], fun h => ?_⟩, trivial⟩
    · contradiction
    · simp [Br.cond16] at h
  · rw [hu]; decide
  · rw [hu]; decide
  · decide
  · decide
  · rw [hu]
    intro x hx
    have : (0x10000#64 + BitVec.ofNat 64 (2 * x) + 0#64).toNat = 0x10000 + 2 * x := by
      simp only [BitVec.toNat_add, BitVec.toNat_ofNat]; omega
    simp only [badWindow, this]; omega
  · intro m0; rfl

/-- C40 fails: the address of a label at the end of the program is its writable address (sljitNativeRISCV_common.c:985-992). -/
theorem c40_false : ∃ (cfg : Cfg) (items : List Item) (base off : BitVec 64) (m0 : HMem),
    (generate cfg items base off m0).map (fun r => (r.len, r.laddr)) = some (2, [base + 4#64]) ∧ base + 4#64 ≠ base + off + 4#64 :=
  ⟨⟨true, false, false⟩, [.code (w32 NOP), .label], 0x10000#64, 0x1000#64, fun _ => 0#16, by decide +kernel⟩

/-- C41 fails: the reported size is not the number of generated bytes (sljitNativeRISCV_common.c:1041 computes a difference
of half word pointers and multiplies it by the size of a full instruction). -/
theorem c41_false : ∃ (cfg : Cfg) (items : List Item) (base off : BitVec 64) (m0 : HMem),
    (generate cfg items base off m0).map (fun r => (r.len, r.execSize)) = some (2, 8) :=
  ⟨⟨true, false, false⟩, [.code (w32 NOP)], 0x10000#64, 0#64, fun _ => 0#16, by decide +kernel⟩

/-- C18 fails for targets in the window 0x7fffffffff800..0x7ffffffffffff: sljit_emit_op_addr loads a different address
(the LUI of load_addr_to_reg sign extends, sljitNativeRISCV_common.c:694-723). -/
theorem c18_window_false : ∃ (cfg : Cfg) (t base : BitVec 64) (m0 : HMem),
    (generate cfg [.mov 1 (.addr t)] base 0#64 m0).bind (fun r =>
      (run ((List.range r.len).map r.m) ⟨fun _ => 0#64, fun _ => 0#64, fun _ => 0#8, base⟩).map fun s => s.rd 10#5) =
        some 0xfff7fffffffff800#64 ∧ t ≠ 0xfff7fffffffff800#64 :=
  ⟨⟨true, false, false⟩, 0x7fffffffff800#64, 0x10000#64, fun _ => 0#16, by decide +kernel⟩

/-- C18 fails for a compressed conditional jump to a constant address which is 256 bytes away: detect_jump_type checks the
distance from the jump (254), but the offset is relative to the branch in front of it (256), and is stored as -256
(sljitNativeRISCV_common.c:470-480). -/
theorem c18_cond16_false : ∃ (cfg : Cfg) (t base : BitVec 64) (m0 : HMem),
    (generate cfg [.jump ⟨.b16 true 1, false, false, .addr t⟩, .code (w32 NOP)] base 0#64 m0).bind (fun r => decode16 (r.m 0)) =
      some (.branch .eq 10#5 0#5 (-256#13)) ∧ t = base + 256#64 :=
  ⟨⟨true, false, false⟩, 0x10100#64, 0x10000#64, fun _ => 0#16, by decide +kernel⟩

end Verif.Props
