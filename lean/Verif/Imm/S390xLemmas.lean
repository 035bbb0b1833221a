import Verif.Imm.Bits
import Verif.Imm.S390x

/-! # push_load_imm_inst of S390X (helper lemmas) -/

namespace Verif.Imm.S390x
open Z

theorem halves4 {p : BitVec 64} (hp : p &&& 0xffffffff00f0ffff#64 = 0#64) (hp' : p.getLsbD 31 = true) (r : BitVec 4) (i : BitVec 16) :
    halves (ria p r i) = [(p >>> 16).setWidth 16 ||| (r.setWidth 16 <<< 4), i] := by
  have hz := zero_bits64 hp
  have z : ∀ k, k < 64 → ((0xffffffff00f0ffff#64).getLsbD k = true) → p.getLsbD k = false := fun k _ h => hz k h
  have h1 : ria p r i &&& 0xffff00000000#64 = 0#64 := by
    apply BitVec.eq_of_getLsbD_eq; intro k hk
    have := z k hk
    interval_cases k <;> simp [-BitVec.getLsbD_eq_getElem, -BitVec.setWidth_eq, ria, R20A] at this ⊢ <;> assumption
  have h2 : ria p r i &&& 0xffffffff0000#64 ≠ 0#64 := by
    intro h
    have := zero_bits64 h 31 (by decide)
    simp [-BitVec.getLsbD_eq_getElem, ria, hp'] at this
  unfold halves
  rw [if_neg (by rw [h1]; simp), if_pos h2]
  simp only [List.nil_append, List.cons_append, List.cons.injEq, and_true]
  constructor
  · apply BitVec.eq_of_getLsbD_eq; intro k hk
    have := z k (by omega)
    interval_cases k <;> simp [-BitVec.getLsbD_eq_getElem, -BitVec.setWidth_eq, ria, R20A] at this ⊢
  · apply BitVec.eq_of_getLsbD_eq; intro k hk
    have := z k (by omega)
    interval_cases k <;> simp [-BitVec.getLsbD_eq_getElem, -BitVec.setWidth_eq, ria, R20A] at this ⊢ <;> simp [this, -BitVec.getLsbD_eq_getElem]

theorem halves6 {p : BitVec 64} (hp : p &&& 0xffff00f0ffffffff#64 = 0#64) (hp' : p.getLsbD 47 = true) (r : BitVec 4) (i : BitVec 32) :
    halves (rila p r i) = [(p >>> 32).setWidth 16 ||| (r.setWidth 16 <<< 4), i.extractLsb' 16 16, i.extractLsb' 0 16] := by
  have z := zero_bits64 hp
  have h1 : rila p r i &&& 0xffff00000000#64 ≠ 0#64 := by
    intro h
    have := zero_bits64 h 47 (by decide)
    simp [-BitVec.getLsbD_eq_getElem, rila, hp'] at this
  have h2 : rila p r i &&& 0xffffffff0000#64 ≠ 0#64 := by
    intro h
    have := zero_bits64 h 47 (by decide)
    simp [-BitVec.getLsbD_eq_getElem, rila, hp'] at this
  unfold halves
  rw [if_pos h1, if_pos h2]
  simp only [List.nil_append, List.cons_append, List.cons.injEq, and_true]
  refine ⟨?_, ?_, ?_⟩
  · apply BitVec.eq_of_getLsbD_eq; intro k hk
    have := z k
    interval_cases k <;> simp [-BitVec.getLsbD_eq_getElem, -BitVec.setWidth_eq, rila, R36A, BitVec.getLsbD_signExtend] at this ⊢
  · apply BitVec.eq_of_getLsbD_eq; intro k hk
    have := z (k + 16)
    interval_cases k <;> simp [-BitVec.getLsbD_eq_getElem, -BitVec.setWidth_eq, rila, R36A, BitVec.getLsbD_signExtend] at this ⊢ <;> simp [this, -BitVec.getLsbD_eq_getElem]
  · apply BitVec.eq_of_getLsbD_eq; intro k hk
    have := z k
    interval_cases k <;> simp [-BitVec.getLsbD_eq_getElem, -BitVec.setWidth_eq, rila, R36A, BitVec.getLsbD_signExtend] at this ⊢ <;> simp [this, -BitVec.getLsbD_eq_getElem]

theorem head4 (n : BitVec 16) (hn : n &&& 0xf0#16 = 0#16) (r : BitVec 4) : (n ||| r.setWidth 16 <<< 4).extractLsb' 8 8 = n.extractLsb' 8 8 ∧
    (n ||| r.setWidth 16 <<< 4).extractLsb' 4 4 = r ∧ (n ||| r.setWidth 16 <<< 4).extractLsb' 0 4 = n.extractLsb' 0 4 := by
  have hz : ∀ k, k < 4 → n.getLsbD (k + 4) = false := by
    intro k hk
    have := congrArg (fun v => v.getLsbD (k + 4)) hn
    interval_cases k <;> simpa [-BitVec.getLsbD_eq_getElem] using this
  refine ⟨?_, ?_, ?_⟩
  · bits64 []
  · bits64 [hz 0, hz 1, hz 2, hz 3]
  · bits64 []

theorem dec_lghi (r : BitVec 4) (i : BitVec 16) (ws : List (BitVec 16)) : decode (halves (lghi r i) ++ ws) = some (.lghi r i, ws) := by
  rw [lghi, halves4 (by decide) (by decide)]
  obtain ⟨h1, h2, h3⟩ := head4 0xa709#16 (by decide) r
  simp only [show ((0xa7090000#64) >>> 16).setWidth 16 = 0xa709#16 by decide, List.cons_append, List.nil_append, decode, h1, h2, h3]
  rfl

theorem dec_lli (n : Nat) (hn : n < 4) (p : BitVec 64) (hp : p = 0xa50f0000#64 - (BitVec.ofNat 64 n <<< 16)) (r : BitVec 4) (i : BitVec 16)
    (ws : List (BitVec 16)) : decode (halves (ria p r i) ++ ws) = some (.lli r n i, ws) := by
  subst hp
  interval_cases n
  · rw [halves4 (by decide) (by decide)]
    obtain ⟨h1, h2, h3⟩ := head4 0xa50f#16 (by decide) r
    simp only [show ((0xa50f0000#64 - (BitVec.ofNat 64 0 <<< 16)) >>> 16).setWidth 16 = 0xa50f#16 by decide, List.cons_append, List.nil_append, decode, h1, h2, h3]
    rfl
  · rw [halves4 (by decide) (by decide)]
    obtain ⟨h1, h2, h3⟩ := head4 0xa50e#16 (by decide) r
    simp only [show ((0xa50f0000#64 - (BitVec.ofNat 64 1 <<< 16)) >>> 16).setWidth 16 = 0xa50e#16 by decide, List.cons_append, List.nil_append, decode, h1, h2, h3]
    rfl
  · rw [halves4 (by decide) (by decide)]
    obtain ⟨h1, h2, h3⟩ := head4 0xa50d#16 (by decide) r
    simp only [show ((0xa50f0000#64 - (BitVec.ofNat 64 2 <<< 16)) >>> 16).setWidth 16 = 0xa50d#16 by decide, List.cons_append, List.nil_append, decode, h1, h2, h3]
    rfl
  · rw [halves4 (by decide) (by decide)]
    obtain ⟨h1, h2, h3⟩ := head4 0xa50c#16 (by decide) r
    simp only [show ((0xa50f0000#64 - (BitVec.ofNat 64 3 <<< 16)) >>> 16).setWidth 16 = 0xa50c#16 by decide, List.cons_append, List.nil_append, decode, h1, h2, h3]
    rfl

theorem join (i : BitVec 32) : (i.extractLsb' 16 16).setWidth 32 <<< 16 ||| (i.extractLsb' 0 16).setWidth 32 = i := by bits64 []

theorem dec_lgfi (r : BitVec 4) (i : BitVec 32) (ws : List (BitVec 16)) : decode (halves (lgfi r i) ++ ws) = some (.lgfi r i, ws) := by
  rw [lgfi, halves6 (by decide) (by decide)]
  obtain ⟨h1, h2, h3⟩ := head4 0xc001#16 (by decide) r
  simp only [show ((0xc00100000000#64) >>> 32).setWidth 16 = 0xc001#16 by decide, List.cons_append, List.nil_append, decode, h1, h2, h3, join]
  rfl

theorem dec_iihf (r : BitVec 4) (i : BitVec 32) (ws : List (BitVec 16)) : decode (halves (iihf r i) ++ ws) = some (.iihf r i, ws) := by
  rw [iihf, halves6 (by decide) (by decide)]
  obtain ⟨h1, h2, h3⟩ := head4 0xc008#16 (by decide) r
  simp only [show ((0xc00800000000#64) >>> 32).setWidth 16 = 0xc008#16 by decide, List.cons_append, List.nil_append, decode, h1, h2, h3, join]
  rfl

theorem dec_llihf (r : BitVec 4) (i : BitVec 32) (ws : List (BitVec 16)) : decode (halves (llihf r i) ++ ws) = some (.llihf r i, ws) := by
  rw [llihf, halves6 (by decide) (by decide)]
  obtain ⟨h1, h2, h3⟩ := head4 0xc00e#16 (by decide) r
  simp only [show ((0xc00e00000000#64) >>> 32).setWidth 16 = 0xc00e#16 by decide, List.cons_append, List.nil_append, decode, h1, h2, h3, join]
  rfl

theorem dec_llilf (r : BitVec 4) (i : BitVec 32) (ws : List (BitVec 16)) : decode (halves (llilf r i) ++ ws) = some (.llilf r i, ws) := by
  rw [llilf, halves6 (by decide) (by decide)]
  obtain ⟨h1, h2, h3⟩ := head4 0xc00f#16 (by decide) r
  simp only [show ((0xc00f00000000#64) >>> 32).setWidth 16 = 0xc00f#16 by decide, List.cons_append, List.nil_append, decode, h1, h2, h3, join]
  rfl

theorem halves_cons (ins : BitVec 64) : ∃ h t, halves ins = h :: t := by
  unfold halves
  split <;> split <;> exact ⟨_, _, rfl⟩

theorem run_step {i : Inst} {ins : BitVec 64} {ws : List (BitVec 16)} (h : decode (halves ins ++ ws) = some (i, ws)) (n : Nat) (x : Regs) :
    run (n + 1) (halves ins ++ ws) x = run n ws (exec i x) := by
  obtain ⟨a, t, e⟩ := halves_cons ins
  rw [e] at h ⊢
  simp only [List.cons_append] at h ⊢
  simp only [run, h, Option.bind_some]

theorem run_one {i : Inst} {ins : BitVec 64} (h : ∀ ws, decode (halves ins ++ ws) = some (i, ws)) (x : Regs) :
    run 2 ([ins].flatMap halves) x = some (exec i x) := by
  have := run_step (h []) 1 x
  simpa [run] using this

theorem put_put (x : Regs) (d a b) : put (put x d a) d b = put x d b := by funext q; simp only [put]; split <;> rfl
theorem put_self (x : Regs) (d a) : put x d a d = a := by simp [put]
theorem fin {x : Regs} {r : BitVec 4} {a b : BitVec 64} (h : a = b) : some (put x r a) = some (put x r b) := by rw [h]

theorem pushLoadImm_run (r : BitVec 4) (v : BitVec 64) (x : Regs) : run 2 ((pushLoadImm r v).flatMap halves) x = some (put x r v) := by
  unfold pushLoadImm
  split
  next h =>
    have hr := bits_sle h 15
    rw [run_one (dec_lghi r _)]
    refine fin ?_
    bits64 [BitVec.getLsbD_signExtend, BitVec.msb_eq_getLsbD_last, hr]
  next =>
  split
  next h =>
    have hz := zero_bits64 h
    have hb : ∀ k, k < 64 → 16 ≤ k → v.getLsbD k = false := fun k hk hk' => hz k (by interval_cases k <;> rfl)
    rw [llill, run_one (dec_lli 0 (by omega) _ (by decide) r _)]
    refine fin ?_
    bits64 [hb]
  next =>
  split
  next h =>
    have hz := zero_bits64 h
    have hb : ∀ k, k < 64 → 32 ≤ k → v.getLsbD k = false := fun k hk hk' => hz k (by interval_cases k <;> rfl)
    have hb' : ∀ k, k < 16 → v.getLsbD k = false := fun k hk => hz k (by interval_cases k <;> rfl)
    rw [llilh, run_one (dec_lli 1 (by omega) _ (by decide) r _)]
    refine fin ?_
    bits64 [hb, hb', BitVec.getLsbD_sshiftRight]
  next =>
  split
  next h =>
    have hz := zero_bits64 h
    have hb : ∀ k, k < 64 → 48 ≤ k → v.getLsbD k = false := fun k hk hk' => hz k (by interval_cases k <;> rfl)
    have hb' : ∀ k, k < 32 → v.getLsbD k = false := fun k hk => hz k (by interval_cases k <;> rfl)
    rw [llihl, run_one (dec_lli 2 (by omega) _ (by decide) r _)]
    refine fin ?_
    bits64 [hb, hb', BitVec.getLsbD_sshiftRight]
  next =>
  split
  next h =>
    have hz := zero_bits64 h
    have hb' : ∀ k, k < 48 → v.getLsbD k = false := fun k hk => hz k (by interval_cases k <;> rfl)
    rw [llihh, run_one (dec_lli 3 (by omega) _ (by decide) r _)]
    refine fin ?_
    bits64 [hb', BitVec.getLsbD_sshiftRight]
  next =>
  split
  next h =>
    rw [run_one (dec_lgfi r _)]
    simp only [exec]
    rw [← h]
  next =>
  split
  next h =>
    have hb : ∀ k, k < 64 → 32 ≤ k → v.getLsbD k = false := by
      intro k hk hk'
      have := congrArg (fun v => v.getLsbD (k - 32)) h
      simpa [-BitVec.getLsbD_eq_getElem, show 32 + (k - 32) = k by omega] using this
    rw [run_one (dec_llilf r _)]
    refine fin ?_
    bits64 [hb]
  next =>
  split
  next h =>
    have hb : ∀ k, k < 32 → v.getLsbD k = false := by
      intro k hk
      have := congrArg (fun v => v.getLsbD (k + 32)) h
      simpa [-BitVec.getLsbD_eq_getElem, show k + 32 < 64 by omega] using this
    rw [run_one (dec_llihf r _)]
    refine fin ?_
    bits64 [hb]
  next =>
    simp only [List.flatMap_cons, List.flatMap_nil]
    rw [run_step (dec_llilf r _ _), run_step (dec_iihf r _ _)]
    simp only [run, exec, put_self, put_put]
    refine fin ?_
    bits64 [BitVec.getLsbD_sshiftRight]

end Verif.Imm.S390x
