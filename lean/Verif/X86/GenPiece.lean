import Verif.X86.GenReduce
import Verif.X86.JumpSeq

/-! # Single pieces of the generated code (helper lemmas) -/

namespace Verif.X86

/-! ## Distances -/

theorem isByte_iff (v : BitVec 64) : isByte v = true ↔ -0x80 ≤ v.toInt ∧ v.toInt ≤ 0x7f := by
  have h1 : (127#64).toInt = 127 := by decide
  have h2 : (-128#64).toInt = -128 := by decide
  simp only [isByte, Bool.and_eq_true, BitVec.sle_iff_toInt_le, h1, h2]; omega

theorem isHalf_iff (v : BitVec 64) : isHalf v = true ↔ -0x80000000 ≤ v.toInt ∧ v.toInt ≤ 0x7fffffff := by
  have h1 : (0x7fffffff#64).toInt = 0x7fffffff := by decide
  have h2 : (-0x80000000#64).toInt = -0x80000000 := by decide
  simp only [isHalf, Bool.and_eq_true, BitVec.sle_iff_toInt_le, h1, h2]; omega

theorem ofNat_toInt {k : Nat} (h : k < 2 ^ 32) : (BitVec.ofNat 64 k).toInt = k := by
  rw [BitVec.toInt_eq_toNat_of_lt] <;> rw [BitVec.toNat_ofNat, Nat.mod_eq_of_lt] <;> omega

theorem sub_toInt (b : BitVec 64) {x y m : Nat} (hx : x < 2 ^ 32) (hy : y < 2 ^ 32) (hm : m < 2 ^ 32) :
    ((b + BitVec.ofNat 64 x) - (b + BitVec.ofNat 64 y) - BitVec.ofNat 64 m).toInt = (x : Int) - y - m := by
  have e1 : (b + BitVec.ofNat 64 x) - (b + BitVec.ofNat 64 y) = BitVec.ofNat 64 x - BitVec.ofNat 64 y := by
    generalize BitVec.ofNat 64 x = u
    generalize BitVec.ofNat 64 y = v
    bv_omega
  rw [e1, BitVec.toInt_sub, BitVec.toInt_sub, ofNat_toInt hx, ofNat_toInt hy, ofNat_toInt hm, Int.bmod_eq_of_le (n := (x : Int) - y) (by omega) (by omega)]
  exact Int.bmod_eq_of_le (by omega) (by omega)

theorem sub_one_toInt (v : BitVec 64) (h : -2 ^ 63 < v.toInt) : (v - 1#64).toInt = v.toInt - 1 := by
  have h2 : (1#64).toInt = 1 := by decide
  have := BitVec.toInt_lt (x := v)
  have := BitVec.le_toInt (x := v)
  rw [BitVec.toInt_sub, h2]
  exact Int.bmod_eq_of_le (by omega) (by omega)

theorem add_toInt (v : BitVec 64) {k : Nat} (hk : k < 2 ^ 20) (h : v.toInt < 2 ^ 62) : (v + BitVec.ofNat 64 k).toInt = v.toInt + k := by
  have := BitVec.le_toInt (x := v)
  rw [BitVec.toInt_add, ofNat_toInt (by omega)]
  exact Int.bmod_eq_of_le (by omega) (by omega)

theorem exec_add (e : Env) (a b : Nat) : e.exec (a + b) = e.exec a + BitVec.ofNat 64 b := by
  simp only [Env.exec, BitVec.ofNat_add]
  ac_rfl

theorem exec_base (e : Env) (a : Nat) : e.exec a = (e.base + e.off) + BitVec.ofNat 64 a := by
  simp only [Env.exec]; ac_rfl

theorem sub_add' (x y : BitVec 64) (a b : Nat) : x - (y + BitVec.ofNat 64 a) - BitVec.ofNat 64 b = x - y - BitVec.ofNat 64 a - BitVec.ofNat 64 b := by
  simp only [BitVec.sub_eq_add_neg, BitVec.neg_add]; ac_rfl

theorem sub_sub' (x : BitVec 64) (a b : Nat) : x - BitVec.ofNat 64 a - BitVec.ofNat 64 b = x - BitVec.ofNat 64 (a + b) := by
  rw [BitVec.ofNat_add]; simp only [BitVec.sub_eq_add_neg, BitVec.neg_add]; ac_rfl

/-! ## Patching -/

/-- Executable address of a target, `F` being the positions of the labels. -/
def tgtPos (e : Env) (F : List Nat) : Tgt → BitVec 64
  | .label k => e.exec (F.getD k 0)
  | .addr a => a

theorem tgtAddr_pos {e : Env} {F : List Nat} {t : Tgt} (h : t.Ok F.length) : tgtAddr (F.map e.exec) t = tgtPos e F t := by
  cases t with
  | addr a => rfl
  | label k =>
    have h : k < F.length := h
    simp [tgtAddr, tgtPos, List.getD, h]

theorem store_mid {A pre mid new post Y : List Byte} {at' : Nat} (ha : at' = A.length + pre.length) (hl : mid.length = new.length) :
    store (A ++ (pre ++ mid ++ post ++ Y)) at' new = some (A ++ (pre ++ new ++ post ++ Y)) := by
  subst ha
  simp only [store]
  rw [if_pos (by simp only [List.length_append]; omega)]
  have e1 : (A ++ (pre ++ mid ++ post ++ Y)).take (A.length + pre.length) = A ++ pre := by
    rw [← List.append_assoc, ← List.append_assoc, ← List.append_assoc, List.append_assoc _ mid, List.append_assoc _ (mid ++ _)]
    rw [List.take_append_of_le_length (by simp), List.take_of_length_le (by simp)]
  have e2 : (A ++ (pre ++ mid ++ post ++ Y)).drop (A.length + pre.length + new.length) = post ++ Y := by
    rw [← hl]
    have : A ++ (pre ++ mid ++ post ++ Y) = (A ++ pre ++ mid) ++ (post ++ Y) := by simp only [List.append_assoc]
    rw [this, List.drop_append_of_le_length (by simp only [List.length_append]; omega), List.drop_of_length_le (by simp only [List.length_append]; omega), List.nil_append]
  rw [e1, e2]
  simp only [List.append_assoc]

/-- The record `p` patches the bytes `pb` at position `cp` into `fb`. -/
def Patches (e : Env) (F : List Nat) (cp : Nat) (p : Pending) (pb fb : List Byte) : Prop :=
  pb.length = fb.length ∧ ∀ A Y : List Byte, A.length = cp → patchOne e (F.map e.exec) (A ++ (pb ++ Y)) p = some (A ++ (fb ++ Y))

/-- A far jump. -/
theorem far_patches {e : Env} {F : List Nat} {cp : Nat} {j : JInfo} (ht : j.tgt.Ok F.length) :
    let s := !j.rew && (match j.tgt with | .addr t => decide (t.toNat ≤ 0xffffffff) | .label _ => false)
    (farJump e.win j).2.1 = (farPre e.win j.type s).length ∧
    Patches e F cp ⟨false, j.tgt, (farJump e.win j).2.2, cp + (farJump e.win j).2.1⟩ (farJump e.win j).1
      (jumpB e.win j.type (tgtPos e F j.tgt) (e.exec cp) (.far s)) := by
  obtain ⟨type, rew, tgt⟩ := j
  have ha := tgtAddr_pos (e := e) ht
  refine ⟨?_, ?_, ?_⟩
  · simp only [farJump, farPre]; split <;> rfl
  · cases tgt with
    | addr t => simp only [farJump, jumpB, farPre, farPost, tgtPos]
    | label k => simp only [farJump, jumpB, farPre, farPost, tgtPos, Bool.and_false, Bool.false_eq_true, if_false]; split <;> simp [toLe_length]
  · intro A Y hA
    cases tgt with
    | addr t =>
      simp only [patchOne, farJump, Bool.false_eq_true, if_false, jumpB, farPre, farPost, tgtPos, List.append_assoc]
    | label k =>
      simp only [patchOne, Bool.false_eq_true, if_false]
      have e1 : (farJump e.win ⟨type, rew, .label k⟩).1 = farPre e.win type false ++ toLe 8 0#64 ++ farPost e.win type := by
        simp only [farJump, farPre, farPost, Bool.and_false, Bool.false_eq_true, if_false]
      have e2 : (farJump e.win ⟨type, rew, .label k⟩).2.2 = .md := rfl
      have e3 : (farJump e.win ⟨type, rew, .label k⟩).2.1 = (farPre e.win type false).length := by
        simp only [farJump, farPre]; split <;> rfl
      simp only [e1, e2, e3, jumpB, Bool.and_false, Bool.false_eq_true, if_false]
      rw [ha]
      exact store_mid (by omega) (by simp only [toLe_length])

/-- A near jump. -/
theorem near_patches {e : Env} {F : List Nat} {cp : Nat} {j : JInfo} (ht : j.tgt.Ok F.length) (short : Bool) :
    Patches e F cp ⟨false, j.tgt, if short then .mb else .mw, cp + (nearOp j.type short).length⟩
      (nearOp j.type short ++ List.replicate (if short then 1 else 4) 0#8)
      (jumpB e.win j.type (tgtPos e F j.tgt) (e.exec cp) (if short then .short else .near)) := by
  have ha := tgtAddr_pos (e := e) ht
  cases short
  · refine ⟨by simp [jumpB, toLe_length], fun A Y hA => ?_⟩
    simp only [patchOne, Bool.false_eq_true, if_false, jumpB, ha, exec_add]
    rw [show (4#64 : BitVec 64) = BitVec.ofNat 64 4 from rfl, sub_add']
    have := store_mid (A := A) (pre := nearOp j.type false) (mid := List.replicate 4 0#8) (post := []) (Y := Y) (at' := cp + (nearOp j.type false).length)
      (new := toLe 4 (tgtPos e F j.tgt - e.exec cp - BitVec.ofNat 64 (nearOp j.type false).length - BitVec.ofNat 64 4)) (by omega) (by simp [toLe_length])
    simpa only [List.append_nil, List.append_assoc] using this
  · refine ⟨by simp [jumpB, toLe_length], fun A Y hA => ?_⟩
    simp only [patchOne, Bool.false_eq_true, if_false, if_true, jumpB, ha, exec_add]
    rw [show (1#64 : BitVec 64) = BitVec.ofNat 64 1 from rfl, sub_add']
    have := store_mid (A := A) (pre := nearOp j.type true) (mid := List.replicate 1 0#8) (post := []) (Y := Y) (at' := cp + (nearOp j.type true).length)
      (new := toLe 1 (tgtPos e F j.tgt - e.exec cp - BitVec.ofNat 64 (nearOp j.type true).length - BitVec.ofNat 64 1)) (by omega) (by simp [toLe_length])
    simpa only [List.append_nil, List.append_assoc] using this

theorem nearOp_length (type : Nat) (short : Bool) : (nearOp type short).length = if type < JUMP ∧ short = false then 2 else 1 := by
  by_cases h1 : type = 36
  · subst h1; simp [nearOp]
  · by_cases h2 : 36 < type
    · simp [nearOp, h1, h2, show ¬ (type < 36) by omega]
    · cases short <;> simp [nearOp, h1, h2, show type < 36 by omega]

/-! ## Jumps -/

/-- The final positions of the labels, as far as they are known at position `cp` (estimated: `E`); the next piece has `len` bytes. -/
structure Fits (L : List Nat) (cur : List Nat) (F : List Nat) (li E cp len : Nat) : Prop where
  len_eq : F.length = L.length
  old : ∀ k, k < li → F.getD k 0 = cur.getD k 0
  new : ∀ k, li ≤ k → k < L.length → cp + len ≤ F.getD k 0 ∧ F.getD k 0 + E ≤ L.getD k 0 + cp

/-- What is known about the state of the loop. -/
structure Inv (e : Env) (L : List Nat) (T : Nat) (cur : List Nat) (li E cp : Nat) : Prop where
  small : T + 16 < 2 ^ 31
  fit : e.n ≤ T
  wrap : e.base.toNat + T < 2 ^ 64
  wrapx : (e.base + e.off).toNat + T < 2 ^ 64
  bound : ∀ k, L.getD k 0 ≤ T
  le : cp ≤ E
  leE : E ≤ e.n
  len_eq : cur.length = L.length
  done : ∀ k, k < li → cur.getD k 0 ≤ cp ∧ L.getD k 0 + cp ≤ E + cur.getD k 0
  todo : ∀ k, li ≤ k → cur.getD k 0 = L.getD k 0

theorem far_length (win : Bool) (j : JInfo) : (farJump win j).1.length = maxSize j.type -
    (if j.rew = false ∧ (∃ t, j.tgt = .addr t ∧ t.toNat ≤ 0xffffffff) then 4 else 0) := by
  obtain ⟨type, rew, tgt⟩ := j
  have hp : ∀ x : Byte, (if type < 36 then [getJumpCode (type ^^^ 1) - 16#8, x] else []).length = if type < 36 then 2 else 0 := by
    intro x; split <;> rfl
  cases tgt with
  | label k =>
    simp only [farJump, Bool.and_false, Bool.false_eq_true, if_false, List.length_append, hp, toLe_length, List.length_cons, List.length_nil, maxSize]
    simp
    split <;> split <;> omega
  | addr t =>
    simp only [farJump, List.length_append, hp, toLe_length, List.length_cons, List.length_nil, maxSize]
    cases rew
    · by_cases ht : t.toNat ≤ 0xffffffff <;> simp [ht] <;> split <;> split <;> omega
    · simp; split <;> split <;> omega

theorem label_size {short : Bool} {type : Nat} {D : Int} (h1 : -0x7ffffff0 < D) (h2 : D < 0x7ffffff0)
    (hs : type ≤ JUMP → D ≤ 0x7f + 2 ∧ -0x80 + 2 ≤ D → short = true) :
    (if short then 2 else if type < JUMP then 6 else 5) ≤ maxSize type - labelCut type D := by
  unfold labelCut maxSize
  cases short
  · simp only [Bool.false_eq_true, imp_false] at hs
    simp only [Bool.false_eq_true, if_false]
    by_cases ht : type < 36
    · rw [if_pos ht, if_neg (show ¬ 36 ≤ type by omega), if_neg (show ¬ type = 36 by omega), if_pos ht, if_neg (hs (by omega)), if_pos (by omega)]
    · rw [if_neg ht, if_pos (show 36 ≤ type by omega)]
      by_cases ht' : type = 36
      · rw [if_pos ht', if_neg (hs (by omega)), if_pos (by omega)]
      · rw [if_neg ht', if_neg ht, if_pos (by omega)]
  · simp only [if_true]
    split_ifs <;> omega

theorem short_iff (d : BitVec 64) (type : Nat) : decide (-0x80 ≤ d.toInt ∧ d.toInt ≤ 0x7f ∧ type ≤ JUMP) = true ↔ (type ≤ JUMP ∧ isByte d = true) := by
  rw [decide_eq_true_eq, isByte_iff]; omega

theorem jump_ok {e : Env} {L cur : List Nat} {T li E cp : Nat} (hi : Inv e L T cur li E cp) {j : JInfo} {est : Nat} (hty : j.type < 40) (htok : j.tgt.Ok L.length)
    (he : EstJ L li E j est) (hfw : ∀ k, li ≤ k → k < L.length → E + est ≤ L.getD k 0) (hne : NoEdge (e.base + e.off) T (.jump j)) :
    let r := detectJump e j cp E (tgtSize cur j.tgt)
    r.1.length ≤ est ∧ 2 ≤ r.1.length ∧ ∀ F, Fits L cur F li E cp r.1.length → ∃ k, KindOk j.type (tgtPos e F j.tgt) (e.exec cp) k ∧
      (j.rew = true → k = .far false ∧ r.2.1 = (farPre e.win j.type false).length) ∧
      Patches e F cp ⟨false, j.tgt, r.2.2, cp + r.2.1⟩ r.1 (jumpB e.win j.type (tgtPos e F j.tgt) (e.exec cp) k) := by
  intro r
  have hsm := hi.small
  have hcpn : cp ≤ T := by have := hi.le; have := hi.leE; have := hi.fit; omega
  have hmax : 13 ≤ maxSize j.type := by unfold maxSize; split <;> omega
  rcases hrew : j.rew with _ | _
  · rcases htg : j.tgt with k | t
    · -- a label
      simp only [EstJ, hrew, htg] at he
      obtain ⟨hk, D, hest, hD1, hD2, hold, hnew⟩ := he
      have hcur : cur.getD k 0 ≤ T := by
        by_cases h : k < li
        · have := (hi.done k h).1; omega
        · rw [hi.todo k (by omega)]; exact hi.bound k
      have hE := hi.leE
      have hfit := hi.fit
      -- the measured distance
      let x := if cur.getD k 0 > E then E else cp
      have hx : x ≤ T := by simp only [x]; split <;> omega
      have hd : ∀ m : Nat, m < 10 → (nearDiff e j cp E (cur.getD k 0) - BitVec.ofNat 64 m).toInt = (cur.getD k 0 : Int) - x - m := by
        intro m hm
        simp only [nearDiff, htg]
        exact sub_toInt _ (by omega) (by omega) (by omega)
      have h2 := hd 2 (by omega)
      have h5 := hd 5 (by omega)
      have h6 := hd 6 (by omega)
      have hnear : ¬ (j.rew = true ∨ 0x7fffffff < (nearDiff e j cp E (cur.getD k 0) - 6#64).toInt ∨ (nearDiff e j cp E (cur.getD k 0) - 5#64).toInt < -0x80000000) := by
        rw [hrew]
        rintro (h | h | h)
        · cases h
        · rw [h6] at h; omega
        · rw [h5] at h; omega
      have hr : r = (nearOp j.type (decide (-0x80 ≤ (nearDiff e j cp E (cur.getD k 0) - 2#64).toInt ∧ (nearDiff e j cp E (cur.getD k 0) - 2#64).toInt ≤ 0x7f ∧ j.type ≤ JUMP)) ++ List.replicate (if (decide (-0x80 ≤ (nearDiff e j cp E (cur.getD k 0) - 2#64).toInt ∧ (nearDiff e j cp E (cur.getD k 0) - 2#64).toInt ≤ 0x7f ∧ j.type ≤ JUMP)) then 1 else 4) 0#8,
          (nearOp j.type (decide (-0x80 ≤ (nearDiff e j cp E (cur.getD k 0) - 2#64).toInt ∧ (nearDiff e j cp E (cur.getD k 0) - 2#64).toInt ≤ 0x7f ∧ j.type ≤ JUMP))).length, if (decide (-0x80 ≤ (nearDiff e j cp E (cur.getD k 0) - 2#64).toInt ∧ (nearDiff e j cp E (cur.getD k 0) - 2#64).toInt ≤ 0x7f ∧ j.type ≤ JUMP)) then .mb else .mw) := by
        simp only [r, detectJump, htg, tgtSize]
        rw [if_neg hnear]
      have hdec : decide (-0x80 ≤ (nearDiff e j cp E (cur.getD k 0) - 2#64).toInt ∧ (nearDiff e j cp E (cur.getD k 0) - 2#64).toInt ≤ 0x7f ∧ j.type ≤ JUMP) =
          decide (-0x80 ≤ (cur.getD k 0 : Int) - x - 2 ∧ (cur.getD k 0 : Int) - x - 2 ≤ 0x7f ∧ j.type ≤ JUMP) := by
        have h2' : (nearDiff e j cp E (cur.getD k 0) - 2#64).toInt = (cur.getD k 0 : Int) - x - 2 := h2
        rw [h2']
      rw [hdec] at hr
      generalize hsh : decide (-0x80 ≤ (cur.getD k 0 : Int) - x - 2 ∧ (cur.getD k 0 : Int) - x - 2 ≤ 0x7f ∧ j.type ≤ JUMP) = short at hr
      have hlen : r.1.length = if short then 2 else if j.type < JUMP then 6 else 5 := by
        rw [hr]
        simp only [List.length_append, List.length_replicate, nearOp_length]
        cases short <;> simp <;> split <;> rfl
      rw [htg] at htok
      have hxk : (k < li → x = cp ∧ cur.getD k 0 ≤ cp ∧ L.getD k 0 + cp ≤ E + cur.getD k 0) ∧ (li ≤ k → x = E ∧ cur.getD k 0 = L.getD k 0 ∧ E + est ≤ L.getD k 0) := by
        refine ⟨fun h => ?_, fun h => ?_⟩
        · have h1 := hi.done k h
          have := hi.le
          refine ⟨?_, h1.1, h1.2⟩
          simp only [x]; rw [if_neg (by omega)]
        · have h1 := hi.todo k h
          have h2 := hfw k h hk
          refine ⟨?_, h1, h2⟩
          simp only [x]; rw [if_pos]
          have : 2 ≤ est := by have := labelCut_le j.type D; omega
          omega
      have hle : r.1.length ≤ est := by
        rw [hlen, hest]
        have hDx : (cur.getD k 0 : Int) - x ≤ D ∨ (D ≤ (cur.getD k 0 : Int) - x ∧ (cur.getD k 0 : Int) - x ≤ 0) := by
          by_cases h : k < li
          · have := hxk.1 h; have := hold h; omega
          · have := hxk.2 (by omega); have := hnew (by omega); omega
        have hpos : li ≤ k → 0 < (cur.getD k 0 : Int) - x := by
          intro h
          have := hxk.2 h
          have : 2 ≤ est := by have := labelCut_le j.type D; omega
          omega
        have hD3 : li ≤ k → (cur.getD k 0 : Int) - x ≤ D := by
          intro h; have := hxk.2 h; have := hnew h; omega
        have hD4 : k < li → D ≤ (cur.getD k 0 : Int) - x ∧ (cur.getD k 0 : Int) - x ≤ 0 := by
          intro h; have := hxk.1 h; have := hold h; omega
        have hs1 : j.type ≤ JUMP → D ≤ 0x7f + 2 ∧ -0x80 + 2 ≤ D → short = true := by
          intro ht hd
          rw [← hsh, decide_eq_true_eq]
          by_cases h : k < li
          · have := hD4 h; omega
          · have := hpos (by omega); have := hD3 (by omega); omega
        exact label_size hD1 hD2 hs1
      refine ⟨hle, by rw [hlen]; split; omega; split <;> omega, fun F hF => ?_⟩
      refine ⟨if short then .short else .near, ?_, by simp, ?_⟩
      · -- reachable
        have hFT : F.getD k 0 ≤ T := by
          by_cases h : k < li
          · rw [hF.old k h]; exact hcur
          · have := (hF.new k (by omega) hk).2; have := hi.bound k; have := hi.le; omega
        have hdist : ∀ a b : Nat, a < 10 → b < 10 → (tgtPos e F (.label k) - e.exec cp - BitVec.ofNat 64 a - BitVec.ofNat 64 b).toInt = (F.getD k 0 : Int) - cp - (a + b : Nat) := by
          intro a b ha hb
          rw [sub_sub', tgtPos, exec_base, exec_base]
          exact sub_toInt _ (by omega) (by omega) (by omega)
        cases short
        · simp only [Bool.false_eq_true, if_false, KindOk]
          rw [isHalf_iff, show (4#64 : BitVec 64) = BitVec.ofNat 64 4 from rfl, hdist _ 4 (by rw [nearOp_length]; split <;> omega) (by omega)]
          have : (nearOp j.type false).length ≤ 2 := by rw [nearOp_length]; split <;> omega
          omega
        · simp only [if_true, KindOk]
          rw [decide_eq_true_eq] at hsh
          rw [isByte_iff, show (1#64 : BitVec 64) = BitVec.ofNat 64 1 from rfl, hdist _ 1 (by rw [nearOp_length]; split <;> omega) (by omega)]
          have hl1 : (nearOp j.type true).length = 1 := by rw [nearOp_length]; simp
          rw [hl1]
          refine ⟨hsh.2.2, ?_⟩
          by_cases h : k < li
          · have := hxk.1 h; have := hF.old k h; omega
          · have := hxk.2 (by omega); have := hF.new k (by omega) hk
            simp only [if_true] at hlen
            omega
      · rw [hr]
        have := near_patches (e := e) (cp := cp) (F := F) (j := j) (by rw [htg, hF.len_eq]; exact htok) short
        rw [htg] at this
        exact this
    · -- an address
      simp only [EstJ, hrew, htg] at he
      have hd : nearDiff e j cp E (tgtSize cur j.tgt) = t - e.exec cp := by
        simp only [nearDiff, htg, Env.exec]
        simp only [BitVec.sub_eq_add_neg, BitVec.neg_add]; ac_rfl
      by_cases hfar : j.rew = true ∨ 0x7fffffff < (nearDiff e j cp E (tgtSize cur j.tgt) - 6#64).toInt ∨ (nearDiff e j cp E (tgtSize cur j.tgt) - 5#64).toInt < -0x80000000
      · have hr : r = farJump e.win j := by simp only [r, detectJump]; rw [if_pos hfar]
        have hl := far_length e.win j
        have hl' : r.1.length = est := by
          rw [hr, hl, he, hrew, htg]
          simp
        have hest : 9 ≤ est := by rw [he]; split <;> omega
        refine ⟨by omega, by omega, fun F hF => ?_⟩
        obtain ⟨p1, p2⟩ := far_patches (e := e) (F := F) (cp := cp) (j := j) (by rw [htg]; trivial)
        simp only [hrew, htg, Bool.not_false, Bool.true_and] at p1 p2
        refine ⟨.far (decide (t.toNat ≤ 0xffffffff)), ?_, by simp, ?_⟩
        · simp only [KindOk, tgtPos, decide_eq_true_eq]; exact id
        · rw [hr]; exact p2
      · have hr := hfar
        simp only [r, detectJump]
        rw [if_neg hfar]
        simp only [hd] at hfar ⊢
        simp only [not_or, hrew] at hfar
        have h6 : (t - e.exec cp - 6#64) = (t - e.exec cp - 5#64) - 1#64 := by
          generalize t - e.exec cp = u; bv_omega
        have h5 : -0x80000000 ≤ (t - e.exec cp - 5#64).toInt := by omega
        have hq := sub_one_toInt (t - e.exec cp - 5#64) (by omega)
        rw [← h6] at hq
        have hle : ∀ s : Bool, (nearOp j.type s ++ List.replicate (if s then 1 else 4) 0#8).length ≤ est ∧ 2 ≤ (nearOp j.type s ++ List.replicate (if s then 1 else 4) 0#8).length := by
          intro s
          have : 9 ≤ est := by rw [he]; split <;> omega
          simp only [List.length_append, List.length_replicate, nearOp_length]
          split_ifs <;> omega
        refine ⟨(hle _).1, (hle _).2, fun F hF => ?_⟩
        refine ⟨if decide (-0x80 ≤ (t - e.exec cp - 2#64).toInt ∧ (t - e.exec cp - 2#64).toInt ≤ 0x7f ∧ j.type ≤ JUMP) then .short else .near, ?_, by simp, ?_⟩
        · generalize hsh : decide (-0x80 ≤ (t - e.exec cp - 2#64).toInt ∧ (t - e.exec cp - 2#64).toInt ≤ 0x7f ∧ j.type ≤ JUMP) = short
          cases short
          · simp only [Bool.false_eq_true, if_false, KindOk, tgtPos]
            rw [show (4#64 : BitVec 64) = BitVec.ofNat 64 4 from rfl, sub_sub', isHalf_iff, nearOp_length]
            obtain ⟨type, rew, tgt⟩ := j
            simp only at htg hrew
            subst htg
            have hn := hne cp hcpn
            rw [← exec_base] at hn
            by_cases ht : type < 36
            · simp only [ht, and_self, if_true]
              have hn := hn.2 ht
              have e6 : t - e.exec cp - BitVec.ofNat 64 (2 + 4) = t - e.exec cp - 6#64 := rfl
              rw [e6, hq]
              refine ⟨?_, by omega⟩
              have : (t - e.exec cp - 5#64).toInt ≠ -0x80000000 := by
                intro h
                apply hn
                have h' : t - e.exec cp - 5#64 = -0x80000000#64 := by
                  apply BitVec.eq_of_toInt_eq; rw [h]; decide
                generalize e.exec cp = u at *
                bv_omega
              omega
            · simp only [ht, false_and, if_false]
              have hn := hn.1 (show 36 ≤ type by omega)
              have e5 : t - e.exec cp - BitVec.ofNat 64 (1 + 4) = t - e.exec cp - 5#64 := rfl
              rw [e5]
              refine ⟨h5, ?_⟩
              have : (t - e.exec cp - 5#64).toInt ≠ 0x80000000 := by
                intro h
                apply hn
                have h' : t - e.exec cp - 5#64 = 0x80000000#64 := by
                  apply BitVec.eq_of_toInt_eq; rw [h]; decide
                generalize e.exec cp = u at *
                bv_omega
              omega
          · simp only [if_true, KindOk, tgtPos]
            rw [show (1#64 : BitVec 64) = BitVec.ofNat 64 1 from rfl, sub_sub', nearOp_length]
            simp only [Bool.true_eq_false, and_false, if_false]
            exact (short_iff _ _).1 hsh
        · have := near_patches (e := e) (cp := cp) (F := F) (j := j) (by rw [htg]; trivial) (decide (-0x80 ≤ (t - e.exec cp - 2#64).toInt ∧ (t - e.exec cp - 2#64).toInt ≤ 0x7f ∧ j.type ≤ JUMP))
          rw [htg] at this
          exact this
  · -- rewritable
    have hr : r = farJump e.win j := by simp only [r, detectJump]; rw [if_pos (Or.inl hrew)]
    have hl := far_length e.win j
    rw [hrew] at hl
    simp only [Bool.true_eq_false, false_and, if_false, Nat.sub_zero] at hl
    have hest : est = maxSize j.type := by
      simp only [EstJ, hrew] at he
      exact he
    refine ⟨by rw [hr]; omega, by rw [hr]; omega, fun F hF => ?_⟩
    obtain ⟨p1, p2⟩ := far_patches (e := e) (F := F) (cp := cp) (j := j) (by rw [hF.len_eq]; exact htok)
    simp only [hrew, Bool.not_true, Bool.false_and] at p1 p2
    exact ⟨.far false, by simp [KindOk], fun _ => ⟨rfl, by rw [hr]; exact p1⟩, by rw [hr]; exact p2⟩

end Verif.X86
