import Verif.RISCV.GenLoop

/-! # The generating loop: layout -/

namespace Verif.RV

/-- Address of a target, the labels being at positions `P`. -/
def tgtPos (e : Env) (P : List Nat) : Tgt → BitVec 64
  | .label n => e.exec (P.getD n 0)
  | .addr a => a

/-- The layout after the generating loop: the items start at position `cp` of memory `m`, `rli` labels come before them, `P`
are the label positions, `ps` the records still to be patched, `cs` the addresses of the constants, `fin` is the end of the code. -/
def Lay (cfg : Cfg) (e : Env) (m : HMem) (P : List Nat) (fin : Nat) : List RItem → (cp rli : Nat) → List Pending → List (BitVec 64) → Prop
  | [], cp, _, ps, cs => cp = fin ∧ ps = [] ∧ cs = []
  | .code hs :: is, cp, rli, ps, cs => MHas m cp hs ∧ Lay cfg e m P fin is (cp + hs.length) rli ps cs
  | .label _ :: is, cp, rli, ps, cs => P.getD rli 0 = cp ∧ Lay cfg e m P fin is cp (rli + 1) ps cs
  | .alabel al :: is, cp, rli, ps, cs => ∃ q, q = alignDown e (cp + (alNops cfg al).length) (alMask cfg al) ∧ cp ≤ q ∧
      q ≤ cp + (alNops cfg al).length ∧ MHas m cp ((alNops cfg al).take (q - cp)) ∧ P.getD rli 0 = q ∧
      Lay cfg e m P fin is q (rli + 1) ps cs
  | .const hs :: is, cp, rli, ps, cs => ∃ cs', cs = (e.base + BitVec.ofNat 64 (2 * cp)) :: cs' ∧ MHas m cp hs ∧
      Lay cfg e m P fin is (cp + hs.length) rli ps cs'
  | .jump j _ _ _ :: is, cp, rli, ps, cs => ∃ k ps', ps = .jump j k (cp + j.br.words.length - kback j k) :: ps' ∧ KindFor cfg j k ∧
      (j.rew = true → k = .seq .full) ∧ kback j k ≤ j.br.words.length ∧
      KindOk k (tgtPos e P j.tgt) (e.exec (cp + j.br.words.length - kback j k)) ∧ MHas m cp (preW j k) ∧
      Lay cfg e m P fin is (cp + j.br.words.length + ksz j k) rli ps' cs
  | .mov reg t _ _ :: is, cp, rli, ps, cs => ∃ p ps', ps = .mov t p cp :: ps' ∧ p.fits (tgtPos e P t) (e.exec cp) ∧
      m cp = BitVec.ofNat 16 reg ∧ Lay cfg e m P fin is (cp + p.len) rli ps' cs

def RItem.toItem : RItem → Item
  | .code hs => .code hs
  | .label _ => .label
  | .alabel al => .alabel al
  | .const hs => .const hs
  | .jump j .. => .jump j
  | .mov r t .. => .mov r t

/-- No placeholder is stored behind the end of the buffer: something follows each jump of estimated size 0. -/
def TailOk (cfg : Cfg) : List RItem → Prop
  | [] => True
  | .jump _ _ est _ :: is => (est = 0 → 0 < rtotal cfg is) ∧ TailOk cfg is
  | _ :: is => TailOk cfg is

/-- Invariant of the loop. -/
structure GInv (e : Env) (L : List Nat) (s : GSt) (rli : Nat) (z : Bool) (E : Nat) : Prop where
  cp : s.cp ≤ E
  len : s.labels.length = L.length
  li : s.li = rli + z.toNat
  old : ∀ k, k < s.li → s.labels.getD k 0 ≤ s.cp ∧ L.getD k 0 + s.cp ≤ s.labels.getD k 0 + E ∧ s.labels.getD k 0 ≤ L.getD k 0 ∧ L.getD k 0 ≤ E
  new : ∀ k, s.li ≤ k → s.labels.getD k 0 = L.getD k 0
  z : z = true → s.labels.getD rli 0 = s.cp
  laddr : s.laddr = (s.labels.take s.li).map e.exec

/-- What the loop guarantees. -/
structure GPost (cfg : Cfg) (e : Env) (L : List Nat) (R : List RItem) (s s' : GSt) (rli E : Nat) : Prop where
  cp : s.cp ≤ s'.cp
  fin : s'.cp + E ≤ s.cp + E + rtotal cfg R
  len : s'.labels.length = L.length
  old : ∀ k, k < s.li → s'.labels.getD k 0 = s.labels.getD k 0
  new : ∀ k, s.li ≤ k → k < L.length → s.cp ≤ s'.labels.getD k 0 ∧ s'.labels.getD k 0 + E ≤ L.getD k 0 + s.cp
  mem : ∀ k, k < s.cp → s'.m k = s.m k
  lay : ∃ ps cs, s'.pend = s.pend ++ ps ∧ s'.caddr = s.caddr ++ cs ∧ Lay cfg e s'.m s'.labels s'.cp R s.cp rli ps cs
  laddr : s'.laddr = (s'.labels.take s'.li).map e.exec
  li : s.li ≤ s'.li
  fli : s'.li = L.length

theorem and_compl (x m : BitVec 64) : x - (x &&& ~~~m) = x &&& m := by
  have h : x = (x &&& m) + (x &&& ~~~m) := by
    rw [BitVec.add_eq_or_of_and_eq_zero]
    · apply BitVec.eq_of_getLsbD_eq; intro k hk; simp only [BitVec.getLsbD_or, BitVec.getLsbD_and, BitVec.getLsbD_not, hk, decide_true, Bool.true_and]; cases x.getLsbD k <;> cases m.getLsbD k <;> rfl
    · apply BitVec.eq_of_getLsbD_eq; intro k hk; simp only [BitVec.getLsbD_and, BitVec.getLsbD_not, hk, decide_true, Bool.true_and, BitVec.getLsbD_zero]; cases x.getLsbD k <;> cases m.getLsbD k <;> rfl
  generalize x &&& m = a at *
  generalize x &&& ~~~m = b at *
  subst h
  exact BitVec.add_sub_cancel _ _

theorem alignDown_le (e : Env) (c : Nat) (m : BitVec 64) : alignDown e c m ≤ c ∧ c ≤ alignDown e c m + m.toNat / 2 := by
  rw [alignDown, and_compl]
  have : ((e.base + BitVec.ofNat 64 (2 * c)) &&& m).toNat ≤ m.toNat := by
    rw [BitVec.toNat_and]; exact Nat.and_le_right
  omega

theorem alNops_len {cfg : Cfg} {al : Nat} (h : (if cfg.c then 2 else 3) ≤ al) (h' : al < 60) :
    (alNops cfg al).length = (alMask cfg al).toNat / 2 := by
  rw [alNops_length]
  cases hc : cfg.c with
  | true => simp
  | false =>
    have h4 : 2 ^ al % 8 = 0 := by
      have : al = (al - 3) + 3 := by simp [hc] at h; omega
      rw [this, Nat.pow_add]; omega
    have h5 : 2 ^ 3 ≤ 2 ^ al := Nat.pow_le_pow_right (by omega) (by simpa [hc] using h)
    rw [alMask_toNat h h', hc]
    simp only [Bool.false_eq_true, if_false]
    omega

theorem take_set_map (f : Nat → BitVec 64) (l : List Nat) (i v : Nat) (h : i < l.length) :
    ((l.set i v).take (i + 1)).map f = (l.take i).map f ++ [f v] := by
  rw [List.take_succ_eq_append_getElem (by simpa using h)]
  simp [List.take_set_of_le]

end Verif.RV
