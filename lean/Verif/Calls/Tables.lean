import Verif.Calls.Lemmas
import Verif.Calls.Spec
/-
Helper lemmas and decision tables for C33: the code depends only on the classes of the types, and there are finitely many lists of at
most four classes; the values of the registers stay arbitrary.
-/

namespace Verif.Props.C33
open Verif.Calls

/-- The representative of the types which a code generator treats alike; `k` when it looks at SLJIT_ARG_TYPE_SCRATCH_REG. -/
def norm (k : Bool) : Ty → Ty
  | .w s => .w (k && s)
  | .w32 s => .w (k && s)
  | .p s => .w (k && s)
  | t => t

variable {k : Bool}

theorem norm_word (t : Ty) : (norm k t).word = t.word := by cases t <;> rfl
theorem norm_f32 (t : Ty) : norm k t = .f32 ↔ t = .f32 := by cases t <;> simp [norm]

theorem wordsBefore_norm (args : List Ty) (n : Nat) : wordsBefore (args.map (norm k)) n = wordsBefore args n := by
  unfold wordsBefore
  rw [← List.map_take, List.countP_map]
  exact List.countP_congr fun a _ => by simp [norm_word]

theorem floatsBefore_norm (args : List Ty) (n : Nat) : floatsBefore (args.map (norm k)) n = floatsBefore args n := by
  unfold floatsBefore
  rw [← List.map_take, List.countP_map]
  exact List.countP_congr fun a _ => by simp [norm_word]

theorem inF_norm (t : Ty) (n : Nat) : inF (norm k t) n = inF t n := by simp only [inF, norm_f32]

theorem vfp_norm (args : List Ty) (used : List Nat) : vfp (args.map (norm k)) used = vfp args used := by
  induction args generalizing used with
  | nil => rfl
  | cons t ts ih => cases t <;> simp only [List.map_cons, norm, vfp, ih]

/-- A place which is the same for alike types. -/
def Uniform (pl : List Ty → Nat → Ty → List Loc) : Prop := ∀ k args n t, pl (args.map (norm k)) n (norm k t) = pl args n t

theorem sysv_u : Uniform sysv := fun k args n t => by simp only [sysv, norm_word, wordsBefore_norm, floatsBefore_norm, inF_norm]
theorem win64_u : Uniform win64 := fun k args n t => by simp only [win64, norm_word, inF_norm]
theorem n64_u : Uniform n64 := fun k args n t => by simp only [n64, norm_word, inF_norm]
theorem elf64_u : Uniform elf64 := fun k args n t => by simp only [elf64, norm_word, floatsBefore_norm, inF_norm]
theorem aapcs_u : Uniform aapcs := fun k args n t => by simp only [aapcs, norm_word, wordsBefore_norm, vfp_norm]
theorem home_u (a b : Nat → Nat) : Uniform (home a b) := fun k args n t => by
  simp only [home, norm_word, wordsBefore_norm, floatsBefore_norm, inF_norm]
theorem home32_u (a b : Nat → Nat) : Uniform (home32 a b) := fun k args n t => by
  simp only [home32, norm_word, wordsBefore_norm, floatsBefore_norm, inF_norm]

theorem passed_norm {args : List Ty} {frm to : List Ty → Nat → Ty → List Loc} (hf : Uniform frm) (ht : Uniform to) {r r' : Regs}
    (h : Passed (args.map (norm k)) frm to r r') : Passed args frm to r r' := by
  intro n t hn
  have := h n (norm k t) (by rw [List.getElem?_map, hn]; rfl)
  rwa [hf, ht] at this

theorem descr_pack (ret : Nat) (hr : ret < 16) (args : List Ty) : descr ret args / 16 = pack (args.map Ty.code) := by
  have : ∀ l : List Nat, l.foldr (fun c n => c + 16 * n) 0 = pack l := by
    intro l; induction l with
    | nil => rfl
    | cons a l ih => simp only [List.foldr_cons, pack, ih]
  simp only [descr, this]; omega

theorem same_norm (args : List Ty) : Same AlikeS (args.map Ty.code) ((args.map (norm true)).map Ty.code) := by
  induction args with
  | nil => exact .nil
  | cons t ts ih =>
    refine .cons ?_ ih
    rcases t with (_ | _) | (_ | _) | (_ | _) | _ | _ <;> (unfold AlikeS Alike; decide)

theorem same_norm' (args : List Ty) : Same Alike (args.map Ty.code) ((args.map (norm k)).map Ty.code) := by
  induction args with
  | nil => exact .nil
  | cons t ts ih =>
    refine .cons ?_ ih
    rcases t with (_ | _) | (_ | _) | (_ | _) | _ | _ <;> cases k <;> (unfold Alike; decide)

/-- Every list of at most n of the classes. -/
def shapes (k : Bool) : Nat → List (List Ty)
  | 0 => [[]]
  | n + 1 => [] :: (shapes k n).flatMap fun l => (if k then [.w true :: l] else []) ++ [.w false :: l, .f64 :: l, .f32 :: l]

theorem mem_shapes (n : Nat) (args : List Ty) (h : args.length ≤ n) : args.map (norm k) ∈ shapes k n := by
  induction n generalizing args with
  | zero => cases args with
    | nil => exact List.mem_cons_self
    | cons a l => simp at h
  | succ n ih => cases args with
    | nil => exact List.mem_cons_self
    | cons a l =>
      simp only [shapes, List.mem_cons, List.map_cons, reduceCtorEq, false_or, List.mem_flatMap]
      refine ⟨l.map (norm k), ih l (by simpa using h), ?_⟩
      rcases a with (_ | _) | (_ | _) | (_ | _) | _ | _ <;> cases k <;> simp [norm]

/-- The decision procedure: where every value comes from, and what is written. -/
def check (args : List Ty) (frm to : List Ty → Nat → Ty → List Loc) (gs fs : List Nat) (ss : List Step) : Bool :=
  ((List.range args.length).all fun n =>
    match args[n]? with
    | some t => (to args n t).map (origin ss) == (frm args n t).map some
    | none => true) &&
  ss.all fun s => match s.dst with
    | .g n _ => gs.contains n
    | .f n _ => fs.contains n

theorem map_origin {j : Loc → BitVec 32} {ss : List Step} {r : Regs} : ∀ {a b : List Loc}, a.map (origin ss) = b.map some →
    a.map (execAll j ss r) = b.map r
  | [], [], _ => rfl
  | [], _ :: _, h => by simp at h
  | _ :: _, [], h => by simp at h
  | x :: a, y :: b, h => by
    simp only [List.map_cons, List.cons.injEq] at h
    simp only [List.map_cons, List.cons.injEq]
    exact ⟨origin_exec j ss r x y h.1, map_origin h.2⟩

theorem check_sound {args : List Ty} {frm to : List Ty → Nat → Ty → List Loc} {gs fs : List Nat} {ss : List Step}
    (h : check args frm to gs fs ss = true) (j : Loc → BitVec 32) (r : Regs) :
    Passed args frm to r (execAll j ss r) ∧ Kept gs fs r (execAll j ss r) := by
  simp only [check, Bool.and_eq_true, List.all_eq_true] at h
  obtain ⟨h1, h2⟩ := h
  refine ⟨fun n t hn => ?_, ⟨fun n hi hn => exec_out j ss r _ fun s hs e => ?_, fun n hi hn => exec_out j ss r _ fun s hs e => ?_⟩⟩
  · have := h1 n (List.mem_range.2 (List.getElem?_eq_some_iff.1 hn).1)
    rw [hn] at this
    exact map_origin (by simpa using this)
  · have := h2 s hs; rw [e] at this; exact hn (by simpa using this)
  · have := h2 s hs; rw [e] at this; exact hn (by simpa using this)

/-- The same for a code sequence, and for a register which must end up in another one. -/
def checkCode {α : Type} (dec : α → Option (List Step)) (args : List Ty) (frm to : List Ty → Nat → Ty → List Loc) (gs fs : List Nat)
    (code : List α) (src tgt : Nat) : Bool :=
  match effects dec code with
  | none => false
  | some ss => check args frm to gs fs ss && origin ss (.g tgt false) == some (.g src false) && origin ss (.g tgt true) == some (.g src true)

theorem checkCode_sound {α : Type} {dec : α → Option (List Step)} {args : List Ty} {frm to : List Ty → Nat → Ty → List Loc} {gs fs : List Nat}
    {code : List α} {src tgt : Nat} (h : checkCode dec args frm to gs fs code src tgt = true) (j : Loc → BitVec 32) (r : Regs) :
    ∃ r', execCode dec j code r = some r' ∧ Passed args frm to r r' ∧ Kept gs fs r r' ∧ val r' tgt = val r src := by
  unfold checkCode at h
  cases he : effects dec code with
  | none => rw [he] at h; cases h
  | some ss =>
    rw [he] at h
    simp only [Bool.and_eq_true, beq_iff_eq] at h
    obtain ⟨⟨h1, h2⟩, h3⟩ := h
    obtain ⟨a, b⟩ := check_sound h1 j r
    refine ⟨execAll j ss r, by rw [execCode, he]; rfl, a, b, ?_⟩
    unfold val
    rw [origin_exec j ss r _ _ h2, origin_exec j ss r _ _ h3]

theorem mips_norm (ret : Nat) (hr : ret < 16) (args : List Ty) (p : BitVec 32) :
    Mips.callWithArgs (descr ret args) p = Mips.callWithArgs (descr 0 (args.map (norm false))) p := by
  unfold Mips.callWithArgs
  rw [descr_pack ret hr, descr_pack 0 (by decide)]
  exact mips_same (same_norm' (k := false) args) p

theorem ppc_norm (ret : Nat) (hr : ret < 16) (args : List Ty) (src : Nat) :
    Ppc.callWithArgs (descr ret args) src = Ppc.callWithArgs (descr 0 (args.map (norm false))) src := by
  unfold Ppc.callWithArgs
  rw [descr_pack ret hr, descr_pack 0 (by decide)]
  obtain ⟨⟨tl, tm, ht, e1, e2⟩, h1, h2, h3⟩ := scan_start (same_norm' (k := false) args)
  simp only [e1, e2, h1, h2, ppc_moves ht, ppc_saveSrc (same_norm' (k := false) args)]

theorem x86_norm (win : Bool) (ret : Nat) (hr : ret < 16) (args : List Ty) (src : Nat) :
    X86.emitCall win false (descr ret args) src = X86.emitCall win false (descr 0 (args.map (norm false))) src := by
  unfold X86.emitCall X86.callWin X86.callSysV
  rw [descr_pack ret hr, descr_pack 0 (by decide)]
  obtain ⟨⟨tl, tm, ht, e1, e2⟩, h1, h2, h3⟩ := scan_start (same_norm' (k := false) args)
  simp only [e1, e2, h1, h2, h3, x86_winMoves ht, x86_winScan (same_norm' (k := false) args), x86_countWords (same_norm' (k := false) args)]

theorem arm_norm (th : Bool) (ret : Nat) (hr : ret < 16) (args : List Ty) :
    Arm.callWithArgs th (descr ret args) = Arm.callWithArgs th (descr 0 (args.map (norm false))) := by
  unfold Arm.callWithArgs
  rw [descr_pack ret hr, descr_pack 0 (by decide), arm_moves (same_norm' (k := false) args)]

theorem arm_enter_norm (ret : Nat) (hr : ret < 16) (args : List Ty) :
    Arm.enterArgs (descr ret args) = Arm.enterArgs (descr 0 (args.map (norm true))) := by
  unfold Arm.enterArgs
  rw [descr_pack ret hr, descr_pack 0 (by decide), arm_enter (same_norm args)]

/-- The machine registers of sljit's registers. -/
def mipsR (k : Nat) : Nat := (Mips.regMap k).toNat
def mipsF (k : Nat) : Nat := (Mips.fregMap k).toNat
def ppcR (k : Nat) : Nat := (Ppc.regMap k).toNat
def armR (k : Nat) : Nat := (Arm.regMap k).toNat
def armF (k : Nat) : Nat := (Arm.fregMap k).toNat

theorem of_shapes {P : List Ty → Bool} (h : (shapes k 4).all P = true) (args : List Ty) (hl : args.length ≤ 4) : P (args.map (norm k)) = true :=
  List.all_eq_true.1 h _ (mem_shapes 4 args hl)

theorem of_shapes_src {P : List Ty → Nat → Bool} {n : Nat} (h : ((shapes k 4).all fun a => (List.range n).all fun s => P a (s + 1)) = true)
    (args : List Ty) (hl : args.length ≤ 4) (src : Nat) (h1 : 1 ≤ src) (h2 : src ≤ n) : P (args.map (norm k)) src = true := by
  have := of_shapes h args hl
  have := List.all_eq_true.1 this (src - 1) (List.mem_range.2 (by omega))
  rwa [Nat.sub_add_cancel h1] at this

theorem mips_table : ((shapes false 4).all fun a => checkCode mipsStep a (home mipsR mipsF) n64 [4, 5, 6, 7] [12, 13, 14, 15]
    (Mips.emitCall false (descr 0 a)) 0 0) = true := by decide +kernel

/-- What has to be checked for an indirect call. -/
def mipsI (a : List Ty) (s : Nat) : Bool := checkCode mipsStep a (home mipsR mipsF) n64
    [4, 5, 6, 7, 25] [12, 13, 14, 15] (Mips.emitICall false (descr 0 a) s).1 (mipsR s)
    (mipsR (Mips.emitICall false (descr 0 a) s).2)

theorem mips_itable : ((shapes false 4).all fun a => (List.range 21).all fun s => mipsI a (s + 1)) = true := by decide +kernel

theorem ppc_table : ((shapes false 4).all fun a => checkCode ppcStep a (home ppcR Ppc.fregMap) elf64 [3, 4, 5, 6] []
    (Ppc.emitCall false (descr 0 a)) 0 0) = true := by decide +kernel

/-- What has to be checked for an indirect call. -/
def ppcI (a : List Ty) (s : Nat) : Bool := checkCode ppcStep a (home ppcR Ppc.fregMap) elf64
    [3, 4, 5, 6, 12] [] (Ppc.callWithArgs (descr 0 a) s).1 (ppcR s)
    (ppcR (Ppc.callWithArgs (descr 0 a) s).2)

theorem ppc_itable : ((shapes false 4).all fun a => (List.range 23).all fun s => ppcI a (s + 1)) = true := by decide +kernel

theorem sysv_table : ((shapes false 4).all fun a => checkCode x86Step a (home (X86.regMap false) X86.fregMap) sysv [7, 6, 2, 1] []
    (X86.emitCall false false (descr 0 a) 0).1 0 0) = true := by decide +kernel

/-- What has to be checked for an indirect call. -/
def sysvI (a : List Ty) (s : Nat) : Bool := checkCode x86Step a (home (X86.regMap false) X86.fregMap) sysv
    [7, 6, 2, 1] [] (X86.emitCall false false (descr 0 a) s).1 (X86.regMap false s)
    (X86.regMap false (X86.emitCall false false (descr 0 a) s).2)

theorem sysv_itable : ((shapes false 4).all fun a => (List.range 13).all fun s => sysvI a (s + 1)) = true := by decide +kernel

theorem win_table : ((shapes false 4).all fun a => checkCode x86Step a (home (X86.regMap true) X86.fregMap) win64 [1, 2, 8, 9] [0, 1, 2, 3]
    (X86.emitCall true false (descr 0 a) 0).1 0 0) = true := by decide +kernel

/-- What has to be checked for an indirect call. -/
def winI (a : List Ty) (s : Nat) : Bool := checkCode x86Step a (home (X86.regMap true) X86.fregMap) win64
    [1, 2, 8, 9, 10] [0, 1, 2, 3] (X86.emitCall true false (descr 0 a) s).1 (X86.regMap true s)
    (X86.regMap true (X86.emitCall true false (descr 0 a) s).2)

theorem win_itable : ((shapes false 4).all fun a => (List.range 13).all fun s => winI a (s + 1)) = true := by decide +kernel

theorem arm_table : ((shapes false 4).all fun a => checkCode armStep a (home32 armR armF) aapcs [] [0, 1, 2, 3]
    (Arm.callWithArgs false (descr 0 a)) 0 0) = true := by decide +kernel

/-- S0 is the last register. -/
def armS (k : Nat) : Nat := armR (12 - k)

theorem arm_enter_table : ((shapes true 4).all fun a => checkCode armStep a aapcs (entered32 armR armF armS) [4, 5, 6, 7] [0, 1, 2, 3]
    (Arm.enterArgs (descr 0 a)) 0 0) = true := by decide +kernel

theorem norm_saved (t : Ty) : (norm true t).saved = t.saved := by cases t <;> rfl

theorem savedBefore_norm (args : List Ty) (n : Nat) : ((args.map (norm true)).take n).countP Ty.saved = (args.take n).countP Ty.saved := by
  rw [← List.map_take, List.countP_map]
  exact List.countP_congr fun a _ => by simp [norm_saved]

theorem entered_norm (a b c : Nat → Nat) (args : List Ty) (n : Nat) (t : Ty) :
    entered32 a b c (args.map (norm true)) n (norm true t) = entered32 a b c args n t := by
  simp only [entered32, norm_saved, savedBefore_norm, home32_u a b true args n t]

theorem thumb_table : ((shapes false 4).all fun a => a.countP (· == .f32) > 2 || checkCode armStep a (home32 armR armF) aapcs [] [0, 1, 2, 3]
    (Arm.callWithArgs true (descr 0 a)) 0 0) = true := by decide +kernel

theorem f32s_norm (args : List Ty) : (args.map (norm k)).countP (· == .f32) = args.countP (· == .f32) := by
  rw [List.countP_map]
  exact List.countP_congr fun a _ => by simp [norm_f32]

end Verif.Props.C33
