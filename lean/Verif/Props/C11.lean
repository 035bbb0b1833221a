import Verif.Generic.SerializeProof4
import Verif.Generic.Recs
import Verif.Props.C08

/-!
# C11, C12 and the deserialization part of C10
-/

namespace Verif.Props
open Verif.Generic

theorem jmp_ok_mono {n m : Nat} (h : n ≤ m) {j : Jmp} (hj : j.Ok n) : j.Ok m := by
  obtain ⟨a, f, t⟩ := j
  cases t with
  | null => exact hj
  | label k => exact ⟨hj.1, by have := hj.2; omega⟩
  | addr a => exact hj

/-- The fields of a reachable compiler are consistent. -/
theorem reach_ok {r : Recs} (h : Reach r) : (∀ l ∈ r.labels, l.Ok) ∧ (∀ j ∈ r.jumps, j.Ok r.labels.length) ∧ r.size.toNat < 2 ^ 63 := by
  induction h with
  | init => simp [Recs.init]
  | ins n _ hn ih =>
    refine ⟨ih.1, ih.2.1, ?_⟩
    simp only [BitVec.toNat_add, BitVec.toNat_ofNat]
    omega
  | @label r hr ih =>
    have hs : Lab.Ok (.plain r.size) := by
      show r.size < LABEL_ALIGNED
      rw [BitVec.lt_def]
      have : (LABEL_ALIGNED).toNat = 2 ^ 64 - 2 := by decide
      omega
    have add : (∀ l ∈ r.labels ++ [.plain r.size], l.Ok) ∧ (∀ j ∈ r.jumps, j.Ok (r.labels ++ [Lab.plain r.size]).length) ∧ r.size.toNat < 2 ^ 63 := by
      refine ⟨fun l hl => ?_, fun j hj => jmp_ok_mono (by simp) (ih.2.1 j hj), ih.2.2⟩
      rcases List.mem_append.mp hl with hl | hl
      · exact ih.1 l hl
      · rw [List.mem_singleton.mp hl]; exact hs
    unfold Recs.emitLabel
    split
    · split
      · exact ih
      · exact add
    · exact add
  | @ext r type data hr ht ih =>
    refine ⟨fun l hl => ?_, fun j hj => jmp_ok_mono (by simp [Recs.extLabel]) (ih.2.1 j hj), ih.2.2⟩
    rcases List.mem_append.mp hl with hl | hl
    · exact ih.1 l hl
    · rw [List.mem_singleton.mp hl]
      show ¬ type < LABEL_ALIGNED
      rw [BitVec.lt_def]
      have := BitVec.le_def.mp ht
      omega
  | @jump r addr flags hr hf ih =>
    refine ⟨ih.1, fun j hj => ?_, ih.2.2⟩
    rcases List.mem_append.mp hj with hj | hj
    · exact ih.2.1 j hj
    · rw [List.mem_singleton.mp hj]; exact hf
  | @setLabel r j k hr hk ih =>
    refine ⟨ih.1, fun x hx => ?_, ih.2.2⟩
    simp only at hx
    obtain ⟨i, hi, rfl⟩ := List.mem_iff_getElem.mp hx
    rw [List.getElem_modify]
    split
    · refine ⟨?_, hk⟩
      simp only [Jmp.setLabel]
      ext i hi
      simp
      cases i <;> simp
    · exact ih.2.1 _ (List.getElem_mem _)
  | @setTarget r j a hr ih =>
    refine ⟨ih.1, fun x hx => ?_, ih.2.2⟩
    simp only at hx
    obtain ⟨i, hi, rfl⟩ := List.mem_iff_getElem.mp hx
    rw [List.getElem_modify]
    split
    · show (_ ||| _) &&& _ ≠ _
      intro hh
      have := congrArg (BitVec.getLsbD · 0) hh
      simp at this
    · exact ih.2.1 _ (List.getElem_mem _)
  | const _ ih => exact ih
  | scalars _ _ _ _ _ _ _ _ _ _ ih => exact ih

/-- The pieces of code in the buffer of a compiler, newest fragment first. -/
def fragments (h : Heap) (c : Comp) : Option (List (List Byte)) := readFrags h.cnt h (some c.buf)

/-- C11: for every compiler state before code generation, the serialized data is accepted by sljit_deserialize_compiler
(unless memory is exhausted) in any process, and the new compiler has the same code fragments, labels, jumps, constants and
options.  `wd`: debug information is written; `dbg`: the reader is a build with argument checks or debug. -/
theorem c11_roundtrip (o o' : Oracle) (h0 h1 h : Heap) (c : Comp) (ops : List Op) (hh : HeapOk h0) (hh1 : HeapOk h1) (hc : create o h0 = some (h, some c))
    (ho : ∀ op ∈ ops, op.Ok) (s : St) (rs : List Ret) (hr : run o ⟨h, c, []⟩ ops = some (s, rs)) (herr : s.c.error = 0) (hcnt : s.h.cnt < 2 ^ 64)
    (r : Recs) (hrc : Reach r) (n1 : r.labels.length * 24 < 2 ^ 63) (n2 : r.jumps.length * 24 < 2 ^ 63) (n3 : r.consts.length * 8 < 2 ^ 63)
    (wd ign dbg : Bool) (hwd : dbg = true → wd = true ∧ ign = false) (junk : Nat → Byte) :
    ∃ bytes, serialize wd ign false junk s.h s.c r = some (some bytes) ∧
    ∃ h' res, deserialize dbg o' h1 bytes = some (h', res) ∧ (res = none → ∃ k, o'.fails k = true) ∧
      ∀ c' r', res = some (c', r') → c'.error = 0 ∧ r' = r.read dbg ∧ fragments h' c' = fragments s.h s.c := by
  obtain ⟨h1', c1, e1, -, e3⟩ := create_ok o h0 hh
  rw [hc] at e1; simp only [Option.some.injEq, Prod.mk.injEq] at e1; obtain ⟨rfl, rfl⟩ := e1
  obtain ⟨-, abufs, I⟩ := e3 c rfl
  obtain ⟨s', rs', f1, bufs', abufs', I'⟩ := run_ok hh o ops _ _ _ I ho
  rw [hr] at f1; simp only [Option.some.injEq, Prod.mk.injEq] at f1; obtain ⟨rfl, rfl⟩ := f1
  obtain ⟨t, ht⟩ := Chain_some I'.buf
  have hnd : bufs'.Nodup := by
    have := I'.nodup
    simp only [List.nodup_cons, List.nodup_append] at this
    exact this.2.1
  have hle : bufs'.length ≤ s.h.cnt := nodup_le _ _ hnd fun i hi => (I'.rng i (by simp [hi])).2
  have hfr := readFrags_ok (by omega) _ _ _ _ I'.buf hle
  have hok := reach_ok hrc
  simp only [serialize, herr, ne_eq, not_true_eq_false, if_false, Bool.false_eq_true, hfr, Option.map_some]
  refine ⟨_, rfl, ?_⟩
  obtain ⟨h', res, g1, g2, g3⟩ := roundtrip hh1 (wd && !ign) dbg (fun hd => by obtain ⟨a, b⟩ := hwd hd; simp [a, b]) o' junk (bufs'.map (bytesOf s.h)) r
    (by simp [ht]) (fun f hf => by
      obtain ⟨i, hi, rfl⟩ := List.mem_map.mp hf
      obtain ⟨b, hb, -, hu⟩ := Chain_mem _ _ I'.buf i hi
      have : usedOf s.h i = b.used := by simp [usedOf, hb]
      simp only [bytesOf, List.length_map, List.length_range]
      omega) (by simp only [List.length_map]; omega) ⟨hok.1, hok.2.1, n1, n2, n3⟩
  refine ⟨h', res, g1, fun hn => (g2 hn).2, fun c' r' hres => ?_⟩
  obtain ⟨a1, a2, log, bufs2, abufs2, J, a3, -⟩ := g3 c' r' hres
  refine ⟨a1, a2, ?_⟩
  have hnd2 : bufs2.Nodup := by
    have := J.nodup
    simp only [List.nodup_cons, List.nodup_append] at this
    exact this.2.1
  have hle2 : bufs2.length ≤ h'.cnt := nodup_le _ _ hnd2 fun i hi => (J.rng i (by simp [hi])).2
  have hfr2 := readFrags_ok (by omega) _ _ _ _ J.buf hle2
  rw [fragments, fragments, hfr]
  simp only at hfr2 a3
  rw [hfr2, a3]

/-- C12 (partial): if the fragments fit into the fragments of the compiler, and the products of the counts do not wrap
around, every access is in bounds. Missing: the code does not check either of these (`c12_false`, `c12_count_false`). -/
theorem c12_partial (dbg : Bool) (o : Oracle) (h0 : Heap) (hh : HeapOk h0) (buf : List Byte) (hs : SizesOk buf) : deserialize dbg o h0 buf ≠ none := by
  obtain ⟨fr, h, r, e, -⟩ := deserialize_ok hh dbg o buf hs
  rw [e]; simp

/-- C10 for sljit_deserialize_compiler: on failure everything is freed; otherwise the compiler can be used like any other
and sljit_free_compiler restores the heap. -/
theorem c10_deserialize_partial (dbg : Bool) (o : Oracle) (h0 : Heap) (hh : HeapOk h0) (buf : List Byte) (hs : SizesOk buf) (ops : List Op) (ho : ∀ op ∈ ops, op.Ok) :
    ∃ h r, deserialize dbg o h0 buf = some (h, r) ∧
      match r with
      | none => h.blks = h0.blks
      | some (c, _) => ∃ log s rs h', run o ⟨h, c, log⟩ ops = some (s, rs) ∧ freeCompiler s.h s.c = some h' ∧ h'.blks = h0.blks := by
  obtain ⟨fr, h, r, e, e2, e3⟩ := deserialize_ok hh dbg o buf hs
  refine ⟨h, r, e, ?_⟩
  cases r with
  | none => exact e2 rfl
  | some cr =>
    obtain ⟨c, rc⟩ := cr
    obtain ⟨-, log, bufs, abufs, I, -⟩ := e3 c rc rfl
    obtain ⟨s, rs, f1, bufs', abufs', I'⟩ := run_ok hh o ops _ _ _ I ho
    obtain ⟨h', g1, g2⟩ := free_ok hh I'
    exact ⟨log, s, rs, h', f1, g1, g2⟩

/-- After deserialization of a serialized compiler, further calls behave as in C08: the code generator sees the old code
followed by what the calls emitted. -/
theorem c11_continue (o : Oracle) (h1 : Heap) (hh1 : HeapOk h1) (wd dbg : Bool) (hwd : dbg = true → wd = true) (junk : Nat → Byte) (frags : List (List Byte)) (r : Recs)
    (hne : frags ≠ []) (hf : ∀ f ∈ frags, f.length ≤ 4080) (hseg : frags.length < 2 ^ 64) (hok : r.Ok) (h : Heap) (c : Comp) (r' : Recs)
    (hd : deserialize dbg o h1 (serHeader wd frags.length r ++ frags.flatMap (serFrag junk) ++ r.labels.flatMap serLabel ++
      r.jumps.flatMap serJump ++ r.consts.flatMap le64 ++ (if wd then serDebug r else [])) = some (h, some (c, r')))
    (ops : List Op) (ho : ∀ op ∈ ops, op.Ok) :
    ∃ log s rs, run o ⟨h, c, log⟩ ops = some (s, rs) ∧
      (s.c.error = 0 → ∃ s' q, step o s (.generate false true) = some (s', q) ∧ q ≠ .ptr none ∧
        s'.log = .gen (frags.reverse.flatten ++ ops.flatMap opBytes) :: s.log) := by
  obtain ⟨h', res, e1, -, e3⟩ := roundtrip hh1 wd dbg hwd o junk frags r hne hf hseg hok
  rw [hd] at e1; simp only [Option.some.injEq, Prod.mk.injEq] at e1; obtain ⟨rfl, rfl⟩ := e1
  obtain ⟨herr, -, log, bufs, abufs, I, hfr, -⟩ := e3 c r' rfl
  obtain ⟨s, rs, f1, bufs', abufs', I'⟩ := run_ok hh1 o ops _ _ _ I ho
  refine ⟨log, s, rs, f1, fun hs => ?_⟩
  have hb := run_bytes o ops _ _ _ f1 herr hs
  have hcode := I.code herr
  simp only at hcode hb hfr
  have hcf : codeOf h bufs = frags.reverse.flatten := by rw [codeOf, List.map_reverse, hfr]
  obtain ⟨s', q, g1, bufs'', g2⟩ := generate_ok o s bufs' abufs' I' false true
  refine ⟨s', q, g1, ?_⟩
  simp only [step, hs, ne_eq, not_true_eq_false, if_false, Bool.false_eq_true, if_true, Option.bind_eq_some_iff, Option.some.injEq, Prod.mk.injEq] at g1
  obtain ⟨⟨a, b⟩, -, d, -, code, -, rfl, rfl⟩ := g1
  have hg := g2.gens
  simp only [GensOk] at hg
  refine ⟨by simp, ?_⟩
  rw [hg.1, hb, ← hcode, hcf]

/-! ## Witnesses -/

namespace C11Demo

def o : Oracle := ⟨fun _ => false, fun _ => ⟨0, some 7, 99, fun _ => 0xaa#8⟩⟩
def h0 : Heap := ⟨fun _ => none, 0, 0⟩

theorem h0_ok : HeapOk h0 := fun _ _ => rfl

/-- A compiler with a jump to a label, an aligned label, a jump to an address, an unset jump and a constant. -/
def r : Recs := ⟨[.plain 4, .ext 0xfffffffffffffffe 12 6], [⟨2, 0x10, .label 1⟩, ⟨5, 0x11, .addr 0x123456789a⟩, ⟨7, 0, .null⟩], [20],
  0, 3, 2, 1, 0, 64, 20, -5, 1, 48⟩

theorem r_ok : r.Ok := by
  refine ⟨?_, ?_, by decide, by decide, by decide⟩
  · intro l hl
    simp only [r, List.mem_cons, List.not_mem_nil, or_false] at hl
    rcases hl with rfl | rfl
    · show (4 : BitVec 64) < _; decide
    · show ¬ ((0xfffffffffffffffe : BitVec 64) < _); decide
  · intro j hj
    simp only [r, List.mem_cons, List.not_mem_nil, or_false] at hj
    rcases hj with rfl | rfl | rfl
    · exact ⟨by decide, by decide⟩
    · show (_ : BitVec 64) ≠ _; decide
    · show (_ : BitVec 64) = _; decide

/-- `r` is reachable. -/
theorem r_reach : Reach r :=
  have b0 : Reach { Recs.init with size := 4 } := Reach.ins 4 Reach.init (by decide)
  have b1 : Reach { Recs.init with size := 4, labels := [.plain 4] } := Reach.label b0
  have b2 : Reach { Recs.init with size := 12, labels := [.plain 4] } := Reach.ins 8 b1 (by decide)
  have b3 : Reach { Recs.init with size := 12, labels := [.plain 4, .ext 0xfffffffffffffffe 12 6] } := Reach.ext _ 6 b2 (by decide)
  have b4 : Reach { Recs.init with size := 12, labels := [.plain 4, .ext 0xfffffffffffffffe 12 6], jumps := [⟨2, 0x10, .null⟩] } := Reach.jump 2 0x10 b3 (by decide)
  have b5 : Reach { Recs.init with size := 12, labels := [.plain 4, .ext 0xfffffffffffffffe 12 6], jumps := [⟨2, 0x10, .label 1⟩] } := Reach.setLabel 0 1 b4 (by decide)
  have b6 : Reach { Recs.init with size := 12, labels := [.plain 4, .ext 0xfffffffffffffffe 12 6], jumps := [⟨2, 0x10, .label 1⟩, ⟨5, 0x10, .null⟩] } := Reach.jump 5 0x10 b5 (by decide)
  have b7 : Reach { Recs.init with size := 12, labels := [.plain 4, .ext 0xfffffffffffffffe 12 6], jumps := [⟨2, 0x10, .label 1⟩, ⟨5, 0x11, .addr 0x123456789a⟩] } :=
    Reach.setTarget 1 _ b6
  have b8 : Reach { Recs.init with size := 12, labels := [.plain 4, .ext 0xfffffffffffffffe 12 6], jumps := r.jumps } := Reach.jump 7 0 b7 (by decide)
  have b9 : Reach { Recs.init with size := 20, labels := [.plain 4, .ext 0xfffffffffffffffe 12 6], jumps := r.jumps } := Reach.ins 8 b8 (by decide)
  have b10 : Reach { Recs.init with size := 20, labels := [.plain 4, .ext 0xfffffffffffffffe 12 6], jumps := r.jumps, consts := [20] } := Reach.const b9
  Reach.scalars 0 3 2 1 0 64 (-5) 1 48 b10

/-- A buffer with one fragment of 4088 bytes. -/
def big : List Byte := serHeader false 1 Recs.init ++ serFrag (fun _ => 0) (List.replicate 4088 0)

/-- A buffer with 2^61 labels. -/
def many : List Byte :=
  le32 0x534c4a54 ++ le16 1 ++ le16 1 ++ le64 0 ++ le64 0x2000000000000000 ++ le64 0 ++ le64 0 ++ le64 0 ++
  le32 0 ++ le32 0 ++ le32 0 ++ le32 0 ++ le32 0 ++ le32 0 ++ le64 0

/-- What `c11_roundtrip` says, on a compiler with two instructions. -/
example : (create o h0).bind (fun p => p.2.bind fun c => (run o ⟨p.1, c, []⟩ [.emit false [.ins [1, 2, 3, 4]], .emit false [.ins [5, 6]]]).bind fun q =>
    (serialize true false false (fun _ => 0x55) q.1.h q.1.c r).bind fun b => b.bind fun b =>
      (deserialize true o h0 b).bind fun d => d.2.map fun x => (x.2 == r, fragments d.1 x.1, b.length)) =
    some (true, some [[1, 2, 3, 4, 5, 6]], 224) := by decide +kernel

end C11Demo

/-- C12 does not hold: a fragment of more than 4080 bytes is copied over the end of a heap block. -/
theorem c12_false : ∃ buf, deserialize false C11Demo.o C11Demo.h0 buf = none :=
  ⟨C11Demo.big, by
    have : (deserialize false C11Demo.o C11Demo.h0 C11Demo.big).isNone = true := by decide +kernel
    simpa using this⟩

/-- C12 does not hold: 2^61 labels need `0` bytes; the first label is read after the end of the buffer. -/
theorem c12_count_false : ∃ buf, buf.length = 80 ∧ deserialize true C11Demo.o C11Demo.h0 buf = none :=
  ⟨C11Demo.many, by decide, by
    have : (deserialize true C11Demo.o C11Demo.h0 C11Demo.many).isNone = true := by decide +kernel
    simpa using this⟩

end Verif.Props
