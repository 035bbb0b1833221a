import Verif.Generic.CompilerMem

/-!
# Serialization (model of sljitSerialize.c:52-585)

The compiler state is the heap of Generic/CompilerMem.lean (fragments of code) and `Recs` (the other fields).  The linked
lists of labels, jumps and constants are lists; their records are allocated by `ensure_abuf` and written once (with zeros:
their contents are in `Recs`).  Reading outside of the input buffer and writing outside of a heap block are the outcome
`none`.  Modelled configuration: 64 bit little endian without SLJIT_HAS_STATUS_FLAGS_STATE and architecture specific fields
(e.g. RISC-V); `dbg` is SLJIT_ARGUMENT_CHECKS || SLJIT_DEBUG.
-/

namespace Verif.Generic

/-- A label (sljitLir.h:474-482) or an extended label (sljitLir.c:157-161); its index is its position in the list. -/
inductive Lab
  | plain (size : BitVec 64)
  | ext (type size data : BitVec 64)
  deriving DecidableEq

/-- `u.target` or `u.label` of a jump; a label is given by its position in the list. -/
inductive JTgt
  | null
  | label (k : Nat)
  | addr (a : BitVec 64)
  deriving DecidableEq

/-- `struct sljit_jump` (sljitLir.h:484-493). -/
structure Jmp where
  addr : BitVec 64
  flags : BitVec 64
  tgt : JTgt
  deriving DecidableEq

/-- Fields of `struct sljit_compiler` other than the memory fragments. -/
structure Recs where
  labels : List Lab
  jumps : List Jmp
  consts : List (BitVec 64)
  options : BitVec 32
  scratches : BitVec 32
  saveds : BitVec 32
  fscratches : BitVec 32
  fsaveds : BitVec 32
  localSize : BitVec 32
  size : BitVec 64
  lastFlags : BitVec 32
  lastReturn : BitVec 32
  logicalLocalSize : BitVec 32
  deriving DecidableEq

/-- Little endian stores. -/
def le (n v : Nat) : List Byte := (List.range n).map fun k => BitVec.ofNat 8 (v / 256 ^ k)
def le16 (v : BitVec 16) : List Byte := le 2 v.toNat
def le32 (v : BitVec 32) : List Byte := le 4 v.toNat
def le64 (v : BitVec 64) : List Byte := le 8 v.toNat

/-- JUMP_ADDR (sljitLir.c:167), SLJIT_LABEL_ALIGNED (:155), SLJIT_MAX_ADDRESS (sljitLir.h). -/
notation "JUMP_ADDR" => (1#64)
notation "LABEL_ALIGNED" => (0xfffffffffffffffe#64)
notation "MAX_ADDRESS" => (0xffffffffffffffff#64)

/-- SLJIT_SERIALIZE_ALIGN (sljitSerialize.c:119). -/
def serAlign (v : BitVec 64) : BitVec 64 := (v + 7#64) &&& ~~~7#64

/-- A fragment (sljitSerialize.c:245-256): the padding is not written (contents of `junk`). -/
def serFrag (junk : Nat → Byte) (bs : List Byte) : List Byte :=
  le64 (BitVec.ofNat 64 bs.length) ++ bs ++ (List.range ((bs.length + 7) / 8 * 8 - bs.length)).map junk

/-- A label (sljitSerialize.c:258-275). -/
def serLabel : Lab → List Byte
  | .plain size => le64 size
  | .ext type size data => le64 type ++ le64 size ++ le64 data

/-- A jump (sljitSerialize.c:277-295). -/
def serJump (j : Jmp) : List Byte :=
  le64 j.addr ++ le64 j.flags ++ le64 (match j.tgt with
    | .addr a => a
    | .label k => BitVec.ofNat 64 k
    | .null => MAX_ADDRESS)

def Lab.isExt : Lab → Bool
  | .plain _ => false
  | .ext .. => true

/-- The header (sljitSerialize.c:53-98, :206-218). -/
def serHeader (dbg : Bool) (segs : Nat) (r : Recs) : List Byte :=
  le32 0x534c4a54 ++ le16 1 ++ le16 (if dbg then 1 else 0) ++
  le64 (BitVec.ofNat 64 segs) ++ le64 (BitVec.ofNat 64 r.labels.length) ++ le64 (BitVec.ofNat 64 (r.labels.countP Lab.isExt)) ++
  le64 (BitVec.ofNat 64 r.jumps.length) ++ le64 (BitVec.ofNat 64 r.consts.length) ++
  le32 r.options ++ le32 r.scratches ++ le32 r.saveds ++ le32 r.fscratches ++ le32 r.fsaveds ++ le32 r.localSize ++ le64 r.size

/-- The debug information (sljitSerialize.c:100-104, :306-316). -/
def serDebug (r : Recs) : List Byte :=
  le64 (r.lastFlags.signExtend 64) ++ le32 r.lastReturn ++ le32 r.logicalLocalSize

/-- The loop which reads the fragments (sljitSerialize.c:245-256). -/
def readFrags : Nat → Heap → Option Nat → Option (List (List Byte))
  | _, _, none => some []
  | 0, _, some _ => none
  | n + 1, h, some i =>
    (h.blks i).bind fun b => (h.load ⟨i, 0⟩ b.used).bind fun bs => (readFrags n h b.next).map (bs :: ·)

/-- sljit_serialize_compiler (sljitSerialize.c:129-321) for a compiler without error; the allocation of the result is
`fails`.  `ign` is the option SLJIT_SERIALIZE_IGNORE_DEBUG. -/
def serialize (dbg ign fails : Bool) (junk : Nat → Byte) (h : Heap) (c : Comp) (r : Recs) : Option (Option (List Byte)) :=
  if c.error ≠ 0 then some none
  else if fails then some none
  else (readFrags h.cnt h (some c.buf)).map fun frags =>
    some (serHeader (dbg && !ign) frags.length r ++ frags.flatMap (serFrag junk) ++ r.labels.flatMap serLabel ++
      r.jumps.flatMap serJump ++ r.consts.flatMap le64 ++ (if dbg && !ign then serDebug r else []))

/-! ## Deserialization -/

/-- Value of little endian bytes. -/
def leVal : List Byte → Nat
  | [] => 0
  | b :: l => b.toNat + 256 * leVal l

/-- A load of `n` bytes at an offset of the input buffer. -/
def rdBytes (buf : List Byte) (off n : Nat) : Option (List Byte) :=
  if off + n ≤ buf.length then some ((buf.drop off).take n) else none

def rd16 (buf : List Byte) (off : Nat) : Option (BitVec 16) := (rdBytes buf off 2).map fun l => BitVec.ofNat 16 (leVal l)
def rd32 (buf : List Byte) (off : Nat) : Option (BitVec 32) := (rdBytes buf off 4).map fun l => BitVec.ofNat 32 (leVal l)
def rd64 (buf : List Byte) (off : Nat) : Option (BitVec 64) := (rdBytes buf off 8).map fun l => BitVec.ofNat 64 (leVal l)

/-- `(sljit_uw)(end - ptr) < n`. -/
def short (buf : List Byte) (off : Nat) (n : BitVec 64) : Bool := decide (buf.length - off < n.toNat)

/-- The fragment to be filled (sljitSerialize.c:420-428). -/
def fragBlock (o : Oracle) (c : Comp) (h : Heap) : Option Nat → Heap × Option Nat
  | none => (h, some c.buf)
  | some _ => h.malloc o BUF_SIZE

/-- `last_buf->next = buf` (sljitSerialize.c:433-434). -/
def linkFrag (h : Heap) (last : Option Nat) (cur : Nat) : Option Heap :=
  match last with
  | none => some h
  | some l => (h.blks l).bind fun lb => some (h.set l { lb with next := some cur })

/-- The fragments (sljitSerialize.c:408-444).  `none`: undefined behaviour; `(h, none)`: goto error; otherwise the new
offset.  `last` is `last_buf`. -/
def desFrags (o : Oracle) (buf : List Byte) (c : Comp) : Nat → Nat → Heap → Option Nat → Option (Heap × Option Nat)
  | 0, off, h, _ => some (h, some off)
  | i + 1, off, h, last =>
    if short buf off 8#64 then some (h, none) else
    (rd64 buf off).bind fun used =>
    let aligned := serAlign used
    let off := off + 8
    if short buf off aligned then some (h, none) else
    match fragBlock o c h last with
    | (h, none) => some (h, none)
    | (h, some cur) =>
      (h.blks cur).bind fun b =>
      -- buf->next = NULL (for a new one), buf->used_size, memcpy
      let h := h.set cur { b with next := if last.isSome then none else b.next, used := used.toNat }
      (rdBytes buf off used.toNat).bind fun bs =>
      (h.store ⟨cur, 0⟩ bs).bind fun h =>
      (linkFrag h last cur).bind fun h =>
      desFrags o buf c i (off + aligned.toNat) h (some cur)

/-- The state of the record loops: heap, compiler, label_list (its block), position, number of aligned labels left. -/
structure DS where
  h : Heap
  c : Comp
  off : Nat

/-- A record: ensure_abuf and writing it. -/
def desRecord (o : Oracle) (s : DS) (n : Nat) : Option (DS × Bool) :=
  (ensureAbuf o s.h s.c n).bind fun (h, c, p) =>
  match p with
  | none => some ({ s with h := h, c := c }, false)
  | some p => (h.store p (List.replicate n 0)).map fun h => ({ s with h := h, c := c }, true)

/-- An access to element `k` of label_list. -/
def listAccess (h : Heap) (ll k : Nat) : Option Unit :=
  (h.blks ll).bind fun b => if 8 * (k + 1) ≤ b.size then some () else none

/-- The label loop (sljitSerialize.c:455-501): `n` iterations are left, `i` are done, `al` is aligned_label_count. -/
def desLabels (o : Oracle) (buf : List Byte) (ll : Nat) : Nat → Nat → Nat → DS → List Lab → Option (DS × Option (Nat × List Lab))
  | 0, _, al, s, acc => some (s, some (al, acc.reverse))
  | n + 1, i, al, s, acc =>
    (rd64 buf s.off).bind fun type =>
    (desRecord o s (if type < LABEL_ALIGNED then 24 else 40)).bind fun (s, ok) =>
    if !ok then some (s, none) else
    (listAccess s.h ll i).bind fun _ =>
    let s := { s with off := s.off + 8 }
    if type < LABEL_ALIGNED then desLabels o buf ll n (i + 1) al s (.plain type :: acc)
    else if al = 0 then some (s, none)
    else
      (rd64 buf s.off).bind fun size => (rd64 buf (s.off + 8)).bind fun data =>
      desLabels o buf ll n (i + 1) (al - 1) { s with off := s.off + 16 } (.ext type size data :: acc)

/-- The jump loop (sljitSerialize.c:511-540). -/
def desJumps (o : Oracle) (buf : List Byte) (ll : Nat) (lc : BitVec 64) : Nat → DS → List Jmp → Option (DS × Option (List Jmp))
  | 0, s, acc => some (s, some acc.reverse)
  | n + 1, s, acc =>
    (desRecord o s 32).bind fun (s, ok) =>
    if !ok then some (s, none) else
    (rd64 buf s.off).bind fun addr => (rd64 buf (s.off + 8)).bind fun flags => (rd64 buf (s.off + 16)).bind fun value =>
    let s' := { s with off := s.off + 24 }
    if flags &&& JUMP_ADDR = 0 then
      if value ≠ MAX_ADDRESS then
        if value ≥ lc then some (s, none)
        else (listAccess s.h ll value.toNat).bind fun _ => desJumps o buf ll lc n s' (⟨addr, flags, .label value.toNat⟩ :: acc)
      else desJumps o buf ll lc n s' (⟨addr, flags, .null⟩ :: acc)
    else desJumps o buf ll lc n s' (⟨addr, flags, .addr value⟩ :: acc)

/-- The loop for constants (sljitSerialize.c:550-566). -/
def desConsts (o : Oracle) (buf : List Byte) : Nat → DS → List (BitVec 64) → Option (DS × Option (List (BitVec 64)))
  | 0, s, acc => some (s, some acc.reverse)
  | n + 1, s, acc =>
    (desRecord o s 16).bind fun (s, ok) =>
    if !ok then some (s, none) else
    (rd64 buf s.off).bind fun addr => desConsts o buf n { s with off := s.off + 8 } (addr :: acc)

/-- `error:` (sljitSerialize.c:581-585). -/
def desError (h : Heap) (c : Comp) (ll : Option Nat) : Option (Heap × Option (Comp × Recs)) :=
  (freeCompiler h c).bind fun h =>
  match ll with
  | none => some (h, none)
  | some i => (h.free i).map fun h => (h, none)

/-- The part after the jumps (sljitSerialize.c:544-580). -/
def desTail (o : Oracle) (buf : List Byte) (dbg : Bool) (cc : BitVec 64) (s : DS) (r : Recs) : Option (Heap × Option (Comp × Recs)) :=
  if short buf s.off (cc * 8#64) then desError s.h s.c none else
  (desConsts o buf cc.toNat s []).bind fun (s, cs) =>
  match cs with
  | none => desError s.h s.c none
  | some cs =>
    let r := { r with consts := cs }
    if dbg then
      if short buf s.off 16#64 then desError s.h s.c none else
      (rd64 buf s.off).bind fun lf => (rd32 buf (s.off + 8)).bind fun lr => (rd32 buf (s.off + 12)).bind fun lls =>
      some (s.h, some (s.c, { r with lastFlags := lf.setWidth 32, lastReturn := lr, logicalLocalSize := lls }))
    else some (s.h, some (s.c, r))

/-- The part after the fragments (sljitSerialize.c:446-543). -/
def desBody (o : Oracle) (buf : List Byte) (dbg : Bool) (lc alc jc cc : BitVec 64) (s : DS) (r : Recs) : Option (Heap × Option (Comp × Recs)) :=
  if short buf s.off (lc * 8#64 + alc * 16#64) then desError s.h s.c none else
  match s.h.malloc o (lc * 8#64).toNat with
  | (h, none) => desError h s.c none
  | (h, some ll) =>
    (desLabels o buf ll lc.toNat 0 alc.toNat { s with h := h } []).bind fun (s, ls) =>
    match ls with
    | none => desError s.h s.c (some ll)
    | some (al, ls) =>
      if al ≠ 0 then desError s.h s.c (some ll) else
      if short buf s.off (jc * 24#64) then desError s.h s.c (some ll) else
      (desJumps o buf ll lc jc.toNat s []).bind fun (s, js) =>
      match js with
      | none => desError s.h s.c (some ll)
      | some js => (s.h.free ll).bind fun h => desTail o buf dbg cc { s with h := h } { r with labels := ls, jumps := js }

/-- The header fields which are used. -/
structure Hdr where
  cpu : BitVec 16
  segs : BitVec 64
  lc : BitVec 64
  alc : BitVec 64
  jc : BitVec 64
  cc : BitVec 64
  r : Recs

def rdHeader (buf : List Byte) : Option Hdr :=
  (rd16 buf 6).bind fun cpu => (rd64 buf 8).bind fun segs => (rd64 buf 16).bind fun lc => (rd64 buf 24).bind fun alc =>
  (rd64 buf 32).bind fun jc => (rd64 buf 40).bind fun cc => (rd32 buf 48).bind fun op => (rd32 buf 52).bind fun sc =>
  (rd32 buf 56).bind fun sv => (rd32 buf 60).bind fun fsc => (rd32 buf 64).bind fun fsv => (rd32 buf 68).bind fun ls =>
  (rd64 buf 72).bind fun size =>
  some ⟨cpu, segs, lc, alc, jc, cc, ⟨[], [], [], op, sc, sv, fsc, fsv, ls, size, 0, -1, 0⟩⟩

/-- sljit_deserialize_compiler (sljitSerialize.c:323-586). -/
def deserialize (dbg : Bool) (o : Oracle) (h : Heap) (buf : List Byte) : Option (Heap × Option (Comp × Recs)) :=
  if buf.length < 80 ∨ buf.length % 8 ≠ 0 then some (h, none) else
  (rd32 buf 0).bind fun sig => (rd16 buf 4).bind fun ver =>
  if sig ≠ 0x534c4a54 ∨ ver ≠ 1 then some (h, none) else
  (create o h).bind fun (h, c) =>
  match c with
  | none => some (h, none)
  | some c =>
    (rdHeader buf).bind fun hd =>
    if dbg && (hd.cpu &&& 1 == 0) then desError h c none else
    (desFrags o buf c hd.segs.toNat 80 h none).bind fun (h, off) =>
    match off with
    | none => desError h c none
    | some off => desBody o buf dbg hd.lc hd.alc hd.jc hd.cc ⟨h, c, off⟩ hd.r

end Verif.Generic
