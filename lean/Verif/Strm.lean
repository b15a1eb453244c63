import Verif.Format
/-!
# Compression and decompression streams: src/drpm_compstrm.c, src/drpm_decompstrm.c and the wrapper
of src/drpm_write.c:301-391

The codecs are parameters.
-/

namespace Drpm

/-! ## Compression -/

/-- A streaming encoder: what one `write_chunk` appends to the output (possibly before it fails), and
    what `finish` appends; `finish = none` is the NULL pointer of the uncompressed method
    (src/drpm_compstrm.c:40-59). -/
structure Enc (σ : Type) where
  init : σ
  write : σ → Bytes → Bytes × σ × Option Err
  finish : Option (σ → Bytes × Option Err)

/-- No compression: src/drpm_compstrm.c:596-608 `writechunk`, and lines 453-456. `realloc` failure
    is not modelled. -/
def plainEnc : Enc Unit := { init := (), write := fun _ b => (b, (), none), finish := none }

/-- `struct compstrm`, src/drpm_compstrm.c:40-59, with the contents of the file behind its
    descriptor (`fd = false`: the descriptor is negative). -/
structure CStrm (σ : Type) where
  data : Bytes
  pos : Nat
  fd : Bool
  file : Bytes
  finished : Bool
  st : σ

/-- src/drpm_compstrm.c:437-497 `compstrm_init` (after the checks of type and level). -/
def csInit {σ : Type} (E : Enc σ) (fd : Bool) (file : Bytes) : CStrm σ :=
  { data := [], pos := 0, fd := fd, file := file, finished := false, st := E.init }

/-- src/drpm_compstrm.c:437-442, 485-490: the arguments `compstrm_init` accepts; `level` is an
    `int`, 0 is the default level (src/drpm.h `DRPM_COMP_LEVEL_DEFAULT`). -/
def csInitOk (comp : Nat) (level : Int) : Bool :=
  (level = 0 ∨ (1 ≤ level ∧ level ≤ 99)) ∧ comp ≤ 6

/-- What becomes of a stream that is opened: usable, refused, or opened although the library was not
    initialised (the structure it works on holds whatever was in memory). -/
inductive Opened where
  | usable
  | refused (e : Err)
  | lost
deriving DecidableEq

/-- src/drpm_compstrm.c:281-418, 437-497: what `compstrm_init` does with a method and a level.
    `deflateInit2` and `BZ2_bzCompressInit` refuse levels above 9 with codes that are not looked at
    (lines 297-304, 322-329), `lzma_lzma_preset` leaves the options as they are (line 346), and
    `lzma_easy_encoder` fails (lines 372-379); zstd takes the nearest level it has (line 411), lzlib
    gets no level. -/
def compOpen (comp : Nat) (level : Int) : Opened :=
  if csInitOk comp level = false then .refused .prog
  else if level ≤ 9 then .usable
  else if comp = Comp.gzip.code ∨ comp = Comp.bzip2.code ∨ comp = Comp.lzma.code then .lost
  else if comp = Comp.xz.code then .refused .format
  else .usable

/-- `compstrm_init` as its callers see it; anything done with a stream whose library was not
    initialised is undefined. -/
def strmOpen (comp : Nat) (level : Int) : Out Unit :=
  match compOpen comp level with
  | .usable => .ok ()
  | .refused e => .err e
  | .lost => .ub

/-- src/drpm_compstrm.c:563-591 `compstrm_write`; `write(2)` always writes everything. The buffer
    is not NULL. Yields the error code (`none` is `DRPM_ERR_OK`) and the new state. -/
def csWrite {σ : Type} (E : Enc σ) (s : CStrm σ) (b : Bytes) : Option Err × CStrm σ :=
  if s.finished then (some .prog, s)
  else if b.length = 0 then (none, s)
  else
    match E.write s.st b with
    | (o, st, some e) => (some e, { s with data := s.data ++ o, st := st })
    | (o, st, none) =>
      (none, { s with data := s.data ++ o, st := st,
                      file := if s.fd then s.file ++ (s.data ++ o).drop s.pos else s.file,
                      pos := (s.data ++ o).length })

/-- src/drpm_compstrm.c:502-536 `compstrm_finish` with both output arguments. -/
def csFinish {σ : Type} (E : Enc σ) (s : CStrm σ) : Except Err Bytes × CStrm σ :=
  if s.finished then (.error .prog, s)
  else
    match E.finish with
    | none => (.ok s.data, { s with finished := true })
    | some f =>
      match f s.st with
      | (o, some e) => (.error e, { s with data := s.data ++ o })
      | (o, none) =>
        (.ok (s.data ++ o),
         { s with data := s.data ++ o, finished := true,
                  file := if s.fd then s.file ++ (s.data ++ o).drop s.pos else s.file })

/-- The public calls on a compression stream. -/
inductive COp where
  | write (b : Bytes)
  | finish

/-- One call: the error code, the data handed out by a successful finish, the new state. -/
def csOp {σ : Type} (E : Enc σ) (s : CStrm σ) : COp → Option Err × Option Bytes × CStrm σ
  | .write b => ((csWrite E s b).1, none, (csWrite E s b).2)
  | .finish =>
    match csFinish E s with
    | (.ok d, s') => (none, some d, s')
    | (.error e, s') => (some e, none, s')

/-- A history of calls: the state after it and the results. -/
def csRun {σ : Type} (E : Enc σ) : CStrm σ → List COp → CStrm σ × List (Option Err × Option Bytes)
  | s, [] => (s, [])
  | s, op :: ops =>
    let r := csOp E s op
    let rest := csRun E r.2.2 ops
    (rest.1, (r.1, r.2.1) :: rest.2)

/-! ## The wrapper that leaves a prefix uncompressed -/

/-- `struct compstrm_wrapper`, src/drpm_write.c:32-38. `udata` are the bytes stored in
    `uncomp_data` so far, so `uncomp_left` is `ulen - udata.length`; stream and wrapper share the
    descriptor. -/
structure Wrap (σ : Type) where
  strm : CStrm σ
  ulen : Nat
  udata : Bytes

/-- src/drpm_write.c:301-328 `compstrm_wrapper_init`. -/
def wrInit {σ : Type} (E : Enc σ) (ulen : Nat) (file : Bytes) : Wrap σ :=
  { strm := csInit E true file, ulen := ulen, udata := [] }

/-- src/drpm_write.c:342-366 `compstrm_wrapper_write`. -/
def wrWrite {σ : Type} (E : Enc σ) (w : Wrap σ) (b : Bytes) : Option Err × Wrap σ :=
  if w.ulen - w.udata.length > 0 then
    if b.length = 0 then (none, w)
    else
      let n := min (w.ulen - w.udata.length) b.length
      let w := { w with strm := { w.strm with file := w.strm.file ++ b.take n },
                        udata := w.udata ++ b.take n }
      let r := csWrite E w.strm (b.drop n)
      (r.1, { w with strm := r.2 })
  else
    let r := csWrite E w.strm b
    (r.1, { w with strm := r.2 })

/-- src/drpm_write.c:368-391 `compstrm_wrapper_finish`: the data handed out. If fewer than
    `uncomp_len` bytes were written, uninitialised memory is copied (`ub`). -/
def wrFinish {σ : Type} (E : Enc σ) (w : Wrap σ) : Out Bytes × Wrap σ :=
  match csFinish E w.strm with
  | (.error e, s) => (.err e, { w with strm := s })
  | (.ok d, s) =>
    if w.udata.length < w.ulen then (.ub, { w with strm := s })
    else (.ok (w.udata ++ d), { w with strm := s })

/-- The writes of src/drpm.c:681-727, stopping at the first error. -/
def wrWrites {σ : Type} (E : Enc σ) : Wrap σ → List Bytes → Out (Wrap σ)
  | w, [] => .ok w
  | w, b :: bs =>
    match wrWrite E w b with
    | (some e, _) => .err e
    | (none, w) => wrWrites E w bs

/-- Writing a list of pieces through the wrapper and finishing it (src/drpm.c:671-731): the data
    handed out and the contents of the file. -/
def wrAll {σ : Type} (E : Enc σ) (ulen : Nat) (file : Bytes) (bs : List Bytes) : Out (Bytes × Bytes) := do
  let w ← wrWrites E (wrInit E ulen file) bs
  match wrFinish E w with
  | (.ok d, w) => .ok (d, w.strm.file)
  | (.err e, _) => .err e
  | (.ub, _) => .ub
  | (.loop, _) => .loop

/-- The compressed form of a list of non-empty pieces: what the encoder emits for them and at the
    end (`none` if it fails). -/
def encodeAll {σ : Type} (E : Enc σ) : σ → List Bytes → Option Bytes
  | st, [] =>
    match E.finish with
    | none => some []
    | some f => match f st with
      | (o, none) => some o
      | (_, some _) => none
  | st, b :: bs =>
    match E.write st b with
    | (o, st, none) => (encodeAll E st bs).map (o ++ ·)
    | (_, _, some _) => none

/-! ## Decompression -/

/-- What successive calls of `read_chunk` do: the bytes appended to the data, and the error code
    returned (src/drpm_decompstrm.c:453-780). The list ends where the input is exhausted; from then
    on the call fails with `DRPM_ERR_FORMAT` (`in_len == 0`). -/
abbrev Events := List (Bytes × Option Err)

/-- `struct decompstrm`, src/drpm_decompstrm.c:50-73: decompressed data, position, and the input
    that is still to come. -/
structure DStrm where
  data : Bytes
  pos : Nat
  input : Events

/-- src/drpm_decompstrm.c:281-289. -/
def dsInit (ev : Events) : DStrm := { data := [], pos := 0, input := ev }

/-- One call of `read_chunk`. -/
def dsChunk (s : DStrm) : Option Err × DStrm :=
  match s.input with
  | [] => (some .format, s)
  | (b, e) :: ev => (e, { s with data := s.data ++ b, input := ev })

/-- src/drpm_decompstrm.c:398-400: the loop `while (data_pos + read_len > data_len)`. Every call of
    `read_chunk` consumes input, so the number of events plus one is enough fuel. -/
def dsFill (n : Nat) : Nat → DStrm → Out (Option Err × DStrm)
  | 0, _ => .loop
  | fuel + 1, s =>
    if (s.pos + n) % 2^64 > s.data.length then
      match dsChunk s with
      | (some e, s) => .ok (some e, s)
      | (none, s) => dsFill n fuel s
    else .ok (none, s)

/-- src/drpm_decompstrm.c:388-408 `decompstrm_read`: the bytes copied, or the error; and the state.
    Copying from beyond the data is undefined. -/
def dsRead (s : DStrm) (n : Nat) : Out (Except Err Bytes × DStrm) :=
  if sumOverflows64 s.data.length n then .ok (.error .overflow, s)
  else do
    match ← dsFill n (s.input.length + 1) s with
    | (some e, s) => .ok (.error e, s)
    | (none, s) => do
      let b ← rdBlk s.data s.pos n
      .ok (.ok b, { s with pos := (s.pos + n) % 2^64 })

/-- A history of reads. -/
def dsReads : DStrm → List Nat → Out (List (Except Err Bytes) × DStrm)
  | s, [] => .ok ([], s)
  | s, n :: ns => do
    let (r, s) ← dsRead s n
    let (rs, s) ← dsReads s ns
    .ok (r :: rs, s)

/-- src/drpm_decompstrm.c:422-437: reading chunks until `DRPM_ERR_FORMAT`, which is taken for the
    end; any other error is returned. Yields the state at the end. -/
def dsDrain : Nat → DStrm → Out (Option Err × DStrm)
  | 0, _ => .loop
  | fuel + 1, s =>
    match dsChunk s with
    | (none, s) => dsDrain fuel s
    | (some .format, s) => .ok (none, s)
    | (some e, s) => .ok (some e, s)

/-- src/drpm_decompstrm.c:412-448 `decompstrm_read_until_eof` with both output arguments. -/
def dsReadAll (s : DStrm) : Out (Except Err Bytes × DStrm) := do
  match ← dsDrain (s.input.length + 1) s with
  | (some e, s) => .ok (.error e, s)
  | (none, s) => .ok (.ok (s.data.drop s.pos), { s with pos := s.data.length })

/-- The events of an uncompressed stream whose input arrives in the given pieces
    (src/drpm_decompstrm.c:453-485); empty pieces do not occur (`read` returns 0 only at the end). -/
def plainEvents (pieces : List Bytes) : Events := pieces.map (fun b => (b, none))

/-- src/drpm_decompstrm.c:458-462: the pieces taken from a memory buffer, `CHUNK_SIZE` (1024) bytes
    each. -/
def memPieces : Nat → Bytes → List Bytes
  | 0, _ => []
  | fuel + 1, b => if b.length = 0 then [] else b.take 1024 :: memPieces fuel (b.drop 1024)

/-- A chunk-level decoder for each compression method: the events for an input buffer. -/
abbrev ChunkDecoder := Comp → Bytes → Events

/-- src/drpm_decompstrm.c:264-342 `decompstrm_init` on a memory buffer (`filedesc = -1`). -/
def dsInitMem (dec : ChunkDecoder) (buf : Bytes) : Out (Comp × DStrm) :=
  if buf.length < 8 then .err .prog else do
  let m ← be64At buf
  match detectComp m with
  | .none => .ok (.none, dsInit (plainEvents (memPieces (buf.length + 1) buf)))
  | c => .ok (c, dsInit (dec c buf))

end Drpm
