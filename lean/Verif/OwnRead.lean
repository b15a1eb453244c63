import Verif.Own

/-!
# Ownership: packages, streams, and reading a delta

The functions of `drpm_rpm.c`, `drpm_decompstrm.c` and `drpm_read.c` at the level of `Verif.Own`:
what each allocates, frees, opens and closes, on which path, in which order.  Results of calls that
own nothing (`read`, `lseek`, `MD5_Update`, `memcmp`, `strcmp`, ...) are decisions of the schedule.
Consecutive tests with the same consequence are one decision.
-/

namespace Drpm.Own

/-! ## Decompression streams -/

/-- `struct decompstrm` (drpm_decompstrm.c:43-73): the structure, the state inside the decompression
library, the decompressed data. -/
structure StrmP where
  self : Nat
  codec : Option Nat := none
  data : Option Nat := none
  zstd : Bool := false
  deriving DecidableEq, Repr

def StrmP.own (st : StrmP) : List Nat := [st.self] ++ st.codec.toList ++ st.data.toList

def ownStrm : Option StrmP → List Nat
  | none => []
  | some st => st.own

/-- `decompstrm_init` (drpm_decompstrm.c:264-342), with `init_*` (147-240): after a failed
initialisation of the library the structure is freed and the pointer cleared. -/
def strmInit : Res (Option StrmP) := do
  let magic ← test .call
  if magic then
    let p ← alloc .call
    match p with
    | none => pure none
    | some self => do
      let compressed ← test .call
      if compressed then
        let c ← alloc .call
        match c with
        | none => do
          free (some self)
          pure none
        | some c => do
          let z ← test .call
          pure (some { self := self, codec := some c, zstd := z })
      else pure (some { self := self })
  else pure none

/-- The inner loop of a `readchunk_*` function: the library produces output `n` times, each time
`strm->data` is grown by `realloc`. -/
def strmGrow (x : Site) : Nat → StrmP → Res (StrmP × Bool)
  | 0, st => pure (st, true)
  | n + 1, st => do
    let good ← test x
    if good then
      let q ← realloc x st.data
      match q with
      | none => pure (st, false)
      | some i => strmGrow x n { st with data := some i }
    else pure (st, false)

/-- `readchunk_*` (drpm_decompstrm.c:453-780).  `readchunk_zstd` (733-780) has an output buffer of its
own and returns without freeing it when the library or `realloc` fails (site `zstdChunk`). -/
def strmChunk (st : StrmP) : Res (StrmP × Bool) := do
  let input ← test .call
  if input then
    let n ← pick .call
    if st.zstd then
      let b ← alloc .call
      match b with
      | none => pure (st, false)
      | some b => do
        let r ← strmGrow .zstdChunk n st
        if r.2 then
          let md5 ← test .zstdChunk
          if md5 then
            free (some b)
            pure (r.1, true)
          else pure (r.1, false)
        else pure (r.1, false)
    else
      let r ← strmGrow .call n st
      if r.2 then
        let md5 ← test .call
        pure (r.1, md5)
      else pure (r.1, false)
  else pure (st, false)

/-- Several chunks: the loop of `decompstrm_read` (drpm_decompstrm.c:388-408). -/
def strmChunks : Nat → StrmP → Res (StrmP × Bool)
  | 0, st => pure (st, true)
  | n + 1, st => do
    let r ← strmChunk st
    if r.2 then strmChunks n r.1 else pure (r.1, false)

/-- `decompstrm_read`, `decompstrm_read_be32`, `decompstrm_read_be64` (drpm_decompstrm.c:356-408). -/
def strmRead (st : StrmP) : Res (StrmP × Bool) := do
  let n ← pick .call
  strmChunks n st

/-- `decompstrm_read_until_eof` (drpm_decompstrm.c:412-448): chunks until there are no more, then a
block for the caller.  A chunk failing with a format error is taken for the end of the data; a zstd
stream reports a format error only where its input ends, so that the chunks before it succeeded. -/
def strmUntilEof (st : StrmP) : Res (StrmP × Option Nat × Bool) := do
  let r ← strmRead st
  let format ← test .call
  if r.2 ∨ (format ∧ r.1.zstd = false) then
    let p ← alloc .call
    pure (r.1, p, p.isSome)
  else pure (r.1, none, false)

/-- `decompstrm_destroy` (drpm_decompstrm.c:243-258). -/
def strmDestroy : Option StrmP → Res Unit
  | none => pure ()
  | some st => freeAll [st.codec, st.data, some st.self]

/-! ## Packages -/

/-- `struct rpm` (drpm_rpm.c:43-51): the structure, the two headers, the archive. -/
structure RpmP where
  self : Nat
  sig : Option Nat := none
  hdr : Option Nat := none
  arch : Option Nat := none
  deriving DecidableEq, Repr

def RpmP.own (r : RpmP) : List Nat :=
  [r.self] ++ r.sig.toList ++ r.hdr.toList ++ r.arch.toList

def ownRpm : Option RpmP → List Nat
  | none => []
  | some r => r.own

/-- `rpm_free` (drpm_rpm.c:75-85). -/
def rpmFree (r : RpmP) : Res RpmP := do
  freeAll [r.sig, r.hdr, r.arch]
  pure { self := r.self }

/-- `rpm_destroy` (drpm_rpm.c:356-366). -/
def rpmDestroy : Option RpmP → Res Unit
  | none => pure ()
  | some r => do
    let r ← rpmFree r
    free (some r.self)

/-- `rpm_export_signature`, `rpm_export_header` (drpm_rpm.c:87-145): the exported header is copied
to a new block and freed. -/
def exportHdr (x : Site) : Res (Option Nat) := do
  let e ← alloc x
  match e with
  | none => pure none
  | some e => do
    let p ← alloc x
    free (some e)
    pure p

/-- `rpm_read`'s reading of lead, signature and header (drpm_rpm.c:297-305). -/
def rpmHead (x : Site) (r : RpmP) : Res (RpmP × Bool) := do
  let lead ← test x
  if lead then
    let sig ← alloc x
    match sig with
    | none => pure (r, false)
    | some i => do
      let seek ← test x
      if seek then
        let hdr ← alloc x
        match hdr with
        | none => pure ({ r with sig := some i }, false)
        | some j => pure ({ r with sig := some i, hdr := some j }, true)
      else pure ({ r with sig := some i }, false)
  else pure (r, false)

/-- `rpm_read`'s header and signature buffers for the two MD5 sums (drpm_rpm.c:307-329): the pair is
(`header`, `signature`). -/
def rpmDigests (x : Site) (seq full : Bool) : Res (Option Nat × Option Nat × Bool) := do
  if seq then
    let hb ← exportHdr x
    match hb with
    | none => pure (none, none, false)
    | some hb => do
      let md5 ← test x
      if md5 then
        if full then
          let sb ← exportHdr x
          match sb with
          | none => pure (some hb, none, false)
          | some sb => do
            let md5 ← test x
            pure (some hb, some sb, md5)
        else pure (some hb, none, true)
      else pure (some hb, none, false)
  else if full then
    let sb ← exportHdr x
    match sb with
    | none => pure (none, none, false)
    | some sb => do
      let hb ← exportHdr x
      match hb with
      | none => pure (none, some sb, false)
      | some hb => do
        let md5 ← test x
        pure (some hb, some sb, md5)
  else pure (none, none, true)

/-- What to do with the archive (drpm_private.h:60-62). -/
inductive ArcMode where
  | dontRead
  | uncomp
  | decomp
  deriving DecidableEq, Repr

/-- The loop of `rpm_read_archive` for an archive kept compressed (drpm_rpm.c:207-222): the result of
`realloc` is stored only after the MD5 updates, so if one of them fails (site `md5Chunk`) the
structure keeps the pointer that `realloc` has freed. -/
def arcUncomp (x : Site) : Nat → RpmP → Res (RpmP × Bool)
  | 0, r => do
    let good ← test x
    pure (r, good)
  | n + 1, r => do
    let q ← realloc x r.arch
    match q with
    | none => pure (r, false)
    | some i => do
      let md5 ← test .md5Chunk
      if md5 then arcUncomp x n { r with arch := some i } else pure (r, false)

/-- The part of `rpm_read_archive` for an archive to be decompressed (drpm_rpm.c:198-206, 231-232):
the stream is destroyed in any case. -/
def arcDecomp (r : RpmP) : Res (RpmP × Bool) := do
  let st ← strmInit
  match st with
  | none => pure (r, false)
  | some st => do
    let q ← strmUntilEof st
    strmDestroy (some q.1)
    pure ({ r with arch := q.2.1 }, q.2.2)

/-- `rpm_read_archive` (drpm_rpm.c:177-236); the second argument of the result is success. -/
def rpmArchive (x : Site) (mode : ArcMode) (r : RpmP) : Res (RpmP × Bool) := do
  let fd ← alloc x
  match fd with
  | none => pure (r, false)
  | some fd => do
    let seek ← test x
    if seek then
      let q ← (match mode with
        | .decomp => arcDecomp r
        | _ => do
          let n ← pick x
          arcUncomp x n r)
      free (some fd)
      pure q
    else
      free (some fd)
      pure (r, false)

/-- Lines 297-342 of `rpm_read`: the structure, the two buffers, success. -/
def rpmBody (x : Site) (mode : ArcMode) (seq full : Bool) (r : RpmP) :
    Res (RpmP × Option Nat × Option Nat × Bool) := do
  let q ← rpmHead x r
  if q.2 then
    let b ← rpmDigests x seq full
    if b.2.2 then
      if mode = .dontRead then pure (q.1, b.1, b.2.1, true)
      else
        let pos ← test x
        if pos then
          let a ← rpmArchive x mode q.1
          if a.2 then
            let fin ← test x
            pure (a.1, b.1, b.2.1, fin)
          else pure (a.1, b.1, b.2.1, false)
        else pure (q.1, b.1, b.2.1, false)
    else pure (q.1, b.1, b.2.1, false)
  else pure (q.1, none, none, false)

/-- `rpm_read` (drpm_rpm.c:245-353).  On failure the contents are freed but the structure stays with
the caller. -/
def rpmRead (x : Site) (mode : ArcMode) (seq full : Bool) : Res (Option RpmP × Bool) := do
  let p ← alloc x
  match p with
  | none => pure (none, false)
  | some self => do
    let fd ← alloc x
    match fd with
    | none => pure (some { self := self }, false)
    | some fd => do
      let q ← rpmBody x mode seq full { self := self }
      if q.2.2.2 then
        freeAll [q.2.2.1, q.2.1, some fd]
        pure (some q.1, true)
      else
        let r ← rpmFree q.1
        freeAll [q.2.2.1, q.2.1, some fd]
        pure (some r, false)

/-- `rpm_fetch_lead_and_signature` (drpm_rpm.c:421-450). -/
def fetchLeadSig : Res (Option Nat) := do
  let e ← exportHdr .call
  match e with
  | none => pure none
  | some e => do
    let p ← alloc .call
    free (some e)
    pure p

/-- `rpm_header_unload_region` and `rpm_patch_payload_format` (drpm_rpm.c:147-175, 705-721): the
header is replaced by a copy, changed, and reloaded; `headerReload` gives up the old header and may
return NULL, which is stored. -/
def patchFormat (r : RpmP) : Res (RpmP × Bool) := do
  let td ← take
  let region ← test .call
  if region then
    free r.hdr
    let new ← take
    let copy ← take
    let imp ← alloc .call
    freeAll [imp, some copy, some td]
    let good ← test .call
    if good then
      free (some new)
      let h ← alloc .call
      pure ({ r with hdr := h }, true)
    else pure ({ r with hdr := some new }, false)
  else
    free (some td)
    let good ← test .call
    if good then
      free r.hdr
      let h ← alloc .call
      pure ({ r with hdr := h }, true)
    else pure (r, false)

/-- `rpm_find_payload_format_offset` (drpm_rpm.c:876-906). -/
def findOffset : Res Bool := do
  let e ← exportHdr .call
  match e with
  | none => pure false
  | some e => do
    let found ← test .call
    free (some e)
    pure found

/-- `rpm_get_digest_algo`, `rpm_signature_get_md5` (drpm_rpm.c:649-684, 980-998): a tag container
with its data, freed in any case. -/
def getTag : Res Bool := do
  let td ← take
  let d ← alloc .call
  let good ← test .call
  freeAll [d, some td]
  pure good

/-- `rpm_replace_lead_and_signature` (drpm_rpm.c:550-568). -/
def replaceSig (r : RpmP) : Res (RpmP × Bool) := do
  let good ← test .call
  if good then
    free r.sig
    let s ← alloc .call
    pure ({ r with sig := s }, s.isSome)
  else pure (r, false)

/-- `rpm_write` (drpm_rpm.c:485-547). -/
def rpmWrite (x : Site) : Res Bool := do
  let fd ← alloc x
  match fd with
  | none => pure false
  | some fd => do
    let sb ← exportHdr x
    match sb with
    | none => do
      free (some fd)
      pure false
    | some sb => do
      let hb ← exportHdr x
      match hb with
      | none => do
        freeAll [some fd, some sb]
        pure false
      | some hb => do
        let good ← test x
        freeAll [some fd, some sb, some hb]
        pure good

/-! ## File information -/

/-- The strings of `struct file_info` (drpm_private.h:320-330). -/
structure FileP where
  name : Option Nat := none
  md5 : Option Nat := none
  linkto : Option Nat := none
  deriving DecidableEq, Repr

def FileP.own (f : FileP) : List Nat := f.name.toList ++ f.md5.toList ++ f.linkto.toList

def ownFiles : List FileP → List Nat
  | [] => []
  | f :: fs => f.own ++ ownFiles fs

/-- The loop freeing the strings (drpm.c:756-760, drpm_rpm.c:843-847). -/
def freeFiles : List FileP → Res Unit
  | [] => pure ()
  | f :: fs => do
    freeAll [f.name, f.md5, f.linkto]
    freeFiles fs

/-- The loop of `rpm_get_file_info` filling `n` entries (drpm_rpm.c:797-834); the entries not reached
have been zeroed before (794-795). -/
def fillFiles : Nat → Res (List FileP × Bool)
  | 0 => pure ([], true)
  | n + 1 => do
    let tags ← test .call
    if tags then
      let name ← alloc .call
      match name with
      | none => pure (List.replicate (n + 1) {}, false)
      | some i => do
        let md5 ← alloc .call
        match md5 with
        | none => pure ({ name := some i } :: List.replicate n {}, false)
        | some j => do
          let linkto ← alloc .call
          match linkto with
          | none => pure ({ name := some i, md5 := some j } :: List.replicate n {}, false)
          | some k => do
            let r ← fillFiles n
            pure ({ name := some i, md5 := some j, linkto := some k } :: r.1, r.2)
    else pure (List.replicate (n + 1) {}, false)

/-- Lines 765-849 of `rpm_get_file_info`: the array, its entries, success.  When a tag is missing the
function succeeds and hands out no array (770-773). -/
def fileInfoBody : Res (Option Nat × List FileP × Bool) := do
  let tags ← test .call
  if tags then
    let counts ← test .call
    if counts then
      let n ← pick .call
      let arr ← alloc .call
      match arr with
      | none => pure (none, [], false)
      | some a => do
        let r ← fillFiles n
        if r.2 then pure (some a, r.1, true)
        else do
          freeFiles r.1
          free (some a)
          pure (none, [], false)
    else pure (none, [], false)
  else pure (none, [], true)

/-- Nine `rpmtd` containers, each with data or without (drpm_rpm.c:754-762, 851-869). -/
def newTds : Nat → Res (List (Option Nat))
  | 0 => pure []
  | n + 1 => do
    let td ← take
    let d ← alloc .call
    let r ← newTds n
    pure (d :: some td :: r)

/-- `rpm_get_file_info` (drpm_rpm.c:724-873). -/
def getFileInfo : Res (Option Nat × List FileP × Bool) := do
  let tds ← newTds 9
  let r ← fileInfoBody
  freeAll tds
  pure r

/-! ## The rpm database -/

/-- Lines 1024-1081 of `rpm_read_header` once the structure and the copy of the NEVR exist: `lib` is
what the database iterator and the transaction hold.  The header found by the iterator belongs to the
iterator; after `rpm_export_header` failed (site `dbExport`) `rpm_free` frees it although
`rpmdbFreeIterator` is going to.  The exported copy is never freed. -/
def dbLookup (self str : Nat) : Res (Option RpmP × Bool) := do
  let nevr ← test .call
  if nevr then
    let trans ← take
    let iter ← take
    let found ← test .call
    if found then
      let h ← take
      let e ← exportHdr .dbExport
      match e with
      | none => do
        let r ← rpmFree { self := self, hdr := some h }
        free (some r.self)
        freeAll [some h, some iter, some trans, some str]
        pure (none, false)
      | some _ => do
        let h' ← alloc .call
        match h' with
        | none => do
          let r ← rpmFree { self := self }
          free (some r.self)
          freeAll [some h, some iter, some trans, some str]
          pure (none, false)
        | some h' => do
          freeAll [some h, some iter, some trans, some str]
          pure (some { self := self, hdr := some h' }, true)
    else
      let r ← rpmFree { self := self }
      free (some r.self)
      freeAll [some iter, some trans, some str]
      pure (none, false)
  else
    let r ← rpmFree { self := self }
    free (some r.self)
    free (some str)
    pure (none, false)

/-- `rpm_read_header` (drpm_rpm.c:1002-1095).  If the copy of the NEVR cannot be allocated (site
`nevrCopy`) `rpm_free` is applied to a structure that has not been initialised. -/
def readHeader : Res (Option RpmP × Bool) := do
  let p ← alloc .call
  match p with
  | none => pure (none, false)
  | some self => do
    let str ← alloc .nevrCopy
    match str with
    | none => garbage
    | some str => dbLookup self str

/-! ## Deltas -/

/-- The blocks of `struct deltarpm` (drpm_private.h:280-318) besides its head. -/
inductive Fld where
  | srcNevr
  | sequence
  | compParam
  | offadj
  | leadsig
  | intCopies
  | extCopies
  | addData
  | intData
  deriving DecidableEq, Repr

/-- `struct deltarpm` (drpm_private.h:280-318).  `head` is a union: the package of a standard delta,
the NEVR of an rpm-only one; `int_data` is a union of two pointers freed in the same way. -/
structure DeltaP where
  rpmonly : Bool := false
  tgtRpm : Option RpmP := none
  tgtNevr : Option Nat := none
  blk : Fld → Option Nat := fun _ => none

def DeltaP.set (d : DeltaP) (f : Fld) (p : Option Nat) : DeltaP :=
  { d with blk := fun g => if g = f then p else d.blk g }

/-- The blocks in the order of `free_deltarpm`. -/
def DeltaP.ptrs (d : DeltaP) : List (Option Nat) :=
  [d.blk .srcNevr, d.blk .sequence, d.blk .compParam, d.blk .offadj, d.blk .leadsig,
    d.blk .intCopies, d.blk .extCopies, d.blk .addData, d.blk .intData]

def DeltaP.own (d : DeltaP) : List Nat :=
  (if d.rpmonly then d.tgtNevr.toList else ownRpm d.tgtRpm) ++ ids d.ptrs

/-- `free_deltarpm` (drpm_deltarpm.c:110-138). -/
def freeDelta (d : DeltaP) : Res DeltaP := do
  (if d.rpmonly then free d.tgtNevr else rpmDestroy d.tgtRpm)
  freeAll d.ptrs
  pure {}

/-- Reading one variable-length part of `readdelta_rest` (drpm_read.c:128-305): read its length, check
it, allocate the block unless the part may be absent and is, and read into it.  `opt` says that the
part may be absent.  Add data in an rpm-only delta is refused before allocating (268-272). -/
def readFld (opt : Bool) (f : Fld) (st : StrmP) (d : DeltaP) : Res (StrmP × DeltaP × Bool) := do
  let r ← strmRead st
  if r.2 then
    let format ← test .call
    if format then
      let absent ← test .call
      if opt ∧ absent then pure (r.1, d, true)
      else if f = .addData ∧ d.rpmonly then pure (r.1, d, false)
      else
        let p ← alloc .call
        match p with
        | none => pure (r.1, d, false)
        | some i => do
          let q ← strmRead r.1
          pure (q.1, d.set f (some i), q.2)
    else pure (r.1, d, false)
  else pure (r.1, d, false)

/-- Several parts, one after the other. -/
def readFlds : List (Bool × Fld) → StrmP → DeltaP → Res (StrmP × DeltaP × Bool)
  | [], st, d => pure (st, d, true)
  | (opt, f) :: fs, st, d => do
    let r ← readFld opt f st d
    if r.2.2 then readFlds fs r.1 r.2.1 else pure (r.1, r.2.1, false)

/-- The parts in the order of `readdelta_rest`. -/
def restParts : List (Bool × Fld) :=
  [(false, .srcNevr), (false, .sequence), (true, .compParam), (true, .offadj), (false, .leadsig),
    (true, .intCopies), (true, .extCopies), (true, .addData), (true, .intData)]

/-- `readdelta_rest` (drpm_read.c:81-365). -/
def readRest (d : DeltaP) : Res (DeltaP × Bool) := do
  let st ← strmInit
  match st with
  | none => pure (d, false)
  | some st => do
    let r ← readFlds restParts st d
    if r.2.2 then
      let copies ← test .call
      strmDestroy (some r.1)
      pure (r.2.1, copies)
    else
      strmDestroy (some r.1)
      pure (r.2.1, false)

/-- `readdelta_rpmonly` (drpm_read.c:368-408). -/
def readRpmonly (d : DeltaP) : Res (DeltaP × Bool) := do
  let good ← test .call
  if good then
    let p ← alloc .call
    match p with
    | none => pure (d, false)
    | some i => do
      let good ← test .call
      if good then
        let q ← alloc .call
        match q with
        | none => pure ({ d with tgtNevr := some i }, false)
        | some j => do
          let good ← test .call
          pure ({ d with tgtNevr := some i }.set .addData (some j), good)
      else pure ({ d with tgtNevr := some i }, false)
  else pure (d, false)

/-- `readdelta_standard` (drpm_read.c:411-430): the package is stored in the delta only at the end;
on the failing paths before (sites `stdRead`, `stdComp`, `stdSeek`) it is forgotten. -/
def readStandard (d : DeltaP) : Res (DeltaP × Bool) := do
  let r ← rpmRead .stdRead .dontRead false false
  if r.2 then
    let comp ← test .stdComp
    if comp then
      let seek ← test .stdSeek
      if seek then pure ({ d with tgtRpm := r.1 }, true) else pure (d, false)
    else pure (d, false)
  else pure (d, false)

/-- `read_deltarpm` (drpm_read.c:433-485), from a zeroed structure. -/
def readDeltarpm : Res (DeltaP × Bool) := do
  let fd ← alloc .call
  match fd with
  | none => pure ({}, false)
  | some fd => do
    let magic ← test .call
    if magic then
      let rpmonly ← test .rpmonly
      let h ← (if rpmonly then readRpmonly { rpmonly := true } else readStandard {})
      if h.2 then
        let r ← readRest h.1
        if r.2 then
          free (some fd)
          pure (r.1, true)
        else
          let d ← freeDelta r.1
          free (some fd)
          pure (d, false)
      else
        let d ← freeDelta h.1
        free (some fd)
        pure (d, false)
    else
      let d ← freeDelta {}
      free (some fd)
      pure (d, false)

/-! ## `drpm_read`, `drpm_destroy` -/

/-- `struct drpm` (drpm_private.h:67-91): the structure and its nine blocks. -/
structure DrpmP where
  self : Nat
  fields : List (Option Nat)
  deriving DecidableEq, Repr

def DrpmP.own (o : DrpmP) : List Nat := [o.self] ++ ids o.fields

def ownDrpm : Option DrpmP → List Nat
  | none => []
  | some o => o.own

/-- The allocations of `deltarpm_to_drpm` (drpm_read.c:511-555): one block per entry of the list,
unless it may be absent (`true`) and is. -/
def convFields (x : Site) : List Bool → Res (List (Option Nat) × Bool)
  | [] => pure ([], true)
  | opt :: os => do
    let absent ← test .call
    if opt ∧ absent then
      let r ← convFields x os
      pure (none :: r.1, r.2)
    else
      let p ← alloc x
      match p with
      | none => pure ([], false)
      | some i => do
        let r ← convFields x os
        pure (some i :: r.1, r.2)

/-- `deltarpm_to_drpm` and `drpm_free` (drpm_read.c:488-574): file name, sequence, source NEVR,
compression parameters, lead and signature, the three arrays, target NEVR. -/
def convert : Res (List (Option Nat) × Bool) := do
  let r ← convFields .convert [false, false, false, true, false, true, true, true, false]
  if r.2 then pure r
  else
    freeAll r.1
    pure ([], false)

/-- `drpm_read` (drpm.c:66-92).  If the conversion fails (site `convert`) the pointer to the structure
is cleared without freeing it. -/
def drpmRead : Res (Option DrpmP) := do
  let r ← readDeltarpm
  if r.2 then
    let p ← alloc .call
    match p with
    | none => do
      let _ ← freeDelta r.1
      pure none
    | some self => do
      let c ← convert
      let _ ← freeDelta r.1
      if c.2 then pure (some { self := self, fields := c.1 }) else pure none
  else
    let _ ← freeDelta r.1
    pure none

/-- `drpm_destroy` (drpm.c:94-105). -/
def drpmDestroy (o : DrpmP) : Res Unit := do
  freeAll o.fields
  free (some o.self)

end Drpm.Own
