import Verif.OwnCheck

/-!
# Ownership: compression streams, the block cache, `drpm_apply`

The functions of `drpm_compstrm.c`, the wrapper in `drpm_write.c`, `drpm_block.c`, and `drpm_apply` of
`drpm.c`, at the level of `Verif.Own`.  Which block is wanted, which file a position belongs to and how
far the data go are decisions of the schedule, so the cache is used here in every order in which the
code could use it (and in some in which it could not).
-/

namespace Drpm.Own

/-! ## Compression streams -/

/-- `struct compstrm` (drpm_compstrm.c:40-59): the structure, the state inside the compression library,
the compressed data. -/
structure CompP where
  self : Nat
  codec : Option Nat := none
  data : Option Nat := none
  zstd : Bool := false
  deriving DecidableEq, Repr

def CompP.own (st : CompP) : List Nat := [st.self] ++ st.codec.toList ++ st.data.toList

/-- What a caller's pointer is after `compstrm_init`: not assigned, NULL, or a stream. -/
inductive CompR where
  | unset
  | null
  | strm (st : CompP)
  deriving DecidableEq, Repr

def CompR.own : CompR → List Nat
  | .strm st => st.own
  | _ => []

/-- `compstrm_init` (drpm_compstrm.c:437-497), with `init_*` (283-418).  A level that is out of range
(site `lvl`) makes it return before assigning the pointer (a level up to 99 that the library does not
accept is not looked at here, see defect 22 in DESIGN.md); for an unknown method (site `compKnown`) it
returns an error and leaves the structure with the caller; when zstd refuses its parameter (site
`compParam`) its context is forgotten. -/
def compInit (lvl : Site) : Res (CompR × Bool) := do
  let level ← test lvl
  if level then
    let p ← alloc .call
    match p with
    | none => pure (.null, false)
    | some self => do
      let known ← test .compKnown
      if known then
        let compressed ← test .compressed
        if compressed then
          let c ← alloc .call
          match c with
          | none => do
            free (some self)
            pure (.null, false)
          | some c => do
            let z ← test .call
            let param ← test .compParam
            if param then pure (.strm { self := self, codec := some c, zstd := z }, true)
            else
              free (some self)
              pure (.null, false)
        else pure (.strm { self := self }, true)
      else pure (.strm { self := self }, false)
  else pure (.unset, false)

/-- The loop of `writechunk_*` and `finish_*`: the library produces output `n` times, each time
`strm->data` is grown by `realloc`. -/
def compGrow (x : Site) : Nat → CompP → Res (CompP × Bool)
  | 0, st => pure (st, true)
  | n + 1, st => do
    let good ← test x
    if good then
      let q ← realloc x st.data
      match q with
      | none => pure (st, false)
      | some i => compGrow x n { st with data := some i }
    else pure (st, false)

/-- `compstrm_write`, `compstrm_write_be32`, `compstrm_write_be64` (drpm_compstrm.c:538-591) with
`writechunk_*` (595-762).  `writechunk_zstd` (735-762) has an output buffer of its own and returns
without freeing it when the library or `realloc` fails (site `compWrite`). -/
def compWrite (st : CompP) : Res (CompP × Bool) := do
  let some_ ← test .call
  if some_ then
    let n ← pick .call
    if st.zstd then
      let b ← alloc .call
      match b with
      | none => pure (st, false)
      | some b => do
        let r ← compGrow .compWrite n st
        if r.2 then
          free (some b)
          let w ← test .call
          pure (r.1, w)
        else pure (r.1, false)
    else
      let r ← compGrow .call n st
      if r.2 then
        let w ← test .call
        pure (r.1, w)
      else pure (r.1, false)
  else pure (st, true)

/-- `finish_*` (drpm_compstrm.c:102-277): all but zstd's end the library's state in any case;
`finish_zstd` (248-277) returns early (site `compFinish`). -/
def codecFinish (st : CompP) : Res (CompP × Bool) := do
  let n ← pick .call
  if st.zstd then
    let b ← alloc .compFinish
    match b with
    | none => pure (st, false)
    | some b => do
      let r ← compGrow .compFinish n st
      if r.2 then
        free (some b)
        free r.1.codec
        pure ({ r.1 with codec := none }, true)
      else pure (r.1, false)
  else
    let r ← compGrow .call n st
    free r.1.codec
    pure ({ r.1 with codec := none }, r.2)

/-- `compstrm_finish` (drpm_compstrm.c:502-536): the stream, the copy of the data (if there are any),
success. -/
def compFinish (st : CompP) : Res (CompP × Option Nat × Bool) := do
  let r ← codecFinish st
  if r.2 then
    let w ← test .call
    if w then
      let some_ ← test .call
      if some_ then
        let p ← alloc .call
        pure (r.1, p, p.isSome)
      else pure (r.1, none, true)
    else pure (r.1, none, false)
  else pure (r.1, none, false)

/-- `compstrm_destroy` (drpm_compstrm.c:421-432): the state inside the library is not ended. -/
def compDestroy (st : CompP) : Res Unit := freeAll [st.data, some st.self]

/-- `struct compstrm_wrapper` (drpm_write.c:39-45). -/
structure WrapP where
  self : Nat
  uncomp : Nat
  strm : CompP
  deriving DecidableEq, Repr

def WrapP.own (w : WrapP) : List Nat := [w.self] ++ [w.uncomp] ++ w.strm.own

def ownWrap : Option WrapP → List Nat
  | none => []
  | some w => w.own

/-- `compstrm_wrapper_init` (drpm_write.c:301-328): after a failed `compstrm_init` the stream, if there
is one, is not freed. -/
def wrapInit : Res (Option WrapP) := do
  let p ← alloc .call
  match p with
  | none => pure none
  | some self => do
    let u ← alloc .call
    match u with
    | none => do
      free (some self)
      pure none
    | some u => do
      let r ← compInit .call
      match r with
      | (.strm st, true) => pure (some { self := self, uncomp := u, strm := st })
      | _ => do
        freeAll [some u, some self]
        pure none

/-- `compstrm_wrapper_destroy` (drpm_write.c:330-340). -/
def wrapDestroy : Option WrapP → Res Unit
  | none => pure ()
  | some w => do
    compDestroy w.strm
    freeAll [some w.uncomp, some w.self]

/-- `compstrm_wrapper_write` (drpm_write.c:342-366). -/
def wrapWrite (w : WrapP) : Res (WrapP × Bool) := do
  let head ← test .call
  if head then
    let r ← compWrite w.strm
    pure ({ w with strm := r.1 }, r.2)
  else pure (w, false)

/-- `compstrm_wrapper_finish` (drpm_write.c:368-391): if the block cannot be enlarged (site
`finishJoin`) it is freed, but the caller's pointer keeps pointing to it. -/
def wrapFinish (w : WrapP) : Res (WrapP × Option Nat × Bool) := do
  let r ← compFinish w.strm
  if r.2.2 then
    let q ← realloc .finishJoin r.2.1
    match q with
    | none => do
      free r.2.1
      pure ({ w with strm := r.1 }, r.2.1, false)
    | some i => pure ({ w with strm := r.1 }, some i, true)
  else pure ({ w with strm := r.1 }, r.2.1, false)

/-! ## The block cache -/

/-- Where the external data come from (drpm_block.c:165-191). -/
inductive SrcKind where
  | rpmonly
  | standard
  | filesystem
  deriving DecidableEq, Repr

/-- `struct blocks` (drpm_block.c:72-113): the structure; the old header or the table of open files;
the two tables; the CPIO buffer; the core blocks (node, buffer), free ones included; the page blocks;
the page file; the open files (node, descriptor). -/
structure BlksP where
  kind : SrcKind
  self : Nat
  src : Option Nat
  table : Nat
  max : Nat
  cpio : Nat
  core : List (Nat × Nat) := []
  page : List Nat := []
  pageFd : Option Nat := none
  files : List (Nat × Nat) := []
  deriving DecidableEq, Repr

/-- The numbers of a list of pairs. -/
def pairs : List (Nat × Nat) → List Nat
  | [] => []
  | p :: ps => [p.1] ++ [p.2] ++ pairs ps

def BlksP.own (b : BlksP) : List Nat :=
  [b.self] ++ b.src.toList ++ [b.table] ++ [b.max] ++ [b.cpio] ++ pairs b.core ++ b.page ++
    b.pageFd.toList ++ pairs b.files

/-- The caller's pointer to the cache: NULL, a cache, or a pointer to a freed structure. -/
inductive BlksR where
  | null
  | dangling
  | blks (b : BlksP)
  deriving DecidableEq, Repr

def BlksR.own : BlksR → List Nat
  | .blks b => b.own
  | _ => []

/-- `blocks_create` (drpm_block.c:139-231).  If the structure cannot be allocated (site `blkSelf`) the
old header or the table of open files is forgotten.  If one of the later allocations fails (sites
`blkTable`, `blkMax`, `blkCpio`) the structure is freed, but the caller's pointer keeps pointing
to it. -/
def blocksCreate (kind : SrcKind) : Res (BlksR × Bool) := do
  let count ← test .call
  if count then
    let src ← (match kind with
      | .rpmonly => exportHdr .call
      | .standard => pure none
      | .filesystem => alloc .call)
    if kind ≠ .standard ∧ src = none then pure (.null, false)
    else
      let self ← alloc .blkSelf
      match self with
      | none => pure (.null, false)
      | some self => do
        let table ← alloc .blkTable
        match table with
        | none => do
          free (some self)
          pure (.dangling, false)
        | some table => do
          let max ← alloc .blkMax
          match max with
          | none => do
            freeAll [some self, some table]
            pure (.dangling, false)
          | some max => do
            let cpio ← alloc .blkCpio
            match cpio with
            | none => do
              freeAll [some self, some table, some max]
              pure (.dangling, false)
            | some cpio =>
              pure (.blks { kind := kind, self := self, src := src, table := table, max := max,
                            cpio := cpio }, true)
  else pure (.null, false)

/-- Freeing the open files and the core blocks, pair by pair. -/
def freePairs : List (Nat × Nat) → Res Unit
  | [] => pure ()
  | p :: ps => do
    freeAll [some p.2, some p.1]
    freePairs ps

/-- Freeing the page blocks. -/
def freeList : List Nat → Res Unit
  | [] => pure ()
  | i :: is => do
    free (some i)
    freeList is

/-- `blocks_destroy` (drpm_block.c:234-282); with a pointer to a freed structure it reads freed
memory. -/
def blocksDestroy : BlksR → Res Unit
  | .null => pure ()
  | .dangling => garbage
  | .blks b => do
    freePairs b.files
    free b.src
    freePairs b.core
    freeList b.page
    freeAll [b.pageFd, some b.table, some b.max, some b.cpio, some b.self]

/-- `new_core_block` (drpm_block.c:383-405). -/
def newCore (b : BlksP) : Res (BlksP × Bool) := do
  let n ← alloc .call
  match n with
  | none => pure (b, false)
  | some n => do
    let d ← alloc .call
    match d with
    | none => do
      free (some n)
      pure (b, false)
    | some d => pure ({ b with core := (n, d) :: b.core }, true)

/-- The end of `write_page_block` (drpm_block.c:490-500): if writing fails (site `pageWrite`) the node
is freed although it is in the list. -/
def pageOut (n : Nat) (b : BlksP) : Res (BlksP × Bool) := do
  let w ← test .pageWrite
  if w then pure (b, true)
  else
    free (some n)
    pure (b, false)

/-- `write_page_block` (drpm_block.c:453-500): the block is in the list already, or the place of an old
one is used, or a node is added; the node is in the list before the page file is opened, and it is
freed when that fails (site `pageFile`). -/
def writePage (b : BlksP) : Res (BlksP × Bool) := do
  let there ← test .cached
  if there then pure (b, true)
  else
    let j ← pick .call
    match b.page[j]? with
    | some n => pageOut n b
    | none => do
      let n ← alloc .call
      match n with
      | none => pure (b, false)
      | some n =>
        match b.pageFd with
        | some _ => pageOut n { b with page := n :: b.page }
        | none => do
          let fd ← alloc .pageFile
          match fd with
          | none => do
            free (some n)
            pure ({ b with page := n :: b.page }, false)
          | some fd => pageOut n { b with page := n :: b.page, pageFd := some fd }

/-- `push_block` (drpm_block.c:423-451). -/
def pushBlock (b : BlksP) : Res (BlksP × Bool) := do
  let avail ← test .cached
  if avail then pure (b, true)
  else
    let room ← test .cached
    if room then newCore b
    else
      let paged ← test .call
      if paged then writePage b else pure (b, true)

/-- `fillblock_rpm_standard` (drpm_block.c:675-837) as `n` steps, each of which may read from the
archive, enlarge the name buffer, or put a block into the cache. -/
def fillStandard : Nat → Option Nat → BlksP → Res (BlksP × Bool)
  | 0, nb, b => do
    let good ← test .call
    free nb
    pure (b, good)
  | n + 1, nb, b => do
    let read ← test .call
    if read then
      let grow ← test .call
      if grow then
        let q ← realloc .call nb
        match q with
        | none => do
          free nb
          pure (b, false)
        | some i => fillStandard n (some i) b
      else
        let push ← test .call
        if push then
          let r ← pushBlock b
          if r.2 then fillStandard n nb r.1
          else
            free nb
            pure (r.1, false)
        else fillStandard n nb b
    else
      free nb
      pure (b, false)

/-- `fillblock_rpm_rpmonly` (drpm_block.c:841-911) as `n` steps. -/
def fillRpmonly : Nat → BlksP → Res (BlksP × Bool)
  | 0, b => do
    let good ← test .call
    pure (b, good)
  | n + 1, b => do
    let read ← test .call
    if read then
      let push ← test .call
      if push then
        let r ← pushBlock b
        if r.2 then fillRpmonly n r.1 else pure (r.1, false)
      else fillRpmonly n b
    else pure (b, false)

/-- `open_new_file` (drpm_block.c:566-636): the cache, no error, prelinked.  From 50 files on the node
at the head of the list is used again. -/
def openNew (b : BlksP) : Res (BlksP × Bool × Bool) := do
  let fd ← alloc .call
  match fd with
  | none => pure (b, false, false)
  | some fd => do
    let other ← test .call
    let p ← (if other then isPrelinked else pure (true, false))
    if p.1 then
      if p.2 then
        free (some fd)
        pure (b, true, true)
      else if b.files.length < 50 then
        let n ← alloc .call
        match n with
        | none => do
          free (some fd)
          pure (b, false, false)
        | some n => pure ({ b with files := b.files ++ [(n, fd)] }, true, false)
      else
        match b.files with
        | [] => garbage
        | h :: rest => do
          free (some h.2)
          pure ({ b with files := rest ++ [(h.1, fd)] }, true, false)
    else
      free (some fd)
      pure (b, false, false)

/-- `get_open_file` (drpm_block.c:639-668): the file at some place of the list moves to its end. -/
def getOpen (j : Nat) (b : BlksP) : BlksP :=
  { b with files := b.files.eraseIdx j ++ b.files[j]?.toList }

/-- The first loop of `fillblock_prelink` (drpm_block.c:1039-1069): going back to the beginning of
prelinked files; the descriptor, no error. -/
def prelinkBack : Nat → Res (Option Nat × Bool)
  | 0 => pure (none, true)
  | n + 1 => do
    let stop ← test .call
    if stop then pure (none, true)
    else
      let fd ← alloc .call
      match fd with
      | none => pure (none, false)
      | some fd => do
        let same ← test .call
        if same then pure (some fd, true)
        else
          let p ← isPrelinked
          if p.1 then
            if p.2 then
              free (some fd)
              prelinkBack n
            else pure (some fd, true)
          else pure (some fd, false)

/-- Opening a file in the second loop of `fillblock_prelink` (drpm_block.c:1136-1151): when the copy
made by `prelink` cannot be opened (site `prelinkOpen`) the variable keeps the descriptor that has been
closed. -/
def prelinkNext : Res (Option Nat × Bool) := do
  let fd ← alloc .call
  match fd with
  | none => pure (none, false)
  | some fd => do
    let other ← test .call
    let p ← (if other then isPrelinked else pure (true, false))
    if p.1 then
      if p.2 then
        free (some fd)
        let q ← prelinkOpen .prelinkOpen
        match q with
        | none => pure (some fd, false)
        | some q => pure (some q, true)
      else pure (some fd, true)
    else pure (some fd, false)

/-- The second loop of `fillblock_prelink` (drpm_block.c:1080-1195) as `n` steps: go on to the next
file, read from the file (opening it if necessary, closing it at its end), put a block into the
cache. -/
def prelinkLoop : Nat → Option Nat → BlksP → Res (Option Nat × BlksP × Bool)
  | 0, fd, b => do
    let good ← test .call
    pure (fd, b, good)
  | n + 1, fd, b => do
    let push ← test .boundary
    if push then
      let r ← pushBlock b
      if r.2 then prelinkLoop n fd r.1 else pure (fd, r.1, false)
    else
      let next ← test .boundary
      if next then
        free fd
        prelinkLoop n none b
      else
        let o ← (match fd with
          | some fd => pure (some fd, true)
          | none => prelinkNext)
        if o.2 then
          let read ← test .call
          if read then
            let eof ← test .call
            if eof then
              free o.1
              prelinkLoop n none b
            else prelinkLoop n o.1 b
          else pure (o.1, b, false)
        else pure (o.1, b, false)

/-- `fillblock_prelink` (drpm_block.c:1020-1211). -/
def fillPrelink (b : BlksP) : Res (BlksP × Bool) := do
  let k ← pick .call
  let f ← prelinkBack k
  if f.2 then
    let seek ← test .call
    if seek then
      let n ← pick .call
      let r ← prelinkLoop n f.1 b
      free r.1
      pure (r.2.1, r.2.2)
    else
      free f.1
      pure (b, false)
  else
    free f.1
    pure (b, false)

/-- `fillblock_filesystem` (drpm_block.c:916-1017) as `n` steps, each of which may read from a file,
opening it if it is not open. -/
def fillFilesystem : Nat → BlksP → Res (BlksP × Bool)
  | 0, b => do
    let good ← test .call
    pure (b, good)
  | n + 1, b => do
    let j ← pick .call
    let open_ ← test .cached
    if open_ then
      let read ← test .call
      if read then fillFilesystem n (getOpen j b) else pure (getOpen j b, false)
    else
      let r ← openNew b
      if r.2.1 then
        if r.2.2 then fillPrelink r.1
        else
          let read ← test .call
          if read then fillFilesystem n (getOpen j r.1) else pure (getOpen j r.1, false)
      else pure (r.1, false)

/-- `get_block` (drpm_block.c:310-381): a free block, a new one, or the last one, whose contents are
written to the page file if necessary; then its contents are read from the page file or filled in. -/
def getBlock (b : BlksP) : Res (BlksP × Bool) := do
  let r ← pushBlock b
  if r.2 then
    let page ← test .cached
    if page then
      let read ← test .call
      pure (r.1, read)
    else
      let n ← pick .call
      match b.kind with
      | .standard => fillStandard n none r.1
      | .rpmonly => fillRpmonly n r.1
      | .filesystem => fillFilesystem n r.1
  else pure (r.1, false)

/-- `blocks_next` (drpm_block.c:285-307). -/
def blocksNext (b : BlksP) : Res (BlksP × Bool) := do
  let there ← test .cached
  if there then pure (b, true) else getBlock b

/-! ## `drpm_apply` -/

/-- The variables of `drpm_apply` that hold something (drpm.c:500-540). -/
structure ApplyP where
  fd : Nat
  files : Option Nat := none
  list : List FileP := []
  delta : DeltaP := {}
  old : Option RpmP := none
  nevr : Option Nat := none
  blks : BlksR := .null
  strm : Option StrmP := none
  csw : Option WrapP := none
  cpio : Option Nat := none
  addbuf : Option Nat := none
  buffer : Option Nat := none
  header : Option Nat := none
  comp : Option Nat := none

def ApplyP.own (a : ApplyP) : List Nat :=
  [a.fd] ++ ownFiles a.list ++ a.files.toList ++ a.delta.own ++ ownRpm a.old ++ a.nevr.toList ++
    a.blks.own ++ ownStrm a.strm ++ ownWrap a.csw ++ a.cpio.toList ++ a.addbuf.toList ++
    a.buffer.toList ++ a.header.toList ++ a.comp.toList

/-- The `cleanup` of `drpm_apply` (drpm.c:757-780). -/
def applyEnd (a : ApplyP) : Res Unit := do
  free (some a.fd)
  freeFiles a.list
  free a.files
  let _ ← freeDelta a.delta
  rpmDestroy a.old
  free a.nevr
  blocksDestroy a.blks
  strmDestroy a.strm
  wrapDestroy a.csw
  freeAll [a.cpio, a.addbuf, a.buffer, a.header, a.comp]

/-- Reading the old package (drpm.c:554-581), after the two tests that end the call. -/
def applyOld (fromRpm : Bool) (a : ApplyP) : Res (ApplyP × Bool) := do
  if fromRpm then
    let r ← rpmRead .call .decomp false false
    if r.2 then
      if a.delta.rpmonly then
        let tag ← getTag
        if tag then
          let equal ← test .call
          pure ({ a with old := r.1 }, equal)
        else pure ({ a with old := r.1 }, false)
      else pure ({ a with old := r.1 }, true)
    else pure ({ a with old := r.1 }, false)
  else
    let r ← readHeader
    pure ({ a with old := r.1 }, r.2)

/-- Comparing the NEVRs and expanding the sequence (drpm.c:583-600). -/
def applySeq (a : ApplyP) : Res (ApplyP × Bool) := do
  let n ← cmpNevr
  if n.2 then
    if a.delta.rpmonly then pure ({ a with nevr := n.1 }, true)
    else
      let f ← getFileInfo
      if f.2.2 then
        let algo ← getTag
        if algo then
          let e ← expandSeq true .none
          pure ({ a with nevr := n.1, files := f.1, list := f.2.1, cpio := e.1 }, e.2)
        else pure ({ a with nevr := n.1, files := f.1, list := f.2.1 }, false)
      else pure ({ a with nevr := n.1, files := f.1, list := f.2.1 }, false)
  else pure ({ a with nevr := n.1 }, false)

/-- Replacing lead and signature (drpm.c:602-605). -/
def applySig (a : ApplyP) : Res (ApplyP × Bool) :=
  match a.old with
  | none => pure (a, false)
  | some r => do
    let r ← replaceSig r
    pure ({ a with old := some r.1 }, r.2)

/-- Cache, add block and buffers (drpm.c:616-651). -/
def applyOpen (fromRpm : Bool) (a : ApplyP) : Res (ApplyP × Bool) := do
  let b ← blocksCreate
    (if fromRpm then if a.delta.rpmonly then .rpmonly else .standard else .filesystem)
  if b.2 then
    let add ← test .call
    let st ← (if add then strmInit else pure none)
    if add ∧ st = none then pure ({ a with blks := b.1 }, false)
    else
      let ab ← (if add then alloc .call else pure none)
      if add ∧ ab = none then pure ({ a with blks := b.1, strm := st }, false)
      else
        let buf ← alloc .call
        let good ← test .call
        pure ({ a with blks := b.1, strm := st, addbuf := ab, buffer := buf },
          buf.isSome && good)
  else pure ({ a with blks := b.1 }, false)

/-- The header of a standard delta (drpm.c:653-666). -/
def applyHeader (a : ApplyP) : Res (ApplyP × Bool) := do
  if a.delta.rpmonly then pure (a, true)
  else
    match a.delta.tgtRpm with
    | none => pure (a, false)
    | some t => do
      let p ← patchFormat t
      if p.2 then
        let h ← exportHdr .call
        let good ← test .call
        pure ({ a with delta := { a.delta with tgtRpm := some p.1 }, header := h },
          h.isSome && good)
      else pure ({ a with delta := { a.delta with tgtRpm := some p.1 } }, false)

/-- The compression stream of the output (drpm.c:668-671). -/
def applyWrap (a : ApplyP) : Res (ApplyP × Bool) := do
  let w ← wrapInit
  pure ({ a with csw := w }, w.isSome)

/-- One piece of an external copy (drpm.c:696-708). -/
def applyPiece (a : ApplyP) : Res (ApplyP × Bool) :=
  match a.blks with
  | .blks b => do
    let r ← blocksNext b
    if r.2 then
      match a.strm with
      | none => pure ({ a with blks := .blks r.1 }, true)
      | some st => do
        let q ← strmRead st
        pure ({ a with blks := .blks r.1, strm := some q.1 }, q.2)
    else pure ({ a with blks := .blks r.1 }, false)
  | _ => pure (a, false)

/-- Writing a piece (drpm.c:710, 724). -/
def applyWrite (a : ApplyP) : Res (ApplyP × Bool) :=
  match a.csw with
  | none => pure (a, false)
  | some w => do
    let r ← wrapWrite w
    pure ({ a with csw := some r.1 }, r.2)

/-- The reconstruction loop (drpm.c:681-727) as `n` steps, each an internal copy or a piece of an
external copy. -/
def applyLoop : Nat → ApplyP → Res (ApplyP × Bool)
  | 0, a => do
    let good ← test .copies
    pure (a, good)
  | n + 1, a => do
    let ext ← test .call
    let r ← (if ext then applyPiece a else pure (a, true))
    if r.2 then
      let w ← applyWrite r.1
      if w.2 then applyLoop n w.1 else pure (w.1, false)
    else pure (r.1, false)

/-- Finishing the output (drpm.c:729-737). -/
def applyFinish (a : ApplyP) : Res (ApplyP × Bool) :=
  match a.csw with
  | none => pure (a, false)
  | some w => do
    let r ← wrapFinish w
    let md5 ← test .call
    pure ({ a with csw := some r.1, comp := r.2.1 }, r.2.2 && md5)

/-- The comparison of the digests (drpm.c:739-755). -/
def applyCheck (a : ApplyP) : Res (ApplyP × Bool) := do
  let full ← test .call
  if full then
    let equal ← test .call
    pure (a, equal)
  else
    let tag ← getTag
    pure (a, tag)

/-- One step after the other, as long as they succeed. -/
def andThen (f g : ApplyP → Res (ApplyP × Bool)) (a : ApplyP) : Res (ApplyP × Bool) := do
  let r ← f a
  if r.2 then g r.1 else pure r

/-- The reconstruction of a package that differs (drpm.c:616-737). -/
def applyDiff (fromRpm : Bool) : ApplyP → Res (ApplyP × Bool) :=
  andThen (applyOpen fromRpm) <| andThen applyHeader <| andThen applyWrap <|
    andThen (fun a => do
      let n ← pick .call
      applyLoop n a) applyFinish

/-- The output (drpm.c:607-737): an rpm-only delta without differences needs no reconstruction. -/
def applyOut (fromRpm : Bool) (a : ApplyP) : Res (ApplyP × Bool) := do
  let nodiff ← test .call
  if a.delta.rpmonly ∧ nodiff then
    let w ← rpmWrite .call
    pure (a, w)
  else applyDiff fromRpm a

/-- `drpm_apply` from line 554 on, up to the cleanup. -/
def applyBody (fromRpm : Bool) : ApplyP → Res (ApplyP × Bool) :=
  andThen (applyOld fromRpm) <| andThen applySeq <| andThen applySig <|
    andThen (applyOut fromRpm) applyCheck

/-- `drpm_apply` (drpm.c:498-781) after the check of its arguments; `fromRpm` is `old_rpm_name != NULL`.
Without an old package, an rpm-only delta or one of a source package (site `applyArgs`) makes it return
with the output file open and the delta in memory (571-577). -/
def drpmApply (fromRpm : Bool) : Res Bool := do
  let fd ← alloc .call
  match fd with
  | none => pure false
  | some fd => do
    let d ← readDeltarpm
    if d.2 then
      let binary ← test .applyArgs
      if fromRpm = false ∧ (d.1.rpmonly ∨ binary = false) then pure false
      else
        let r ← applyBody fromRpm { fd := fd, delta := d.1 }
        applyEnd r.1
        pure r.2
    else
      applyEnd { fd := fd, delta := d.1 }
      pure false

end Drpm.Own
