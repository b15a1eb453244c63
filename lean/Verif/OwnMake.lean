import Verif.OwnApply

/-!
# Ownership: `drpm_make`

The functions of `drpm_make.c`, `drpm_diff.c`, the hash table of `drpm_search.c`, `write_deltarpm` and
`write_seqfile` of `drpm_write.c`, and `drpm_make` of `drpm.c`, at the level of `Verif.Own`.  Which files
the package lists, where the two archives agree and how long the parts of the delta are, are decisions of
the schedule.
-/

namespace Drpm.Own

/-! ## The archive of the old package -/

/-- What `parse_cpio_from_rpm_filedata` holds in its loop: the archive it builds, the buffer for names,
the adjustments, the data of the sequence. -/
structure CpioP where
  cpio : Option Nat := none
  name : Option Nat := none
  offadj : Option Nat := none
  seq : Option Nat := none
  deriving DecidableEq, Repr

def CpioP.own (c : CpioP) : List Nat :=
  c.cpio.toList ++ c.name.toList ++ c.offadj.toList ++ c.seq.toList

/-- A buffer of the loop that may have to grow. -/
inductive Buf where
  | cpio
  | name
  | offadj
  | seq
  deriving DecidableEq, Repr

/-- `cpio_extend`, the buffer for names, the adjustments (drpm_make.c:170-193, 356-362, 433-437), and
`seq_append` (drpm_make.c:99-125).  The first three keep their block when `realloc` fails; `seq_append`
overwrites the only pointer to its block with NULL. -/
def growBuf (b : Buf) (c : CpioP) : Res (CpioP × Bool) :=
  match b with
  | .cpio => do
    let q ← realloc .call c.cpio
    match q with
    | none => pure (c, false)
    | some i => pure ({ c with cpio := some i }, true)
  | .name => do
    let q ← realloc .call c.name
    match q with
    | none => pure (c, false)
    | some i => pure ({ c with name := some i }, true)
  | .offadj => do
    let q ← realloc .call c.offadj
    match q with
    | none => pure (c, false)
    | some i => pure ({ c with offadj := some i }, true)
  | .seq => do
    let q ← realloc .call c.seq
    match q with
    | none => pure ({ c with seq := none }, false)
    | some i => pure ({ c with seq := some i }, true)

/-- The loop over the files of the archive, with the trailer and the last run of the sequence
(drpm_make.c:343-575): `n` times something is read from the archive, compared or hashed, which may end the
loop with an error, and one of the buffers is extended; then something may fail at the end (site `cpio`).  Adjustments are collected only for
version 3 (`v3`). -/
def cpioLoop (v3 : Bool) : Nat → CpioP → Res (CpioP × Bool)
  | 0, c => do
    let good ← test .cpio
    pure (c, good)
  | n + 1, c => do
    let good ← test .call
    if good then
      let which ← pick .call
      let r ← (match which with
        | 0 => growBuf .cpio c
        | 1 => growBuf .name c
        | 2 => if v3 then growBuf .offadj c else pure (c, true)
        | _ => growBuf .seq c)
      if r.2 then cpioLoop v3 n r.1 else pure (r.1, false)
    else pure (c, false)

/-- `parse_cpio_from_rpm_filedata` (drpm_make.c:265-619): the archive, the sequence, the adjustments,
success.  `seq_files`, which is freed at the end, is assigned by `seq_final` only: on every failure before
(in the loop) the data of the sequence are forgotten. -/
def parseCpio (v3 : Bool) : Res (Option Nat × Option Nat × Option Nat × Bool) := do
  let f ← getFileInfo
  if f.2.2 then
    let algo ← getTag
    if algo then
      let n ← pick .call
      let r ← cpioLoop v3 n {}
      if r.2 then
        let md5 ← test .call
        let q ← (if md5 then alloc .call else pure none)
        match q with
        | none => do
          freeAll [r.1.cpio, none, r.1.offadj]
          freeFiles f.2.1
          freeAll [f.1, r.1.name, r.1.seq]
          pure (none, none, none, false)
        | some i => do
          freeFiles f.2.1
          freeAll [f.1, r.1.name, r.1.seq]
          pure (r.1.cpio, some i, r.1.offadj, true)
      else
        freeAll [r.1.cpio, none, r.1.offadj]
        freeFiles f.2.1
        freeAll [f.1, r.1.name]
        pure (none, none, none, false)
    else
      freeFiles f.2.1
      free f.1
      pure (none, none, none, false)
  else pure (none, none, none, false)

/-! ## The difference -/

/-- `compstrm_destroy` applied to the caller's pointer (drpm_compstrm.c:421-432): nothing for NULL,
undefined for a pointer that was never assigned. -/
def compDestroyR : CompR → Res Unit
  | .unset => garbage
  | .null => pure ()
  | .strm st => compDestroy st

/-- The stream, when there is one. -/
def CompR.get : CompR → Option CompP
  | .strm st => some st
  | _ => none

/-- `if (addblk) compstrm_destroy(&stream)` (drpm_diff.c:272-277). -/
def compDestroyO : Option CompP → Res Unit
  | none => pure ()
  | some st => compDestroy st

/-- The loop of `make_diff` (drpm_diff.c:134-248) as `n` steps: the array of matches grows, or a piece of
the difference is given to the stream of the add block. -/
def diffLoop : Nat → Option Nat → Option CompP → Res (Option Nat × Option CompP × Bool)
  | 0, p, st => pure (p, st, true)
  | n + 1, p, st => do
    let grow ← test .call
    if grow then
      let q ← realloc .call p
      match q with
      | none => pure (p, st, false)
      | some i => diffLoop n (some i) st
    else
      match st with
      | none => diffLoop n p none
      | some c => do
        let r ← compWrite c
        if r.2 then diffLoop n p (some r.1) else pure (p, some r.1, false)

/-- The loop of `create_diff_copies` (drpm_diff.c:283-386): one of the two arrays grows. -/
def copiesLoop : Nat → Option Nat → Option Nat → Res (Option Nat × Option Nat × Bool)
  | 0, e, i => pure (e, i, true)
  | n + 1, e, i => do
    let ext ← test .call
    let q ← realloc .call (if ext then e else i)
    match q with
    | none => pure (e, i, false)
    | some j => if ext then copiesLoop n (some j) i else copiesLoop n e (some j)

/-- `create_diff_copies`: external copies, internal copies, success. -/
def createCopies : Res (Option Nat × Option Nat × Bool) := do
  let n ← pick .call
  let r ← copiesLoop n none none
  if r.2.2 then pure r
  else
    freeAll [r.2.1, r.1]
    pure (none, none, false)

/-- Lines 250-257 of `make_diff`: copies, `create_int_data_array` (389-422), the end of the add block;
the copies stay with the delta when a later part fails. -/
def diffParts (st : Option CompP) (d : DeltaP) : Res (Option CompP × DeltaP × Bool) := do
  let c ← createCopies
  if c.2.2 then
    let d := (d.set .extCopies c.1).set .intCopies c.2.1
    let a ← alloc .call
    match a with
    | none => pure (st, d, false)
    | some a => do
      let d := d.set .intData (some a)
      match st with
      | none => pure (none, d, true)
      | some s => do
        let r ← compFinish s
        if r.2.2 then pure (some r.1, d.set .addData r.2.1, true)
        else
          free r.2.1
          pure (some r.1, d.set .addData r.2.1, false)
  else pure (st, d, false)

/-- `make_diff` (drpm_diff.c:77-280).  If the structure of the hash table cannot be allocated (site
`hashAlloc`) `hash_free` dereferences NULL; if its table cannot (site `hashTable`) the structure is freed
by `hash_create` and used and freed again by `hash_free` (drpm_search.c:153-206).  If the add block's
compression level is out of range (site `addLevel`) the pointer to the stream is destroyed without having
been assigned. -/
def makeDiff (addblk : Bool) (d : DeltaP) : Res (DeltaP × Bool) := do
  let h ← alloc .hashAlloc
  match h with
  | none => garbage
  | some h => do
    let t ← alloc .hashTable
    match t with
    | none => do
      free (some h)
      garbage
    | some t => do
      let i ← (if addblk then compInit .addLevel else pure (.null, true))
      if i.2 then
        let n ← pick .call
        let l ← diffLoop n none i.1.get
        if l.2.2 then
          let r ← diffParts l.2.1 d
          freeAll [l.1, some t, some h]
          compDestroyO r.1
          pure r.2
        else
          freeAll [l.1, some t, some h]
          compDestroyO l.2.1
          pure (d, false)
      else
        freeAll [some t, some h]
        compDestroyR i.1
        pure (d, false)

/-! ## Writing the delta -/

/-- Several writes to a stream. -/
def compWrites : Nat → CompP → Res (CompP × Bool)
  | 0, st => do
    let good ← test .call
    pure (st, good)
  | n + 1, st => do
    let r ← compWrite st
    if r.2 then compWrites n r.1 else pure (r.1, false)

/-- `rpm_signature_empty`, `rpm_signature_set_size`, `rpm_signature_set_md5`, `rpm_signature_reload`
(drpm_rpm.c:909-978): the signature is replaced by a new one, two tags are put into it by way of a
container, and `headerReload` gives it up for another, possibly NULL. -/
def newSignature (r : RpmP) : Res (RpmP × Bool) := do
  free r.sig
  let s ← take
  let td ← take
  let size ← test .writeHead
  free (some td)
  if size then
    let td ← take
    let md5 ← test .writeHead
    free (some td)
    if md5 then
      free (some s)
      let s ← alloc .call
      pure ({ r with sig := s }, true)
    else pure ({ r with sig := some s }, false)
  else pure ({ r with sig := some s }, false)

/-- The head of a standard delta (drpm_write.c:210-229): the exported header of the package, then the
descriptor of the file.  All failures (site `writeHead`) are `return`s past the cleanup. -/
def writeStdHead (t : RpmP) : Res (RpmP × Option Nat × Option Nat) := do
  let h ← exportHdr .writeHead
  match h with
  | none => pure (t, none, none)
  | some h => do
    let md5 ← test .writeHead
    if md5 then
      let r ← newSignature t
      if r.2 then
        let w ← rpmWrite .writeHead
        if w then
          let fd ← alloc .writeHead
          pure (r.1, some h, fd)
        else pure (r.1, some h, none)
      else pure (r.1, some h, none)
    else pure (t, some h, none)

/-- `write_deltarpm` (drpm_write.c:67-272).  A stream that was not initialised is NULL here. -/
def writeDelta (d : DeltaP) : Res (DeltaP × Bool) := do
  let i ← compInit .call
  match i with
  | (.strm st, true) => do
    let n ← pick .call
    let r ← compWrites n st
    if r.2 then
      let q ← compFinish r.1
      if q.2.2 then
        if d.rpmonly then
          let fd ← alloc .writeHead
          match fd with
          | none => pure (d, false)
          | some fd => do
            let good ← test .call
            compDestroy q.1
            freeAll [none, q.2.1, some fd]
            pure (d, good)
        else
          match d.tgtRpm with
          | none => garbage
          | some t => do
            let w ← writeStdHead t
            match w.2.2 with
            | none => pure ({ d with tgtRpm := some w.1 }, false)
            | some fd => do
              let good ← test .call
              compDestroy q.1
              freeAll [w.2.1, q.2.1, some fd]
              pure ({ d with tgtRpm := some w.1 }, good)
      else
        compDestroy q.1
        free q.2.1
        pure (d, false)
    else
      compDestroy r.1
      pure (d, false)
  | (.strm st, false) => do
    compDestroy st
    pure (d, false)
  | _ => pure (d, false)

/-- `write_seqfile` (drpm_write.c:274-297). -/
def writeSeq : Res Bool := do
  let f ← alloc .call
  match f with
  | none => pure false
  | some f => do
    let s ← alloc .call
    freeAll [s, some f]
    pure s.isSome

/-! ## `drpm_make` -/

/-- The variables of `drpm_make` (drpm.c:295-320): the copied options, the delta, the packages, the
archives and headers.  `tgt` is the new package, or the only one, as long as the delta does not have it.
`patches` is NULL throughout: see `makePatches`. -/
structure MakeP where
  seqfile : Option Nat := none
  rpmprint : Option Nat := none
  patchrpm : Option Nat := none
  delta : DeltaP
  old : Option RpmP := none
  tgt : Option RpmP := none
  oldCpio : Option Nat := none
  newCpio : Option Nat := none
  oldHdr : Option Nat := none
  newHdr : Option Nat := none

def MakeP.own (m : MakeP) : List Nat :=
  m.seqfile.toList ++ m.rpmprint.toList ++ m.patchrpm.toList ++ m.delta.own ++ ownRpm m.old ++
    ownRpm m.tgt ++ m.oldCpio.toList ++ m.newCpio.toList ++ m.oldHdr.toList ++ m.newHdr.toList

/-- One step after the other, as long as they succeed. -/
def seqMake (f g : MakeP → Res (MakeP × Bool)) (m : MakeP) : Res (MakeP × Bool) := do
  let r ← f m
  if r.2 then g r.1 else pure r

/-- `fill_nodiff_deltarpm` (drpm_make.c:1020-1063).  If the sequence cannot be allocated (site
`nodiffSeq`) a pointer that was never assigned is destroyed. -/
def fillNodiff (m : MakeP) : Res (MakeP × Bool) := do
  let q ← alloc .nodiffSeq
  match q with
  | none => garbage
  | some q => do
    let r ← rpmRead .call .uncomp true true
    let d := m.delta.set .sequence (some q)
    if r.2 then
      let ls ← fetchLeadSig
      let nevr ← (match ls with
        | none => pure none
        | some _ => alloc .call)
      let src ← (match nevr with
        | none => pure none
        | some _ => alloc .call)
      let tgt ← (match src with
        | none => pure none
        | some _ => alloc .call)
      free nevr
      rpmDestroy r.1
      pure ({ m with delta := { (d.set .leadsig ls).set .srcNevr src with tgtNevr := tgt } },
        tgt.isSome)
    else
      rpmDestroy r.1
      pure ({ m with delta := d }, false)

/-- `patches_read` for a standard delta (drpm.c:353-354, drpm_make.c:862-953).  With both files given (site
`patches`) and the structure allocated, its fields are used without ever having been assigned (C47). -/
def makePatches (m : MakeP) : Res (MakeP × Bool) := do
  let given ← test .patches
  if m.delta.rpmonly = false ∧ given then
    let p ← alloc .call
    match p with
    | none => pure (m, false)
    | some _ => garbage
  else pure (m, true)

/-- Reading the packages (drpm.c:356-374). -/
def makeRead (alone : Bool) (m : MakeP) : Res (MakeP × Bool) := do
  if alone then
    let r ← rpmRead .makeNew .decomp false true
    pure ({ m with tgt := r.1 }, r.2)
  else
    let q ← (if m.delta.rpmonly then alloc .call else pure none)
    if m.delta.rpmonly ∧ q = none then pure (m, false)
    else
      let d := m.delta.set .sequence q
      let o ← rpmRead .call .decomp m.delta.rpmonly false
      if o.2 then
        let r ← rpmRead .makeNew .decomp false true
        pure ({ m with delta := d, old := o.1, tgt := r.1 }, r.2)
      else pure ({ m with delta := d, old := o.1 }, false)

/-- Payload format and compression level (drpm.c:376-392), then the package becomes part of a standard
delta (394-395). -/
def makeInfo (m : MakeP) : Res (MakeP × Bool) := do
  let cpio ← test .payFmt
  if cpio then
    let level ← test .compLevel
    if level then
      if m.delta.rpmonly then pure (m, true)
      else pure ({ m with delta := { m.delta with tgtRpm := m.tgt }, tgt := none }, true)
    else pure (m, false)
  else pure (m, false)

/-- NEVRs, lead and signature (drpm.c:397-406); each string is a block of its own. -/
def makeNames (m : MakeP) : Res (MakeP × Bool) := do
  let src ← alloc .call
  match src with
  | none => pure (m, false)
  | some src => do
    let d := m.delta.set .srcNevr (some src)
    let tgt ← (if m.delta.rpmonly then alloc .call else pure none)
    if m.delta.rpmonly ∧ tgt = none then pure ({ m with delta := d }, false)
    else
      let ls ← fetchLeadSig
      pure ({ m with delta := { d with tgtNevr := tgt }.set .leadsig ls }, ls.isSome)

/-- The two archives with their headers, of an rpm-only delta (drpm.c:413-436).  If the second `realloc`
fails (site `growNew`) the pointer to the first block, which the first `realloc` has given up, is freed
once more. -/
def makeOnly (m : MakeP) : Res (MakeP × Bool) := do
  let oh ← exportHdr .call
  match oh with
  | none => pure (m, false)
  | some oh => do
    let nh ← exportHdr .call
    match nh with
    | none => pure ({ m with oldHdr := some oh }, false)
    | some nh => do
      let oc ← alloc .call
      match oc with
      | none => pure ({ m with oldHdr := some oh, newHdr := some nh }, false)
      | some oc => do
        let nc ← alloc .call
        match nc with
        | none => pure ({ m with oldHdr := some oh, newHdr := some nh, oldCpio := some oc }, false)
        | some nc => do
          let m := { m with oldHdr := some oh, newHdr := some nh, oldCpio := some oc,
                            newCpio := some nc }
          let o ← realloc .growOld (some oc)
          match o with
          | none => pure (m, false)
          | some o => do
            let n ← realloc .growNew (some nc)
            match n with
            | none => pure (m, false)
            | some n => pure ({ m with oldCpio := some o, newCpio := some n }, true)

/-- The two archives of a standard delta (drpm.c:438-446), and the patched header (450). -/
def makeStd (m : MakeP) : Res (MakeP × Bool) := do
  let v3 ← test .call
  let r ← parseCpio v3
  let m := { m with oldCpio := r.1,
                    delta := (m.delta.set .sequence r.2.1).set .offadj r.2.2.1 }
  if r.2.2.2 then
    let nc ← alloc .call
    match nc with
    | none => pure (m, false)
    | some nc =>
      match m.delta.tgtRpm with
      | none => garbage
      | some t => do
        let p ← patchFormat t
        pure ({ m with newCpio := some nc, delta := { m.delta with tgtRpm := some p.1 } }, p.2)
  else pure (m, false)

/-- The offset of the payload format and the difference (drpm.c:451-461). -/
def makeData (addblk : Bool) (m : MakeP) : Res (MakeP × Bool) := do
  let off ← findOffset
  if off then
    let r ← makeDiff addblk m.delta
    pure ({ m with delta := r.1 }, r.2)
  else pure (m, false)

/-- The delta, from the first package to be read to the difference. -/
def makeBody (alone addblk : Bool) (m : MakeP) : Res (MakeP × Bool) :=
  if alone ∧ m.delta.rpmonly then fillNodiff m
  else
    (seqMake makePatches <| seqMake (makeRead alone) <| seqMake makeInfo <| seqMake makeNames <|
      seqMake (fun m => if m.delta.rpmonly then makeOnly m else makeStd m) (makeData addblk)) m

/-- Writing (drpm.c:468-472). -/
def makeWrite (m : MakeP) : Res (MakeP × Bool) := do
  let r ← writeDelta m.delta
  if r.2 then
    match m.seqfile with
    | none => pure ({ m with delta := r.1 }, true)
    | some _ => do
      let w ← writeSeq
      pure ({ m with delta := r.1 }, w)
  else pure ({ m with delta := r.1 }, false)

/-- The cleanup of `drpm_make` (drpm.c:474-493): the new package is destroyed for an rpm-only delta; in a
standard delta it is part of the delta, if it came that far. -/
def makeEnd (m : MakeP) : Res Unit := do
  let _ ← freeDelta m.delta
  rpmDestroy m.old
  (if m.delta.rpmonly then rpmDestroy m.tgt else pure ())
  freeAll [m.oldCpio, m.newCpio, m.oldHdr, m.newHdr, m.seqfile, m.rpmprint, m.patchrpm]

/-- `drpm_make` (drpm.c:292-494) after the check of its arguments.  `rpmonly` and `addblk` are options,
`alone` says that only one package is given.  The three file names among the options are copied, if they
are there and if there is memory (drpm_options.c:84-125).  With the version of an rpm-only delta too low (site
`optsArgs`) the function returns past the cleanup. -/
def drpmMake (rpmonly alone addblk : Bool) : Res Bool := do
  let seqfile ← alloc .call
  let rpmprint ← alloc .call
  let patchrpm ← alloc .call
  let version ← test .optsArgs
  if rpmonly ∧ version = false then pure false
  else
    let m : MakeP := { seqfile := seqfile, rpmprint := rpmprint, patchrpm := patchrpm,
                       delta := { rpmonly := rpmonly } }
    let r ← (seqMake (makeBody alone addblk) makeWrite) m
    makeEnd r.1
    pure r.2

end Drpm.Own
