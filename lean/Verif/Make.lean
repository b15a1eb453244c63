import Verif.Apply
import Verif.Diff
import Verif.Options
/-!
# Making a delta: src/drpm.c:292-494 `drpm_make`, src/drpm_make.c:1020-1063

Left out: allocations and system calls that fail, patched packages (`oldrpmprint`, `oldpatchrpm`;
`unpatched` stands for what they say), and rpmlib, which appears as parameters.
-/

namespace Drpm

/-- src/drpm_rpm.c:889-896: the loop over the index, `n` entries are left; `off` is a `uint32_t`.
    `RPMTAG_PAYLOADFORMAT` is 1124. -/
def fmtOffsetLoop (header : Bytes) : Nat → Nat → Out Nat
  | 0, _ => .err .format
  | n + 1, off =>
    if (off + 16) % 2^32 ≤ header.length then do
      let tag ← be32At (header.drop off)
      if tag = 1124 then be32At (header.drop (off + 8))
      else fmtOffsetLoop header n ((off + 16) % 2^32)
    else .err .format

/-- src/drpm_rpm.c:876-906 `rpm_find_payload_format_offset` on the exported header. -/
def fmtOffset (header : Bytes) : Out Nat := do
  let n ← be32At (header.drop 8)
  fmtOffsetLoop header n 16

/-- What is outside this library: MD5, the header after `rpm_patch_payload_format(.., "drpm")`
    (src/drpm_rpm.c:705-721), the compressors for the add block and for the delta (method, level,
    data), the lead, signature and header in front of a standard delta (src/drpm_write.c:209-224:
    from the patched header and the compressed data), and which files a patch list excludes. -/
structure MakeEnv where
  H : Bytes → Bytes
  markHeader : Bytes → Out Bytes
  addComp : Nat → Nat → List Bytes → Out Bytes
  compress : Nat → Nat → Bytes → Out Bytes
  rpmW : Bytes → Bytes → Out Bytes
  unpatched : Bytes → Bytes → Bool

/-- The data of the compression stream of the add block. -/
def addData (env : MakeEnv) (o : Opts Bytes) (ws : List Bytes) : Out Bytes :=
  if o.addblkComp = 0 then .ok ws.flatten else env.addComp o.addblkComp o.addblkLevel ws

/-- src/drpm_diff.c:128-129, 252-258 and src/drpm.c:447: the add block; its length is stored in a
    `uint32_t`. -/
def addBlock (env : MakeEnv) (o : Opts Bytes) (ws : List Bytes) : Out Bytes :=
  if o.addblk = false then .ok []
  else do
    strmOpen o.addblkComp o.addblkLevel
    let z ← addData env o ws
    .ok (z.take (z.length % 2^32))

/-- src/drpm.c:379-384: deltas can be made for CPIO payloads only. -/
def requireCpio (r : Rpm) : Out Unit := do
  let c ← r.isCpio
  if c then .ok () else .err .format

/-- What the two kinds of delta are made from: source of the diff, its target, sequence, offset
    adjustments, the header whose payload format offset is recorded, length of the header inside
    the diff. -/
structure DiffIn where
  old : Bytes
  new : Bytes
  sequence : Bytes
  offadj : List (Nat × Nat)
  header : Bytes
  headerLen : Nat

/-- src/drpm.c:409-451: the payloads to compare. Rpm-only: header and archive of both packages, the
    sequence is the MD5 of header and payload of the old one (src/drpm_rpm.c:245-353). Standard: the
    altered archive of the old package. -/
def diffInputs (env : MakeEnv) (o : Opts Bytes) (old new : Rpm) : Out DiffIn :=
  if o.rpmOnly then
    .ok ⟨old.header ++ old.archive, new.header ++ new.archive, env.H (old.header ++ old.payload), [],
      new.header, new.header.length % 2^32⟩
  else do
    let files ← old.files
    let algo ← old.algo
    let c ← makeCpio env.H ⟨old.archive, files, old.colors, algo, o.version ≥ 3, env.unpatched⟩
    let header ← env.markHeader new.header
    .ok ⟨c.cpio, new.archive, c.sequence, c.offadjs, header, 0⟩

/-- src/drpm.c:396-397: the target NEVR is stored in rpm-only deltas. -/
def targetNevr (o : Opts Bytes) (new : Rpm) : Out Bytes :=
  if o.rpmOnly then new.nevr else .ok []

/-- src/drpm.c:388-392: method and level of the delta. -/
def deltaComp (o : Opts Bytes) (new : Rpm) (level : Nat) : Nat × Nat :=
  if o.compFromRpm then (new.comp, level) else (o.comp, o.compLevel)

/-- src/drpm.c:386-455: the members of the delta. -/
def fillDelta (env : MakeEnv) (o : Opts Bytes) (new : Rpm) (level : Nat) (src tgt : Bytes) (i : DiffIn) (off : Nat)
    (df : Diff) (add : Bytes) : Delta :=
  { type := if o.rpmOnly then .rpmonly else .standard
    comp := (deltaComp o new level).1
    tgtNevr := tgt
    version := o.version
    srcNevr := src
    sequence := i.sequence
    tgtMd5 := env.H new.file
    tgtSize := new.file.length % 2^32
    tgtComp := new.comp
    tgtCompLevel := level
    tgtCompParam := []
    tgtHeaderLen := i.headerLen
    offadjCount := i.offadj.length
    offadj := i.offadj
    tgtLeadsig := new.leadsig
    payloadFmtOff := off
    intCount := df.int.length
    extCount := df.ext.length
    ints := df.int
    exts := df.ext
    extDataLen := i.old.length
    addData := add
    intDataLen := df.intData.flatten.length
    intPtrs := some df.intData
    intBytes := [] }

/-- src/drpm.c:352-466: the delta between two packages, the header of the standard delta file and
    the compression level. -/
def makePair (env : MakeEnv) (o : Opts Bytes) (old new : Rpm) : Out (Delta × Bytes × Nat) := do
  let _ ← requireCpio new
  let level ← new.level
  let src ← old.nevr
  let tgt ← targetNevr o new
  let i ← diffInputs env o old new
  let off ← fmtOffset i.header
  let df ← makeDiff i.old i.new o.addblk
  let add ← addBlock env o df.addWrites
  .ok (fillDelta env o new level src tgt i off df add, i.header, (deltaComp o new level).2)

/-- src/drpm_make.c:1020-1063 `fill_nodiff_deltarpm`: the rpm-only delta of a package to itself. -/
def makeNoDiff (env : MakeEnv) (o : Opts Bytes) (r : Rpm) : Out (Delta × Bytes × Nat) := do
  let nevr ← r.nevr
  .ok ({ Delta.zero with
         type := .rpmonly
         comp := if o.compFromRpm then 1 else o.comp
         version := o.version
         tgtNevr := nevr
         srcNevr := nevr
         sequence := env.H (r.header ++ r.payload)
         tgtMd5 := env.H r.file
         tgtSize := r.file.length % 2^32
         tgtHeaderLen := r.header.length % 2^32
         tgtLeadsig := r.leadsig }, [], if o.compFromRpm then 0 else o.compLevel)

/-- src/drpm.c:320-377: the packages; a single package is compared with itself. -/
def makeAny (env : MakeEnv) (o : Opts Bytes) : Option (Out Rpm) → Option (Out Rpm) → Out (Delta × Bytes × Nat)
  | none, none => .err .args
  | some old, some new => do
    let old ← old
    let new ← new
    makePair env o old new
  | some r, none => do
    let r ← r
    if o.rpmOnly then makeNoDiff env o r else makePair env o r r
  | none, some r => do
    let r ← r
    if o.rpmOnly then makeNoDiff env o r else makePair env o r r

/-- src/drpm_write.c:96: the compression stream of the delta. -/
def compressDelta (env : MakeEnv) (comp level : Nat) (s : Bytes) : Out Bytes := do
  strmOpen comp level
  if comp = 0 then .ok s else env.compress comp level s

/-- src/drpm.c:292-494 `drpm_make`: the contents of the delta file. `o` are the options given or the
    defaults; the packages are `none` for a NULL name. -/
def drpmMake (env : MakeEnv) (o : Opts Bytes) (old new : Option (Out Rpm)) : Out Bytes :=
  if old.isNone ∧ new.isNone then .err .args
  else if o.rpmOnly ∧ o.version < 3 then .err .args
  else do
    let (d, header, level) ← makeAny env o old new
    writeDelta (compressDelta env d.comp level) (env.rpmW header) d

end Drpm
