import Verif.OwnRead

/-!
# Ownership: checking installed files, `drpm_check`, `drpm_check_sequence`

The functions of `drpm_apply.c` that allocate or open something, and the two checking entry points of
`drpm.c`, at the level of `Verif.Own`.
-/

namespace Drpm.Own

/-- `is_prelinked` (drpm_apply.c:516-621): (no error, prelinked).  `strsect` points into `sects` until
it is given a block of its own; if the section it points to is not acceptable (site `elfStr`) the
cleanup frees that inner pointer. -/
def isPrelinked : Res (Bool × Bool) := do
  let elf ← test .call
  if elf then
    let sects ← alloc .elfAlloc
    match sects with
    | none => pure (false, true)
    | some sects => do
      let got ← test .call
      if got then
        let str ← test .elfStr
        if str then
          let strsect ← alloc .elfAlloc
          match strsect with
          | none => do
            free (some sects)
            pure (false, true)
          | some strsect => do
            let pre ← test .call
            freeAll [some strsect, some sects]
            pure (true, pre)
        else garbage
      else
        free (some sects)
        pure (true, false)
  else pure (true, false)

/-- `prelink_open` (drpm_apply.c:623-660): the descriptor of the temporary file is closed at once, the
file is opened again after `prelink` has run. -/
def prelinkOpen (x : Site) : Res (Option Nat) := do
  let inst ← test x
  if inst then
    let tmp ← alloc x
    match tmp with
    | none => pure none
    | some tmp => do
      free (some tmp)
      let forked ← test x
      if forked then alloc x else pure none
  else pure none

/-- `check_prelink` (drpm_apply.c:383-424). -/
def checkPrelink : Res Bool := do
  let fd ← prelinkOpen .call
  match fd with
  | none => pure false
  | some fd => do
    let good ← test .call
    free (some fd)
    pure good

/-- `check_filesize` (drpm_apply.c:285-320): returns without closing the file when `is_prelinked`
reports an error. -/
def checkFilesize : Res Bool := do
  let there ← test .call
  if there then
    let equal ← test .call
    if equal then pure true
    else
      let larger ← test .call
      if larger then
        let fd ← alloc .call
        match fd with
        | none => pure false
        | some fd => do
          let got ← test .call
          if got then
            let p ← isPrelinked
            if p.1 then
              if p.2 then
                free (some fd)
                checkPrelink
              else
                free (some fd)
                pure false
            else pure false
          else
            free (some fd)
            pure false
      else pure false
  else pure false

/-- `check_full` (drpm_apply.c:322-381): likewise. -/
def checkFull : Res Bool := do
  let fd ← alloc .call
  match fd with
  | none => pure false
  | some fd => do
    let init ← test .call
    if init then
      let larger ← test .call
      if larger then
        let p ← isPrelinked
        if p.1 then
          if p.2 then
            free (some fd)
            checkPrelink
          else
            let good ← test .call
            free (some fd)
            pure good
        else pure false
      else
        let good ← test .call
        free (some fd)
        pure good
    else
      free (some fd)
      pure false

/-- How the files named by a sequence are checked (drpm.h: `DRPM_CHECK_*`). -/
inductive ChkMode where
  | none
  | full
  | filesizes
  deriving DecidableEq, Repr

/-- One file of the second loop of `expand_sequence` (drpm_apply.c:170-227): its metadata is usable
(first component), it passes the check (second). -/
def seqFile (mode : ChkMode) : Res (Bool × Bool) := do
  let meta_ ← test .call
  if meta_ then
    let regular ← test .call
    if regular then
      match mode with
      | .none => pure (true, true)
      | .full => do
        let c ← checkFull
        pure (true, c)
      | .filesizes => do
        let c ← checkFilesize
        pure (true, c)
    else pure (true, true)
  else pure (false, true)

/-- The second loop of `expand_sequence`. -/
def seqLoop (mode : ChkMode) : Nat → Res (Bool × Bool)
  | 0 => do
    let md5 ← test .call
    pure (md5, true)
  | n + 1 => do
    let r ← seqFile mode
    if r.1 ∧ r.2 then seqLoop mode n else pure r

/-- `expand_sequence` (drpm_apply.c:61-281): the index (only if the caller wants it) and success.  A
file that fails its check makes the function leave without freeing the index (`goto cleanup`, line
226). -/
def expandSeq (want : Bool) (mode : ChkMode) : Res (Option Nat × Bool) := do
  let pos ← alloc .call
  match pos with
  | none => pure (none, false)
  | some pos => do
    let order ← test .call
    if order then
      let idx ← (if want then alloc .call else pure none)
      if want ∧ idx = none then
        free (some pos)
        pure (none, false)
      else
        let n ← pick .call
        let r ← seqLoop mode n
        if r.1 ∧ r.2 then
          free (some pos)
          pure (idx, true)
        else if r.1 then
          free (some pos)
          pure (none, false)
        else
          freeAll [idx, some pos]
          pure (none, false)
    else
      free (some pos)
      pure (none, false)

/-- Comparing the NEVRs (drpm.c:802-808, 895-901): `old_rpm_nevr` and success. -/
def cmpNevr : Res (Option Nat × Bool) := do
  let n ← alloc .call
  match n with
  | none => pure (none, false)
  | some n => do
    let equal ← test .call
    pure (some n, equal)

/-- The end of the two checking functions for a delta that is not rpm-only (drpm.c:810-818, 903-909):
the files and success. -/
def checkFiles (mode : ChkMode) : Res (Option Nat × List FileP × Bool) := do
  let f ← getFileInfo
  if f.2.2 then
    let algo ← getTag
    if algo then
      let r ← expandSeq false mode
      pure (f.1, f.2.1, r.2)
    else pure (f.1, f.2.1, false)
  else pure (f.1, f.2.1, false)

/-- The `cleanup` of the two checking functions (drpm.c:820-832, 912-925), apart from what only one of
them has. -/
def checkEnd (files : Option Nat × List FileP) (old : Option RpmP) (nevr : Option Nat) :
    Res Unit := do
  freeFiles files.2
  free files.1
  rpmDestroy old
  free nevr

/-- `drpm_check` (drpm.c:783-835) after the check of its arguments. -/
def drpmCheck (mode : ChkMode) : Res Bool := do
  let d ← readDeltarpm
  if d.2 then
    let old ← readHeader
    if old.2 then
      let n ← cmpNevr
      if n.2 then
        if d.1.rpmonly then
          let _ ← freeDelta d.1
          checkEnd (none, []) old.1 n.1
          pure true
        else
          let f ← checkFiles mode
          let _ ← freeDelta d.1
          checkEnd (f.1, f.2.1) old.1 n.1
          pure f.2.2
      else
        let _ ← freeDelta d.1
        checkEnd (none, []) old.1 n.1
        pure false
    else
      let _ ← freeDelta d.1
      checkEnd (none, []) old.1 none
      pure false
  else
    let _ ← freeDelta d.1
    checkEnd (none, []) none none
    pure false

/-- The package `drpm_check_sequence` compares with (drpm.c:880-893): from the database, or from a
file, whose signature tells whether the sequence is that of an rpm-only delta. -/
def seqPackage (installed : Bool) : Res (Option RpmP × Bool × Bool) := do
  if installed then
    let r ← readHeader
    pure (r.1, false, r.2)
  else
    let r ← rpmRead .call .dontRead false false
    if r.2 then
      let tag ← getTag
      if tag then
        let rpmonly ← test .call
        pure (r.1, rpmonly, true)
      else pure (r.1, false, false)
    else pure (r.1, false, false)

/-- `drpm_check_sequence` (drpm.c:837-928) after the check of its arguments; `installed` is
`old_rpm_name == NULL`. -/
def drpmCheckSequence (installed : Bool) (mode : ChkMode) : Res Bool := do
  let form ← test .call
  if form then
    let nevr ← alloc .call
    match nevr with
    | none => pure false
    | some nevr => do
      let seq ← alloc .call
      match seq with
      | none => do
        free (some nevr)
        pure false
      | some seq => do
        let hex ← test .call
        if hex then
          let old ← seqPackage installed
          if old.2.2 then
            let n ← cmpNevr
            if n.2 then
              if old.2.1 then
                freeAll [some nevr, some seq]
                checkEnd (none, []) old.1 n.1
                pure true
              else
                let f ← checkFiles mode
                freeAll [some nevr, some seq]
                checkEnd (f.1, f.2.1) old.1 n.1
                pure f.2.2
            else
              freeAll [some nevr, some seq]
              checkEnd (none, []) old.1 n.1
              pure false
          else
            freeAll [some nevr, some seq]
            checkEnd (none, []) old.1 none
            pure false
        else
          freeAll [some nevr, some seq]
          pure false
  else pure false

end Drpm.Own
