import Verif.Check
import Verif.Blocks
import Verif.PrelinkFill
import Verif.Strm
/-!
# Applying a delta: src/drpm.c:498-781 `drpm_apply`

Left out: allocations and system calls that fail (other than `creat`), the order of errors between
reconstruction and compression (all errors of the reconstruction are reported first; in the code
the two are interleaved), and rpmlib, which appears as parameters.
-/

namespace Drpm

/-- An RPM package file as `rpm_read` (src/drpm_rpm.c:245-353) presents it: lead and signature,
    header (exported, with its magic), the payload as it is in the file and decompressed, the
    compression method found in the payload, and what rpmlib finds in the header. -/
structure Rpm extends Pkg where
  leadsig : Bytes
  header : Bytes
  payload : Bytes
  archive : Bytes
  comp : Nat
  level : Out Nat
  isCpio : Out Bool
  colors : Bool
  source : Bool

/-- The file itself. -/
def Rpm.file (r : Rpm) : Bytes := r.leadsig ++ r.header ++ r.payload

/-- What is outside this library: MD5, the decompressors, the head of a standard delta as rpmlib
    reads it (`rpmHead`: size and payload compression; `tgtSource`: is it a source package;
    `tgtHeader`: its header after `rpm_patch_payload_format(.., "cpio")` and `rpm_fetch_header`,
    src/drpm_rpm.c:705-721, 453-464), `headerImport` (`blobOk`: the checks of the two counts of a
    header blob; `importSig`: the MD5 in the imported signature, `none` if the import fails;
    `exportSig`: lead and signature exported again, src/drpm_rpm.c:87-121) and the compressors. -/
structure ApplyEnv (σ : Type) where
  H : Bytes → Bytes
  dec : Decoder
  rpmHead : Bytes → Out (Nat × Nat)
  tgtSource : Bytes → Bool
  tgtHeader : Bytes → Out Bytes
  blobOk : Nat → Nat → Bool
  importSig : Bytes → Option (Out (Option Bytes))
  exportSig : Bytes → Out Bytes
  enc : Nat → Nat → Enc σ

/-- Where the old data comes from: a package file (`old_rpm_name`, or the error of `rpm_read`), or
    the database and the installed files. -/
inductive OldSrc where
  | rpm (r : Out Rpm)
  | installed (db : Db) (disk : Disk)

/-- What is read from afterwards. -/
inductive OldData where
  | rpm (r : Rpm)
  | files (disk : Disk)

/-- src/drpm.c:558-569: the signature MD5 of the old package against the sequence of an rpm-only
    delta. -/
def sameSource (d : Delta) (r : Rpm) : Out Unit :=
  if d.type = .rpmonly then do
    let m ← r.sigMd5
    match m with
    | none => .err .format
    | some m => do
      let s ← rdBlk d.sequence 0 16
      if s ≠ m then .err .mismatch else .ok ()
  else .ok ()

/-- src/drpm.c:554-581: the old package. -/
def applyOld {σ : Type} (env : ApplyEnv σ) (file : Bytes) (d : Delta) : OldSrc → Out (Pkg × OldData)
  | .rpm r => do
    let r ← r
    let _ ← sameSource d r
    .ok (r.toPkg, .rpm r)
  | .installed db disk =>
    if d.type = .rpmonly then .err .args
    else if env.tgtSource file then .err .args
    else do
      let p ← readInstalled db d.srcNevr
      .ok (p, .files disk)

/-- src/drpm.c:591-600: the layout of the altered archive (standard deltas only). -/
def applyPlaces {σ : Type} (env : ApplyEnv σ) (d : Delta) (p : Pkg) : Out (List FileInfo × List CpioFile) :=
  if d.type = .rpmonly then .ok ([], [])
  else do
    let files ← p.files
    let algo ← p.algo
    let places ← expandSeq env.H files algo noCheck d.sequence
    .ok (files, places)

/-- src/drpm_rpm.c:550-568 `rpm_replace_lead_and_signature`: the MD5 of the imported signature.
    `headerImport` is told no size, so it reads as many bytes as the two counts at the start of the
    blob demand. -/
def replaceSig {σ : Type} (env : ApplyEnv σ) (leadsig : Bytes) : Out (Out (Option Bytes)) :=
  if leadsig.length < 112 then .err .prog else do
  let magic ← rdBlk leadsig 96 4
  if magic ≠ [0x8E, 0xAD, 0xE8, 0x01] then .err .format else do
  let il ← be32At (leadsig.drop 104)
  let dl ← be32At (leadsig.drop 108)
  if env.blobOk il dl = false then .err .format else do
  let blob ← rdBlk leadsig 104 (8 + 16 * il + dl)
  match env.importSig blob with
  | none => .err .format
  | some m => .ok m

/-- src/drpm.c:607-608: the delta of a package to itself. -/
def isNoDiff (d : Delta) : Bool :=
  d.type = .rpmonly && d.tgtComp = 0 && d.intCount = 0 && d.extCount = 0

/-- src/drpm.c:552. -/
def noFullMd5 (d : Delta) : Bool := d.tgtMd5 = zeros 16

/-- src/drpm.c:739-755: the final check; `sig` is the signature's MD5, `digest` the MD5 of what was
    written. -/
def finalCheck (d : Delta) (sig : Out (Option Bytes)) (digest : Bytes) : Out Unit :=
  if noFullMd5 d then do
    let m ← sig
    match m with
    | none => .ok ()
    | some m => if digest ≠ m then .err .mismatch else .ok ()
  else if digest ≠ d.tgtMd5 then .err .mismatch else .ok ()

/-- src/drpm.c:624-631 and src/drpm_decompstrm.c:253-342: the add block, decompressed. `none`: there
    is none. (`Verif/Strm.lean` models the stream; see `C29_history` for the view taken here.) -/
def openAdd (dec : Decoder) (add : Bytes) : Out (Option Bytes) :=
  if add.length = 0 then .ok none
  else if add.length < 8 then .err .prog
  else do
    let m ← be64At add
    match detectComp m with
    | .none => .ok (some add)
    | c => .ok (some (dec c add))

/-- src/drpm.c:674-678: the arrays are used with the counts of the delta, which do not fit them if
    the counts were too large (see `C51_violated`). -/
def countsFit (d : Delta) : Out Unit :=
  if d.intCount = d.ints.length ∧ d.extCount = d.exts.length then .ok () else .ub

/-- src/drpm.c:681-727 with the block cache over the old data; `cleanup` is what earlier calls left
    in a static variable of src/drpm_block.c. -/
def applyLoop (d : Delta) (old : OldData) (files : List FileInfo) (places : List CpioFile) (cfg : CacheCfg)
    (cleanup : Nat) (add : Option Bytes) : Out (List Bytes) :=
  match old with
  | .rpm r =>
    match d.type with
    | .rpmonly =>
      reconWrites (blocksNext cfg (rpmFiller cfg (rpmonlyStep r.header r.archive)))
        (emptyCache ⟨0, 0, d.extDataLen⟩ cleanup) add.isSome d.exts d.ints d.intBytes (add.getD [])
    | .standard =>
      reconWrites (blocksNext cfg (rpmFiller cfg (stdStep ⟨r.archive, files, places⟩)))
        (emptyCache StdSrc.init cleanup) add.isSome d.exts d.ints d.intBytes (add.getD [])
  | .files disk =>
    reconWrites (blocksNext cfg (diskFiller cfg ⟨disk, files, places⟩)) (emptyCache FsSt.init cleanup) add.isSome
      d.exts d.ints d.intBytes (add.getD [])

/-- src/drpm.c:653-666: the header of the new package, written separately for standard deltas. -/
def applyHeader {σ : Type} (env : ApplyEnv σ) (file : Bytes) (d : Delta) : Out Bytes :=
  if d.type = .rpmonly then .ok [] else env.tgtHeader file

/-- The compressor for the payload, src/drpm.c:669-671: the data handed out at the end and the file
    behind the descriptor, which starts as `f0`. -/
def compressNew {σ : Type} (env : ApplyEnv σ) (d : Delta) (f0 : Bytes) (ws : List Bytes) : Out (Bytes × Bytes) :=
  if d.tgtComp = 0 then wrAll plainEnc d.tgtHeaderLen f0 ws
  else wrAll (env.enc d.tgtComp d.tgtCompLevel) d.tgtHeaderLen f0 ws

/-- src/drpm.c:644-736: everything that is written; yields the file and the bytes whose MD5 was
    computed. -/
def applyWrite {σ : Type} (env : ApplyEnv σ) (file : Bytes) (d : Delta) (ws : Out (List Bytes)) :
    Out (Bytes × Bytes) := do
  let header ← applyHeader env file d
  strmOpen d.tgtComp d.tgtCompLevel
  let ws ← ws
  let (data, out) ← compressNew env d (d.tgtLeadsig ++ header) ws
  .ok (out, (if noFullMd5 d then [] else d.tgtLeadsig) ++ header ++ data)

/-- src/drpm_rpm.c:485-547 `rpm_write` with archive, of the old package with the new lead and
    signature: the file and the bytes whose MD5 was computed. `rpm_write` writes the archive as it
    is in memory, that is, decompressed. -/
def writeOld {σ : Type} (env : ApplyEnv σ) (d : Delta) (r : Rpm) : Out (Bytes × Bytes) := do
  let ls ← env.exportSig d.tgtLeadsig
  .ok (ls ++ r.header ++ r.archive, (if noFullMd5 d then [] else ls) ++ r.header ++ r.archive)

/-- What the call leaves at the output path: the file that was there before, a new file, or a file
    written in part. -/
inductive Left where
  | untouched
  | written (b : Bytes)
  | partly
deriving DecidableEq

/-- The outcome of the part of `drpm_apply` that writes, with the final check. -/
def finishApply {σ : Type} (env : ApplyEnv σ) (d : Delta) (sig : Out (Option Bytes)) :
    Out (Bytes × Bytes) → Out Unit × Left
  | .ok (out, hashed) => (finalCheck d sig (env.H hashed), .written out)
  | .err e => (.err e, .partly)
  | .ub => (.ub, .partly)
  | .loop => (.loop, .partly)

/-- What is known when writing begins. -/
structure ApplyPlan where
  d : Delta
  sig : Out (Option Bytes)
  body : Out (Bytes × Bytes)

/-- src/drpm.c:616-642: tables and add block, then the rest. -/
def planDiff {σ : Type} (env : ApplyEnv σ) (file : Bytes) (d : Delta) (old : OldData) (files : List FileInfo)
    (places : List CpioFile) (cleanup : Nat) : Out (Out (Bytes × Bytes)) := do
  let _ ← countsFit d
  let cfg ← blocksCreate d.extDataLen d.exts
  let add ← openAdd env.dec d.addData
  .ok (applyWrite env file d (applyLoop d old files places cfg cleanup add))

/-- src/drpm.c:606-642. An rpm-only delta is never applied to installed files. -/
def planBody {σ : Type} (env : ApplyEnv σ) (file : Bytes) (d : Delta) (old : OldData) (files : List FileInfo)
    (places : List CpioFile) (cleanup : Nat) : Out (Out (Bytes × Bytes)) :=
  match isNoDiff d, old with
  | true, .rpm r => .ok (writeOld env d r)
  | _, _ => planDiff env file d old files places cleanup

/-- src/drpm.c:548-642: everything before the first byte is written. -/
def planApply {σ : Type} (env : ApplyEnv σ) (file : Bytes) (src : OldSrc) (cleanup : Nat) : Out ApplyPlan := do
  let d ← readDelta env.dec env.rpmHead file
  let (p, old) ← applyOld env file d src
  let _ ← sameNevr d.srcNevr p
  let (files, places) ← applyPlaces env d p
  let sig ← replaceSig env d.tgtLeadsig
  let body ← planBody env file d old files places cleanup
  .ok ⟨d, sig, body⟩

/-- The arguments of `drpm_apply`: the contents of the delta (`none`: the name is NULL; an error of
    `open` is `DRPM_ERR_IO`), whether the output name is given, whether it can be created. -/
structure ApplyArgs where
  delta : Option (Out Bytes)
  named : Bool
  creatable : Bool
  src : OldSrc

/-- src/drpm.c:548-781: after the output file has been created (and truncated). -/
def applyTo {σ : Type} (env : ApplyEnv σ) (delta : Out Bytes) (src : OldSrc) (cleanup : Nat) : Out Unit × Left :=
  match delta >>= fun file => planApply env file src cleanup with
  | .ok pl => finishApply env pl.d pl.sig pl.body
  | .err e => (.err e, .written [])
  | .ub => (.ub, .partly)
  | .loop => (.loop, .partly)

/-- src/drpm.c:498-781 `drpm_apply`. -/
def drpmApply {σ : Type} (env : ApplyEnv σ) (a : ApplyArgs) (cleanup : Nat) : Out Unit × Left :=
  match a.delta, a.named with
  | none, _ => (.err .args, .untouched)
  | some _, false => (.err .args, .untouched)
  | some delta, true =>
    if a.creatable = false then (.err .io, .untouched) else applyTo env delta a.src cleanup

end Drpm
