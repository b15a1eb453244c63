import Verif.Prelink
import Verif.Cpio
import Verif.Api
/-!
# Checking installed files: src/drpm_apply.c:285-424, src/drpm.c:783-928
-/

namespace Drpm

/-- What the checks see of the system. `content` is what `stat`, `fstat` and `read` find under a
    name (`none`: no such file), `readable` whether `open` succeeds, `reads name k` how many bytes
    the `k`-th `read` of the file is ready to deliver (at least one before the end; `none`: the call
    fails), `undo` the result of running `prelink -u` on a file (src/drpm_apply.c:623-660
    `prelink_open`: an error or the contents of the temporary file), `digest` the hash functions. -/
structure Sys where
  content : Bytes → Option Bytes
  readable : Bytes → Bool
  reads : Bytes → Nat → Option Nat
  undo : Bytes → Out Bytes
  digest : Nat → Bytes → Bytes

/-- `read(fd, buf, cap)` at a place where `rest` is still to come: `none` is -1. -/
def readStep (rest : Bytes) (cap : Nat) (r : Option Nat) : Option Bytes :=
  r.map (fun k => rest.take (min cap (max 1 k)))

/-- `BUFFER_SIZE`, src/drpm_apply.c:36. -/
def bufferSize : Nat := 4096

/-- src/drpm_apply.c:361-367 and 402-408: the reading loop; `acc` is what has been hashed, the
    result also says whether the last `read` failed. -/
def hashLoop (reads : Nat → Option Nat) : Nat → Nat → Bytes → Nat → Bytes → Out (Bytes × Bool)
  | 0, _, _, _, _ => .loop
  | fuel + 1, k, rest, filesize, acc =>
    if filesize > 0 then
      match readStep rest bufferSize (reads k) with
      | none => .ok (acc, true)
      | some b =>
        if b.length > 0 then
          let n := if b.length > filesize then filesize else b.length
          hashLoop reads fuel (k + 1) (rest.drop b.length) (filesize - n) (acc ++ b.take n)
        else .ok (acc, false)
    else .ok (acc, false)

/-- src/drpm_apply.c:428-448 `checksum_init` and 481-484 `checksum_digest_len`. -/
def digestLen (algo : Nat) : Out Nat := if algo = 0 then .ok 16 else if algo = 1 then .ok 32 else .err .prog

/-- src/drpm_apply.c:369-375 and 415-421. -/
def compareDigest (sys : Sys) (algo : Nat) (digest data : Bytes) (n : Nat) : Out Unit := do
  let d ← rdBlk digest 0 n
  if (sys.digest algo data).take n ≠ d then .err .mismatch else .ok ()

/-- src/drpm_apply.c:410-413. -/
def prelinkResult (sys : Sys) (algo : Nat) (digest data : Bytes) (n : Nat) (failed : Bool) : Out Unit :=
  if failed then .err .io else compareDigest sys algo digest data n

/-- src/drpm_apply.c:383-424 `check_prelink`. With `filesize` 0 the uninitialised `read_len` is
    tested. -/
def checkPrelink (sys : Sys) (name : Bytes) (algo : Nat) (digest : Bytes) (filesize : Nat) : Out Unit := do
  let c ← sys.undo name
  let n ← digestLen algo
  if filesize = 0 then .ub else do
  let (data, failed) ← hashLoop (sys.reads name) (filesize + 1) 0 c filesize []
  prelinkResult sys algo digest data n failed

/-- src/drpm_apply.c:303-312: what follows the detection. -/
def afterPrelink (sys : Sys) (name : Bytes) (algo : Nat) (digest : Bytes) (filesize : Nat) (prelink : Bool)
    (other : Out Unit) : Out Unit :=
  if prelink then checkPrelink sys name algo digest filesize else other

/-- src/drpm_apply.c:285-320 `check_filesize`. -/
def checkFilesize (sys : Sys) (name : Bytes) (algo : Nat) (digest : Bytes) (filesize : Nat) : Out Unit :=
  match sys.content name with
  | none => .err .noinstall
  | some c =>
    if c.length = filesize then .ok ()
    else if c.length > filesize then
      if sys.readable name then
        match readStep c 128 (sys.reads name 0) with
        | none => .err .io
        | some b => do
          let p ← isPrelinked c b
          afterPrelink sys name algo digest filesize p (.err .mismatch)
      else .err .io
    else .err .mismatch

/-- src/drpm_apply.c:361-375: hashing the rest and comparing. -/
def fullRest (sys : Sys) (name : Bytes) (algo : Nat) (digest : Bytes) (n k : Nat) (rest : Bytes) (filesize : Nat)
    (acc : Bytes) : Out Unit := do
  let (data, _) ← hashLoop (sys.reads name) (filesize + 1) k rest filesize acc
  compareDigest sys algo digest data n

/-- src/drpm_apply.c:344-359: the first piece of a file that is longer than recorded. -/
def fullFirst (sys : Sys) (name : Bytes) (algo : Nat) (digest : Bytes) (n : Nat) (c : Bytes) (filesize : Nat) :
    Out Unit :=
  match readStep c bufferSize (sys.reads name 0) with
  | none => fullRest sys name algo digest n 1 c filesize []
  | some b => do
    let p ← isPrelinked c b
    let m := if b.length > filesize then filesize else b.length
    afterPrelink sys name algo digest filesize p
      (fullRest sys name algo digest n 1 (c.drop b.length) (filesize - m) (b.take m))

/-- src/drpm_apply.c:322-381 `check_full`. -/
def checkFull (sys : Sys) (name : Bytes) (algo : Nat) (digest : Bytes) (filesize : Nat) : Out Unit :=
  match sys.content name with
  | none => .err .io
  | some c =>
    if sys.readable name then do
      let n ← digestLen algo
      if c.length > filesize then fullFirst sys name algo digest n c filesize
      else fullRest sys name algo digest n 0 c filesize []
    else .err .io

/-- src/drpm_apply.c:92-105: the check of a mode (`DRPM_CHECK_NONE` 0, `FULL` 1, `FILESIZES` 2). -/
def checkOf (sys : Sys) (mode : Int) (algo : Nat) : Out (Bytes → Bytes → Nat → Out Unit) :=
  if mode = 0 then .ok noCheck
  else if mode = 1 then .ok (fun name digest size => checkFull sys name algo digest size)
  else if mode = 2 then .ok (fun name digest size => checkFilesize sys name algo digest size)
  else .err .prog

/-- A package as rpmlib presents it: NEVR, file list, digest algorithm (each of the three functions
    src/drpm_rpm.c:571-586, 724-873, 640-678 may report an error instead) and, for a package read
    from a file, the MD5 of its signature. -/
structure Pkg where
  nevr : Out Bytes
  files : Out (List FileInfo)
  algo : Out Nat
  sigMd5 : Out (Option Bytes)

/-- The database of installed packages: name, epoch, version, release (src/drpm_rpm.c:1056-1071). -/
abbrev Db := Bytes → Option Bytes → Bytes → Bytes → Option Pkg

/-- src/drpm_rpm.c:1002-1095 `rpm_read_header` without architecture. -/
def readInstalled (db : Db) (nevr : Bytes) : Out Pkg := do
  let (n, e, v, r) ← splitNevr nevr
  match db n e v r with
  | none => .err .noinstall
  | some p => .ok p

/-- src/drpm.c:808-814 and 903-909. -/
def sameNevr (nevr : Bytes) (p : Pkg) : Out Unit := do
  let n ← p.nevr
  if nevr ≠ n then .err .mismatch else .ok ()

/-- src/drpm.c:818-823 and 912-917: the files in the sequence are checked. -/
def checkFiles (sys : Sys) (H : Bytes → Bytes) (p : Pkg) (sequence : Bytes) (mode : Int) : Out Unit := do
  let files ← p.files
  let algo ← p.algo
  let check ← checkOf sys mode algo
  let _ ← expandSeq H files algo check sequence
  .ok ()

/-- src/drpm.c:783-835 `drpm_check` on the contents of the delta. -/
def drpmCheck (sys : Sys) (H : Bytes → Bytes) (db : Db) (dec : Decoder) (rpmHead : Bytes → Out (Nat × Nat))
    (file : Bytes) (mode : Int) : Out Unit :=
  if mode ≠ 2 ∧ mode ≠ 1 then .err .args else do
  let d ← readDelta dec rpmHead file
  let p ← readInstalled db d.srcNevr
  let _ ← sameNevr d.srcNevr p
  if d.type = .standard then checkFiles sys H p d.sequence mode else .ok ()

/-- src/drpm.c:885-901: the package, and whether the sequence is that of an rpm-only delta. -/
def seqSource (db : Db) (oldRpm : Option (Out Pkg)) (nevr seq : Bytes) : Out (Pkg × Bool) :=
  match oldRpm with
  | none => do
    let p ← readInstalled db nevr
    .ok (p, false)
  | some q => do
    let p ← q
    let m ← p.sigMd5
    .ok (p, seq.length = 16 && m == some (seq.take 16))

/-- src/drpm.c:837-928 `drpm_check_sequence`; `oldRpm` is the package read from the file named by
    the first argument, if there is one. -/
def drpmCheckSequence (sys : Sys) (H : Bytes → Bytes) (db : Db) (oldRpm : Option (Out Pkg)) (id : Bytes) (mode : Int) :
    Out Unit :=
  if (mode ≠ 0 ∧ mode ≠ 2 ∧ mode ≠ 1) ∨ (oldRpm.isSome ∧ mode ≠ 0) then .err .args else do
  let (nevr, seq) ← splitSeqId id
  let (p, rpmOnly) ← seqSource db oldRpm nevr seq
  let _ ← sameNevr nevr p
  if rpmOnly then .ok () else checkFiles sys H p seq mode

end Drpm
