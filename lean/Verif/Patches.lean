import Verif.Make
/-!
# Patched packages: src/drpm_make.c:623-1014

Several variables and members are read before anything was stored in them. The model has a
parameter `zeroed`: in the code as written (`false`) such a read is undefined behaviour; with
`true` fresh memory holds zeros, which is what a run may happen to see. Allocations do not fail.
A file is the list of bytes that are left to read; `none` means that it cannot be opened.
-/

namespace Drpm

/-- Reading memory that was never written; `v` is what zeros in it mean. -/
def fresh {α : Type} (zeroed : Bool) (v : α) : Out α := if zeroed then .ok v else .ub

/-- Reading a variable that may not have been written yet (`none`). -/
def orFresh {α : Type} (zeroed : Bool) (x : Option α) (v : α) : Out α :=
  match x with
  | some a => .ok a
  | none => fresh zeroed v

/-- `struct patch_file`, src/drpm_make.c:71-76. -/
structure PatchFile where
  name : Bytes
  mode : Nat
  flags : Nat
  md5 : Bytes
deriving DecidableEq, Repr

/-- `struct patch_info`, src/drpm_make.c:78-82. -/
structure PatchInfo where
  nevr : Bytes
  files : List PatchFile
deriving DecidableEq, Repr

/-- `struct rpm_patches`, src/drpm_make.c:84-87. -/
structure RpmPatches where
  rpmprint : PatchInfo
  patchrpm : PatchInfo

/-- `read(filedesc, buf, n) != n`: the bytes read and the rest of the file. -/
def rpmlRead (n : Nat) (b : Bytes) : Out (Bytes × Bytes) :=
  if b.length < n then .err .format else .ok (b.take n, b.drop n)

/-- src/drpm_make.c:623-634 `rpml_get_uint16`. -/
def rpmlU16 (b : Bytes) : Out (Nat × Bytes) := do
  let (w, b) ← rpmlRead 2 b
  match w with
  | [x, y] => .ok (parseBe16 x y, b)
  | _ => .ub

/-- src/drpm_make.c:636-647 `rpml_get_uint32`. -/
def rpmlU32 (b : Bytes) : Out (Nat × Bytes) := do
  let (w, b) ← rpmlRead 4 b
  let v ← be32At w
  .ok (v, b)

/-- One byte. -/
def rpmlByte (b : Bytes) : Out (Nat × Bytes) := do
  let (w, b) ← rpmlRead 1 b
  match w with
  | [x] => .ok (x.toNat, b)
  | _ => .ub

/-- src/drpm_make.c:649-668 `rpml_get_string` with a place for the string. -/
def rpmlString (b : Bytes) : Out (Bytes × Bytes) := do
  let (len, b) ← rpmlByte b
  let (s, b) ← rpmlRead len b
  .ok (cstr s, b)

/-- src/drpm_make.c:649-668 `rpml_get_string(filedesc, NULL)`: only the length is read, the string
    is not skipped. -/
def rpmlSkipString (b : Bytes) : Out Bytes := do
  let (_, b) ← rpmlByte b
  .ok b

/-- src/drpm_make.c:687-695: the length of the new part of a name. -/
def rpmlNameLen (l : Nat) (b : Bytes) : Out (Nat × Bytes) :=
  if l = 0xFF then rpmlU16 b else .ok (l, b)

/-- src/drpm_make.c:670-714 `rpml_get_filename`: a name that shares `off` bytes with the one before.
    `buf` is the buffer of `filename_len` bytes; `none`: its length was never stored. New bytes of
    the buffer are fresh memory (taken to be zeros). -/
def rpmlFilename (zeroed : Bool) (buf : Option Bytes) (b : Bytes) : Out (Bytes × Bytes) := do
  let (off, b) ← rpmlByte b
  let (l, b) ← rpmlByte b
  let (len, b) ← rpmlNameLen l b
  let buf ← orFresh zeroed buf []
  let buf := buf ++ zeros (off + len + 1 - buf.length)
  let (s, b) ← rpmlRead len b
  .ok (buf.take off ++ s ++ [0] ++ buf.drop (off + len + 1), b)

/-- src/drpm_make.c:762-765: the names of the patches. -/
def skipStrings : Nat → Bytes → Out Bytes
  | 0, b => .ok b
  | n + 1, b => do
    let b ← rpmlSkipString b
    skipStrings n b

/-- src/drpm_make.c:770-785: the files that patches did not touch (`RPMFILE_UNPATCHED` is 1024,
    `S_IFREG` is 0100000). `files` is `none` until something was stored in `files` and
    `file_count`. -/
def unpatchedNames (zeroed : Bool) : Nat → Option Bytes → Option (List PatchFile) → Bytes →
    Out (Option Bytes × Option (List PatchFile) × Bytes)
  | 0, buf, files, b => .ok (buf, files, b)
  | n + 1, buf, files, b => do
    let files ← orFresh zeroed files []
    let (buf, b) ← rpmlFilename zeroed buf b
    unpatchedNames zeroed n (some buf) (some (files ++ [⟨cstr buf, 0o100000, 1024, zeros 16⟩])) b

/-- src/drpm_make.c:760-787. -/
def unpatchedList (zeroed : Bool) (count : Nat) (b : Bytes) : Out (Option Bytes × Option (List PatchFile) × Bytes) :=
  if count > 0 then do
    let b ← skipStrings count b
    let (n, b) ← rpmlU32 b
    unpatchedNames zeroed n none none b
  else .ok (none, none, b)

/-- src/drpm_make.c:818-835: user and group. `lseek` may go past the end. -/
def skipOwner (b : Bytes) : Out (Nat × Bytes) := do
  let (num, b) ← rpmlByte b
  if num = 0xFF then do
    let (num2, b) ← rpmlByte b
    let (num, b) ← rpmlByte b
    let b := if num2 > 0 then b.drop (num2 + 1) else b
    let b := if num &&& 0xFC ≠ 0 then b.drop ((num >>> 2 &&& 0x3F) + 1) else b
    .ok (num, b)
  else
    let b := if num &&& 0xE0 ≠ 0 then b.drop ((num >>> 5 &&& 7) + 1) else b
    let b := if num &&& 0x1C ≠ 0 then b.drop ((num >>> 2 &&& 7) + 1) else b
    .ok (num, b)

/-- `S_ISREG`, `S_ISLNK`, `S_ISBLK`, `S_ISCHR` of a mode. -/
def modeIs (mode fmt : Nat) : Bool := mode &&& 0o170000 == fmt

/-- src/drpm_make.c:838-840: the device number. -/
def skipRdev (mode : Nat) (b : Bytes) : Out Bytes :=
  if modeIs mode 0o020000 || modeIs mode 0o060000 then do
    let (_, b) ← rpmlU32 b
    .ok b
  else .ok b

/-- src/drpm_make.c:842-851: size and MD5. The conditions are joined by `&&`, so that the MD5 is
    read only if the size could not be read. -/
def readMd5 (mode num : Nat) (b : Bytes) : Out (Bytes × Bytes) :=
  if modeIs mode 0o100000 || modeIs mode 0o120000 then
    if num % 4 + 1 ≤ b.length then .ok (zeros 16, b.drop (num % 4 + 1))
    else do
      let v ← be32At (zeros (4 - (num % 4 + 1)) ++ b ++ zeros 4)
      if v > 0 then .err .format else .ok (zeros 16, [])
  else .ok (zeros 16, b)

/-- src/drpm_make.c:812-852: mode and what follows it. -/
def fileRest (b : Bytes) : Out (Nat × Bytes × Bytes) := do
  let (mode, b) ← rpmlU16 b
  if mode ≠ 0 then do
    let (num, b) ← skipOwner b
    let b ← skipRdev mode b
    let (md5, b) ← readMd5 mode num b
    .ok (mode, md5, b)
  else .ok (mode, zeros 16, b)

/-- src/drpm_make.c:789-853: the list of files, up to an empty name. Memory for the name is
    allocated, but the name is not stored in it. -/
def fileList (zeroed : Bool) : Nat → Option Bytes → Option (List PatchFile) → Bytes → Out (List PatchFile)
  | 0, _, _, _ => .loop
  | fuel + 1, buf, files, b => do
    let (buf, b) ← rpmlFilename zeroed buf b
    if cstr buf = [] then .ok (files.getD [])
    else do
      let files ← orFresh zeroed files []
      let name ← fresh zeroed []
      let (mode, md5, b) ← fileRest b
      fileList zeroed fuel (some buf) (some (files ++ [⟨name, mode, 0, md5⟩])) b

/-- src/drpm_make.c:739-744. `MAGIC_RPML` is "RPML". -/
def rpmlMagic (skip : Bool) (b : Bytes) : Out Bytes :=
  if skip then .ok b
  else do
    let (m, b) ← rpmlU32 b
    if m ≠ 0x52504D4C then .err .format else .ok b

/-- src/drpm_make.c:723-859 `read_rpmlist`. -/
def readRpmlist (zeroed skip : Bool) (b : Bytes) : Out PatchInfo := do
  let b ← rpmlMagic skip b
  let (name, b) ← rpmlString b
  let (evr, b) ← rpmlString b
  let b ← rpmlSkipString b
  let (_, b) ← rpmlU32 b
  let (count, b) ← rpmlU16 b
  let (buf, files, b) ← unpatchedList zeroed count b
  let files ← fileList zeroed (b.length + 1) buf files b
  .ok ⟨name ++ [45] ++ evr, files⟩

/-- src/drpm_make.c:913-931: the list from a package. `malloc(file_count)` is too small for even
    one `struct patch_file`. -/
def printOfRpm (nevr : Bytes) (files : List FileInfo) : Out PatchInfo :=
  if files = [] then .ok ⟨nevr, []⟩ else .ub

/-- src/drpm_make.c:940-941, 955-975: after an error `patches_destroy` walks over the files of both
    lists, of which at least one was not filled in. -/
def orDestroy {α : Type} (zeroed : Bool) : Out α → Out α
  | .err e => do
    let _ ← fresh zeroed ()
    .err e
  | x => x

/-- src/drpm_make.c:897-937: the list of the print, from a package or from a file; `rpm` is what
    `rpm_read`, `rpm_get_nevr` and `rpm_get_file_info` yield. -/
def readPrint (zeroed : Bool) (rpm : Out (Bytes × List FileInfo)) (b : Bytes) : Out PatchInfo := do
  let (m, b) ← rpmlU32 b
  if m = 0xEDABEEDB then do
    let (nevr, files) ← rpm
    printOfRpm nevr files
  else if m = 0x52504D4C then readRpmlist zeroed true b
  else .err .format

/-- src/drpm_make.c:887-937. -/
def readBoth (zeroed : Bool) (rpm : Out (Bytes × List FileInfo)) (print patch : Option Bytes) : Out RpmPatches :=
  match patch with
  | none => .err .io
  | some b => do
    let q ← readRpmlist zeroed false b
    match print with
    | none => .err .io
    | some b => do
      let p ← readPrint zeroed rpm b
      .ok ⟨p, q⟩

/-- src/drpm_make.c:862-953 `patches_read`. -/
def patchesRead (zeroed : Bool) (rpm : Out (Bytes × List FileInfo)) (print patch : Option (Option Bytes)) :
    Out (Option RpmPatches) :=
  match print, patch with
  | some print, some patch => do
    let r ← orDestroy zeroed (readBoth zeroed rpm print patch)
    .ok (some r)
  | _, _ => .ok none

/-- src/drpm_make.c:990-1014 `is_unpatched`. -/
def isUnpatched (p : RpmPatches) (name rpmMd5 : Bytes) : Bool :=
  match p.rpmprint.files.find? (fun f => f.name == name) with
  | none => false
  | some f =>
    if f.flags &&& 1024 = 0 then false
    else
      match p.patchrpm.files.find? (fun f => f.name == name) with
      | none => true
      | some g => rpmMd5 != dumpHex g.md5

/-- src/drpm_make.c:978-987 `patches_check_nevr`. -/
def patchesNevr (p : RpmPatches) (nevr : Bytes) : Out Unit :=
  if p.rpmprint.nevr = nevr ∧ p.patchrpm.nevr = nevr then .ok () else .err .args

/-- src/drpm.c:377, 396-401: the NEVR that patches are for. -/
def oldNevr (old new : Option (Out Rpm)) : Out Bytes := do
  let r ← old.getD (new.getD (.err .args))
  r.nevr

/-- src/drpm.c:355-356: the patches of a standard delta; `file` looks up a name. -/
def makePatches (zeroed : Bool) (rpm : Out (Bytes × List FileInfo)) (file : Bytes → Option Bytes) (o : Opts Bytes) :
    Out (Option RpmPatches) :=
  if o.rpmOnly then .ok none
  else patchesRead zeroed rpm (o.oldrpmprint.map file) (o.oldpatchrpm.map file)

/-- src/drpm.c:292-494 `drpm_make` with the lists of patched packages. (The NEVR of the lists is
    compared before the payload format of the new package is known; here it is the first thing that
    is done, which matters only for which error is reported.) -/
def drpmMakePatched (zeroed : Bool) (rpm : Out (Bytes × List FileInfo)) (file : Bytes → Option Bytes) (env : MakeEnv)
    (o : Opts Bytes) (old new : Option (Out Rpm)) : Out Bytes :=
  if old.isNone ∧ new.isNone then .err .args
  else if o.rpmOnly ∧ o.version < 3 then .err .args
  else do
    let p ← makePatches zeroed rpm file o
    match p with
    | none => drpmMake { env with unpatched := fun _ _ => false } o old new
    | some p => do
      let nevr ← oldNevr old new
      let _ ← patchesNevr p nevr
      drpmMake { env with unpatched := isUnpatched p } o old new

end Drpm
