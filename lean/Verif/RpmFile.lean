import Verif.Make
import Verif.Codec
/-!
# Package files: src/drpm_rpm.c

rpmlib is a parameter: a type of headers and the functions on them that the code calls. A file is its
contents; `Ftell` and `Fseek` on a file that is open do not fail. Failing allocations and system calls
are left out, except where rpmlib returns NULL.
-/

namespace Drpm

/-- The data of a tag (`rpmtd`): the types that matter here. -/
inductive TagData where
  | str (s : Bytes)
  | strs (l : List Bytes)
  | u16 (l : List Nat)
  | u32 (l : List Nat)
  | bin (b : Bytes)
deriving DecidableEq

/-- rpmlib. `read`: `headerRead(.., HEADER_MAGIC_YES)` on what is left of a file: the header and the
    number of bytes used; `imp` is told no size (`headerImport(.., 0, ..)`); `size` is
    `headerSizeof(.., HEADER_MAGIC_YES)`; `entries` are what an iterator yields; `getExt` is
    `headerGet` with `HEADERGET_EXT`; `raw` are the bytes that data other than binary data have in memory;
    `none` is NULL or failure. -/
structure Rpmlib (η : Type) where
  read : Bytes → Option (η × Nat)
  exp : η → Option Bytes
  imp : Bytes → Option η
  size : η → Nat
  new : η
  entries : η → List (Nat × TagData)
  get : η → Nat → Option TagData
  getExt : η → Nat → Option TagData
  getStr : η → Nat → Option Bytes
  nevr : η → Option Bytes
  put : η → Nat → TagData → Option η
  del : η → Nat → Option η
  reload : η → Nat → Option η
  raw : TagData → Bytes

/-- `rpm_header_magic` of rpmlib. -/
def headerMagic : Bytes := [0x8E, 0xAD, 0xE8, 0x01, 0, 0, 0, 0]

/-- src/drpm_rpm.c:251 `magic_rpm`. -/
def leadMagic : Bytes := [0xED, 0xAB, 0xEE, 0xDB]

/-- src/drpm_private.h:57 `PADDING(offset, 8)`, src/drpm_rpm.c:39. -/
def sigPadding (offset : Nat) : Nat := (8 - offset % 8) % 8

/-- `struct rpm`, src/drpm_rpm.c:43-51 (`archive_size` is the length of `archive`). -/
structure RpmSt (η : Type) where
  lead : Bytes
  signature : η
  header : η
  archive : Bytes
  archiveOff : Nat
  compSize : Nat

/-- src/drpm_rpm.c:87-121 `rpm_export_signature`. -/
def exportSignature {η : Type} (lib : Rpmlib η) (r : RpmSt η) : Out Bytes :=
  match lib.exp r.signature with
  | none => .err .memory
  | some b => .ok (headerMagic ++ b ++ zeros (sigPadding (headerMagic.length + b.length)))

/-- src/drpm_rpm.c:123-145 `rpm_export_header`. -/
def exportHeader {η : Type} (lib : Rpmlib η) (r : RpmSt η) : Out Bytes :=
  match lib.exp r.header with
  | none => .err .memory
  | some b => .ok (headerMagic ++ b)

/-! ## Reading -/

/-- The decompressors on a file: what the calls of `read_chunk` do for the compressed data, and what
    was counted and digested (`Verif/Codec.lean`). -/
abbrev Unpack (σ : Type) := Comp → Bytes → Out (Events × UnpackSt σ)

/-- src/drpm_decompstrm.c:453-485 `readchunk` on a file that is read in pieces: without compression
    `comp_size` is the length of the data. -/
def readPlain (pieces : List Bytes) : Out (Events × UnpackSt Unit) :=
  .ok (plainEvents pieces, ⟨(), pieces.flatten.length, pieces.flatten⟩)

/-- src/drpm_private.h:46-48, src/drpm_rpm.c:266-280: the modes. -/
inductive ArchiveMode where
  | dontRead
  | asIs
  | decompress
deriving DecidableEq

/-- What reading the archive yields: the archive, its size in the file, the compression method
    (`none`: not determined), and the bytes fed to the digest of header and archive and to that of
    the file. -/
structure ArchiveIn where
  archive : Bytes
  compSize : Nat
  comp : Option Comp
  seq : Bytes
  full : Bytes

/-- src/drpm_rpm.c:197-205: decompressing. The digest that the stream updates is the first one if it
    is wanted (line 199). src/drpm_decompstrm.c:264-342: fewer than eight bytes are refused. -/
def unpackArchive {σ : Type} (U : Unpack σ) (seqWanted : Bool) (z : Bytes) : Out ArchiveIn :=
  if z.length < 8 then .err .format else do
  let m ← be64At z
  let (ev, s) ← U (detectComp m) z
  let (r, _) ← dsReadAll (dsInit ev)
  match r with
  | .error e => .err e
  | .ok b => .ok ⟨b, s.compSize, some (detectComp m), if seqWanted then s.md5 else [], if seqWanted then [] else s.md5⟩

/-- src/drpm_rpm.c:177-236 `rpm_read_archive`; `z` is what follows the header in the file. -/
def readArchive {σ : Type} (U : Unpack σ) (decompress seqWanted : Bool) (z : Bytes) : Out ArchiveIn :=
  if decompress then unpackArchive U seqWanted z
  else .ok ⟨z, z.length, none, z, z⟩

/-- src/drpm_rpm.c:324-334. -/
def readPayload {σ : Type} (U : Unpack σ) (mode : ArchiveMode) (seqWanted : Bool) (z : Bytes) : Out ArchiveIn :=
  match mode with
  | .dontRead => .ok ⟨[], 0, none, [], []⟩
  | .asIs => readArchive U false seqWanted z
  | .decompress => readArchive U true seqWanted z

/-- What `rpm_read` returns: the package, the compression method, the two digests. -/
structure RpmIn (η : Type) where
  st : RpmSt η
  comp : Option Comp
  seqMd5 : Option Bytes
  fullMd5 : Option Bytes

/-- src/drpm_rpm.c:291-299: lead, signature and header, and the position after them. -/
def readIntro {η : Type} (lib : Rpmlib η) (file : Bytes) : Out (RpmSt η × Nat) :=
  if file.length < 96 then .err .format
  else if file.take 4 ≠ leadMagic then .err .format
  else
    match lib.read (file.drop 96) with
    | none => .err .format
    | some (sig, n) =>
      match lib.read (file.drop (96 + n + sigPadding (96 + n))) with
      | none => .err .format
      | some (hdr, k) => .ok (⟨file.take 96, sig, hdr, [], 0, 0⟩, 96 + n + sigPadding (96 + n) + k)

/-- src/drpm_rpm.c:301-309: what is fed to the digest of header and archive before the archive. -/
def seqStart {η : Type} (lib : Rpmlib η) (r : RpmSt η) (wanted : Bool) : Out Bytes :=
  if wanted then exportHeader lib r else .ok []

/-- src/drpm_rpm.c:311-322: what is fed to the digest of the file before the archive. -/
def fullStart {η : Type} (lib : Rpmlib η) (r : RpmSt η) (wanted : Bool) : Out Bytes :=
  if wanted then do
    let s ← exportSignature lib r
    let h ← exportHeader lib r
    .ok (r.lead ++ s ++ h)
  else .ok []

/-- src/drpm_rpm.c:245-353 `rpm_read`. `H` is MD5; the booleans tell which digests are wanted. -/
def rpmRead {η σ : Type} (lib : Rpmlib η) (H : Bytes → Bytes) (U : Unpack σ) (mode : ArchiveMode) (seqWanted fullWanted : Bool)
    (file : Bytes) : Out (RpmIn η) := do
  let (r, pos) ← readIntro lib file
  let s ← seqStart lib r seqWanted
  let f ← fullStart lib r fullWanted
  let a ← readPayload U mode seqWanted (file.drop pos)
  .ok ⟨{ r with archive := a.archive, compSize := a.compSize }, a.comp,
    if seqWanted then some (H (s ++ a.seq)) else none, if fullWanted then some (H (f ++ a.full)) else none⟩

/-! ## Sizes, parts, writing -/

/-- src/drpm_rpm.c:398-408 `rpm_size_full`; `headerSizeof` is stored in an `unsigned`, and the sum is
    returned as a `uint32_t`. -/
def rpmSizeFull {η : Type} (lib : Rpmlib η) (r : RpmSt η) : Nat :=
  (96 + lib.size r.signature % 2^32 + sigPadding (lib.size r.signature % 2^32) + lib.size r.header + r.compSize) % 2^32

/-- src/drpm_rpm.c:411-417 `rpm_size_header`. -/
def rpmSizeHeader {η : Type} (lib : Rpmlib η) (r : RpmSt η) : Nat := lib.size r.header % 2^32

/-- src/drpm_rpm.c:420-450 `rpm_fetch_lead_and_signature` (the length is stored in a `uint32_t`). -/
def fetchLeadsig {η : Type} (lib : Rpmlib η) (r : RpmSt η) : Out Bytes := do
  let s ← exportSignature lib r
  .ok (r.lead ++ s)

/-- src/drpm_rpm.c:485-547 `rpm_write`: the contents of the file and, if a digest is wanted, what it is
    the digest of. -/
def rpmWrite {η : Type} (lib : Rpmlib η) (r : RpmSt η) (archive full : Bool) : Out (Bytes × Bytes) := do
  let s ← exportSignature lib r
  let h ← exportHeader lib r
  .ok (r.lead ++ s ++ h ++ (if archive then r.archive else []),
    (if full then r.lead ++ s else []) ++ h ++ (if archive then r.archive else []))

/-- src/drpm_rpm.c:369-383 `rpm_archive_read_chunk`: the bytes and the new offset (`size_t`). -/
def archiveChunk {η : Type} (r : RpmSt η) (count : Nat) : Out (Bytes × RpmSt η) :=
  if (r.archiveOff + count) % 2^64 > r.archive.length then .err .format
  else do
    let b ← rdBlk r.archive r.archiveOff count
    .ok (b, { r with archiveOff := (r.archiveOff + count) % 2^64 })

/-- src/drpm_rpm.c:386-394 `rpm_archive_rewind`. -/
def archiveRewind {η : Type} (r : RpmSt η) : RpmSt η := { r with archiveOff := 0 }

/-! ## Tags -/

/-- src/drpm_rpm.c:571-574 `rpm_is_sourcerpm`; `RPMTAG_SOURCERPM` is 1044. -/
def isSourceRpm {η : Type} (lib : Rpmlib η) (h : η) : Bool := (lib.getStr h 1044).isNone

/-- src/drpm_rpm.c:577-586 `rpm_get_nevr`. -/
def getNevr {η : Type} (lib : Rpmlib η) (h : η) : Out Bytes :=
  match lib.nevr h with
  | none => .err .memory
  | some b => .ok b

/-- The strings "gzip", "bzip2", "lzip", "lzma", "xz", "zstd" of src/drpm_rpm.c:599-613. -/
def compName : Bytes → Option Comp
  | [103, 122, 105, 112] => some .gzip
  | [98, 122, 105, 112, 50] => some .bzip2
  | [108, 122, 105, 112] => some .lzip
  | [108, 122, 109, 97] => some .lzma
  | [120, 122] => some .xz
  | [122, 115, 116, 100] => some .zstd
  | _ => none

/-- src/drpm_rpm.c:589-616 `rpm_get_comp`; `RPMTAG_PAYLOADCOMPRESSOR` is 1125. -/
def getComp {η : Type} (lib : Rpmlib η) (h : η) : Out Nat :=
  match lib.getStr h 1125 with
  | none => .err .format
  | some s =>
    match compName s with
    | none => .err .format
    | some c => .ok c.code

/-- White space of `isspace` in the C locale. -/
def isSpace (c : UInt8) : Bool := c = 32 || (9 ≤ c && c ≤ 13)

/-- The decimal digits at the start. -/
def digits : Bytes → Nat → Nat
  | [], acc => acc
  | c :: cs, acc => if 48 ≤ c && c ≤ 57 then digits cs (acc * 10 + (c.toNat - 48)) else acc

/-- `atoi` (for numbers that fit into an `int`): white space, a sign, digits. -/
def atoi : Bytes → Int
  | [] => 0
  | c :: cs =>
    if isSpace c then atoi cs
    else if c = 45 then - (digits cs 0 : Int)
    else if c = 43 then digits cs 0
    else digits (c :: cs) 0

/-- src/drpm_rpm.c:619-637 `rpm_get_comp_level`; `RPMTAG_PAYLOADFLAGS` is 1126; the result is stored
    in an `unsigned short`. -/
def getLevel {η : Type} (lib : Rpmlib η) (h : η) : Out Nat :=
  match lib.getStr h 1126 with
  | none => .err .format
  | some s => if s.length > 2 then .err .format else .ok (atoi s % 2^16).toNat

/-- `rpmtdNextUint32` for the first element: NULL if there is none or the type is another one. -/
def firstU32 : TagData → Option Nat
  | .u32 (x :: _) => some x
  | _ => none

/-- src/drpm_rpm.c:640-678 `rpm_get_digest_algo`; `RPMTAG_FILEDIGESTALGO` is 5011. `DIGESTALGO_MD5` is
    0 and `DIGESTALGO_SHA256` is 1 (src/drpm_private.h). -/
def getAlgo {η : Type} (lib : Rpmlib η) (h : η) : Out Nat :=
  match lib.getExt h 5011 with
  | none => .ok 0
  | some d =>
    match firstU32 d with
    | none => .err .format
    | some 1 => .ok 0
    | some 8 => .ok 1
    | some _ => .err .format

/-- "drpm" and "cpio". -/
def fmtDrpm : Bytes := [100, 114, 112, 109]
def fmtCpio : Bytes := [99, 112, 105, 111]

/-- The values of src/drpm_private.h `RPM_PAYLOAD_FORMAT_*`. -/
inductive PayFmt where
  | drpm | cpio | xar
deriving DecidableEq

/-- src/drpm_rpm.c:681-702 `rpm_get_payload_format`; `RPMTAG_PAYLOADFORMAT` is 1124. -/
def getPayFmt {η : Type} (lib : Rpmlib η) (h : η) : Out PayFmt :=
  match lib.getStr h 1124 with
  | none => .err .memory
  | some s =>
    if s = fmtDrpm then .ok .drpm
    else if s = fmtCpio then .ok .cpio
    else if s = [120, 97, 114] then .ok .xar
    else .err .format

/-- src/drpm_rpm.c:162-166: copying the entries; failures of `headerPut` are not looked at. -/
def copyEntries {η : Type} (lib : Rpmlib η) : η → List (Nat × TagData) → η
  | h, [] => h
  | h, (t, d) :: es => copyEntries lib ((lib.put h t d).getD h) es

/-- src/drpm_rpm.c:147-175 `rpm_header_unload_region`. An import that fails gives a NULL pointer, which
    the iterator follows. -/
def unloadRegion {η : Type} (lib : Rpmlib η) (h : η) (tag : Nat) : Out η :=
  match lib.get h tag with
  | none => .ok h
  | some (.bin b) =>
    match lib.imp b with
    | none => .ub
    | some g => .ok (copyEntries lib lib.new (lib.entries g))
  | some _ => .ub

/-- src/drpm_rpm.c:705-721 `rpm_patch_payload_format`; `RPMTAG_HEADERIMMUTABLE` is 63. A reload that
    fails leaves a NULL header behind. -/
def patchFormat {η : Type} (lib : Rpmlib η) (h : η) (fmt : Bytes) : Out η := do
  let h ← unloadRegion lib h 63
  match lib.del h 1124 with
  | none => .err .format
  | some h =>
    match lib.put h 1124 (.str fmt) with
    | none => .err .format
    | some h =>
      match lib.reload h 63 with
      | none => .ub
      | some h => .ok h

/-- `rpmtdCount`. -/
def TagData.count : TagData → Nat
  | .str _ => 1
  | .strs l => l.length
  | .u16 l => l.length
  | .u32 l => l.length
  | .bin b => b.length

/-- The `i`th call of `rpmtdNextString`, `rpmtdNextUint32`, `rpmtdNext` with `rpmtdGetUint16`. -/
def TagData.strAt (d : TagData) (i : Nat) : Option Bytes :=
  match d with
  | .str s => if i = 0 then some s else none
  | .strs l => l[i]?
  | _ => none
def TagData.u32At (d : TagData) (i : Nat) : Option Nat :=
  match d with
  | .u32 l => l[i]?
  | _ => none
def TagData.u16At (d : TagData) (i : Nat) : Option Nat :=
  match d with
  | .u16 l => l[i]?
  | _ => none

/-- The tags of src/drpm_rpm.c:764-777: `RPMTAG_FILENAMES` 5000 (an extension), `FILEFLAGS` 1037,
    `FILEMD5S` 1035, `FILERDEVS` 1033, `FILESIZES` 1028, `FILEMODES` 1030, `FILEVERIFYFLAGS` 1045,
    `FILELINKTOS` 1036, `FILECOLORS` 1140. -/
structure FileTags where
  names : TagData
  flags : TagData
  md5s : TagData
  rdevs : TagData
  sizes : TagData
  modes : TagData
  verify : TagData
  linktos : TagData
  colors : Option TagData

/-- src/drpm_rpm.c:764-777: all but the colours must be there; the colours are only looked for if
    asked for. -/
def fileTags {η : Type} (lib : Rpmlib η) (h : η) (wantColors : Bool) : Option FileTags := do
  let names ← lib.getExt h 5000
  let flags ← lib.get h 1037
  let md5s ← lib.get h 1035
  let rdevs ← lib.get h 1033
  let sizes ← lib.get h 1028
  let modes ← lib.get h 1030
  let verify ← lib.get h 1045
  let linktos ← lib.get h 1036
  some ⟨names, flags, md5s, rdevs, sizes, modes, verify, linktos, if wantColors then lib.get h 1140 else none⟩

/-- src/drpm_rpm.c:779-790. -/
def FileTags.sameCount (t : FileTags) : Bool :=
  t.flags.count = t.names.count && t.md5s.count = t.names.count && t.rdevs.count = t.names.count &&
  t.sizes.count = t.names.count && t.modes.count = t.names.count && t.verify.count = t.names.count &&
  t.linktos.count = t.names.count &&
  match t.colors with
  | none => true
  | some c => c.count = t.names.count

/-- src/drpm_rpm.c:807, 831-832: the colour of a file, 0 if there are none. -/
def FileTags.colorAt (t : FileTags) (i : Nat) : Option Nat :=
  match t.colors with
  | none => some 0
  | some c => c.u32At i

/-- src/drpm_rpm.c:801-832: one file. -/
def FileTags.fileAt (t : FileTags) (i : Nat) : Option FileInfo := do
  let name ← t.names.strAt i
  let flags ← t.flags.u32At i
  let md5 ← t.md5s.strAt i
  let size ← t.sizes.u32At i
  let verify ← t.verify.u32At i
  let linkto ← t.linktos.strAt i
  let color ← t.colorAt i
  let rdev ← t.rdevs.u16At i
  let mode ← t.modes.u16At i
  some ⟨name, flags, md5, rdev, size, mode, verify, linkto, color⟩

/-- src/drpm_rpm.c:800-833: the files from `i` on, `n` are left. -/
def FileTags.filesFrom (t : FileTags) : Nat → Nat → Out (List FileInfo)
  | 0, _ => .ok []
  | n + 1, i =>
    match t.fileAt i with
    | none => .err .format
    | some f => do
      let fs ← t.filesFrom n (i + 1)
      .ok (f :: fs)

/-- src/drpm_rpm.c:724-873 `rpm_get_file_info`: the files and whether there are colours (`none`: the
    variable is left as it is). -/
def getFileInfo {η : Type} (lib : Rpmlib η) (h : η) (wantColors : Bool) : Out (List FileInfo × Option Bool) :=
  match fileTags lib h wantColors with
  | none => .ok ([], none)
  | some t =>
    if t.sameCount = false then .err .format
    else do
      let fs ← t.filesFrom t.names.count 0
      .ok (fs, some t.colors.isSome)

/-! ## Signatures -/

/-- src/drpm_rpm.c:974-998 `rpm_signature_get_md5`; `RPMSIGTAG_MD5` is 1004. `memcpy` takes sixteen
    bytes from whatever the data are in memory. -/
def sigGetMd5 {η : Type} (lib : Rpmlib η) (sig : η) : Out (Option Bytes) :=
  match lib.get sig 1004 with
  | none => .ok none
  | some (.bin b) => if b.length ≠ 16 then .err .format else .ok (some b)
  | some d => if d.count ≠ 16 then .err .format else do
    let b ← rdBlk (lib.raw d) 0 16
    .ok (some b)

/-- src/drpm_rpm.c:908-972: `rpm_signature_empty`, `_set_size`, `_set_md5`, `_reload` as
    src/drpm_write.c:219-222 calls them; `RPMSIGTAG_SIZE` is 1000, `RPMTAG_HEADERSIGNATURES` 62.
    Failures of `headerPut` are not looked at. -/
def newSignature {η : Type} (lib : Rpmlib η) (size : Nat) (md5 : Bytes) : Out η :=
  let s := lib.new
  let s := (lib.put s 1000 (.u32 [size % 2^32])).getD s
  let s := (lib.put s 1004 (.bin md5)).getD s
  match lib.reload s 62 with
  | none => .ub
  | some s => .ok s

/-- src/drpm_rpm.c:550-568 `rpm_replace_lead_and_signature`. -/
def replaceLeadsig {η : Type} (lib : Rpmlib η) (r : RpmSt η) (leadsig : Bytes) : Out (RpmSt η) :=
  if leadsig.length < 112 then .err .prog
  else if slice leadsig 96 4 ≠ headerMagic.take 4 then .err .format
  else
    match lib.imp (leadsig.drop 104) with
    | none => .err .format
    | some s => .ok { r with lead := leadsig.take 96, signature := s }

/-- src/drpm_write.c:211-224: lead, signature and header in front of a standard delta: from the target
    package (its header is marked already) and the compressed data. -/
def standardHead {η : Type} (lib : Rpmlib η) (H : Bytes → Bytes) (r : RpmSt η) (z : Bytes) : Out Bytes := do
  let h ← exportHeader lib r
  let s ← newSignature lib (h.length + z.length) (H (h ++ z))
  let (b, _) ← rpmWrite lib { r with signature := s } false false
  .ok b

/-! ## The parameters of making and applying, from rpmlib -/

/-- The payload format as src/drpm.c:379-384 looks at it. -/
def hasCpio {η : Type} (lib : Rpmlib η) (h : η) : Out Bool := do
  let f ← getPayFmt lib h
  .ok (f = .cpio)

/-- What the callers take from the header and the signature of a package. `wantColors`: only making
    asks for the colours (src/drpm_make.c:335). -/
def pkgOf {η : Type} (lib : Rpmlib η) (sig hdr : η) (wantColors : Bool) : Pkg :=
  { nevr := getNevr lib hdr
    files := do
      let (fs, _) ← getFileInfo lib hdr wantColors
      .ok fs
    algo := getAlgo lib hdr
    sigMd5 := sigGetMd5 lib sig }

/-- Whether there are colours; if the variable is not set, there are no files whose colour matters. -/
def colorsOf {η : Type} (lib : Rpmlib η) (hdr : η) : Bool :=
  match getFileInfo lib hdr true with
  | .ok (_, some c) => c
  | _ => false

/-- A package file as src/drpm.c:358, 369-372, 556 read it (decompressing). Lead, signature and header
    are those that are exported. -/
def rpmOf {η σ : Type} (lib : Rpmlib η) (U : Unpack σ) (wantColors : Bool) (file : Bytes) : Out Rpm := do
  let (r, pos) ← readIntro lib file
  let a ← readPayload U .decompress false (file.drop pos)
  let ls ← fetchLeadsig lib r
  let h ← exportHeader lib r
  .ok { toPkg := pkgOf lib r.signature r.header wantColors
        leadsig := ls
        header := h
        payload := file.drop pos
        archive := a.archive
        comp := (a.comp.getD .none).code
        level := getLevel lib r.header
        isCpio := hasCpio lib r.header
        colors := colorsOf lib r.header
        source := isSourceRpm lib r.header }

/-- src/drpm_read.c:411-430 `readdelta_standard`: where the payload of a standard delta begins, and the
    payload compression in its header. -/
def readdeltaStandard {η σ : Type} (lib : Rpmlib η) (U : Unpack σ) (file : Bytes) : Out (Nat × Nat) := do
  let x ← rpmRead lib (fun b => b) U .dontRead false false file
  let c ← getComp lib x.st.header
  .ok (rpmSizeFull lib x.st, c)

/-- src/drpm.c:653-666: the header of a standard delta with the mark taken away. -/
def unmarkedHeader {η σ : Type} (lib : Rpmlib η) (U : Unpack σ) (file : Bytes) : Out Bytes := do
  let x ← rpmRead lib (fun b => b) U .dontRead false false file
  let h ← patchFormat lib x.st.header fmtCpio
  exportHeader lib { x.st with header := h }

/-- src/drpm_read.c:541-545: the NEVR in the header of a standard delta. -/
def deltaNevr {η σ : Type} (lib : Rpmlib η) (U : Unpack σ) (file : Bytes) : Out Bytes := do
  let x ← rpmRead lib (fun b => b) U .dontRead false false file
  getNevr lib x.st.header

/-- src/drpm.c:573-576. -/
def deltaIsSource {η σ : Type} (lib : Rpmlib η) (U : Unpack σ) (file : Bytes) : Bool :=
  match rpmRead lib (fun b => b) U .dontRead false false file with
  | .ok x => isSourceRpm lib x.st.header
  | _ => false

/-- Everything outside this library: rpmlib, MD5, the decompressors on package files and on the data of
    deltas, the compressors, the limits of `headerImport` on the two counts of a blob, and the files a
    patch list excludes. -/
structure World (η σ τ : Type) where
  lib : Rpmlib η
  H : Bytes → Bytes
  U : Unpack σ
  dec : Decoder
  enc : Nat → Nat → Enc τ
  blobOk : Nat → Nat → Bool
  addComp : Nat → Nat → List Bytes → Out Bytes
  compress : Nat → Nat → Bytes → Out Bytes
  unpatched : Bytes → Bytes → Bool

/-- src/drpm.c:449-451: the marked header of the new package, exported. (Headers are passed on as
    their exported form here.) -/
def markedHeader {η : Type} (lib : Rpmlib η) (header : Bytes) : Out Bytes :=
  match lib.imp (header.drop 8) with
  | none => .err .format
  | some h => do
    let m ← patchFormat lib h fmtDrpm
    exportHeader lib ⟨[], lib.new, m, [], 0, 0⟩

/-- src/drpm_write.c:211-224 for a package with that lead and that header. -/
def deltaHead {η : Type} (lib : Rpmlib η) (H : Bytes → Bytes) (lead header z : Bytes) : Out Bytes :=
  match lib.imp (header.drop 8) with
  | none => .err .format
  | some h => standardHead lib H ⟨lead, lib.new, h, [], 0, 0⟩ z

/-- What `drpm_make` uses; `lead` is the lead of the new package. -/
def World.makeEnv {η σ τ : Type} (w : World η σ τ) (lead : Bytes) : MakeEnv :=
  { H := w.H
    markHeader := markedHeader w.lib
    addComp := w.addComp
    compress := w.compress
    rpmW := deltaHead w.lib w.H lead
    unpatched := w.unpatched }

/-- What `drpm_apply` uses. -/
def World.applyEnv {η σ τ : Type} (w : World η σ τ) : ApplyEnv τ :=
  { H := w.H
    dec := w.dec
    rpmHead := readdeltaStandard w.lib w.U
    tgtSource := deltaIsSource w.lib w.U
    tgtHeader := unmarkedHeader w.lib w.U
    blobOk := w.blobOk
    importSig := fun b => (w.lib.imp b).map (sigGetMd5 w.lib)
    exportSig := fun ls => do
      let r ← replaceLeadsig w.lib ⟨[], w.lib.new, w.lib.new, [], 0, 0⟩ ls
      fetchLeadsig w.lib r
    enc := w.enc }

/-- `drpm_make` on two package files. -/
def makeFiles {η σ τ : Type} (w : World η σ τ) (o : Opts Bytes) (old new : Bytes) : Out Bytes :=
  drpmMake (w.makeEnv (new.take 96)) o (some (rpmOf w.lib w.U true old)) (some (rpmOf w.lib w.U true new))

/-- `drpm_apply` on a package file and a delta. -/
def applyFiles {η σ τ : Type} (w : World η σ τ) (old delta : Bytes) (cleanup : Nat) : Out Unit × Left :=
  drpmApply w.applyEnv ⟨some (.ok delta), true, true, .rpm (rpmOf w.lib w.U false old)⟩ cleanup

/-- `drpm_apply` on a delta, the headers in the database and the installed files. -/
def applyInstalled {η σ τ : Type} (w : World η σ τ) (db : Bytes → Option Bytes → Bytes → Bytes → Option η) (disk : Disk)
    (delta : Bytes) (cleanup : Nat) : Out Unit × Left :=
  drpmApply w.applyEnv ⟨some (.ok delta), true, true,
    .installed (fun n e v r => (db n e v r).map (fun h => pkgOf w.lib w.lib.new h false)) disk⟩ cleanup

/-- `drpm_check` on a delta, the headers in the database and the installed files. -/
def checkDeltaFile {η σ τ : Type} (w : World η σ τ) (db : Bytes → Option Bytes → Bytes → Bytes → Option η) (sys : Sys)
    (delta : Bytes) (mode : Int) : Out Unit :=
  drpmCheck sys w.H (fun n e v r => (db n e v r).map (fun h => pkgOf w.lib w.lib.new h false)) w.dec (readdeltaStandard w.lib w.U)
    delta mode

/-- `drpm_check_sequence` with the file of the old package (src/drpm.c:893, read up to its header only), or
    with the database. -/
def checkSeqFile {η σ τ : Type} (w : World η σ τ) (db : Bytes → Option Bytes → Bytes → Bytes → Option η) (sys : Sys)
    (old : Option Bytes) (id : Bytes) (mode : Int) : Out Unit :=
  drpmCheckSequence sys w.H (fun n e v r => (db n e v r).map (fun h => pkgOf w.lib w.lib.new h false))
    (old.map (fun file => do
      let x ← rpmRead w.lib (fun b => b) w.U .dontRead false false file
      .ok (pkgOf w.lib x.st.signature x.st.header false))) id mode

end Drpm
