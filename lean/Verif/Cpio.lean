import Verif.Seq
import Verif.Blocks
/-!
# CPIO archives: the altered archive made by src/drpm_make.c, the file order expanded by
src/drpm_apply.c, and the old RPM of a standard delta read block by block by src/drpm_block.c

C strings are byte lists without their terminating NUL. `malloc` does not fail and MD5 is a
parameter `H` applied to the bytes fed to it.
-/

namespace Drpm

/-! ## File metadata -/

/-- `struct file_info`, src/drpm_private.h:320-330, as filled by `rpm_get_file_info`
    (src/drpm_rpm.c:724-873): `flags`, `size`, `verify`, `color` are 32-bit, `rdev` and `mode`
    16-bit values; `name`, `md5` and `linkto` are strings. -/
structure FileInfo where
  name : Bytes
  flags : Nat
  md5 : Bytes
  rdev : Nat
  size : Nat
  mode : Nat
  verify : Nat
  linkto : Bytes
  color : Nat
deriving DecidableEq, Repr

/-- `S_ISREG`, `S_ISLNK`, `S_ISBLK`, `S_ISCHR` of <sys/stat.h>: tests on `mode & S_IFMT`. -/
def isReg (f : FileInfo) : Bool := f.mode &&& 0o170000 == 0o100000
def isLnk (f : FileInfo) : Bool := f.mode &&& 0o170000 == 0o120000
def isBlk (f : FileInfo) : Bool := f.mode &&& 0o170000 == 0o060000
def isChr (f : FileInfo) : Bool := f.mode &&& 0o170000 == 0o020000

/-- `major`, `minor` and `makedev` of <sys/sysmacros.h> (glibc), applied to a 64-bit `dev_t`. -/
def devMajor (dev : Nat) : Nat := ((dev >>> 8) &&& 0xfff) ||| ((dev >>> 32) &&& 0xfffff000)
def devMinor (dev : Nat) : Nat := (dev &&& 0xff) ||| ((dev >>> 12) &&& 0xffffff00)
def makeDev (maj min : Nat) : Nat :=
  ((maj &&& 0xfff) <<< 8) ||| ((maj &&& 0xfffff000) <<< 32) ||| (min &&& 0xff) ||| ((min &&& 0xffffff00) <<< 12)

/-- The name without a leading slash: src/drpm_make.c:397-398, src/drpm_apply.c:191-193,
    src/drpm_block.c:537-540 and 806-807. -/
def relName (f : FileInfo) : Bytes :=
  match f.name with
  | 47 :: rest => rest
  | n => n

/-! ## CPIO headers -/

/-- `struct cpio_header`, src/drpm_private.h:265-278. -/
structure CpioHdr where
  ino : Nat
  mode : Nat
  uid : Nat
  gid : Nat
  nlink : Nat
  mtime : Nat
  filesize : Nat
  devmajor : Nat
  devminor : Nat
  rdevmajor : Nat
  rdevminor : Nat
  namesize : Nat
deriving DecidableEq, Repr

/-- `cpio_hdr_init`, src/drpm_make.c:286. -/
def CpioHdr.zero : CpioHdr := ⟨0, 0, 0, 0, 0, 0, 0, 0, 0, 0, 0, 0⟩

/-- `CPIO_MAGIC`, src/drpm_private.h:62: "070701". -/
def cpioMagic : Bytes := [48, 55, 48, 55, 48, 49]

/-- `CPIO_TRAILER`, src/drpm_private.h:63: "TRAILER!!!". -/
def cpioTrailer : Bytes := [84, 82, 65, 73, 76, 69, 82, 33, 33, 33]

/-- `sprintf` with "%0<k>x" of a value below `16 ^ k`: `k` lower-case hexadecimal digits. -/
def hexPad : Nat → Nat → Bytes
  | 0, _ => []
  | k + 1, n => hexPad k (n / 16) ++ [hexDigits.getD (n % 16) 0]

/-- src/drpm_make.c:244-253 `cpio_header_write` (the terminating NUL of `sprintf` is not part of
    the 110 bytes used). -/
def cpioHeaderWrite (h : CpioHdr) : Bytes :=
  cpioMagic ++ hexPad 8 h.ino ++ hexPad 8 h.mode ++ hexPad 8 h.uid ++ hexPad 8 h.gid ++
  hexPad 8 h.nlink ++ hexPad 8 h.mtime ++ hexPad 8 h.filesize ++ hexPad 8 h.devmajor ++
  hexPad 8 h.devminor ++ hexPad 8 h.rdevmajor ++ hexPad 8 h.rdevminor ++ hexPad 8 h.namesize ++
  hexPad 8 0

/-- `parse_hexnum((buffer += 8), 8)` for field number `i`, src/drpm_make.c:213-224. -/
def hexField (buf : Bytes) (i : Nat) : Out Nat := do
  let s ← rdBlk buf (6 + 8 * i) 8
  match parseHexnum s with
  | some v => .ok v
  | none => .err .format

/-- src/drpm_make.c:196-241 `cpio_header_read`; the assignments truncate to the field widths. -/
def cpioHeaderRead (buf : Bytes) : Out CpioHdr :=
  if buf.take 6 ≠ cpioMagic then .err .format else do
  let ino ← hexField buf 0
  let mode ← hexField buf 1
  let uid ← hexField buf 2
  let gid ← hexField buf 3
  let nlink ← hexField buf 4
  let mtime ← hexField buf 5
  let filesize ← hexField buf 6
  let devmajor ← hexField buf 7
  let devminor ← hexField buf 8
  let rdevmajor ← hexField buf 9
  let rdevminor ← hexField buf 10
  let namesize ← hexField buf 11
  .ok { ino := ino % 2^16, mode := mode % 2^16, uid := uid % 2^16, gid := gid % 2^16,
        nlink := nlink % 2^16, mtime := mtime % 2^32, filesize := filesize % 2^32,
        devmajor := devmajor % 2^8, devminor := devminor % 2^8, rdevmajor := rdevmajor % 2^8,
        rdevminor := rdevminor % 2^8, namesize := namesize % 2^16 }

/-- The C string at the start of a buffer. -/
def cstr (b : Bytes) : Bytes := b.takeWhile (· != 0)

/-- src/drpm_make.c:345-369 and src/drpm_block.c:772-793: reading the header and the name of the
    next entry. `name[c_namesize - 1] = '\0'` ends the name; with `c_namesize` zero it writes
    before the buffer. -/
def readHead (archive : Bytes) (off : Nat) : Out (CpioHdr × Bytes × Nat) := do
  let (hb, off) ← archiveRead archive off 110
  let h ← cpioHeaderRead hb
  let (nb, off) ← archiveRead archive off h.namesize
  if h.namesize = 0 then .ub else .ok (h, cstr (nb.take (h.namesize - 1)), off)

/-- src/drpm_make.c:375-376, src/drpm_block.c:800-801: dropping "./". -/
def stripDot (name : Bytes) : Bytes := if name.take 2 = [46, 47] then name.drop 2 else name

/-! ## Making the altered archive -/

/-- The archive under construction: `cpio`, with `alloc` bytes allocated. -/
structure CpioBuf where
  data : Bytes
  alloc : Nat

/-- src/drpm_make.c:170-193 `cpio_extend` (`CPIO_ALLOC_SIZE` is 65536). Writing beyond the
    allocation is undefined. -/
def cpioExtend (c : CpioBuf) (piece : Bytes) : Out CpioBuf :=
  let newLen := (c.data.length + piece.length) % 2^64
  let oldPadding := padding c.data.length 65536
  let newPadding := padding newLen 65536
  if sumOverflows64 c.data.length piece.length ∨ sumOverflows64 newLen newPadding then .err .overflow
  else
    let alloc := if piece.length > oldPadding then newLen + newPadding else c.alloc
    if c.data.length + piece.length ≤ alloc then .ok ⟨c.data ++ piece, alloc⟩ else .ub

/-- `strstr(hay, needle) != NULL`. -/
def hasInfix (needle : Bytes) : Bytes → Bool
  | [] => needle.isEmpty
  | c :: rest => (needle.isPrefixOf (c :: rest)) || hasInfix needle rest

/-- `IN_MULTILIB_DIR`, src/drpm_make.c:42-44: "lib/", "lib32/", "lib64/". -/
def inMultilibDir (path : Bytes) : Bool :=
  hasInfix [108, 105, 98, 47] path || hasInfix [108, 105, 98, 51, 50, 47] path ||
  hasInfix [108, 105, 98, 54, 52, 47] path

/-- What `parse_cpio_from_rpm_filedata` gets from the old RPM: the uncompressed archive, the file
    list, whether it has colours, the digest algorithm (0: MD5, 1: SHA256), and whether offset
    adjustments are wanted. `unpatched name md5` is `patches != NULL && is_unpatched(...)`. -/
structure MakeIn where
  archive : Bytes
  files : List FileInfo
  colors : Bool
  algo : Nat
  offadj : Bool
  unpatched : Bytes → Bytes → Bool

/-- src/drpm_make.c:408-415: reasons to leave out a regular file (`RPMFILE_CONFIG` 1,
    `RPMFILE_MISSINGOK` 8, `RPMFILE_GHOST` 64, `RPMVERIFY_MD5` 1, `RPMVERIFY_FILESIZE` 2,
    `RPMFC_ELF32` 1, `RPMFC_ELF64` 2). -/
def skipReg (m : MakeIn) (f : FileInfo) (name : Bytes) (cFilesize : Nat) : Bool :=
  cFilesize != f.size || (f.flags &&& 73) != 0 || (f.verify &&& 1) == 0 || (f.verify &&& 2) == 0 ||
  (m.colors && (f.color &&& 3) != 0 && !inMultilibDir name)

/-- src/drpm_make.c:396-423: looking up the file (the first one of that name) and deciding whether
    the entry is kept. -/
def keepFile (m : MakeIn) (name : Bytes) (cFilesize : Nat) : Option (Nat × FileInfo) :=
  match m.files.findIdx? (fun f => name == relName f) with
  | none => none
  | some i =>
    match m.files[i]? with
    | none => none
    | some f =>
      if isReg f && m.unpatched name f.md5 then none
      else if isReg f && skipReg m f name cFilesize then none
      else some (i, f)

/-- src/drpm_make.c:404-428 and src/drpm_block.c:542-556: the header of the altered entry for a
    name of `nameLen` bytes, including its NUL. -/
def entryHdr (f : FileInfo) (nameLen : Nat) : CpioHdr :=
  { CpioHdr.zero with
    filesize := if isReg f then f.size else if isLnk f then f.linkto.length % 2^32 else 0
    rdevmajor := if isBlk f || isChr f then devMajor f.rdev % 2^8 else 0
    rdevminor := if isBlk f || isChr f then devMinor f.rdev % 2^8 else 0
    mode := f.mode
    namesize := (nameLen + 2) % 2^16
    nlink := 1 }

def zeros (n : Nat) : Bytes := List.replicate n 0

/-- The local variables of the loop, src/drpm_make.c:282-311. -/
structure MkSt where
  arcOff : Nat
  cpio : CpioBuf
  cpioPos : Nat
  lenPrev : Nat
  offadjs : List (Nat × Nat)
  md5 : Bytes
  seq : SeqSt

/-- src/drpm_make.c:433-470: the offset adjustments for one entry. `len` is `cpio_len`; `prev` is
    `cpio_len_prev` and `pos` is `cpio_pos_before_hdrname`. The fuel given by the caller always
    suffices (`offadjLoop_spec`). -/
def offadjLoop (len : Nat) : Nat → Nat → Nat → List (Nat × Nat) → Out (List (Nat × Nat) × Nat)
  | 0, _, _, _ => .loop
  | fuel + 1, prev, pos, adjs =>
    let gap := (len + 2^64 - prev) % 2^64 % 2^32
    if gap ≥ 2^31 then offadjLoop len fuel ((prev + (2^31 - 1)) % 2^64) pos (adjs ++ [(2^31 - 1, 0)])
    else if pos < len then
      if len - pos ≥ 2^31 then
        offadjLoop len fuel len (pos + (2^31 - 1)) (adjs ++ [(gap, twosComplement32 (2^31 - 1))])
      else .ok (adjs ++ [(gap, twosComplement32 (len - pos))], len)
    else
      if pos - len ≥ 2^31 then
        offadjLoop len fuel len (pos - (2^31 - 1)) (adjs ++ [(gap, 2^31 - 1)])
      else .ok (adjs ++ [(gap, pos - len)], len)

/-- src/drpm_make.c:431-471: adjustments are made if wanted and if the positions differ. -/
def adjust (m : MakeIn) (st : MkSt) (posBefore : Nat) : Out (List (Nat × Nat) × Nat) :=
  if st.cpio.data.length ≠ posBefore ∧ m.offadj then
    offadjLoop st.cpio.data.length (st.cpio.data.length + posBefore + 2) st.lenPrev posBefore st.offadjs
  else .ok (st.offadjs, st.lenPrev)

/-- A digest string is parsed into the array `digest` of 32 bytes (src/drpm_make.c:280,
    src/drpm_apply.c:73). `parse_hex` (src/drpm_utils.c:114-128) writes a byte for every two digits
    until it meets something else, before anyone looks at the length: undefined after 32 bytes. -/
def digestOverruns (s : Bytes) : Bool := decide (s.length / 2 > 32) && (parseHex (s.take 66)).isSome

/-- src/drpm_make.c:503-525 and src/drpm_apply.c:208-230: the digest of a file, parsed. An unknown
    algorithm contributes nothing. -/
def fileDigest (algo : Nat) (f : FileInfo) : Out Bytes :=
  if algo = 0 then
    if digestOverruns f.md5 then .ub else
    match parseMd5 f.md5 with
    | some d => .ok d
    | none => .err .format
  else if algo = 1 then
    if digestOverruns f.md5 then .ub else
    match parseSha256 f.md5 with
    | some d => .ok d
    | none => .err .format
  else .ok []

/-- src/drpm_make.c:495-526: link target or digest. -/
def emitBody (m : MakeIn) (f : FileInfo) (hdr : CpioHdr) (c : CpioBuf) (md5 : Bytes) : Out (CpioBuf × Bytes) :=
  if isLnk f then do
    let l ← rdBlk f.linkto 0 hdr.filesize
    let c ← cpioExtend c l
    let c ← cpioExtend c (zeros (cpioPadding hdr.filesize))
    let l1 ← rdBlk (f.linkto ++ [0]) 0 (hdr.filesize + 1)
    .ok (c, md5 ++ l1)
  else if isReg f && hdr.filesize != 0 then do
    let d ← fileDigest m.algo f
    .ok (c, md5 ++ d)
  else .ok (c, md5)

/-- src/drpm_make.c:425-531: adding a kept entry to the altered archive, to the MD5 and to the
    sequence. -/
def emitEntry (m : MakeIn) (st : MkSt) (idx : Nat) (f : FileInfo) (name : Bytes) (hdrnameLen posBefore : Nat) :
    Out MkSt := do
  let hdr := entryHdr f (name.length + 1)
  let (offadjs, lenPrev) ← adjust m st posBefore
  let cpioPos := if st.cpio.data.length ≠ posBefore then st.cpio.data.length + hdrnameLen else st.cpioPos
  let c ← cpioExtend st.cpio (cpioHeaderWrite hdr)
  let c ← cpioExtend c [46, 47]
  let c ← cpioExtend c (name ++ [0])
  let c ← cpioExtend c (zeros (cpioPadding (110 + hdr.namesize)))
  let md5 := st.md5 ++ (name ++ [0]) ++ createBe32 hdr.mode ++ createBe32 hdr.filesize ++
    createBe32 (makeDev hdr.rdevmajor hdr.rdevminor)
  let (c, md5) ← emitBody m f hdr c md5
  let seq ← seqAdd st.seq idx
  .ok { st with cpio := c, cpioPos := cpioPos, lenPrev := lenPrev, offadjs := offadjs, md5 := md5, seq := seq }

/-- `cpio_extend` if the entry has its data copied: src/drpm_make.c:542-544 and 552-554. -/
def extendIf (copy : Bool) (c : CpioBuf) (piece : Bytes) : Out CpioBuf :=
  if copy then cpioExtend c piece else .ok c

/-- src/drpm_make.c:535-546: reading the file data in pieces of 4096 bytes (`BUFFER_SIZE`). -/
def copyData (archive : Bytes) (copy : Bool) : Nat → Nat → MkSt → Out MkSt
  | 0, _, _ => .loop
  | fuel + 1, left, st =>
    if left > 0 then do
      let n := min left 4096
      let (b, arcOff) ← archiveRead archive st.arcOff n
      let c ← extendIf copy st.cpio b
      copyData archive copy fuel (left - n) { st with arcOff := arcOff, cpioPos := st.cpioPos + n, cpio := c }
    else .ok st

/-- src/drpm_make.c:548-555: the padding after the data. -/
def copyPadding (archive : Bytes) (copy : Bool) (cFilesize : Nat) (st : MkSt) : Out MkSt :=
  if cpioPadding cFilesize > 0 then do
    let (_, arcOff) ← archiveRead archive st.arcOff (cpioPadding cFilesize)
    let c ← extendIf copy st.cpio (zeros (cpioPadding cFilesize))
    .ok { st with arcOff := arcOff, cpioPos := st.cpioPos + cpioPadding cFilesize, cpio := c }
  else .ok st

/-- src/drpm_make.c:425: `if (!skip)`. -/
def emitKept (m : MakeIn) (st : MkSt) (kept : Option (Nat × FileInfo)) (name : Bytes) (hdrnameLen posBefore : Nat) :
    Out MkSt :=
  match kept with
  | some (idx, f) => emitEntry m st idx f name hdrnameLen posBefore
  | none => .ok st

/-- src/drpm_make.c:542: `!S_ISLNK(file.mode) && !skip`. -/
def copied (kept : Option (Nat × FileInfo)) : Bool :=
  match kept with
  | some (_, f) => !isLnk f
  | none => false

/-- src/drpm_make.c:378-555: one entry that is not the trailer. -/
def mkEntry (m : MakeIn) (st : MkSt) (h : CpioHdr) (name : Bytes) (off : Nat) : Out MkSt := do
  let name := stripDot name
  let pad := cpioPadding (110 + h.namesize)
  let (_, off) ← archiveRead m.archive off pad
  let hdrnameLen := 110 + h.namesize + pad
  let kept := keepFile m name h.filesize
  let st ← emitKept m { st with arcOff := off, cpioPos := st.cpioPos + hdrnameLen } kept name hdrnameLen st.cpioPos
  let st ← copyData m.archive (copied kept) (h.filesize + 1) h.filesize st
  copyPadding m.archive (copied kept) h.filesize st

/-- src/drpm_make.c:343-556: the loop over the entries. Every entry takes at least 110 bytes of
    the archive. -/
def mkLoop (m : MakeIn) : Nat → MkSt → Out MkSt
  | 0, _ => .loop
  | fuel + 1, st => do
    let (h, name, off) ← readHead m.archive st.arcOff
    if name = cpioTrailer then .ok { st with arcOff := off } else do
    let st ← mkEntry m st h name off
    mkLoop m fuel st

/-- The header of the trailer, src/drpm_make.c:560-562 and src/drpm_block.c:527-528. -/
def trailerHdr : CpioHdr := { CpioHdr.zero with nlink := 1, namesize := 11 }

/-- The result of `parse_cpio_from_rpm_filedata`. -/
structure Made where
  cpio : Bytes
  sequence : Bytes
  offadjs : List (Nat × Nat)

/-- src/drpm_make.c:558-598: the trailer and the sequence (`sequence_len` is 32-bit; a sequence
    that does not fit would overflow its buffer). -/
def mkFinish (H : Bytes → Bytes) (st : MkSt) : Out Made := do
  let c ← cpioExtend st.cpio (cpioHeaderWrite trailerHdr)
  let c ← cpioExtend c (cpioTrailer ++ [0])
  let c ← cpioExtend c (zeros (cpioPadding (110 + trailerHdr.namesize)))
  let s ← seqFinal st.seq
  if 16 + s.length ≥ 2^32 then .ub else
  .ok ⟨c.data, H st.md5 ++ s, st.offadjs⟩

/-- src/drpm_make.c:265-619 `parse_cpio_from_rpm_filedata`. -/
def makeCpio (H : Bytes → Bytes) (m : MakeIn) : Out Made := do
  let st ← mkLoop m (m.archive.length + 1) ⟨0, ⟨[], 0⟩, 0, 0, [], [], SeqSt.init⟩
  mkFinish H st

/-! ## Expanding the sequence -/

/-- `struct cpio_file`, src/drpm_private.h:258-263; `none` is the index -1 of the trailer. -/
structure CpioFile where
  index : Option Nat
  headerLen : Nat
  contentLen : Nat
  offset : Nat
deriving DecidableEq, Repr

/-- src/drpm_apply.c:179-184. -/
def seqFilesize (f : FileInfo) : Nat :=
  if isReg f then f.size else if isLnk f then f.linkto.length % 2^32 else 0

/-- src/drpm_apply.c:186-189. -/
def seqRdev (f : FileInfo) : Nat := if isBlk f || isChr f then f.rdev else 0

/-- src/drpm_apply.c:208-233: the digest of a regular file that is not empty, which may be checked
    against the installed file (`check`, name, digest, size). -/
def seqDigest (algo : Nat) (check : Bytes → Bytes → Nat → Out Unit) (f : FileInfo) : Out Bytes := do
  let d ← fileDigest algo f
  let _ ← check f.name d (seqFilesize f)
  .ok d

/-- src/drpm_apply.c:203-233. -/
def seqBody (algo : Nat) (check : Bytes → Bytes → Nat → Out Unit) (f : FileInfo) : Out Bytes :=
  if isLnk f then .ok (f.linkto ++ [0])
  else if isReg f && decide (seqFilesize f > 0) then seqDigest algo check f
  else .ok []

/-- src/drpm_apply.c:195-233: the MD5 input of one file. -/
def seqMd5 (algo : Nat) (check : Bytes → Bytes → Nat → Out Unit) (f : FileInfo) : Out Bytes := do
  let b ← seqBody algo check f
  .ok ((relName f ++ [0]) ++ createBe32 f.mode ++ createBe32 (seqFilesize f) ++ createBe32 (seqRdev f) ++ b)

/-- src/drpm_apply.c:236-244: the place of one file; `filesize + CPIO_PADDING(filesize)` is a
    32-bit sum. -/
def seqPlace (i : Nat) (f : FileInfo) (off : Nat) : CpioFile :=
  let headerLen := 110 + (relName f).length + 3
  { index := some i
    headerLen := headerLen + cpioPadding headerLen
    contentLen := (seqFilesize f + cpioPadding (seqFilesize f)) % 2^32
    offset := off }

/-- src/drpm_apply.c:176-246: the loop over the positions. -/
def seqLoop (files : List FileInfo) (algo : Nat) (check : Bytes → Bytes → Nat → Out Unit) :
    List Nat → Bytes → List CpioFile → Nat → Out (Bytes × List CpioFile × Nat)
  | [], md5, out, off => .ok (md5, out, off)
  | i :: rest, md5, out, off => do
    let f ← rd files i
    let b ← seqMd5 algo check f
    let p := seqPlace i f off
    seqLoop files algo check rest (md5 ++ b) (out ++ [p]) ((off + (p.headerLen + p.contentLen)) % 2^64)

/-- src/drpm_apply.c:258-270: the place of the trailer. -/
def trailerPlace (off : Nat) : CpioFile := ⟨none, 121 + cpioPadding 121, 0, off⟩

/-- src/drpm_apply.c:61-281 `expand_sequence`. -/
def expandSeq (H : Bytes → Bytes) (files : List FileInfo) (algo : Nat) (check : Bytes → Bytes → Nat → Out Unit)
    (sequence : Bytes) : Out (List CpioFile) :=
  if sequence.length < 16 then .err .prog else do
  let positions ← decodeSeq files.length (sequence.drop 16)
  let (md5, out, off) ← seqLoop files algo check positions [] [] 0
  if sequence.take 16 ≠ H md5 then .err .mismatch else
  .ok (out ++ [trailerPlace off])

/-- `DRPM_CHECK_NONE`: src/drpm_apply.c:93-95. -/
def noCheck : Bytes → Bytes → Nat → Out Unit := fun _ _ _ => .ok ()

/-! ## Reading the old RPM of a standard delta -/

/-- The position in the old RPM (`struct blocks`, src/drpm_block.c:72-113): `pos` is
    `cpio_files_index + 1`, `hdr` the contents of `cpio_buffer`, `linkto` the rest of the link
    target. -/
structure StdSrc where
  pos : Nat
  left : Nat
  arcOff : Nat
  hdr : Bytes
  linkto : Bytes
deriving DecidableEq

/-- What the source reads from: `old_rpm`'s archive, `files` and `cpio_files`. -/
structure StdIn where
  archive : Bytes
  files : List FileInfo
  places : List CpioFile

/-- Writing `b` into `a` at position `i`. -/
def overwrite (a : Bytes) (i : Nat) (b : Bytes) : Bytes := a.take i ++ b ++ a.drop (i + b.length)

/-- src/drpm_block.c:519-563 `fill_cpio_header`: the contents of `cpio_buffer`. What the buffer
    holds after the bytes written here is left over from earlier headers and treated as
    undefined. -/
def fillHeader : Option FileInfo → Bytes
  | none => cpioHeaderWrite trailerHdr ++ (cpioTrailer ++ [0]) ++ zeros (cpioPadding (110 + trailerHdr.namesize))
  | some f =>
    let hdr := entryHdr f ((relName f).length + 1)
    overwrite (cpioHeaderWrite hdr ++ [46, 47] ++ (relName f ++ [0])) (110 + hdr.namesize)
      (zeros (cpioPadding (110 + hdr.namesize)))

/-- src/drpm_block.c:708-717: the part of the entry that is in the header buffer. -/
def stdHead (cpio : CpioFile) (s : StdSrc) (len : Nat) : Out (Bytes × StdSrc) :=
  if s.left > cpio.contentLen then do
    let n := min (s.left - cpio.contentLen) len
    let b ← rdBlk s.hdr (cpio.headerLen + cpio.contentLen - s.left) n
    .ok (b, { s with left := s.left - n })
  else .ok ([], s)

/-- `strncpy(buf, str, n)`: at most `n` bytes, filled up with zeros. -/
def strncpy (str : Bytes) (n : Nat) : Bytes := str.take n ++ zeros (n - str.length)

/-- src/drpm_block.c:719-728: `n` bytes of content, from the link target or from the archive. -/
def stdContent (r : StdIn) (cpio : CpioFile) (s : StdSrc) (n : Nat) : Out (Bytes × StdSrc) :=
  match cpio.index with
  | none => .ub
  | some i => do
    let f ← rd r.files i
    if isLnk f then
      .ok (strncpy s.linkto n, { s with linkto := s.linkto.drop (min s.linkto.length n), left := s.left - n })
    else do
      let (b, arcOff) ← archiveRead r.archive s.arcOff n
      .ok (b, { s with arcOff := arcOff, left := s.left - n })

/-- src/drpm_block.c:718: `if (len > 0 && left > 0)`. -/
def stdBody (r : StdIn) (cpio : CpioFile) (s : StdSrc) (len : Nat) : Out (Bytes × StdSrc) :=
  if len > 0 ∧ s.left > 0 then stdContent r cpio s (min len s.left) else .ok ([], s)

/-- src/drpm_block.c:706-730: what is left of the current entry, up to `len` bytes. -/
def stdEmit (r : StdIn) (s : StdSrc) (len : Nat) : Out (Bytes × StdSrc) :=
  if s.left > 0 then do
    let cpio ← rd r.places (s.pos - 1)
    let (b1, s) ← stdHead cpio s len
    let (b2, s) ← stdBody r cpio s (len - b1.length)
    .ok (b1 ++ b2, s)
  else .ok ([], s)

/-- src/drpm_block.c:732-733: the trailer was reached. -/
def stdAtEnd (r : StdIn) (s : StdSrc) : Out Bool :=
  if s.pos = 0 then .ok false else do
  let cpio ← rd r.places (s.pos - 1)
  .ok cpio.index.isNone

/-- src/drpm_block.c:771-814: looking for the entry of that name. Returns the padded file size. -/
def stdScan (archive : Bytes) (target : Bytes) : Nat → Nat → Out (Nat × Nat)
  | 0, _ => .loop
  | fuel + 1, off => do
    let (h, name, off) ← readHead archive off
    let size := h.filesize + cpioPadding h.filesize
    if name = cpioTrailer then .err .format else do
    let (_, off) ← archiveRead archive off (cpioPadding (110 + h.namesize))
    if stripDot name = target then .ok (size, off) else do
    let (_, off) ← archiveRead archive off size
    stdScan archive target fuel off

/-- src/drpm_block.c:820-826: the data of anything but a regular file is passed over; the size of
    a regular file must be the expected one. -/
def stdPass (r : StdIn) (f : FileInfo) (cpio : CpioFile) (size off : Nat) : Out Nat :=
  if !isReg f then do
    let (_, off) ← archiveRead r.archive off size
    .ok off
  else if size ≠ cpio.contentLen then .err .mismatch
  else .ok off

/-- src/drpm_block.c:761-828: going to the next entry. -/
def stdNext (r : StdIn) (s : StdSrc) : Out StdSrc := do
  let cpio ← rd r.places s.pos
  match cpio.index with
  | none => .ok { s with pos := s.pos + 1, hdr := fillHeader none, left := cpio.headerLen + cpio.contentLen }
  | some i => do
    let f ← rd r.files i
    let (size, off) ← stdScan r.archive (relName f) (r.archive.length + 1) s.arcOff
    let off ← stdPass r f cpio size off
    .ok { pos := s.pos + 1, left := cpio.headerLen + cpio.contentLen, arcOff := off,
          hdr := fillHeader (some f), linkto := if isLnk f then f.linkto else s.linkto }

/-- src/drpm_block.c:705-829: filling one block, `len` bytes of which are missing. Every round but
    the first adds at least one byte. -/
def stdLoop (r : StdIn) : Nat → StdSrc → Nat → Bytes → Out (Bytes × StdSrc)
  | 0, _, _, _ => .loop
  | fuel + 1, s, len, acc => do
    let (b, s) ← stdEmit r s len
    let len := len - b.length
    let e ← stdAtEnd r s
    if len > 0 ∧ e then .ok (acc ++ b ++ zeros len, s)
    else if len = 0 then .ok (acc ++ b, s)
    else do
      let s ← stdNext r s
      stdLoop r fuel s len (acc ++ b)

/-- src/drpm_block.c:675-837 `fillblock_rpm_standard`, one block; what is done with the block is
    `fillSeq` of the cache. -/
def stdStep (r : StdIn) (s : StdSrc) : Out (Bytes × StdSrc) :=
  stdLoop r (blockSize + 2) s blockSize []

/-- src/drpm_block.c:139-231 `blocks_create`: the position at the beginning
    (`cpio_files_index = -1`). -/
def StdSrc.init : StdSrc := ⟨0, 0, 0, [], []⟩

end Drpm
