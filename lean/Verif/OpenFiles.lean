import Verif.Cpio
import Verif.Prelink
/-!
# Reading the altered archive from installed files: src/drpm_block.c:565-668, 913-1017

The filesystem is a function from names to contents. `struct open_file` objects are numbered; the
list of open files is a list of these numbers, oldest first. `open`, `fstat`, `lseek`, `pread` and
`read` fail only as described here; `malloc` never fails. The function for prelinked files
(src/drpm_block.c:1020-1211 `fillblock_prelink`) is in `Verif/PrelinkFill.lean`.
-/

namespace Drpm

/-- What is outside the library: `get` are the contents of the installed files (`none`: `open`
    fails), `undo` is what `prelink_open` (src/drpm_apply.c:623-660, which runs `prelink -u`) makes
    available for a file. -/
structure Disk where
  get : Bytes → Option Bytes
  undo : Bytes → Out Bytes

/-- `struct open_file`, src/drpm_block.c:50-56; `data` are the contents of the file behind the
    descriptor and `pos` the position of the descriptor. -/
structure OpenFile where
  name : Bytes
  data : Bytes
  offset : Nat
  pos : Nat
deriving DecidableEq, Repr

/-- The part of `struct blocks` (src/drpm_block.c:72-113) used for installed files: the archive entry
    whose header is in the buffer (`cpio_files_index`, `none` is -1), the buffer, `linkto`, the
    objects, how many there are, the list from head to tail, and the table `open_files`. -/
structure FsSt where
  idx : Option Nat
  hdr : Bytes
  linkto : Bytes
  slot : Nat → OpenFile
  count : Nat
  order : List Nat
  tab : Nat → Option Nat

/-- The state set up by `blocks_create`, src/drpm_block.c:180-191. -/
def FsSt.init : FsSt := ⟨none, [], [], fun _ => ⟨[], [], 0, 0⟩, 0, [], fun _ => none⟩

/-- The constants of a run. -/
structure FsIn where
  disk : Disk
  files : List FileInfo
  places : List CpioFile

/-- `MAX_OPEN_FILES`, src/drpm_block.c:37. -/
def maxOpen : Nat := 50

/-- src/drpm_block.c:589-598: what to do about a file whose size is not the expected one. -/
def openedPrelinked (f : FileInfo) (data : Bytes) : Out Bool :=
  if data.length ≠ f.size then isPrelinked data (data.take 128) else .ok false

/-- src/drpm_block.c:600-633: a new object, or the oldest one (whose descriptor is closed), goes to
    the end of the list; `open_files[index]` points to it. Nothing is done about the entry of the
    table that points to the object already. -/
def addOpen (s : FsSt) (index : Nat) (name data : Bytes) : Out FsSt :=
  if s.count < maxOpen then
    .ok { s with
      slot := fun a => if a = s.count then ⟨name, data, 0, 0⟩ else s.slot a
      count := s.count + 1
      order := s.order ++ [s.count]
      tab := fun i => if i = index then some s.count else s.tab i }
  else
    match s.order with
    | [] => .ub
    | h :: rest =>
      .ok { s with
        slot := fun a => if a = h then ⟨name, data, 0, 0⟩ else s.slot a
        order := rest ++ [h]
        tab := fun i => if i = index then some h else s.tab i }

/-- src/drpm_block.c:566-636 `open_new_file`. The file is looked up through `cpio_files`, although
    the callers pass an index of the file list (line 981). -/
def openNew (r : FsIn) (s : FsSt) (index : Nat) : Out (Bool × FsSt) := do
  let cpio ← rd r.places index
  match cpio.index with
  | none => .ub
  | some i => do
    let f ← rd r.files i
    match r.disk.get f.name with
    | none => .err .io
    | some data => do
      let pre ← openedPrelinked f data
      if pre then .ok (true, s) else do
        let s ← addOpen s index f.name data
        .ok (false, s)

/-- src/drpm_block.c:639-668 `get_open_file`; the table has as many entries as the archive. -/
def getOpen (r : FsIn) (s : FsSt) (index : Nat) : Out (Option Nat × FsSt) :=
  if index < r.places.length then
    match s.tab index with
    | none => .ok (none, s)
    | some a => .ok (some a, { s with order := s.order.filter (fun b => b ≠ a) ++ [a] })
  else .ub

/-- src/drpm_block.c:979-988: the open file, or `none` if it is prelinked. -/
def needOpen (r : FsIn) (s : FsSt) (index : Nat) : Out (Option Nat × FsSt) := do
  let (a, s) ← getOpen r s index
  match a with
  | some a => .ok (some a, s)
  | none => do
    let (pre, s) ← openNew r s index
    if pre then .ok (none, s) else do
      let (a, s) ← getOpen r s index
      match a with
      | some a => .ok (some a, s)
      | none => .ub

/-- src/drpm_block.c:989-997: seeking and reading. -/
def readOpen (s : FsSt) (a fileOff n : Nat) : Out (Bytes × FsSt) :=
  let o := s.slot a
  let pos := if o.offset ≠ fileOff then fileOff else o.pos
  let b := slice o.data pos n
  if b.length ≠ n then .err .format
  else .ok (b, { s with slot := fun x => if x = a then { o with offset := fileOff + n, pos := pos + n } else s.slot x })

/-- The outcome of one step: bytes, or the whole block is left to `fillblock_prelink`. -/
inductive FsGot where
  | bytes (b : Bytes) (s : FsSt)
  | prelinked (s : FsSt)

/-- src/drpm_block.c:977-997: part of the contents of a file. -/
def fsFile (r : FsIn) (s : FsSt) (i : Nat) (f : FileInfo) (fileOff len : Nat) : Out FsGot := do
  let (a, s) ← needOpen r s i
  match a with
  | none => .ok (.prelinked s)
  | some a => do
    let (b, s) ← readOpen s a fileOff (min len (f.size - fileOff))
    .ok (.bytes b s)

/-- src/drpm_block.c:969-1001: part of the content of an entry, at `fileOff`. -/
def fsContent (r : FsIn) (s : FsSt) (cpio : CpioFile) (i fileOff len : Nat) : Out FsGot := do
  let f ← rd r.files i
  if isLnk f then
    if fileOff > s.linkto.length then .ok (.bytes (zeros (min len (cpio.contentLen - fileOff))) s)
    else .ok (.bytes (strncpy (s.linkto.drop fileOff) (min len (cpio.contentLen - fileOff))) s)
  else if fileOff < f.size then fsFile r s i f fileOff len
  else .ok (.bytes (zeros (min len (cpio.contentLen - fileOff))) s)

/-- src/drpm_block.c:519-563 `fill_cpio_header` for archive entry `k`: buffer and `linkto`. -/
def loadHeader (r : FsIn) (s : FsSt) (k : Nat) : Out FsSt := do
  let cpio ← rd r.places k
  match cpio.index with
  | none => .ok { s with hdr := fillHeader none, idx := some k }
  | some i => do
    let f ← rd r.files i
    .ok { s with hdr := fillHeader (some f), linkto := if isLnk f then f.linkto else s.linkto, idx := some k }

/-- The outcome for a block: its bytes, or it is left to `fillblock_prelink` with an entry. -/
inductive FsRes where
  | block (b : Bytes)
  | prelink (k : Nat)
deriving DecidableEq

/-- src/drpm_block.c:951-1011: filling the block from entry `k` on. (The sums of offsets are far
    below 2^64.) -/
def fsLoop (r : FsIn) : Nat → FsSt → Nat → Nat → Nat → Bytes → Out (FsRes × FsSt)
  | 0, _, _, _, _, _ => .loop
  | fuel + 1, s, k, off, len, acc =>
    if len = 0 then .ok (.block acc, s) else do
    let cpio ← rd r.places k
    if off < cpio.offset + cpio.headerLen then do
      let n := min len (cpio.headerLen - (off - cpio.offset))
      let b ← rdBlk s.hdr (off - cpio.offset) n
      fsLoop r fuel s k (off + n) (len - n) (acc ++ b)
    else
      match cpio.index with
      | none => .ok (.block (acc ++ zeros len), s)
      | some i =>
        if off < cpio.offset + cpio.headerLen + cpio.contentLen then do
          let g ← fsContent r s cpio i (off - (cpio.offset + cpio.headerLen)) len
          match g with
          | .prelinked s => .ok (.prelink k, { s with idx := none })
          | .bytes b s => fsLoop r fuel s k (off + b.length) (len - b.length) (acc ++ b)
        else do
          let s ← loadHeader r s (k + 1)
          fsLoop r fuel s (k + 1) off len acc

/-- src/drpm_block.c:937: going back to an entry that does not start after `off`. -/
def walkBack (places : List CpioFile) (off : Nat) : Nat → Out Nat
  | 0 => .ok 0
  | i + 1 => do
    let cpio ← rd places (i + 1)
    if cpio.offset > off then walkBack places off i else .ok (i + 1)

/-- src/drpm_block.c:939-944: the entry that covers `off`. -/
def findEntry (off : Nat) : List CpioFile → Nat → Out Nat
  | [], _ => .err .prog
  | c :: cs, i =>
    if c.offset ≤ off ∧ c.offset + c.headerLen + c.contentLen > off then .ok i else findEntry off cs (i + 1)

/-- src/drpm_block.c:946-949. -/
def enterEntry (r : FsIn) (s : FsSt) (i : Nat) : Out FsSt :=
  if s.idx = some i then .ok s else loadHeader r s i

/-- src/drpm_block.c:916-1017 `fillblock_filesystem`: block `id`. Every round of the loop delivers a
    byte or is followed by one that does. -/
def fsBlock (r : FsIn) (s : FsSt) (id : Nat) : Out (FsRes × FsSt) := do
  let off := id * blockSize
  let i ← walkBack r.places off (s.idx.getD 0)
  let i ← findEntry off (r.places.drop i) i
  let s ← enterEntry r s i
  fsLoop r (2 * blockSize + 2) s i off blockSize []

end Drpm
