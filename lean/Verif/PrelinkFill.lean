import Verif.Blocks
import Verif.OpenFiles
/-!
# Blocks that contain prelinked files: src/drpm_block.c:1020-1211 `fillblock_prelink`

The function goes back to a block that does not start inside a prelinked file, and fills blocks from
there on for as long as a prelinked file is open; all blocks but the one asked for are handed to the
cache. A descriptor is modelled as the contents behind it and a position. The value of the local
variable `prelinked` is `none` while it is uninitialised.
-/

namespace Drpm

/-- What changes from round to round: the entry, the descriptor `filedesc` and `prelinked`. -/
structure PlSt where
  k : Nat
  fd : Option (Bytes × Nat)
  pre : Option Bool
deriving DecidableEq

/-- src/drpm_block.c:1040-1041. Going back past the first entry is undefined. -/
def plEntry (places : List CpioFile) (off : Nat) : Nat → Out Nat
  | 0 => do
    let cpio ← rd places 0
    if cpio.offset > off then .ub else .ok 0
  | k + 1 => do
    let cpio ← rd places (k + 1)
    if cpio.offset > off then plEntry places off k else .ok (k + 1)

/-- src/drpm_block.c:1065-1068: the block in which the contents begin. (Block 0 is not left.) -/
def plDown (start : Nat) : Nat → Nat
  | 0 => 0
  | id + 1 => if start < id * blockSize then plDown start id else id

/-- src/drpm_block.c:1048-1063: an entry whose contents began before the block. `none`: the file is
    prelinked. -/
def plOpen (r : FsIn) (f : FileInfo) (k : Nat) (pre : Option Bool) : Out (Option PlSt) :=
  match r.disk.get f.name with
  | none => .err .io
  | some data =>
    if data.length = f.size then .ok (some ⟨k, some (data, 0), pre⟩)
    else do
      let p ← isPrelinked data (data.take 128)
      if p then .ok none else .ok (some ⟨k, some (data, 0), some false⟩)

/-- src/drpm_block.c:1043-1060: whether to start from block `id` with the entry `k`. -/
def plHere (r : FsIn) (id k : Nat) (pre : Option Bool) : Out (Option PlSt) := do
  let cpio ← rd r.places k
  match cpio.index with
  | none => .ok (some ⟨k, none, pre⟩)
  | some i =>
    if cpio.contentLen = 0 ∨ cpio.offset + cpio.headerLen ≥ id * blockSize then .ok (some ⟨k, none, pre⟩)
    else do
      let f ← rd r.files i
      if isLnk f then .ok (some ⟨k, none, pre⟩) else plOpen r f k pre

/-- src/drpm_block.c:1039-1069: the block to start from. Each round but the last goes back at least
    one block. -/
def plStart (r : FsIn) : Nat → Nat → Nat → Option Bool → Out (Nat × PlSt)
  | 0, _, _, _ => .loop
  | fuel + 1, id, k, pre => do
    let k ← plEntry r.places (id * blockSize) k
    match ← plHere r id k pre with
    | some s => .ok (id, s)
    | none => do
      let cpio ← rd r.places k
      plStart r fuel (plDown (cpio.offset + cpio.headerLen) id) k (some true)

/-- src/drpm_block.c:1071-1078: the position in the file that is open at the start of block `id`. -/
def plSeek (r : FsIn) (id : Nat) (s : PlSt) : Out PlSt :=
  match s.fd with
  | none => .ok s
  | some (data, _) => do
    let cpio ← rd r.places s.k
    match cpio.index with
    | none => .ub
    | some i => do
      let f ← rd r.files i
      let fileOff := id * blockSize - (cpio.offset + cpio.headerLen)
      .ok { s with fd := some (data, if fileOff > 0 ∧ fileOff < f.size then fileOff else 0) }

/-- src/drpm_block.c:1085-1091: on to the entry that covers `off`; leaving an entry closes the file. -/
def plSkip (places : List CpioFile) (off : Nat) : Nat → PlSt → Out PlSt
  | 0, _ => .ub
  | n + 1, s => do
    let cpio ← rd places s.k
    if off ≥ cpio.offset + cpio.headerLen + cpio.contentLen then plSkip places off n ⟨s.k + 1, none, s.pre⟩
    else .ok s

/-- src/drpm_block.c:1093-1101: the part of the header. (The buffer of the header is not used for
    anything else before it is filled again.) -/
def plHeader (r : FsIn) (cpio : CpioFile) (off len : Nat) : Out Bytes :=
  if off < cpio.offset + cpio.headerLen then
    match cpio.index with
    | none => rdBlk (fillHeader none) (off - cpio.offset) (min len (cpio.headerLen - (off - cpio.offset)))
    | some i => do
      let f ← rd r.files i
      rdBlk (fillHeader (some f)) (off - cpio.offset) (min len (cpio.headerLen - (off - cpio.offset)))
  else .ok []

/-- `memcpy(buf_ptr, linkto + file_off, n)`, src/drpm_block.c:1116; the string ends with a NUL. -/
def plTarget (linkto : Bytes) (fileOff n : Nat) : Out Bytes :=
  if n = 0 then .ok [] else rdBlk (linkto ++ [0]) fileOff n

/-- src/drpm_block.c:1112-1130: part of the target of a link. As many bytes are copied as the whole
    target has, wherever the copy begins. -/
def plLink (f : FileInfo) (cpio : CpioFile) (fileOff len : Nat) : Out Bytes := do
  let n := min len (if f.linkto.length < fileOff then 0 else f.linkto.length)
  let b ← plTarget f.linkto fileOff n
  .ok (b ++ zeros (min (len - n) (cpio.contentLen - (fileOff + n))))

/-- src/drpm_block.c:1136-1151: opening the file if it is not open. -/
def plNeed (r : FsIn) (f : FileInfo) (s : PlSt) : Out ((Bytes × Nat) × PlSt) :=
  match s.fd with
  | some d => .ok (d, s)
  | none =>
    match r.disk.get f.name with
    | none => .err .io
    | some data => do
      let p ← openedPrelinked f data
      if p then do
        let u ← r.disk.undo f.name
        .ok ((u, 0), ⟨s.k, some (u, 0), some true⟩)
      else .ok ((data, 0), ⟨s.k, some (data, 0), some false⟩)

/-- src/drpm_block.c:1133-1162: reading from the file. -/
def plRead (r : FsIn) (f : FileInfo) (fileOff len : Nat) (s : PlSt) : Out (Bytes × PlSt) :=
  if fileOff < f.size then do
    let (d, s) ← plNeed r f s
    let n := min len (f.size - fileOff)
    if (slice d.1 d.2 n).length ≠ n then .err .io
    else .ok (slice d.1 d.2 n, { s with fd := some (d.1, d.2 + n) })
  else .ok ([], s)

/-- src/drpm_block.c:1132-1175: part of the contents of a file and the padding after it. -/
def plFile (r : FsIn) (f : FileInfo) (cpio : CpioFile) (fileOff len : Nat) (s : PlSt) : Out (Bytes × PlSt) := do
  let (b, s) ← plRead r f fileOff len s
  if fileOff + b.length ≥ f.size then
    .ok (b ++ zeros (min (len - b.length) ((cpio.contentLen + 2^64 - (fileOff + b.length)) % 2^64)), { s with fd := none })
  else .ok (b, s)

/-- src/drpm_block.c:1103-1176: the content of an entry. -/
def plContent (r : FsIn) (cpio : CpioFile) (off len : Nat) (s : PlSt) : Out (Bytes × PlSt) :=
  if len = 0 then .ok ([], s) else
  match cpio.index with
  | none => .ok (zeros len, s)
  | some i => do
    let f ← rd r.files i
    if isLnk f then do
      let b ← plLink f cpio (off - (cpio.offset + cpio.headerLen)) len
      .ok (b, s)
    else if cpio.contentLen > 0 then plFile r f cpio (off - (cpio.offset + cpio.headerLen)) len s
    else .ok ([], s)

/-- src/drpm_block.c:1084-1177: filling one block. -/
def plFill (r : FsIn) : Nat → Nat → Nat → Bytes → PlSt → Out (Bytes × PlSt)
  | 0, _, _, _, _ => .loop
  | fuel + 1, off, len, acc, s =>
    if len = 0 then .ok (acc, s) else do
    let s ← plSkip r.places off r.places.length s
    let cpio ← rd r.places s.k
    let h ← plHeader r cpio off len
    let (b, s) ← plContent r cpio (off + h.length) (len - h.length) s
    plFill r fuel (off + h.length + b.length) (len - h.length - b.length) (acc ++ h ++ b) s

/-- src/drpm_block.c:1182-1188: what is done with a block that is not the one asked for. -/
def plKeep (cfg : CacheCfg) (c : Cache FsSt) (a id orig cnt : Nat) : Out (Cache FsSt) :=
  if id = orig then .ok c
  else do
    let m ← maxRd cfg id
    if m > cnt ∨ (m = cnt ∧ id > orig) then pushBlock cfg c a cnt else .ok c

/-- src/drpm_block.c:1190: whether this was the last block. -/
def plStop (s : PlSt) : Out Bool :=
  match s.fd, s.pre with
  | none, _ => .ok true
  | some _, some p => .ok (!p)
  | some _, none => .ub

/-- src/drpm_block.c:1080-1204: the blocks from `id` on; `saved` is `blk_buf`. -/
def plRun (cfg : CacheCfg) (r : FsIn) (a orig cnt : Nat) : Nat → Cache FsSt → Nat → PlSt → Option Bytes →
    Out (Cache FsSt)
  | 0, _, _, _, _ => .loop
  | fuel + 1, c, id, s, saved => do
    let (b, s) ← plFill r (blockSize + 1) (id * blockSize) blockSize [] s
    let saved := if id = orig then some b else saved
    let c ← plKeep cfg { c with heap := upd c.heap a { c.heap a with type := .core, id := id, buf := b } } a id orig cnt
    let stop ← plStop s
    if stop then
      if id < orig then .err .prog else
      match saved with
      | none => .ub
      | some b => .ok { c with heap := upd c.heap a { c.heap a with type := .core, id := orig, buf := b } }
    else plRun cfg r a orig cnt fuel c (id + 1) s saved

/-- src/drpm_block.c:1020-1211 `fillblock_prelink`. Every block passed must have an entry in
    `blocks_max`, so there are at most `nblk` of them. -/
def plBlock (cfg : CacheCfg) (r : FsIn) (c : Cache FsSt) (a id cnt k : Nat) : Out (Cache FsSt) := do
  let (id0, s) ← plStart r (id + 1) id k none
  let s ← plSeek r id0 s
  plRun cfg r a id cnt (cfg.nblk + 1) c id0 s none

/-- src/drpm_block.c:916-1017 `fillblock_filesystem` as the cache uses it. -/
def diskFiller (cfg : CacheCfg) (r : FsIn) : Filler FsSt :=
  fun c a id cnt => do
    let (o, s) ← fsBlock r c.src id
    match o with
    | .block b => .ok { c with src := s, heap := upd c.heap a { c.heap a with type := .nopage, id := id, buf := b } }
    | .prelink k => plBlock cfg r { c with src := s } a id cnt k

end Drpm
