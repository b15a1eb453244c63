import Verif.Recon
/-!
# The block cache of src/drpm_block.c

`drpm_apply` reads the external data through blocks of 8192 bytes. Blocks live in memory ("core
blocks") or in a temporary file ("page blocks"); blocks read sequentially from an RPM cannot be read
twice, so they must be kept until the last copy that needs them.

Pointers are addresses (`Nat`) into a heap; linked lists are lists of addresses. `malloc` and the
temporary file never fail. Not modelled here: prelinked files (src/drpm_block.c:1020-1211).
-/

namespace Drpm

/-- `BLK_*`, src/drpm_block.c:42-45. -/
inductive BType where
  | free | core | nopage | page
deriving DecidableEq, Repr

/-- `struct block`, src/drpm_block.c:59-70. `off` is `data.offset`, used by page blocks; `buf` is
    `data.buffer`, used by the others (empty: not initialised). -/
structure Blk where
  type : BType
  id : Nat
  buf : Bytes
  off : Nat

/-- `struct blocks`, src/drpm_block.c:72-113: the part that is the cache. `pageFile` maps a slot of
    the temporary file to its contents. `cleanup` is the static variable `cleanup_count` of
    `get_block` (line 312), which keeps its value between calls of the library. `rpmId` and `src`
    are the position in the old RPM. -/
structure Cache (σ : Type) where
  heap : Nat → Blk
  next : Nat
  free : List Nat
  core : List Nat
  coreCount : Nat
  pages : List Nat
  pageCount : Nat
  pageFile : Nat → Bytes
  table : Nat → Option Nat
  last : Option Nat
  cleanup : Nat
  rpmId : Nat
  src : σ

/-- The constants of a run: number of blocks, `blocks_max`, and `MAX_CORE_BLOCKS`
    (src/drpm_block.c:38). -/
structure CacheCfg where
  nblk : Nat
  max : Nat → Nat
  maxCore : Nat

/-- `MAX_CORE_BLOCKS`, src/drpm_block.c:38. -/
def maxCoreBlocks : Nat := 5000

/-- Updating a function at one place. -/
def upd {α : Type} (f : Nat → α) (i : Nat) (v : α) : Nat → α := fun j => if j = i then v else f j

/-- `blks->blocks_table[id]`; outside the table it is undefined. -/
def tabRd {σ : Type} (cfg : CacheCfg) (c : Cache σ) (id : Nat) : Out (Option Nat) :=
  if id < cfg.nblk then .ok (c.table id) else .ub

/-- `blks->blocks_max[id]`; outside the table it is undefined. -/
def maxRd (cfg : CacheCfg) (id : Nat) : Out Nat := if id < cfg.nblk then .ok (cfg.max id) else .ub

/-- `blks->blocks_table[id] = v`. -/
def tabWr {σ : Type} (cfg : CacheCfg) (c : Cache σ) (id : Nat) (v : Option Nat) : Out (Cache σ) :=
  if id < cfg.nblk then .ok { c with table := upd c.table id v } else .ub

/-- src/drpm_block.c:384-405 `new_core_block`. -/
def newCore {σ : Type} (c : Cache σ) : Nat × Cache σ :=
  (c.next, { c with heap := upd c.heap c.next ⟨.free, 0, [], 0⟩, next := c.next + 1,
                    core := c.next :: c.core, coreCount := c.coreCount + 1 })

/-- src/drpm_block.c:408-421 `get_free_core_block`. -/
def getFree {σ : Type} (c : Cache σ) : Option (Nat × Cache σ) :=
  match c.free with
  | [] => none
  | a :: rest => some (a, { c with free := rest, core := a :: c.core })

/-- src/drpm_block.c:462-467: a page block that already holds the block. -/
def findPage {σ : Type} (c : Cache σ) (id : Nat) : Option Nat :=
  c.pages.find? (fun p => (c.heap p).id = id)

/-- src/drpm_block.c:469-471: a page block whose contents are no longer needed. -/
def findOldPage {σ : Type} (cfg : CacheCfg) (c : Cache σ) (cnt : Nat) : List Nat → Out (Option Nat)
  | [] => .ok none
  | p :: ps => do
    let m ← maxRd cfg (c.heap p).id
    if m < cnt then .ok (some p) else findOldPage cfg c cnt ps

/-- src/drpm_block.c:473-488: taking the page block found, or a new one. -/
def takePage {σ : Type} (c : Cache σ) : Option Nat → Nat × Cache σ
  | some p => (p, c)
  | none =>
    (c.next, { c with heap := upd c.heap c.next ⟨.page, 0, [], c.pageCount⟩, next := c.next + 1,
                      pages := c.next :: c.pages, pageCount := c.pageCount + 1 })

/-- src/drpm_block.c:454-500 `write_page_block`. -/
def writePage {σ : Type} (cfg : CacheCfg) (c : Cache σ) (a cnt : Nat) : Out (Cache σ) :=
  if (c.heap a).type = .page then .err .prog else
  match findPage c (c.heap a).id with
  | some p => tabWr cfg c (c.heap a).id (some p)
  | none => do
    let old ← findOldPage cfg c cnt c.pages
    let b := c.heap a
    let (p, c) := takePage c old
    let c := { c with heap := upd c.heap p { c.heap p with id := b.id },
                      pageFile := upd c.pageFile (c.heap p).off b.buf }
    tabWr cfg c b.id (some p)

/-- src/drpm_block.c:444-448: storing a copy of block `a` in core block `n`. -/
def copyBlock {σ : Type} (cfg : CacheCfg) (c : Cache σ) (a n : Nat) : Out (Cache σ) :=
  tabWr cfg { c with heap := upd c.heap n { c.heap n with id := (c.heap a).id, type := (c.heap a).type, buf := (c.heap a).buf } }
    (c.heap a).id (some n)

/-- src/drpm_block.c:424-451 `push_block`. -/
def pushBlock {σ : Type} (cfg : CacheCfg) (c : Cache σ) (a cnt : Nat) : Out (Cache σ) :=
  match getFree c with
  | some (n, c) => copyBlock cfg c a n
  | none =>
    if c.coreCount < cfg.maxCore then
      let (n, c) := newCore c
      copyBlock cfg c a n
    else if (c.heap a).type = .core then writePage cfg c a cnt
    else tabWr cfg c (c.heap a).id none

/-- src/drpm_block.c:503-517 `read_page_block`. -/
def readPage {σ : Type} (cfg : CacheCfg) (c : Cache σ) (dst src : Nat) : Out (Cache σ) :=
  if (c.heap dst).type = .page ∨ (c.heap src).type ≠ .page then .err .prog else
  tabWr cfg { c with heap := upd c.heap dst { c.heap dst with id := (c.heap src).id, type := .core,
                                                              buf := c.pageFile (c.heap src).off } }
    (c.heap src).id (some dst)

/-- src/drpm_block.c:333-344: the cleanup loop. It unlinks the first core block that is no longer
    needed and puts it on the free list; then `blk_ptr = &blk->next` continues in the free list,
    which is empty (line 328), so the loop ends: at most one block is freed. `seen` are the blocks
    passed. -/
def cleanScan {σ : Type} (cfg : CacheCfg) (c : Cache σ) (id cnt : Nat) :
    List Nat → List Nat → Out (Cache σ)
  | _, [] => .ok c
  | seen, a :: rest => do
    let m ← maxRd cfg (c.heap a).id
    if m < cnt ∨ ((c.heap a).id < id ∧ m = cnt) then
      tabWr cfg { c with core := seen ++ rest, free := a :: c.free,
                         heap := upd c.heap a { c.heap a with type := .free } } (c.heap a).id none
    else cleanScan cfg c id cnt (seen ++ [a]) rest

/-- src/drpm_block.c:358-363: saving the block that is evicted, or dropping it. -/
def saveEvicted {σ : Type} (cfg : CacheCfg) (c : Cache σ) (a cnt : Nat) : Out (Cache σ) :=
  if (c.heap a).type = .core then writePage cfg c a cnt
  else tabWr cfg c (c.heap a).id none

/-- src/drpm_block.c:350-364: the last core block is moved to the front and emptied. -/
def evict {σ : Type} (cfg : CacheCfg) (c : Cache σ) (cnt : Nat) : Out (Nat × Cache σ) :=
  match c.core.getLast? with
  | none => .ub
  | some a => do
    let c ← saveEvicted cfg { c with core := a :: c.core.dropLast } a cnt
    .ok (a, { c with heap := upd c.heap a { c.heap a with type := .free } })

/-- src/drpm_block.c:328-368: an empty core block. -/
def grabBlock {σ : Type} (cfg : CacheCfg) (c : Cache σ) (id cnt : Nat) : Out (Nat × Cache σ) :=
  match getFree c with
  | some r => .ok r
  | none =>
    if c.coreCount < cfg.maxCore ∧ (c.cleanup + 1) % 2^64 % 8 ≠ 0 then
      .ok (newCore { c with cleanup := (c.cleanup + 1) % 2^64 })
    else do
      let c ← cleanScan cfg { c with cleanup := if c.coreCount < cfg.maxCore then (c.cleanup + 1) % 2^64 else c.cleanup } id cnt [] c.core
      match getFree c with
      | some r => .ok r
      | none => if c.coreCount < cfg.maxCore then .ok (newCore c) else evict cfg c cnt

/-- A function that fills block `a` with block number `id`: src/drpm_block.c:112. -/
abbrev Filler (σ : Type) := Cache σ → Nat → Nat → Nat → Out (Cache σ)

/-- src/drpm_block.c:370-380: reading the block back from the temporary file or filling it. -/
def loadBlock {σ : Type} (cfg : CacheCfg) (fill : Filler σ) (c : Cache σ) (a id cnt : Nat) :
    Out (Cache σ) := do
  let page ← tabRd cfg c id
  let c ← tabWr cfg c id (some a)
  match page with
  | some p => if (c.heap p).type = .page then readPage cfg c a p else fill c a id cnt
  | none => fill c a id cnt

/-- src/drpm_block.c:310-381 `get_block`, called only when the table has no core block for `id`. -/
def getBlock {σ : Type} (cfg : CacheCfg) (fill : Filler σ) (c : Cache σ) (id cnt : Nat) :
    Out (Nat × Cache σ) := do
  let (a, c) ← grabBlock cfg { c with last := none } id cnt
  let c ← loadBlock cfg fill c a id cnt
  .ok (a, c)

/-- src/drpm_block.c:294-299: the block that holds the data. -/
def findBlock {σ : Type} (cfg : CacheCfg) (fill : Filler σ) (c : Cache σ) (cnt id : Nat) :
    Out (Nat × Cache σ) := do
  match ← tabRd cfg c id with
  | some a => if (c.heap a).type = .page then getBlock cfg fill c id cnt else .ok (a, c)
  | none => getBlock cfg fill c id cnt

/-- src/drpm_block.c:294: whether the block used last is the one wanted. -/
def lastBlock {σ : Type} (cfg : CacheCfg) (fill : Filler σ) (c : Cache σ) (cnt id : Nat) :
    Out (Nat × Cache σ) :=
  match c.last with
  | some a => if id = (c.heap a).id then .ok (a, c) else findBlock cfg fill c cnt id
  | none => findBlock cfg fill c cnt id

/-- src/drpm_block.c:285-307 `blocks_next`. -/
def blocksNext {σ : Type} (cfg : CacheCfg) (fill : Filler σ) : BlockProvider (Cache σ) :=
  fun c off len cnt id => do
    let (a, c) ← lastBlock cfg fill c cnt id
    let blkOff := off % blockSize
    let n := if (blkOff + len) % 2^64 > blockSize then blockSize - blkOff else len
    let b ← rdBlk (c.heap a).buf blkOff n
    .ok (b, { c with last := some a })

/-! ## Filling blocks from an RPM -/

/-- src/drpm_block.c:752-754, 901-903: a block passed on the way is kept if a later copy needs it. -/
def keepPassed {σ : Type} (cfg : CacheCfg) (c : Cache σ) (a cnt : Nat) : Out (Cache σ) := do
  let m ← maxRd cfg (c.heap a).id
  if m > cnt then pushBlock cfg c a cnt else .ok c

/-- The frame common to src/drpm_block.c:675-837 `fillblock_rpm_standard` (lines 738-759) and
    841-911 `fillblock_rpm_rpmonly` (lines 888-904): blocks are produced one after the other by
    `step` until block `id` is reached; it is an error if that block has been passed already. -/
def fillSeq {σ : Type} (cfg : CacheCfg) (step : σ → Out (Bytes × σ)) :
    Nat → Cache σ → Nat → Nat → Nat → Out (Cache σ)
  | 0, _, _, _, _ => .loop
  | fuel + 1, c, a, id, cnt => do
    let (b, src) ← step c.src
    let k := c.rpmId
    let c := { c with src := src, rpmId := k + 1,
                      heap := upd c.heap a { c.heap a with type := .core, id := k, buf := b } }
    if k = id then .ok c
    else if k > id then .err .prog
    else do
      let c ← keepPassed cfg c a cnt
      fillSeq cfg step fuel c a id cnt

/-- The filler for an RPM. The number of rounds is at most `id + 1`. -/
def rpmFiller {σ : Type} (cfg : CacheCfg) (step : σ → Out (Bytes × σ)) : Filler σ :=
  fun c a id cnt => fillSeq cfg step (id + 2) c a id cnt

/-- The frame of src/drpm_block.c:916-1017 `fillblock_filesystem`, which can produce any block at any
    time: `step` yields block `id` (see `fsBlock` in `Verif/OpenFiles.lean`). -/
def fsFiller {σ : Type} (step : σ → Nat → Out (Bytes × σ)) : Filler σ :=
  fun c a id _ => do
    let (b, src) ← step c.src id
    .ok { c with src := src, heap := upd c.heap a { c.heap a with type := .nopage, id := id, buf := b } }

/-! ## Creating the tables -/

/-- `BLOCKS(size)`, src/drpm_block.c:47, for a `uint64_t`. -/
def blocksOf (size : Nat) : Nat := 1 + (size + 2^64 - 1) % 2^64 / blockSize

/-- src/drpm_block.c:205-206. -/
def markBlocks (nblk i : Nat) : Nat → Nat → (Nat → Nat) → Out (Nat → Nat)
  | 0, _, mx => .ok mx
  | n + 1, b, mx => if b < nblk then markBlocks nblk i n (b + 1) (upd mx b i) else .ub

/-- src/drpm_block.c:200-207: `blocks_max`. -/
def markCopies (nblk : Nat) : List (Nat × Nat) → Nat → Nat → (Nat → Nat) → Out (Nat → Nat)
  | [], _, _, mx => .ok mx
  | (w, len) :: rest, i, off, mx => do
    let off0 := addS32 off w
    let off1 := (off0 + len) % 2^64
    let mx ← markBlocks nblk i (blocksOf off1 - off0 / blockSize) (off0 / blockSize) mx
    markCopies nblk rest (i + 1) off1 mx

/-- src/drpm_block.c:139-231 `blocks_create`: the number of blocks and `blocks_max`; the counts of
    copies are those of the lists. -/
def blocksCreate (extDataLen : Nat) (exts : List (Nat × Nat)) : Out CacheCfg :=
  if blocksOf extDataLen ≥ 2^32 - 1 then .err .overflow else do
  let mx ← markCopies (blocksOf extDataLen) exts 0 0 (fun _ => 0)
  .ok { nblk := blocksOf extDataLen, max := mx, maxCore := maxCoreBlocks }

/-- The cache after `blocks_create`; `cleanup` is whatever earlier calls left in the static
    variable. -/
def emptyCache {σ : Type} (src : σ) (cleanup : Nat) : Cache σ :=
  { heap := fun _ => ⟨.free, 0, [], 0⟩, next := 0, free := [], core := [], coreCount := 0,
    pages := [], pageCount := 0, pageFile := fun _ => [], table := fun _ => none, last := none,
    cleanup := cleanup, rpmId := 0, src := src }

/-! ## The old RPM of an rpm-only delta -/

/-- src/drpm_rpm.c:369-383 `rpm_archive_read_chunk` with a buffer: bytes and the new offset. -/
def archiveRead (archive : Bytes) (off n : Nat) : Out (Bytes × Nat) :=
  if (off + n) % 2^64 > archive.length then .err .format else do
  let b ← rdBlk archive off n
  .ok (b, (off + n) % 2^64)

/-- The position in the old RPM: `old_header_offset`, `archive_offset` and `left`. -/
structure RpmonlySrc where
  hdrOff : Nat
  arcOff : Nat
  left : Nat

/-- src/drpm_block.c:866-881: the bytes of one block. -/
def rpmonlyBytes (header archive : Bytes) (s : RpmonlySrc) (n : Nat) : Out (Bytes × Nat × Nat) :=
  if s.hdrOff < header.length then
    if s.hdrOff + n > header.length then do
      let (b, arcOff) ← archiveRead archive s.arcOff (n - (header.length - s.hdrOff))
      let h ← rdBlk header s.hdrOff (header.length - s.hdrOff)
      .ok (h ++ b, header.length, arcOff)
    else do
      let h ← rdBlk header s.hdrOff n
      .ok (h, s.hdrOff + n, s.arcOff)
  else do
    let (b, arcOff) ← archiveRead archive s.arcOff n
    .ok (b, s.hdrOff, arcOff)

/-- src/drpm_block.c:863-886: one block, filled up with zeros. -/
def rpmonlyStep (header archive : Bytes) (s : RpmonlySrc) : Out (Bytes × RpmonlySrc) := do
  let n := min s.left blockSize
  let (b, hdrOff, arcOff) ← rpmonlyBytes header archive s n
  .ok (b ++ List.replicate (blockSize - n) 0, ⟨hdrOff, arcOff, s.left - n⟩)

end Drpm
