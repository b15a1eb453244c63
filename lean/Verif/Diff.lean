import Verif.Search
import Verif.Utils
/-!
# Computing the difference of two payloads: src/drpm_diff.c
-/

namespace Drpm

/-- `struct diff_copy`, src/drpm_diff.c:52-57. -/
structure DiffCopy where
  oldOff : Nat
  oldLen : Nat
  newOff : Nat
  newLen : Nat
deriving DecidableEq, Repr

/-- src/drpm_diff.c:143-155: extending the last match forwards, tolerating mismatches (add block
    enabled). `n` iterations are left, `i` are done. -/
def fwdAdd (old new : Bytes) (op np : Nat) : Nat → Nat → Nat → Nat → Nat → Out Nat
  | 0, _, _, _, lf => .ok lf
  | n + 1, i, count, best, lf => do
    let a ← rd old (op + i)
    let b ← rd new (np + i)
    if a = b then
      if 2 * (count + 1) ≥ best + (i + 1) then
        fwdAdd old new op np n (i + 1) (count + 1) (2 * (count + 1) - (i + 1)) (i + 1)
      else fwdAdd old new op np n (i + 1) (count + 1) best lf
    else fwdAdd old new op np n (i + 1) count best lf

/-- src/drpm_diff.c:157-162: extending the last match forwards without mismatches. -/
def fwdExact (old new : Bytes) (op np : Nat) : Nat → Nat → Out Nat
  | 0, i => .ok i
  | n + 1, i => do
    let a ← rd old (op + i)
    let b ← rd new (np + i)
    if a ≠ b then .ok i else fwdExact old new op np n (i + 1)

/-- src/drpm_diff.c:166-176: extending the new match backwards. `n` iterations are left, the next
    one is number `i`. -/
def backAdd (old new : Bytes) (op np : Nat) : Nat → Nat → Nat → Nat → Nat → Out Nat
  | 0, _, _, _, lb => .ok lb
  | n + 1, i, count, best, lb => do
    let a ← rd old (op - i)
    let b ← rd new (np - i)
    if a = b then
      if 2 * (count + 1) ≥ best + i then
        backAdd old new op np n (i + 1) (count + 1) (2 * (count + 1) - i) i
      else backAdd old new op np n (i + 1) (count + 1) best lb
    else backAdd old new op np n (i + 1) count best lb

/-- src/drpm_diff.c:187-197: choosing the split point of overlapping extensions. `of`/`nf` are the
    start of the overlap seen from the previous match, `ob`/`nb` seen from the new one. -/
def splitLoop (old new : Bytes) (of nf ob nb : Nat) :
    Nat → Nat → Nat → Nat → Nat → Nat → Out Nat
  | 0, _, _, _, _, split => .ok split
  | n + 1, i, cf, cb, best, split => do
    let a ← rd old (of + i)
    let b ← rd new (nf + i)
    let cf := if a = b then cf + 1 else cf
    let c ← rd old (ob + i)
    let d ← rd new (nb + i)
    let cb := if c = d then cb + 1 else cb
    if cf > cb ∧ cf - cb > best then
      splitLoop old new of nf ob nb n (i + 1) cf cb (cf - cb) (i + 1)
    else splitLoop old new of nf ob nb n (i + 1) cf cb best split

/-- src/drpm_diff.c:233-244: the differences written to the add block, cut into pieces of at most
    4096 bytes (`BUFFER_SIZE`), one per `compstrm_write`. Byte subtraction wraps. -/
def addBlockWrites (old new : Bytes) : Nat → Nat → Nat → Nat → Out (List Bytes)
  | 0, _, _, _ => .ok []
  | fuel + 1, op, np, len =>
    if len > 0 then do
      let w := min len 4096
      let a ← rdBlk old op w
      let b ← rdBlk new np w
      let rest ← addBlockWrites old new fuel (op + w) (np + w) (len - w)
      .ok (List.zipWith (fun n o => n - o) b a :: rest)
    else .ok []

/-- The variables of the main loop of `make_diff`, src/drpm_diff.c:99-104. -/
structure DiffSt where
  oldPos : Nat
  newPos : Nat
  oldPrev : Nat
  newPrev : Nat
  len : Nat
deriving DecidableEq, Repr

/-- src/drpm_diff.c:141-163, forward extension. -/
def lenForward (old new : Bytes) (addblk : Bool) (op np newPos : Nat) : Out Nat :=
  let maxLen := min (old.length - op) (newPos - np)
  if addblk then fwdAdd old new op np maxLen 0 0 0 0 else fwdExact old new op np maxLen 0

/-- src/drpm_diff.c:165-181, backward extension. -/
def lenBack (old new : Bytes) (addblk : Bool) (oldPos newPos np : Nat) : Out Nat :=
  if addblk ∧ newPos < new.length then
    backAdd old new oldPos newPos (min oldPos (newPos - np)) 1 0 0 0
  else .ok 0

/-- src/drpm_diff.c:183-200: shorten the two extensions if they overlap. -/
def splitOverlap (old new : Bytes) (op np oldPos newPos lf lb : Nat) : Out (Nat × Nat) :=
  if np + lf > newPos - lb then do
    let ov := (np + lf) - (newPos - lb)
    let split ← splitLoop old new (op + lf - ov) (np + lf - ov) (oldPos - lb) (newPos - lb)
      ov 0 0 0 0 0
    .ok (lf - (ov - split), lb - split)
  else .ok (lf, lb)

/-- One pass of the main loop, src/drpm_diff.c:135-247, for a given search function
    (`last_offset`, `scan` to new position, old position, length). Yields the region recorded, the
    add-block writes and the next state. -/
def diffStep (search : Nat → Nat → Out (Nat × Nat × Nat)) (old new : Bytes) (addblk : Bool)
    (s : DiffSt) : Out (DiffCopy × List Bytes × DiffSt) := do
  let lastOff := if addblk then (s.oldPrev + 2^64 - s.newPrev) % 2^64 else old.length
  let (newPos, oldPos, len) ← search lastOff (s.newPos + s.len)
  let lf ← lenForward old new addblk s.oldPrev s.newPrev newPos
  let lb ← lenBack old new addblk oldPos newPos s.newPrev
  let (lf, lb) ← splitOverlap old new s.oldPrev s.newPrev oldPos newPos lf lb
  let copy : DiffCopy :=
    { newOff := s.newPrev + lf, newLen := (newPos - lb) - (s.newPrev + lf),
      oldOff := s.oldPrev, oldLen := lf }
  let adds ← if addblk then addBlockWrites old new lf s.oldPrev s.newPrev lf else .ok []
  .ok (copy, adds, { oldPos := oldPos, newPos := newPos, oldPrev := oldPos - lb,
                     newPrev := newPos - lb, len := len })

/-- src/drpm_diff.c:134-248: the loop `while (new_pos_prev < new_len)`. -/
def diffLoop (search : Nat → Nat → Out (Nat × Nat × Nat)) (old new : Bytes) (addblk : Bool) :
    Nat → DiffSt → Out (List DiffCopy × List Bytes)
  | 0, _ => .loop
  | fuel + 1, s =>
    if s.newPrev < new.length then do
      let (c, adds, s) ← diffStep search old new addblk s
      let (cs, rest) ← diffLoop search old new addblk fuel s
      .ok (c :: cs, adds ++ rest)
    else .ok ([], [])

/-- Iterations that suffice (theorem `C03`). -/
def diffFuel (newLen : Nat) : Nat := newLen + 3

/-- `INT32_MAX`. -/
def int32Max : Nat := 2147483647

/-- src/drpm_diff.c:306-340: the external copies for one region. State: the running `offset`.
    A copy is the pair of 32-bit words stored. -/
def extCopiesOf : Nat → Nat → Nat → Nat → Out (List (Nat × Nat) × Nat)
  | 0, _, _, _ => .loop
  | fuel + 1, oldOff, oldLen, offset =>
    if oldOff > offset ∧ oldOff - offset ≥ 2^31 then do
      let (cs, off) ← extCopiesOf fuel oldOff oldLen (offset + int32Max)
      .ok ((int32Max, 0) :: cs, off)
    else if oldOff < offset ∧ offset - oldOff ≥ 2^31 then do
      let (cs, off) ← extCopiesOf fuel oldOff oldLen (offset - int32Max)
      .ok ((twosComplement32 int32Max, 0) :: cs, off)
    else
      let w := u32OfInt ((oldOff : Int) - offset)
      if oldLen ≥ 2^31 then do
        -- line 332: `old_off = offset += INT32_MAX`
        let (cs, off) ← extCopiesOf fuel (offset + int32Max) (oldLen - int32Max) (offset + int32Max)
        .ok ((w, int32Max) :: cs, off)
      else .ok ([(w, oldLen)], oldOff + oldLen)

/-- src/drpm_diff.c:342-361: the internal copies for one region; `pending` external copies have
    been emitted since the last internal copy. -/
def intCopiesOf : Nat → Nat → Nat → Out (List (Nat × Nat))
  | 0, _, _ => .loop
  | fuel + 1, pending, newLen =>
    if newLen ≥ 2^31 then do
      let cs ← intCopiesOf fuel 0 (newLen - int32Max)
      .ok ((pending, int32Max) :: cs)
    else .ok [(pending, newLen)]

/-- src/drpm_diff.c:306-340: `if (old_len)` around the external copies of a region. The fuel
    exceeds the number of seek steps and of pieces. -/
def extStep (c : DiffCopy) (offset : Nat) : Out (List (Nat × Nat) × Nat) :=
  if c.oldLen ≠ 0 then extCopiesOf (c.oldOff + c.oldLen + offset + 1) c.oldOff c.oldLen offset
  else .ok ([], offset)

/-- src/drpm_diff.c:342-361: `if (new_len)` around the internal copies of a region; yields the
    copies and the external copies still pending. -/
def intStep (c : DiffCopy) (pending : Nat) : Out (List (Nat × Nat) × Nat) :=
  if c.newLen ≠ 0 then do
    let is ← intCopiesOf (c.newLen + 1) pending c.newLen
    .ok (is, 0)
  else .ok ([], pending)

/-- src/drpm_diff.c:301-372: the loop over the regions, then the final internal copy that carries
    the remaining external copies. The 32-bit counters of the C code are list lengths here (they
    would wrap after 2^32 copies, i.e. at least 32 * 2^32 bytes of new payload). -/
def copiesLoop : List DiffCopy → Nat → Nat → Out (List (Nat × Nat) × List (Nat × Nat))
  | [], _, pending => .ok ([], if pending > 0 then [(pending, 0)] else [])
  | c :: cs, offset, pending => do
    let (exts, offset) ← extStep c offset
    let (ints, pending) ← intStep c (pending + exts.length)
    let (exts', ints') ← copiesLoop cs offset pending
    .ok (exts ++ exts', ints ++ ints')

/-- src/drpm_diff.c:283-386 `create_diff_copies`: external copies, internal copies. -/
def createDiffCopies (cs : List DiffCopy) : Out (List (Nat × Nat) × List (Nat × Nat)) :=
  copiesLoop cs 0 0

/-- src/drpm_diff.c:403-411: skip to the next region that has internal data. -/
def nextRegion : List DiffCopy → Out (Nat × Nat × List DiffCopy)
  | [] => .ub
  | c :: cs => if c.newLen = 0 then nextRegion cs else .ok (c.newLen, c.newOff, cs)

/-- src/drpm_diff.c:389-422 `create_int_data_array`: for every internal copy the bytes its
    pointer designates (`todo` bytes at `new + offset`). `left -= todo` is unsigned. -/
def intDataLoop (new : Bytes) : List (Nat × Nat) → List DiffCopy → Nat → Nat → Out (List Bytes)
  | [], _, _, _ => .ok []
  | (_, todo) :: ints, cs, offset, left => do
    let (left, offset, cs) ←
      if todo > 0 ∧ left = 0 then nextRegion cs else .ok (left, offset, cs)
    let d ← rdBlk new offset todo
    let rest ← intDataLoop new ints cs (offset + todo) ((left + 2^64 - todo) % 2^64)
    .ok (d :: rest)

/-- What `make_diff` returns: the copy lists, the internal data chunks and the writes made to the
    add-block stream. -/
structure Diff where
  ext : List (Nat × Nat)
  int : List (Nat × Nat)
  intData : List Bytes
  addWrites : List Bytes
  regions : List DiffCopy
deriving DecidableEq, Repr

/-- src/drpm_diff.c:77-280 `make_diff`, for a given search function. `regions` is only kept for
    stating properties. -/
def makeDiffWith (search : Nat → Nat → Out (Nat × Nat × Nat)) (old new : Bytes) (addblk : Bool) :
    Out Diff := do
  let (regions, adds) ← diffLoop search old new addblk (diffFuel new.length) ⟨0, 0, 0, 0, 0⟩
  let (ext, int) ← createDiffCopies regions
  let data ← intDataLoop new int regions 0 0
  .ok { ext := ext, int := int, intData := data, addWrites := adds, regions := regions }

/-- src/drpm_diff.c:77-280 `make_diff` with the hash search it uses. -/
def makeDiff (old new : Bytes) (addblk : Bool) : Out Diff := do
  let h ← hashCreate old
  makeDiffWith (hashSearch h old new) old new addblk

end Drpm
