import Verif.Utils
/-!
# The compressed file order: encoder (src/drpm_make.c) and decoder (src/drpm_apply.c)
-/

namespace Drpm

/-- `struct files_seq`, src/drpm_make.c:61-67. `data` holds the bytes written so far
    (`SEQ_BYTE_LEN(index)` of them); `alloc` is the size of the heap buffer. -/
structure SeqSt where
  data : Bytes
  index : Nat
  alloc : Nat
  lastStart : Nat
  last : Int
deriving DecidableEq, Repr

/-- src/drpm_make.c:56-57 `SEQ_INIT`. -/
def SeqSt.init : SeqSt := ⟨[], 0, 0, 0, -1⟩

/-- src/drpm_make.c:59 `SEQ_BYTE_LEN`. -/
def seqByteLen (index : Nat) : Nat := (index + 1) / 2

/-- src/drpm_make.c:102-108, the number of three-bit groups of `val`. The fuel `v` itself always
    suffices because `v / 8 < v`. -/
def nibLenAux : Nat → Nat → Nat
  | 0, _ => 1
  | fuel + 1, v => if v ≥ 8 then nibLenAux fuel (v >>> 3) + 1 else 1

def nibLen (v : Nat) : Nat := nibLenAux v v

/-- src/drpm_make.c:117-120, storing one nibble: an even index starts a new byte with the high
    nibble, an odd index ors the low nibble into it. Writing outside the allocation, or oring into
    a byte that was never written, is undefined. -/
def putNib (s : SeqSt) (nib : Nat) : Out SeqSt :=
  if s.index / 2 < s.alloc then
    if s.index % 2 = 0 then
      .ok { s with data := s.data.take (s.index / 2) ++ [UInt8.ofNat (nib <<< 4)],
                   index := s.index + 1 }
    else
      match s.data[s.index / 2]? with
      | some b => .ok { s with data := s.data.set (s.index / 2) (b ||| UInt8.ofNat nib),
                               index := s.index + 1 }
      | none => .ub
  else .ub

/-- src/drpm_make.c:116-121, the do-while loop over the groups, least significant first. -/
def appendLoop : Nat → Nat → SeqSt → Out SeqSt
  | 0, _, s => .ok s
  | len + 1, val, s => do
      let s ← putNib s ((val &&& 7) ||| (if len + 1 > 1 then 1 <<< 3 else 0))
      appendLoop len (val >>> 3) s

/-- src/drpm_make.c:100-124 `seq_append` (`SEQ_ALLOC_SIZE` is 32). `realloc` failure is not
    modelled. -/
def seqAppend (s : SeqSt) (val : Nat) : Out SeqSt :=
  let len := nibLen val
  let s := if seqByteLen (s.index + len) > s.alloc then { s with alloc := s.alloc + 32 } else s
  appendLoop len val s

/-- src/drpm_make.c:136 / 158: `unsigned val = last_seq - last_seq_start + 1`. -/
def runLen (s : SeqSt) : Nat := u32OfInt (s.last - s.lastStart + 1)

/-- src/drpm_make.c:136-139 and 158-161: `if (val > 0 && !seq_append(seq, val))`. -/
def flushRun (s : SeqSt) : Out SeqSt := if runLen s > 0 then seqAppend s (runLen s) else .ok s

/-- src/drpm_make.c:141-147: a gap if the index lies ahead of the last one, otherwise a zero and
    the index itself. -/
def addJump (s : SeqSt) (index : Nat) : Out SeqSt :=
  if s.last ≥ 0 ∧ (index : Int) > s.last + 1 then
    seqAppend s (u32OfInt ((index : Int) - (s.last + 1)))
  else do
    let s ← seqAppend s 0
    seqAppend s index

/-- src/drpm_make.c:127-153 `seq_add`, for an `unsigned` index. -/
def seqAdd (s : SeqSt) (index : Nat) : Out SeqSt :=
  if (index : Int) = s.last + 1 then .ok { s with last := s.last + 1 }
  else do
    let s ← flushRun s
    let s ← addJump s index
    .ok { s with lastStart := index, last := index }

/-- src/drpm_make.c:156-167 `seq_final`: the bytes handed out. -/
def seqFinal (s : SeqSt) : Out Bytes := do
  let s ← flushRun s
  .ok (s.data.take (seqByteLen s.index))

/-- Encoding a whole list of file indices, as the loop over archive entries does
    (src/drpm_make.c `seq_add` per entry, then `seq_final`). -/
def encodeSeq (idxs : List Nat) : Out Bytes := do
  let s ← idxs.foldlM seqAdd SeqSt.init
  seqFinal s

/-- The local variables of the decompression loop, src/drpm_apply.c:66-86. -/
structure DecSt where
  positions : List Nat
  num : Nat
  shift : Nat
  jump : Bool
  toggle : Bool
  pos : Nat
deriving DecidableEq, Repr

def DecSt.init : DecSt := ⟨[], 0, 0, false, true, 0⟩

/-- src/drpm_apply.c:148-154, the inner loop storing `number` positions into an array of
    `file_count` elements. The test is `>`; storing element number `file_count` is undefined. -/
def pushRun (fileCount : Nat) : Nat → Nat → List Nat → Out (List Nat × Nat)
  | 0, pos, ps => .ok (ps, pos)
  | n + 1, pos, ps =>
    if ps.length > fileCount ∨ pos > fileCount then .err .format
    else if ps.length ≥ fileCount then .ub
    else pushRun fileCount n (pos + 1) (ps ++ [pos])

/-- src/drpm_apply.c:119-120/125-126: `if (shift) num_buf <<= shift` on a `size_t`; shifting by
    64 or more is undefined. -/
def shl64 (v shift : Nat) : Out Nat :=
  if shift ≥ 64 then .ub else .ok ((v <<< shift) % 2^64)

/-- src/drpm_apply.c:117-156, the body of the loop for one nibble. -/
def decStep (fileCount : Nat) (s : DecSt) (nib : Nat) : Out DecSt :=
  if nib &&& (1 <<< 3) ≠ 0 then do
    let b ← shl64 (nib ^^^ (1 <<< 3)) s.shift
    .ok { s with num := s.num ||| b, shift := s.shift + 3 }
  else do
    let b ← shl64 nib s.shift
    let number := s.num ||| b
    let s := { s with num := 0, shift := 0 }
    if s.jump then .ok { s with pos := number, toggle := true, jump := false }
    else if number = 0 then .ok { s with jump := true }
    else if !s.toggle then .ok { s with pos := (s.pos + number) % 2^64, toggle := true }
    else do
      let (ps, pos) ← pushRun fileCount number s.pos s.positions
      .ok { s with positions := ps, pos := pos, toggle := false }

/-- The nibbles of the sequence in the order of src/drpm_apply.c:109-116: high nibble, then low
    nibble of each byte. -/
def nibbles (bs : Bytes) : List Nat :=
  (bs.map (fun b => [b.toNat >>> 4, b.toNat &&& 0x0F])).flatten

/-- src/drpm_apply.c:108-162: decompressing the file order that follows the MD5 (argument: the
    sequence without its first 16 bytes). -/
def decodeSeq (fileCount : Nat) (bs : Bytes) : Out (List Nat) := do
  let s ← (nibbles bs).foldlM (decStep fileCount) DecSt.init
  if s.shift ≠ 0 then .err .format else .ok s.positions

end Drpm
