import Verif.Format
/-!
# Specification of the delta file, independent of the reader and writer
-/

namespace Drpm

/-- External copies starting at position `p` stay inside `limit` bytes of external data: each seek
    lands at a natural number `q` and the copy ends at or before `limit`. -/
def CopiesInside (limit : Nat) : Nat → List (Nat × Nat) → Prop
  | _, [] => True
  | p, (w, n) :: rest =>
    ∃ q : Nat, (q : Int) = (p : Int) + s32 w ∧ q + n ≤ limit ∧ CopiesInside limit (q + n) rest

/-- No external copy ends at position 0 (the reader rejects such copies). -/
def EndsPositive : Nat → List (Nat × Nat) → Prop
  | _, [] => True
  | p, (w, n) :: rest =>
    ((p : Int) + s32 w).toNat + n ≠ 0 ∧ EndsPositive (((p : Int) + s32 w).toNat + n) rest

/-- Every number of a list of pairs fits 32 bits. -/
def Words (l : List (Nat × Nat)) : Prop := ∀ p ∈ l, p.1 < 2^32 ∧ p.2 < 2^32

/-- A delta as `drpm_make` hands it to the writer: the types of the members (32-bit and 64-bit
    integers, NUL-free strings, 16-byte MD5), the counts are the lengths of the arrays, the internal
    data are given piece by piece, and what the formats demand (source, sequence and header
    lengths; versions before 3 hold neither header nor offset adjustments and store lengths in
    32 bits). -/
structure Delta.Made (d : Delta) (ptrs : List Bytes) : Prop where
  version : 1 ≤ d.version ∧ d.version ≤ 3
  rpmonly : d.type = .rpmonly → d.version = 3 ∧ d.sequence.length = 16 ∧ 0 < d.tgtHeaderLen ∧
    d.tgtNevr.length + 1 < 2^31 - 2^12 ∧ (∀ c ∈ d.tgtNevr, c ≠ 0) ∧ d.addData.length < 2^31 - 2^12
  srcNevr : d.srcNevr.length + 2 < 2^32 ∧ ∀ c ∈ d.srcNevr, c ≠ 0
  sequence : 16 ≤ d.sequence.length ∧ d.sequence.length < 2^32
  md5 : d.tgtMd5.length = 16
  size : d.tgtSize < 2^32
  comp : d.tgtComp ∈ [0, 1, 2, 3, 4, 6] ∧ d.tgtCompLevel < 256
  param : d.tgtCompParam.length < 2^32
  header : d.tgtHeaderLen < 2^32
  offadj : d.offadjCount = d.offadj.length ∧ d.offadj.length < 2^29 ∧ Words d.offadj ∧
    ∀ p ∈ d.offadj, p.2 ≠ 2^31
  old : d.version < 3 → d.tgtHeaderLen = 0 ∧ d.offadj = [] ∧ d.extDataLen < 2^32 ∧
    d.intDataLen < 2^32
  leadsig : 112 ≤ d.tgtLeadsig.length ∧ d.tgtLeadsig.length < 2^32
  fmt : d.payloadFmtOff < 2^32
  ints : d.intCount = d.ints.length ∧ d.ints.length < 2^29 ∧ Words d.ints
  exts : d.extCount = d.exts.length ∧ d.exts.length < 2^29 ∧ Words d.exts ∧ ∀ p ∈ d.exts, p.1 ≠ 2^31
  ext : d.extDataLen < 2^63 ∧ CopiesInside d.extDataLen 0 d.exts ∧ EndsPositive 0 d.exts
  add : d.addData.length < 2^32
  data : d.intPtrs = some ptrs ∧ ptrs.map List.length = d.ints.map (·.2) ∧
    d.intDataLen = ptrs.flatten.length ∧ d.intDataLen < 2^64

/-- What it means that a delta `r` that was read is the delta `d` that was written (with `ptrs` the
    internal data): every member that the format version stores has the same value. -/
structure SameDelta (d : Delta) (ptrs : List Bytes) (r : Delta) : Prop where
  type : r.type = d.type
  version : r.version = d.version
  srcNevr : r.srcNevr = d.srcNevr
  tgtNevr : d.type = .rpmonly → r.tgtNevr = d.tgtNevr
  sequence : r.sequence = d.sequence
  md5 : r.tgtMd5 = d.tgtMd5
  v2 : 2 ≤ d.version → r.tgtSize = d.tgtSize ∧ r.tgtComp = d.tgtComp ∧
    r.tgtCompLevel = d.tgtCompLevel ∧ r.tgtCompParam = d.tgtCompParam
  header : r.tgtHeaderLen = d.tgtHeaderLen
  offadj : r.offadj = d.offadj ∧ (d.version = 3 → r.offadjCount = d.offadjCount)
  leadsig : r.tgtLeadsig = d.tgtLeadsig
  fmt : r.payloadFmtOff = d.payloadFmtOff
  ints : r.ints = d.ints ∧ r.intCount = d.intCount
  exts : r.exts = d.exts ∧ r.extCount = d.extCount
  extLen : r.extDataLen = d.extDataLen
  add : r.addData = d.addData
  intLen : r.intDataLen = d.intDataLen
  intData : r.intPtrs = none ∧ r.intBytes = ptrs.flatten

/-- Position `p` of a byte string read as a big-endian 32-bit number (0 if it is not there). -/
def word (s : Bytes) (p : Nat) : Nat :=
  ((slice s p 4).foldl (fun a b => a * 256 + b.toNat) 0)

/-! The places of the length and count fields in the decompressed part of a delta file. -/

/-- The length of the source NEVR is at 4, its bytes follow; then the length of the sequence. -/
def seqLenPos (s : Bytes) : Nat := 8 + word s 4

/-- After the sequence and the 16 bytes of the target MD5. -/
def v2Pos (s : Bytes) : Nat := seqLenPos s + 4 + word s (seqLenPos s) + 16

/-- After target size, target compression, length and bytes of the compression parameters. -/
def v3Pos (s : Bytes) : Nat := v2Pos s + 12 + word s (v2Pos s + 8)

/-- The number of offset adjustments follows the header length. -/
def offadjCountPos (s : Bytes) : Nat := v3Pos s + 4

/-- The version digit. -/
def versionDigit (s : Bytes) : Nat := word s 0 % 256

/-- Where the length of lead and signature is, for each version. -/
def leadsigPos (s : Bytes) : Nat :=
  if versionDigit s = 51 then v3Pos s + 8 + 8 * word s (offadjCountPos s)
  else if 50 ≤ versionDigit s ∨ versionDigit s < 48 then v3Pos s
  else v2Pos s

/-- The number of internal copies follows lead, signature and the payload format offset. -/
def intCountPos (s : Bytes) : Nat := leadsigPos s + 4 + word s (leadsigPos s) + 4

/-- The number of external copies. -/
def extCountPos (s : Bytes) : Nat := intCountPos s + 4

end Drpm

namespace Drpm

/-- The magic bytes at the start of a stream of each compression method (the formats' own
    specifications); no magic for no compression. -/
def magicBytes : Comp → Bytes
  | .none => []
  | .gzip => [0x1F, 0x8B]
  | .bzip2 => [0x42, 0x5A, 0x68]
  | .xz => [0xFD, 0x37, 0x7A, 0x58, 0x5A, 0x00]
  | .lzma => [0x5D, 0x00, 0x00]
  | .lzip => [0x4C, 0x5A, 0x49, 0x50]
  | .zstd => [0x28, 0xB5, 0x2F, 0xFD]

/-- What the round trip assumes of the compression libraries: without compression the bytes are
    unchanged; otherwise the compressed bytes start with the magic of the method and decompress to
    the original. -/
structure Lossless (c : Comp) (compress : Bytes → Out Bytes) (dec : Decoder) : Prop where
  plain : c = .none → ∀ s, compress s = .ok s
  packed : c ≠ .none → ∀ s, ∃ z, compress s = .ok z ∧ 8 ≤ z.length ∧ magicBytes c <+: z ∧ dec c z = s

end Drpm
