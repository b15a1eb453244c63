import Verif.FormatSpec
/-!
# Specification of the delta format

A description of delta files from the outside, for C92: what is in a delta, the bytes it is written
as, and what it means that a delta turns one byte string into another. It uses none of the functions
of the reader, the writer, the diff or the reconstruction loop; from the model it only takes the
names of types (`Bytes`, `Comp`, `DType`, `Decoder`), `slice` and the magic bytes of the compression
formats. Any other implementation of the format could be held against this file.
-/

namespace Drpm

/-! ## Numbers -/

/-- `k` bytes of a number, the most significant byte first. -/
def bigEnd (k n : Nat) : Bytes := (List.range k).reverse.map fun i => UInt8.ofNat (n / 256 ^ i % 256)

/-- A signed number as 32 bits: the sign in the highest bit, the magnitude in the others. -/
def signMag (z : Int) : Bytes := bigEnd 4 (if z < 0 then 2 ^ 31 + z.natAbs else z.natAbs)

/-- A length in 32 bits and that many bytes. -/
def sized (b : Bytes) : Bytes := bigEnd 4 b.length ++ b

/-- The number of a compression method in a delta. There is none for lzip. -/
def methodNumber : Comp → Nat
  | .none => 0
  | .gzip => 1
  | .bzip2 => 2
  | .lzma => 5
  | .xz => 6
  | .zstd => 7
  | .lzip => 0

/-! ## What is in a delta -/

/-- The contents of a delta.
    - `source`: name and version of the old package; `sequence`: which data of it are used;
    - `md5`, `size`: of the new package file; `comp`, `level`, `params`: compression of its payload;
    - `headerLen`: how many bytes at the start of the new data are a header (rpm-only deltas);
    - `adjust`: number of entries and offset correction;
    - `leadsig`: lead and signature of the new package; `fmtOff`: place of the payload format;
    - `ints`: number of copies from the old data before a piece of the delta's own data, and the
      length of that piece; `exts`: movement in the old data and length of a copy;
    - `oldLen`: length of the old data; `add`: the add block as stored; `data`: own data. -/
structure DeltaInfo where
  version : Nat
  source : Bytes
  sequence : Bytes
  md5 : Bytes
  size : Nat
  comp : Comp
  level : Nat
  params : Bytes
  headerLen : Nat
  adjust : List (Nat × Int)
  leadsig : Bytes
  fmtOff : Nat
  ints : List (Nat × Nat)
  exts : List (Int × Nat)
  oldLen : Nat
  add : Bytes
  data : Bytes

namespace DeltaInfo

/-- "DLT" and the digit of the version. -/
def mark (v : Nat) : Bytes := [0x44, 0x4C, 0x54, UInt8.ofNat (0x30 + v)]

/-- Lengths of data have 64 bits in version 3 and 32 bits before. -/
def long (f : DeltaInfo) (n : Nat) : Bytes := bigEnd (if f.version = 3 then 8 else 4) n

/-- What version 2 added: size and payload compression of the new package. -/
def part2 (f : DeltaInfo) : Bytes :=
  bigEnd 4 f.size ++ bigEnd 4 (methodNumber f.comp + 256 * f.level) ++ sized f.params

/-- What version 3 added: the length of the header and the offset adjustments, first the numbers of
    entries, then the corrections. -/
def part3 (f : DeltaInfo) : Bytes :=
  bigEnd 4 f.headerLen ++ bigEnd 4 f.adjust.length ++ f.adjust.flatMap (fun a => bigEnd 4 a.1) ++
    f.adjust.flatMap (fun a => signMag a.2)

/-- The copies: how many of each kind, then the four columns of numbers one after the other. -/
def copies (f : DeltaInfo) : Bytes :=
  bigEnd 4 f.ints.length ++ bigEnd 4 f.exts.length ++
    f.ints.flatMap (fun c => bigEnd 4 c.1) ++ f.ints.flatMap (fun c => bigEnd 4 c.2) ++
    f.exts.flatMap (fun c => signMag c.1) ++ f.exts.flatMap (fun c => bigEnd 4 c.2)

/-- The part of a delta file that is compressed as a whole. The add block of an rpm-only delta is
    not in it. -/
def text (f : DeltaInfo) (t : DType) : Bytes :=
  mark f.version ++ sized (f.source ++ [0]) ++ sized f.sequence ++ f.md5 ++
    (if 2 ≤ f.version then f.part2 else []) ++ (if f.version = 3 then f.part3 else []) ++
    sized f.leadsig ++ bigEnd 4 f.fmtOff ++ f.copies ++ f.long f.oldLen ++
    sized (if t = .rpmonly then [] else f.add) ++ f.long f.data.length ++ f.data

/-- What an rpm-only delta has in front of the compressed part; `target` is the name of the new
    package. -/
def rpmonlyHead (f : DeltaInfo) (target : Bytes) : Bytes :=
  [0x64, 0x72, 0x70, 0x6D] ++ mark 3 ++ sized (target ++ [0]) ++ sized f.add

end DeltaInfo

/-- The copies stay inside `limit` bytes of old data, and none ends at its very start. -/
def CopiesFit (limit : Nat) : Nat → List (Int × Nat) → Prop
  | _, [] => True
  | p, (z, n) :: rest =>
    ∃ q : Nat, (q : Int) = p + z ∧ q + n ≤ limit ∧ 0 < q + n ∧ CopiesFit limit (q + n) rest

/-- A string without NUL bytes. -/
def NoNul (b : Bytes) : Prop := ∀ c ∈ b, c ≠ 0

/-- A delta that keeps to the limits of the format. -/
structure DeltaInfo.WellFormed (f : DeltaInfo) (t : DType) : Prop where
  version : f.version = 3 ∨ (t = .standard ∧ (f.version = 1 ∨ f.version = 2))
  source : f.source.length + 2 < 2 ^ 32 ∧ NoNul f.source
  sequence : 16 ≤ f.sequence.length ∧ f.sequence.length < 2 ^ 32
  md5 : f.md5.length = 16
  size : f.size < 2 ^ 32
  comp : f.comp ≠ .lzip ∧ f.level < 256
  params : f.params.length < 2 ^ 32
  headerLen : f.headerLen < 2 ^ 32
  adjust : f.adjust.length < 2 ^ 29 ∧ ∀ a ∈ f.adjust, a.1 < 2 ^ 32 ∧ -2 ^ 31 < a.2 ∧ a.2 < 2 ^ 31
  leadsig : 112 ≤ f.leadsig.length ∧ f.leadsig.length < 2 ^ 32
  fmtOff : f.fmtOff < 2 ^ 32
  ints : f.ints.length < 2 ^ 29 ∧ ∀ c ∈ f.ints, c.1 < 2 ^ 32 ∧ c.2 < 2 ^ 32
  exts : f.exts.length < 2 ^ 29 ∧ ∀ c ∈ f.exts, -2 ^ 31 < c.1 ∧ c.1 < 2 ^ 31 ∧ c.2 < 2 ^ 32
  fit : f.oldLen < 2 ^ 63 ∧ CopiesFit f.oldLen 0 f.exts
  data : f.data.length = (f.ints.map (·.2)).sum ∧ f.data.length < 2 ^ 64
  add : f.add.length < 2 ^ 31 - 2 ^ 12
  early : f.version ≠ 3 → f.adjust = [] ∧ f.oldLen < 2 ^ 32 ∧ f.data.length < 2 ^ 32
  rpmonly : t = .rpmonly → f.sequence.length = 16 ∧ 0 < f.headerLen
  standard : t = .standard → f.headerLen = 0

/-! ## What a delta means -/

/-- The delta rebuilds `out`: standing at position `p` of the old data, with `add` left of the add
    block (`none` if there is none), with the copies `exts` and `ints` to do and `data` left of the
    delta's own data, `out` is what comes out.
    - Nothing to do: nothing comes out.
    - No more copies from the old data before the next piece of own data: that piece comes out.
    - Otherwise the next copy is made: move by `z`, take `n` bytes; with an add block, its next `n`
      bytes are added to them one by one (modulo 256). -/
inductive Rebuilds (old : Bytes) :
    Nat → Option Bytes → List (Int × Nat) → List (Nat × Nat) → Bytes → Bytes → Prop
  | done {p : Nat} {add : Option Bytes} {exts : List (Int × Nat)} : Rebuilds old p add exts [] [] []
  | own {p : Nat} {add : Option Bytes} {exts : List (Int × Nat)} {ints : List (Nat × Nat)} {data out : Bytes}
      (piece : Bytes) (h : Rebuilds old p add exts ints data out) :
      Rebuilds old p add exts ((0, piece.length) :: ints) (piece ++ data) (piece ++ out)
  | copy {p : Nat} {exts : List (Int × Nat)} {k m : Nat} {ints : List (Nat × Nat)} {data out : Bytes}
      (z : Int) (n q : Nat) (hq : (q : Int) = p + z) (hn : q + n ≤ old.length)
      (h : Rebuilds old (q + n) none exts ((k, m) :: ints) data out) :
      Rebuilds old p none ((z, n) :: exts) ((k + 1, m) :: ints) data (slice old q n ++ out)
  | copyAdd {p : Nat} {add : Bytes} {exts : List (Int × Nat)} {k m : Nat} {ints : List (Nat × Nat)} {data out : Bytes}
      (z : Int) (q : Nat) (a : Bytes) (hq : (q : Int) = p + z) (hn : q + a.length ≤ old.length)
      (h : Rebuilds old (q + a.length) (some add) exts ((k, m) :: ints) data out) :
      Rebuilds old p (some (a ++ add)) ((z, a.length) :: exts) ((k + 1, m) :: ints) data
        (List.zipWith (fun b d => b + d) (slice old q a.length) a ++ out)

/-! ## Compression -/

/-- `z` holds `s` by method `c`: compressed, with the magic of the method at the start; or as it is,
    if it does not start with one of the magics. -/
inductive StoredAs (dec : Decoder) (z : Bytes) : Comp → Bytes → Prop
  | plain (h8 : 8 ≤ z.length) (h : ∀ c, c ≠ .none → ¬ magicBytes c <+: z) : StoredAs dec z .none z
  | packed (c : Comp) (hc : c ≠ .none) (h8 : 8 ≤ z.length) (h : magicBytes c <+: z) : StoredAs dec z c (dec c z)

/-- The add block: absent, or by any method. -/
inductive AddIs (dec : Decoder) : Bytes → Option Bytes → Prop
  | absent : AddIs dec [] none
  | present {z : Bytes} {c : Comp} {s : Bytes} (h : StoredAs dec z c s) : AddIs dec z (some s)

end Drpm
