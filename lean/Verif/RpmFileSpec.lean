import Verif.RpmFile
import Verif.CodecSpec
import Verif.FormatSpec
/-!
# Package files (specification)

The format of package files: a lead of 96 bytes, the signature (a header), zero bytes up to a multiple
of eight, the header, the payload. On disk a header is its magic and the exported header.
-/

namespace Drpm

/-- `b` is the form in which rpmlib stores the header `h`: two counts (of index entries, sixteen bytes
    each, and of bytes of data), the index, the data. Headers that cannot be told apart are taken to
    be the same. -/
structure OnDisk {η : Type} (lib : Rpmlib η) (h : η) (b : Bytes) : Prop where
  read : ∀ rest, lib.read (headerMagic ++ b ++ rest) = some (h, 8 + b.length)
  imp : ∀ rest, lib.imp (b ++ rest) = some h
  exp : lib.exp h = some b
  size : lib.size h = 8 + b.length
  counts : b.length = 8 + 16 * word b 0 + word b 4
  small : b.length < 2^30

/-- A package file: what it consists of. -/
structure PkgFile {η : Type} (lib : Rpmlib η) where
  lead : Bytes
  sig : η
  sigBlob : Bytes
  pad : Nat
  hdr : η
  hdrBlob : Bytes
  payload : Bytes
  isLead : lead.length = 96 ∧ leadMagic <+: lead
  sigOk : OnDisk lib sig sigBlob
  hdrOk : OnDisk lib hdr hdrBlob
  aligned : pad < 8 ∧ (96 + 8 + sigBlob.length + pad) % 8 = 0

namespace PkgFile
variable {η : Type} {lib : Rpmlib η}

/-- Lead and signature, up to the header. -/
def leadsig (p : PkgFile lib) : Bytes := p.lead ++ headerMagic ++ p.sigBlob ++ List.replicate p.pad 0

/-- The header. -/
def header (p : PkgFile lib) : Bytes := headerMagic ++ p.hdrBlob

/-- The file. -/
def file (p : PkgFile lib) : Bytes := p.leadsig ++ p.header ++ p.payload

end PkgFile

/-- The compression method that the first bytes of `z` stand for. -/
def StartsAs (c : Comp) (z : Bytes) : Prop :=
  (c ≠ .none ∧ magicBytes c <+: z) ∨ (c = .none ∧ ∀ c', c' ≠ .none → ¬ magicBytes c' <+: z)

/-- A package whose payload can be decompressed to the archive. -/
structure Unpacks {η σ : Type} {lib : Rpmlib η} (U : Unpack σ) (p : PkgFile lib) (archive : Bytes) (c : Comp) : Prop where
  length : 8 ≤ p.payload.length
  method : StartsAs c p.payload
  whole : ReadsWhole p.payload archive (U c p.payload)

end Drpm

namespace Drpm

/-! ## What rpmlib promises -/

/-- The tags of regions (`HEADER_IMAGE`, `HEADER_SIGNATURES`, `HEADER_IMMUTABLE`). -/
def IsRegion (t : Nat) : Prop := 61 ≤ t ∧ t ≤ 63

/-- The two headers have the same data (regions aside). -/
def SameTags {η : Type} (lib : Rpmlib η) (h h' : η) : Prop := ∀ t, ¬ IsRegion t → lib.get h' t = lib.get h t

/-- `h'` is `h` with `d` (`none`: nothing) in the place of the tag `t`. -/
def WithTag {η : Type} (lib : Rpmlib η) (h : η) (t : Nat) (d : Option TagData) (h' : η) : Prop :=
  ∀ t', ¬ IsRegion t' → lib.get h' t' = if t' = t then d else lib.get h t'

/-- The index of the exported header `b` has an entry for the tag `t`. -/
def HasIndex (b : Bytes) (t : Nat) : Prop := ∃ i, i < word b 0 ∧ word b (8 + 16 * i) = t

/-- rpmlib's functions on headers, for data `Ok` that can be stored. -/
structure HeaderLaws {η : Type} (lib : Rpmlib η) (Ok : TagData → Prop) : Prop where
  new : ∀ t, lib.get lib.new t = none
  stored : ∀ h t d, lib.get h t = some d → ¬ IsRegion t → Ok d ∧ t < 2^32
  okFormat : Ok (.str fmtDrpm) ∧ Ok (.str fmtCpio)
  okSize : ∀ n, n < 2^32 → Ok (.u32 [n])
  okMd5 : ∀ m : Bytes, m.length = 16 → Ok (.bin m)
  str : ∀ h t s, lib.getStr h t = some s ↔ lib.get h t = some (.str s)
  entries : ∀ h t d, (t, d) ∈ lib.entries h ↔ lib.get h t = some d ∧ ¬ IsRegion t
  distinct : ∀ h, (lib.entries h).Pairwise (fun a b => a.1 ≠ b.1)
  put : ∀ h t d, lib.get h t = none → ¬ IsRegion t → Ok d → t < 2^32 →
    ∃ h', lib.put h t d = some h' ∧ WithTag lib h t (some d) h' ∧ ∀ R, IsRegion R → lib.get h R = none → lib.get h' R = none
  del : ∀ h t d, lib.get h t = some d → ¬ IsRegion t →
    ∃ h', lib.del h t = some h' ∧ WithTag lib h t none h' ∧ ∀ R, IsRegion R → lib.get h R = none → lib.get h' R = none
  /-- Reloading makes a region of all the data and gives the header the form in which it is stored. -/
  region : ∀ h R h', R = 62 ∨ R = 63 → lib.reload h R = some h' → SameTags lib h h' ∧
    ∃ b g, lib.get h' R = some (.bin b) ∧ lib.imp b = some g ∧ SameTags lib h g
  disk : ∀ h R h', R = 62 ∨ R = 63 → lib.reload h R = some h' →
    ∃ b, OnDisk lib h' b ∧ ∀ t d, lib.get h t = some d → ¬ IsRegion t → HasIndex b t
  /-- The result depends on the data only. -/
  canonical : ∀ h g R, lib.get h R = none → lib.get g R = none → SameTags lib h g → lib.reload h R = lib.reload g R
  /-- It fails only if the header is too large. -/
  room : ∀ h R t s s' g, lib.reload h R ≠ none → s.length = s'.length → lib.get h t = some (.str s) → ¬ IsRegion t →
    Ok (.str s') → lib.get g R = none → WithTag lib h t (some (.str s')) g → lib.reload g R ≠ none
  roomSig : ∀ g n m, n < 2^32 → m.length = 16 → (∀ R, IsRegion R → lib.get g R = none) →
    (∀ t, ¬ IsRegion t → lib.get g t = if t = 1000 then some (.u32 [n]) else if t = 1004 then some (.bin m) else none) →
    lib.reload g 62 ≠ none

/-- The header of a package as `rpmbuild` makes it: all data in one region. -/
def Sealed {η : Type} (lib : Rpmlib η) (h : η) : Prop := ∃ h0, lib.get h0 63 = none ∧ lib.reload h0 63 = some h

/-! ## What headers say -/

/-- The bytes of a string. -/
def ascii (s : String) : Bytes := s.toList.map (fun c => UInt8.ofNat c.toNat)

/-- The names of the compression methods in headers. -/
def payloadNames : List (String × Comp) :=
  [("gzip", .gzip), ("bzip2", .bzip2), ("lzip", .lzip), ("lzma", .lzma), ("xz", .xz), ("zstd", .zstd)]

/-- The header has the file list `fs`, and colours if `colors`: the tags hold the members of the files
    in the order of the files. -/
structure HasFiles {η : Type} (lib : Rpmlib η) (h : η) (fs : List FileInfo) (colors : Bool) : Prop where
  names : lib.getExt h 5000 = some (.strs (fs.map (·.name)))
  flags : lib.get h 1037 = some (.u32 (fs.map (·.flags)))
  md5s : lib.get h 1035 = some (.strs (fs.map (·.md5)))
  rdevs : lib.get h 1033 = some (.u16 (fs.map (·.rdev)))
  sizes : lib.get h 1028 = some (.u32 (fs.map (·.size)))
  modes : lib.get h 1030 = some (.u16 (fs.map (·.mode)))
  verify : lib.get h 1045 = some (.u32 (fs.map (·.verify)))
  linktos : lib.get h 1036 = some (.strs (fs.map (·.linkto)))
  colored : lib.get h 1140 = if colors then some (.u32 (fs.map (·.color))) else none

end Drpm
