import Verif.NewcSpec
import Verif.OrderSpec
import Verif.OpenFilesSpec
import Verif.OnceSpec
/-!
# Standard deltas made from other choices of files (specification)

This library makes standard deltas from all files that a delta may rely on (C91). Another program may
choose other files: the sequence in the delta says which.
-/

namespace Drpm

/-- Some of the entries of an archive, in the order of the archive, each with a file of the file list that
    has this path. Whether a file is meant to be changed does not matter here. The size must be right, and
    only regular files and links have data. -/
inductive Chosen (files : List FileInfo) : List (Bytes × Bytes) → List Used → Prop
  | done : Chosen files [] []
  | take {name data : Bytes} {ents : List (Bytes × Bytes)} {i : Nat} {f : FileInfo} {used : List Used} :
      files[i]? = some f → SamePath f (pathOf name) → (f.regular = true → data.length = f.size) →
      (f.regular = false → f.link = false → data = []) →
      Chosen files ents used → Chosen files ((name, data) :: ents) (⟨i, f, pathOf name, data⟩ :: used)
  | leave {x : Bytes × Bytes} {ents : List (Bytes × Bytes)} {used : List Used} :
      Chosen files ents used → Chosen files (x :: ents) used

/-- These bytes are the order of files `order`, in any of the ways to write it. -/
structure OrderIs (code : Bytes) (order : List Nat) : Prop where
  short : ShortNumbers code
  complete : orderLeft code = []
  files : filesOf (runsOf code) = order

/-- The sequence of a delta that is made from these files. -/
structure SequenceOf (H : Bytes → Bytes) (algo : Nat) (used : List Used) (sequence : Bytes) : Prop where
  hash : sequence.take 16 = H ((used.map fun u => fileRecord algo u.file).flatten)
  long : 16 ≤ sequence.length
  order : OrderIs (sequence.drop 16) (used.map (·.number))

/-- A payload, padded with zeros, with the file list of the header, and a choice of its files. -/
structure Choice (algo : Nat) (files : List FileInfo) (archive : Bytes) (ents : List (Bytes × Bytes)) (used : List Used) : Prop where
  newc : NewcArchive true archive ents
  names : ∀ x ∈ ents, x.1.length + 1 < 2^16
  unique : (ents.map (fun x => pathOf x.1)).Nodup
  fit : ∀ u ∈ used, u.file.Fits
  chosen : Chosen files ents used
  md5 : algo = 0 → ∀ u ∈ used, u.file.regular = true → 0 < u.file.size → ∃ d, parseHex u.file.md5 = some d ∧ d.length = 16
  sha256 : algo = 1 → ∀ u ∈ used, u.file.regular = true → 0 < u.file.size → ∃ d, parseHex u.file.md5 = some d ∧ d.length = 32

/-- Number and metadata of the chosen files. -/
def usedFiles (used : List Used) : List (Nat × FileInfo) := used.map fun u => (u.number, u.file)

/-- A choice of files of an installed package: no file twice, and the disk has their contents, as they are or
    changed by prelink (`get` are the contents before). -/
structure DiskChoice (algo : Nat) (files : List FileInfo) (disk : Disk) (get : Bytes → Option Bytes) (used : List Used) : Prop where
  listed : ∀ u ∈ used, files[u.number]? = some u.file
  path : ∀ u ∈ used, SamePath u.file u.path
  once : (used.map (·.number)).Nodup
  fit : ∀ f ∈ files, f.Fits
  regular : ∀ u ∈ used, u.file.regular = true → u.data.length = u.file.size ∧ get u.file.name = some u.data ∧
    (u.file.size = 0 ∨ Unchanged disk u.file u.data ∨ Prelinked disk u.file u.data)
  nodata : ∀ u ∈ used, u.file.regular = false → u.file.link = false → u.data = []
  md5 : algo = 0 → ∀ u ∈ used, u.file.regular = true → 0 < u.file.size → ∃ d, parseHex u.file.md5 = some d ∧ d.length = 16
  sha256 : algo = 1 → ∀ u ∈ used, u.file.regular = true → 0 < u.file.size → ∃ d, parseHex u.file.md5 = some d ∧ d.length = 32

/-- The defects of C40 do not touch these copies: the files with contents have their places of the file list;
    and either they are at most 50 and the block boundaries suit `fillblock_prelink`, or prelink has changed
    none, the payload fits into the cache and the copies come back to a file before they have used 50 others. -/
structure DiskServes (disk : Disk) (get : Bytes → Option Bytes) (used : List Used) (ext : List (Nat × Nat)) : Prop where
  order : ∀ (k : Nat) (u : Used), used[k]? = some u → u.file.regular = true → 0 < u.file.size → k = u.number
  served : ((used.filter (fun u => u.file.regular && decide (0 < u.file.size))).length ≤ 50 ∧ PrelinkSafe disk get (usedFiles used)) ∨
    ((∀ x ∈ usedFiles used, ¬ Changed disk get x) ∧ (usedArchive used).length ≤ 8192 * 5000 ∧
      SoonAgain ((firstUses (blocksAsked 0 ext)).flatMap (blockFiles get (usedFiles used))))

end Drpm
