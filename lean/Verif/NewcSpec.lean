import Verif.KeepSpec
import Verif.SeqSpec
/-!
# CPIO archives in the format "newc" (specification)

Written from cpio(5), independent of the code: what a "newc" archive is, and the archive that a delta is
made from.
-/

namespace Drpm

/-- The value of a hexadecimal digit. -/
def digitOf (c : UInt8) : Option Nat :=
  if 48 ≤ c ∧ c ≤ 57 then some (c.toNat - 48)
  else if 65 ≤ c ∧ c ≤ 70 then some (c.toNat - 55)
  else if 97 ≤ c ∧ c ≤ 102 then some (c.toNat - 87)
  else none

/-- These hexadecimal digits are the number `n`. -/
inductive Hex : Bytes → Nat → Prop
  | nil : Hex [] 0
  | digit {s : Bytes} {n d : Nat} {c : UInt8} : Hex s n → digitOf c = some d → Hex (s ++ [c]) (16 * n + d)

/-- The magic "070701". -/
def newcMagic : Bytes := [48, 55, 48, 55, 48, 49]

/-- A header: the magic and thirteen numbers of eight digits, which are inode, mode, user, group, number of
    links, time, size of the data, major and minor number of the device, major and minor number of the
    device that the file is, length of the name with its NUL, and checksum. -/
def NewcHeader (s : Bytes) (nums : List Nat) : Prop :=
  nums.length = 13 ∧ ∃ fs : List Bytes, fs.length = 13 ∧ s = newcMagic ++ fs.flatten ∧
    ∀ (i : Nat) (f : Bytes) (n : Nat), fs[i]? = some f → nums[i]? = some n → f.length = 8 ∧ Hex f n

/-- `p` fills `s` up to a multiple of four bytes, with zeros if so demanded. -/
def Fills (nul : Bool) (s p : Bytes) : Prop := p.length < 4 ∧ (s ++ p).length % 4 = 0 ∧ (nul = true → ∀ b ∈ p, b = 0)

/-- An entry: header, name with its NUL, padding, data, padding. -/
def NewcEntry (nul : Bool) (s name data : Bytes) : Prop :=
  ∃ hd nums p q, NewcHeader hd nums ∧ nums[6]? = some data.length ∧ nums[11]? = some (name.length + 1) ∧ 0 ∉ name ∧
    Fills nul (hd ++ name ++ [0]) p ∧ Fills nul data q ∧ s = hd ++ name ++ [0] ++ p ++ data ++ q

/-- The name "TRAILER!!!" of the last entry. -/
def newcTrailerName : Bytes := [84, 82, 65, 73, 76, 69, 82, 33, 33, 33]

/-- An archive with these names and data, up to its trailer, padded with zeros if so demanded. -/
inductive NewcArchive (nul : Bool) : Bytes → List (Bytes × Bytes) → Prop
  | trailer {s rest : Bytes} : NewcEntry nul s newcTrailerName [] → NewcArchive nul (s ++ rest) []
  | entry {s rest name data : Bytes} {ents : List (Bytes × Bytes)} : NewcEntry nul s name data → name ≠ newcTrailerName →
      NewcArchive nul rest ents → NewcArchive nul (s ++ rest) ((name, data) :: ents)

/-- The path that an entry has by its name: without "./". -/
def pathOf : Bytes → Bytes
  | 46 :: 47 :: path => path
  | name => name

/-- A file of the package that is used: its number in the file list, the file, its path and its data in the
    archive. -/
structure Used where
  number : Nat
  file : FileInfo
  path : Bytes
  data : Bytes

/-- The files that are used: those that a delta may rely on, in the order of the archive. -/
inductive Uses (colors : Bool) (unpatched : Bytes → Bytes → Bool) (files : List FileInfo) : List (Bytes × Bytes) → List Used → Prop
  | done : Uses colors unpatched files [] []
  | take {name data : Bytes} {ents : List (Bytes × Bytes)} {i : Nat} {f : FileInfo} {used : List Used} :
      FirstAt files (pathOf name) i f → Reliable colors unpatched f (pathOf name) data.length →
      Uses colors unpatched files ents used → Uses colors unpatched files ((name, data) :: ents) (⟨i, f, pathOf name, data⟩ :: used)
  | leave {name data : Bytes} {ents : List (Bytes × Bytes)} {used : List Used} :
      (∀ i f, FirstAt files (pathOf name) i f → ¬ Reliable colors unpatched f (pathOf name) data.length) →
      Uses colors unpatched files ents used → Uses colors unpatched files ((name, data) :: ents) used

/-- Eight lower-case hexadecimal digits. -/
def hexText (n : Nat) : Bytes :=
  [7, 6, 5, 4, 3, 2, 1, 0].map (fun i => let d := n / 16^i % 16; UInt8.ofNat (if d < 10 then 48 + d else 87 + d))

/-- The shortest run of zeros that fills `n` bytes up to a multiple of four. -/
def newcZeros (n : Nat) : Bytes := List.replicate ((4 - n % 4) % 4) 0

/-- An entry with all numbers zero but these: mode, one link, size, device number. -/
def newcText (mode dev : Nat) (name data : Bytes) : Bytes :=
  newcMagic ++ ([0, mode, 0, 0, 1, 0, data.length, 0, 0, dev / 256, dev % 256, name.length + 1, 0].map hexText).flatten ++
    name ++ [0] ++ newcZeros (110 + name.length + 1) ++ data ++ newcZeros data.length

/-- The entry of a file in the archive that a delta is made from: the name is the path after "./"; the
    data of a link is its target; only a device has a device number. -/
def usedText (u : Used) : Bytes :=
  newcText u.file.mode (if u.file.block ∨ u.file.char then u.file.rdev else 0) ([46, 47] ++ u.path)
    (if u.file.link then u.file.linkto else u.data)

/-- The archive that a delta is made from. -/
def usedArchive (used : List Used) : Bytes := (used.map usedText).flatten ++ newcText 0 0 newcTrailerName []

/-- The names and data in the archive that a delta is made from. -/
def usedEntries (used : List Used) : List (Bytes × Bytes) :=
  used.map (fun u => ([46, 47] ++ u.path, if u.file.link then u.file.linkto else u.data))

/-- A payload as packages have it, with the file list of the header: no path occurs twice; the files that
    are used have proper digests, and no data unless they are regular files or links. -/
structure Payload (nul colors : Bool) (unpatched : Bytes → Bytes → Bool) (algo : Nat) (files : List FileInfo) (archive : Bytes)
    (ents : List (Bytes × Bytes)) (used : List Used) : Prop where
  newc : NewcArchive nul archive ents
  names : ∀ x ∈ ents, x.1.length + 1 < 2^16
  unique : (ents.map (fun x => pathOf x.1)).Nodup
  fit : ∀ f ∈ files, f.Fits
  uses : Uses colors unpatched files ents used
  md5 : algo = 0 → ∀ u ∈ used, u.file.regular = true → 0 < u.file.size → ∃ d, parseHex u.file.md5 = some d ∧ d.length = 16
  sha256 : algo = 1 → ∀ u ∈ used, u.file.regular = true → 0 < u.file.size → ∃ d, parseHex u.file.md5 = some d ∧ d.length = 32
  nodata : ∀ u ∈ used, u.file.regular = false → u.file.link = false → u.data = []

end Drpm
