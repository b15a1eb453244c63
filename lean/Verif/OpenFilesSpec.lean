import Verif.CpioSpec
import Verif.OpenFiles
/-!
# The altered archive as the installed files describe it (specification)
-/

namespace Drpm

/-- The content of an entry as the installed files have it: the target of a link, the contents of a
    regular file, nothing for the others; padded with zeros. -/
def diskContent (get : Bytes → Option Bytes) (f : FileInfo) : Bytes :=
  if isLnk f then f.linkto ++ zeros (cpioPadding f.linkto.length)
  else if isReg f then (get f.name).getD [] ++ zeros (cpioPadding f.size)
  else []

/-- One entry. -/
def diskEntry (get : Bytes → Option Bytes) (x : Nat × FileInfo) : Bytes := alteredHeader x.2 ++ diskContent get x.2

/-- The entries of the files `ks`. -/
def diskEntries (get : Bytes → Option Bytes) (ks : List (Nat × FileInfo)) : Bytes := (ks.map (diskEntry get)).flatten

/-- The altered archive of the files `ks`, from the installed files. -/
def diskArchive (get : Bytes → Option Bytes) (ks : List (Nat × FileInfo)) : Bytes := diskEntries get ks ++ trailerBytes

/-- The files that are opened: regular files that are not empty. -/
def needsOpen (x : Nat × FileInfo) : Bool := isReg x.2 && decide (0 < x.2.size)

/-- Installed files as the package describes them. -/
def Present (get : Bytes → Option Bytes) (ks : List (Nat × FileInfo)) : Prop :=
  ∀ x ∈ ks, isReg x.2 = true → ∃ d, get x.2.name = some d ∧ d.length = x.2.size

/-- File `f`, whose contents were `d`, was changed by prelink: its size is not the one in the
    package, `is_prelinked` says so, and `prelink -u` gives `d`, perhaps with more after it. -/
def Prelinked (disk : Disk) (f : FileInfo) (d : Bytes) : Prop :=
  ∃ e, disk.get f.name = some e ∧ e.length ≠ f.size ∧ isPrelinked e (e.take 128) = .ok true ∧
    ∃ u, disk.undo f.name = .ok u ∧ d <+: u

/-- The file on the disk begins with the contents `d`, and there is no more to it unless it is recognisably
    not a file that prelink changed. -/
def Unchanged (disk : Disk) (f : FileInfo) (d : Bytes) : Prop :=
  ∃ e, disk.get f.name = some e ∧ d <+: e ∧ (e.length = f.size ∨ isPrelinked e (e.take 128) = .ok false)

/-- The contents `get` that the package describes are those on the disk, but for prelink. Nothing is said
    about empty files, and other files may have grown. -/
def Installed (disk : Disk) (get : Bytes → Option Bytes) (ks : List (Nat × FileInfo)) : Prop :=
  ∀ x ∈ ks, isReg x.2 = true → ∃ d, get x.2.name = some d ∧ d.length = x.2.size ∧
    (x.2.size = 0 ∨ Unchanged disk x.2 d ∨ Prelinked disk x.2 d)

/-- Where the content of entry `k`, which is `x`, begins in the archive. -/
def contentStart (get : Bytes → Option Bytes) (ks : List (Nat × FileInfo)) (k : Nat) (x : Nat × FileInfo) : Nat :=
  (diskEntries get (ks.take k)).length + (alteredHeader x.2).length

/-- A regular file that prelink changed. -/
def Changed (disk : Disk) (get : Bytes → Option Bytes) (x : Nat × FileInfo) : Prop :=
  isReg x.2 = true ∧ ∃ d, get x.2.name = some d ∧ Prelinked disk x.2 d

/-- If prelink changed any file: no block of 8192 bytes begins inside the target of a link (after its
    first byte). -/
def PrelinkSafe (disk : Disk) (get : Bytes → Option Bytes) (ks : List (Nat × FileInfo)) : Prop :=
  (∃ y ∈ ks, Changed disk get y) → ∀ k x, ks[k]? = some x → isLnk x.2 = true → ∀ j,
    ¬ (contentStart get ks k x < 8192 * j ∧ 8192 * j < contentStart get ks k x + x.2.linkto.length)

/-- What was used after the last use of `i`, in a list of uses in the order of time. -/
def usedSince (i : Nat) (uses : List Nat) : List Nat := uses.reverse.takeWhile (fun j => j ≠ i)

/-- Whenever a file is used again, fewer than 50 different files were used since its last use. -/
def SoonAgain (uses : List Nat) : Prop :=
  ∀ before i later, uses = before ++ i :: later → i ∈ before →
    ∀ l : List Nat, l.Nodup → (∀ x ∈ l, x ∈ usedSince i before) → l.length < 50

/-- The files that have contents between the positions `lo` and `hi`, if the entries `ks` begin at
    position `off`. -/
def filesBetween (get : Bytes → Option Bytes) (lo hi : Nat) : Nat → List (Nat × FileInfo) → List Nat
  | _, [] => []
  | off, x :: ks =>
    (if isReg x.2 = true ∧ max lo (off + (alteredHeader x.2).length) < min hi (off + (alteredHeader x.2).length + x.2.size)
      then [x.1] else []) ++ filesBetween get lo hi (off + (diskEntry get x).length) ks

/-- The files whose contents are needed for block `id` of the archive. -/
def blockFiles (get : Bytes → Option Bytes) (ks : List (Nat × FileInfo)) (id : Nat) : List Nat :=
  filesBetween get (8192 * id) (8192 * id + 8192) 0 ks

/-- The files that a sequence names. -/
def namedFiles (files : List FileInfo) (pos : List Nat) : List (Nat × FileInfo) :=
  pos.filterMap (fun i => files[i]?.map (fun f => (i, f)))

end Drpm
