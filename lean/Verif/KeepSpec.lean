import Verif.CpioSpec
/-!
# Which files of a package a delta relies on (specification)

A delta is made from one copy of the old package and applied where the package is installed. Files that
are meant to be changed there, or that need not be there, must not be relied on.
-/

namespace Drpm

/-- One byte string occurs in another. -/
def Occurs (needle hay : Bytes) : Prop := ∃ before after, hay = before ++ needle ++ after

/-- The path lies in a directory "lib", "lib32" or "lib64" (or one whose name ends so). -/
def InLibDir (path : Bytes) : Prop :=
  Occurs [108, 105, 98, 47] path ∨ Occurs [108, 105, 98, 51, 50, 47] path ∨ Occurs [108, 105, 98, 54, 52, 47] path

/-- `f` is a regular file: the upper four bits of its 16-bit mode are 8. -/
def RegularMode (f : FileInfo) : Prop := f.mode &&& 0xF000 = 0x8000

/-- The path of an archive entry is that of a file in the list, without its leading slash. -/
def SamePath (f : FileInfo) (path : Bytes) : Prop := f.name = 47 :: path ∨ (f.name = path ∧ path.head? ≠ some 47)

/-- What rpm knows about a regular file says that it is on every system what it is in the package: it is
    no configuration file (flag 2^0), may not be missing (2^3), is no ghost (2^6), its digest and size are
    verified (2^0 and 2^1 of the verification flags); if it is a 32- or 64-bit program (2^0 and 2^1 of the
    colour), so that the one of another architecture may have taken its place, it is in a library
    directory; and the given patch lists do not say that it was patched. -/
structure Steady (colors : Bool) (unpatched : Bytes → Bytes → Bool) (f : FileInfo) (path : Bytes) : Prop where
  config : f.flags.testBit 0 = false
  missingok : f.flags.testBit 3 = false
  ghost : f.flags.testBit 6 = false
  digest : f.verify.testBit 0 = true
  length : f.verify.testBit 1 = true
  color : colors = true → f.color.testBit 0 = true ∨ f.color.testBit 1 = true → InLibDir path
  patches : unpatched path f.md5 = false

/-- A file that a delta may rely on: not a regular one, or a steady one which is in the archive, under
    this path, with the size that rpm knows. -/
def Reliable (colors : Bool) (unpatched : Bytes → Bytes → Bool) (f : FileInfo) (path : Bytes) (size : Nat) : Prop :=
  RegularMode f → size = f.size ∧ Steady colors unpatched f path

/-- Number `i` is that of the first file in the list with this path. -/
def FirstAt (files : List FileInfo) (path : Bytes) (i : Nat) (f : FileInfo) : Prop :=
  files[i]? = some f ∧ SamePath f path ∧ ∀ j g, j < i → files[j]? = some g → ¬ SamePath g path

/-- The numbers of the files a delta relies on, in the order of the archive: those of the reliable ones,
    and no others. -/
inductive Picks (colors : Bool) (unpatched : Bytes → Bytes → Bool) (files : List FileInfo) : List AEnt → List Nat → Prop
  | done : Picks colors unpatched files [] []
  | take {e : AEnt} {es : List AEnt} {i : Nat} {f : FileInfo} {order : List Nat} : FirstAt files e.name i f →
      Reliable colors unpatched f e.name e.size → Picks colors unpatched files es order → Picks colors unpatched files (e :: es) (i :: order)
  | leave {e : AEnt} {es : List AEnt} {order : List Nat} : (∀ i f, FirstAt files e.name i f → ¬ Reliable colors unpatched f e.name e.size) →
      Picks colors unpatched files es order → Picks colors unpatched files (e :: es) order

end Drpm
