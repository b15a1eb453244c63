import Verif.Cpio

/-!
# What the sequence of a delta says about files

A specification, independent of the code: what a file is to the sequence, and the bytes that stand for it.
-/

namespace Drpm

/-- The type of a file is in the upper four of the sixteen bits of its mode, see inode(7): regular file,
symbolic link, block device, character device. -/
def FileInfo.regular (f : FileInfo) : Bool := f.mode &&& 0xF000 == 0x8000
def FileInfo.link (f : FileInfo) : Bool := f.mode &&& 0xF000 == 0xA000
def FileInfo.block (f : FileInfo) : Bool := f.mode &&& 0xF000 == 0x6000
def FileInfo.char (f : FileInfo) : Bool := f.mode &&& 0xF000 == 0x2000

/-- Two entries of file lists describe the same file, as far as the sequence of a delta is concerned: the
same path (up to a leading slash) and mode; the same size and, unless it is empty, the same digest if it
is a regular file; the same target if it is a symbolic link; the same device number if it is a device. -/
structure SameFile (algo : Nat) (f g : FileInfo) : Prop where
  path : relName f = relName g
  mode : f.mode = g.mode
  size : f.regular = true → f.size = g.size
  digest : f.regular = true → 0 < f.size → algo = 0 ∨ algo = 1 → parseHex f.md5 = parseHex g.md5
  target : f.link = true → f.linkto = g.linkto
  device : f.block = true ∨ f.char = true → f.rdev = g.rdev

/-- The contents of an archive entry that a file list tells without the archive: nothing but the target of
a link, and, in the sequence, the digest in place of the contents of a regular file. -/
def contentRecord (algo : Nat) (f : FileInfo) : Bytes :=
  if f.link then f.linkto ++ [0]
  else if f.regular ∧ 0 < f.size ∧ (algo = 0 ∨ algo = 1) then (parseHex f.md5).getD []
  else []

/-- The bytes that stand for a file: its path with a NUL, its mode, the size of its contents, its device
number, each in four bytes; then the target of a link with a NUL, or the digest of a regular file that is
not empty. -/
def fileRecord (algo : Nat) (f : FileInfo) : Bytes :=
  relName f ++ [0] ++ createBe32 f.mode ++
    createBe32 (if f.regular then f.size else if f.link then f.linkto.length else 0) ++
    createBe32 (if f.block ∨ f.char then f.rdev else 0) ++ contentRecord algo f

/-- The bytes that stand for the files at some places of a file list, one after the other. -/
def orderRecords (algo : Nat) (files : List FileInfo) (order : List Nat) : Bytes :=
  (order.map fun i => ((files[i]?).map (fileRecord algo)).getD []).flatten

/-- The strings and numbers of a file list entry are what C strings and the fields of an rpm header can
be. -/
structure FileInfo.Proper (f : FileInfo) : Prop where
  name : 0 ∉ f.name
  linkto : 0 ∉ f.linkto
  linkLen : f.linkto.length < 2^32
  mode : f.mode < 2^16
  rdev : f.rdev < 2^16
  size : f.size < 2^32

end Drpm
