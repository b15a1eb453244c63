import Verif.Cpio
/-!
# What a CPIO archive and its altered form are (specification)
-/

namespace Drpm

/-- An entry of an archive: its name (without "./"), the size of its data, where its header
    begins, and where its data begins. -/
structure AEnt where
  name : Bytes
  size : Nat
  at_ : Nat
  data : Nat
deriving DecidableEq, Repr

/-- The end of the entry, padded to a multiple of four bytes. -/
def AEnt.stop (e : AEnt) : Nat := e.data + e.size + cpioPadding e.size

/-- The archive, read from offset `off`, consists of these entries followed by a trailer. -/
inductive Entries (archive : Bytes) : Nat → List AEnt → Prop
  | trailer {off o : Nat} {h : CpioHdr} : readHead archive off = .ok (h, cpioTrailer, o) → Entries archive off []
  | entry {off o : Nat} {h : CpioHdr} {name : Bytes} {e : AEnt} {es : List AEnt} :
      readHead archive off = .ok (h, name, o) → name ≠ cpioTrailer →
      e = ⟨stripDot name, h.filesize, off, o + cpioPadding (110 + h.namesize)⟩ →
      e.stop ≤ archive.length → Entries archive e.stop es → Entries archive off (e :: es)

/-- The header of a kept file in the altered archive: magic and fields, "./", the name without its
    leading slash, a NUL, padding. -/
def alteredHeader (f : FileInfo) : Bytes :=
  cpioHeaderWrite (entryHdr f ((relName f).length + 1)) ++ [46, 47] ++ relName f ++ [0] ++
    zeros (cpioPadding (110 + 2 + (relName f).length + 1))

/-- The content of a kept file in the altered archive: the target of a link, or the data in the
    original archive, padded with zeros. -/
def alteredContent (archive : Bytes) (f : FileInfo) (e : AEnt) : Bytes :=
  if isLnk f then f.linkto ++ zeros (cpioPadding f.linkto.length)
  else slice archive e.data e.size ++ zeros (cpioPadding e.size)

/-- The kept entries, with the number of their file in the file list. -/
def kept (m : MakeIn) (es : List AEnt) : List (Nat × FileInfo × AEnt) :=
  es.filterMap (fun e => (keepFile m e.name e.size).map (fun (i, f) => (i, f, e)))

/-- The trailer entry. -/
def trailerBytes : Bytes := cpioHeaderWrite trailerHdr ++ cpioTrailer ++ [0] ++ zeros (cpioPadding 121)

/-- The altered archive without its trailer. -/
def alteredEntries (m : MakeIn) (es : List AEnt) : Bytes :=
  ((kept m es).map (fun (_, f, e) => alteredHeader f ++ alteredContent m.archive f e)).flatten

/-- The altered archive. -/
def altered (m : MakeIn) (es : List AEnt) : Bytes := alteredEntries m es ++ trailerBytes

/-- File metadata within the limits of the RPM header fields (16-bit mode and device number) and
    with names and sizes that fit the CPIO fields (16-bit name size including "./" and the NUL;
    32-bit sizes including padding). -/
structure FileInfo.Fits (f : FileInfo) : Prop where
  mode : f.mode < 2^16
  rdev : f.rdev < 2^16
  size : f.size + 3 < 2^32
  linkto : f.linkto.length + 3 < 2^32
  name : f.name.length + 3 < 2^16

end Drpm
