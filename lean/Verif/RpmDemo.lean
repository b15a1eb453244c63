import Verif.Props.Apply
import Verif.Props.Codec
import Verif.RpmToy
import Verif.RpmFileLemmas
/-!
# Two package files

For the examples beside C62 to C68: packages in the format of `Verif/RpmToy.lean`, with the archives of
the examples beside C48.
-/

namespace Drpm

namespace Toy

/-- A header of `rpmbuild` with these tags. -/
def sealedHdr (tags : List (Nat × TagData)) (h : Good tags) : Hdr := ⟨tags, 63, h⟩

theorem sealedHdr_sealed {tags : List (Nat × TagData)} (h : Good tags) (hf : fits (sealedHdr tags h) = true) :
    Sealed lib (sealedHdr tags h) := by
  refine ⟨⟨tags, 0, h⟩, ?_, ?_⟩
  · rw [get_region _ _ (by unfold IsRegion; omega)]
    rfl
  · show reload _ 63 = _
    unfold reload
    exact if_pos hf

/-- Name, file list, source package, payload format, compressor and level. -/
def demoTags (name : Bytes) (fs : List FileInfo) : List (Nat × TagData) :=
  [(1000, .str name), (1028, .u32 (fs.map (·.size))), (1030, .u16 (fs.map (·.mode))), (1033, .u16 (fs.map (·.rdev))),
   (1035, .strs (fs.map (·.md5))), (1036, .strs (fs.map (·.linkto))), (1037, .u32 (fs.map (·.flags))), (1044, .str (ascii "a.src.rpm")),
   (1045, .u32 (fs.map (·.verify))), (1124, .str (ascii "cpio")), (1125, .str (ascii "gzip")), (1126, .str (ascii "9")),
   (5000, .strs (fs.map (·.name)))]

def demoPkgFile (tags sigTags : List (Nat × TagData)) (payload : Bytes) (h : Good tags) (h' : Good sigTags)
    (hf : fits (sealedHdr tags h) = true) (hf' : fits ⟨sigTags, 62, h'⟩ = true) : PkgFile lib :=
  { lead := leadMagic ++ zeros (96 - leadMagic.length)
    sig := ⟨sigTags, 62, h'⟩
    sigBlob := blob ⟨sigTags, 62, h'⟩
    pad := (8 - (blob ⟨sigTags, 62, h'⟩).length % 8) % 8
    hdr := sealedHdr tags h
    hdrBlob := blob (sealedHdr tags h)
    payload
    isLead := ⟨by decide +kernel, ⟨_, rfl⟩⟩
    sigOk := onDisk _ hf'
    hdrOk := onDisk _ hf
    aligned := by omega }

def demoSig (header payload : Bytes) : List (Nat × TagData) :=
  [(1000, .u32 [header.length + payload.length]), (1004, .bin (demoH (header ++ payload)))]

/-- The file list is in the order of the archive, so that both kinds of old data can be used. -/
def demoFiles : List FileInfo := inOrderIn.files

theorem good1 : Good (demoTags (ascii "a-1-1") demoFiles) := by decide +kernel
theorem good2 : Good (demoTags (ascii "a-2-1") demoFiles) := by decide +kernel

def oldSig : List (Nat × TagData) := demoSig (headerMagic ++ blob (sealedHdr _ good1)) (demoPack demoArchive)
def newSig : List (Nat × TagData) := demoSig (headerMagic ++ blob (sealedHdr _ good2)) (demoPack demoNewPkg.archive)

theorem good3 : Good oldSig := by decide +kernel
theorem good4 : Good newSig := by decide +kernel

def world : World Hdr Unit Bytes :=
  { lib := lib, H := demoH
    U := fun c z => .ok (plainEvents [if c = .none then z else z.drop 8], ⟨(), z.length, z⟩)
    dec := fun _ z => z.drop 8
    enc := fun _ _ => demoEnc
    blobOk := fun il dl => decide (il + dl < 2^24)
    addComp := fun _ _ ws => .ok (demoPack ws.flatten)
    compress := fun _ _ s => .ok (demoPack s)
    unpatched := demoIn.unpatched }

def oldFile : PkgFile world.lib := demoPkgFile _ oldSig (demoPack demoArchive) good1 good3 (by decide +kernel) (by decide +kernel)
def newFile : PkgFile world.lib := demoPkgFile _ newSig (demoPack demoNewPkg.archive) good2 good4 (by decide +kernel) (by decide +kernel)

theorem unpacks (p : PkgFile world.lib) (a : Bytes) (h : p.payload = demoPack a) : Unpacks world.U p a .gzip := by
  refine ⟨by rw [h]; simp [demoPack], ?_, ?_⟩
  · rw [h]
    exact Or.inl ⟨by decide, ⟨_, rfl⟩⟩
  · have e : ((plainEvents [p.payload.drop 8]).map (·.1)).flatten = a := by
      rw [h]
      simp [plainEvents, demoPack]
    exact readsWhole_of (r := world.U .gzip p.payload) rfl (clean_plain _) e rfl rfl

theorem md5_16 (b : Bytes) : (world.H b).length = 16 := by simp [world, demoH, zeros]

theorem nevrs : getNevr lib oldFile.hdr = .ok (ascii "a-1-1") ∧ getNevr lib newFile.hdr = .ok (ascii "a-2-1") := ⟨rfl, rfl⟩

theorem demoSizes : oldFile.header.length < 2000 ∧ newFile.header.length < 2000 ∧ demoArchive.length < 1000 ∧
    demoNewPkg.archive.length < 1000 ∧ 16 ≤ demoNewPkg.archive.length := by decide +kernel

theorem demoHasFiles : HasFiles lib oldFile.hdr demoFiles false := by
  constructor <;> decide +kernel

theorem demoAlgo : getAlgo lib oldFile.hdr = .ok 0 := rfl

end Toy

end Drpm
