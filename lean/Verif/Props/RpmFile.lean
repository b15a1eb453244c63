import Verif.RpmFileLemmas
import Verif.RpmDemo
import Verif.ColorLemmas
/-!
# Package files: C62–C66
-/

namespace Drpm

/-! ## C62: what is read from a package file -/

/-- What the code makes of a package of which `archive` is in memory and `comp` bytes of payload were
    read: the parts, and from them the lead and signature, the header and the size. -/
structure ReadsAs {η : Type} {lib : Rpmlib η} (p : PkgFile lib) (archive : Bytes) (comp : Nat) (r : RpmSt η) : Prop where
  parts : r.lead = p.lead ∧ r.signature = p.sig ∧ r.header = p.hdr ∧ r.archive = archive ∧ r.archiveOff = 0
  leadsig : fetchLeadsig lib r = .ok p.leadsig
  header : exportHeader lib r = .ok p.header
  headerSize : rpmSizeHeader lib r = p.header.length
  size : rpmSizeFull lib r = (p.leadsig.length + p.header.length + comp) % 2^32

theorem readsAs_of {η : Type} {lib : Rpmlib η} (p : PkgFile lib) (archive : Bytes) (comp : Nat) :
    ReadsAs p archive comp { p.intro with archive := archive, compSize := comp } := by
  refine ⟨⟨rfl, rfl, rfl, rfl, rfl⟩, p.fetchLeadsig_of _ rfl rfl, p.exportHeader_of _ rfl, ?_, p.sizeFull_of _ rfl rfl⟩
  have hs : 8 + p.hdrBlob.length < 2^32 := by have := p.hdrOk.small; omega
  show lib.size p.hdr % 2^32 = _
  rw [p.hdrOk.size, Nat.mod_eq_of_lt hs, p.header_length]

theorem rpmRead_of {η σ : Type} {lib : Rpmlib η} (p : PkgFile lib) (H : Bytes → Bytes) (U : Unpack σ) (mode : ArchiveMode)
    (seqWanted fullWanted : Bool) (a : ArchiveIn) (ha : readPayload U mode seqWanted p.payload = .ok a) :
    rpmRead lib H U mode seqWanted fullWanted p.file =
      .ok ⟨{ p.intro with archive := a.archive, compSize := a.compSize }, a.comp,
        if seqWanted then some (H (p.header ++ a.seq)) else none,
        if fullWanted then some (H (p.leadsig ++ p.header ++ a.full)) else none⟩ := by
  unfold rpmRead
  rw [p.readIntro_file, Out.bind_ok]
  simp only
  cases seqWanted with
  | true =>
    rw [p.seqStart_of, Out.bind_ok]
    cases fullWanted with
    | true => rw [p.fullStart_of, Out.bind_ok, p.drop_file, ha, Out.bind_ok]
    | false =>
      have : fullStart lib p.intro false = .ok [] := rfl
      rw [this, Out.bind_ok, p.drop_file, ha, Out.bind_ok]; simp
  | false =>
    have : seqStart lib p.intro false = .ok [] := rfl
    rw [this, Out.bind_ok]
    cases fullWanted with
    | true => rw [p.fullStart_of, Out.bind_ok, p.drop_file, ha, Out.bind_ok]; simp
    | false =>
      have : fullStart lib p.intro false = .ok [] := rfl
      rw [this, Out.bind_ok, p.drop_file, ha, Out.bind_ok]; simp

/-- C62 (`rpm_read` without the payload): lead, signature and header of every package file are found;
    the size is that of the file up to the payload. -/
theorem C62_head {η σ : Type} {lib : Rpmlib η} (p : PkgFile lib) (H : Bytes → Bytes) (U : Unpack σ) :
    ∃ x, rpmRead lib H U .dontRead false false p.file = .ok x ∧ ReadsAs p [] 0 x.st := by
  exact ⟨_, rpmRead_of p H U _ _ _ _ rfl, readsAs_of p [] 0⟩

/-- C62 (payload as it is): the digests, if wanted, are those of header and payload and of the whole
    file, and the size is that of the file. -/
theorem C62_plain {η σ : Type} {lib : Rpmlib η} (p : PkgFile lib) (H : Bytes → Bytes) (U : Unpack σ) (seqWanted fullWanted : Bool) :
    ∃ x, rpmRead lib H U .asIs seqWanted fullWanted p.file = .ok x ∧ ReadsAs p p.payload p.payload.length x.st ∧
      rpmSizeFull lib x.st = p.file.length % 2^32 ∧
      x.seqMd5 = (if seqWanted then some (H (p.header ++ p.payload)) else none) ∧
      x.fullMd5 = (if fullWanted then some (H p.file) else none) := by
  refine ⟨_, rpmRead_of p H U _ _ _ _ rfl, readsAs_of p _ _, ?_, rfl, rfl⟩
  rw [(readsAs_of p _ _).size]
  simp only [PkgFile.file, List.length_append]

/-- C62 (payload decompressed): the method is the one the payload begins with, the archive is the
    decompressed payload, and the digest that is wanted (header and payload, or file) is of the data
    as they are in the file. -/
theorem C62_unpacked {η σ : Type} {lib : Rpmlib η} (p : PkgFile lib) (H : Bytes → Bytes) (U : Unpack σ) (seqWanted fullWanted : Bool)
    (hw : ¬ (seqWanted = true ∧ fullWanted = true)) (c : Comp) (archive : Bytes) (h8 : 8 ≤ p.payload.length)
    (hc : StartsAs c p.payload) (hU : ReadsWhole p.payload archive (U c p.payload)) :
    ∃ x, rpmRead lib H U .decompress seqWanted fullWanted p.file = .ok x ∧ ReadsAs p archive p.payload.length x.st ∧
      rpmSizeFull lib x.st = p.file.length % 2^32 ∧ x.comp = some c ∧
      x.seqMd5 = (if seqWanted then some (H (p.header ++ p.payload)) else none) ∧
      x.fullMd5 = (if fullWanted then some (H p.file) else none) := by
  refine ⟨_, rpmRead_of p H U _ _ _ _ (unpackArchive_of U seqWanted _ _ c h8 hc hU), readsAs_of p _ _, ?_, rfl, ?_, ?_⟩
  · rw [(readsAs_of p _ _).size]
    simp only [PkgFile.file, List.length_append]
  · cases seqWanted <;> rfl
  · cases fullWanted with
    | false => rfl
    | true =>
      cases seqWanted with
      | true => exact absurd ⟨rfl, rfl⟩ hw
      | false => rfl

/-- If both digests are wanted while decompressing, the one of the file leaves out the payload (the
    comment of the code says that no caller asks for both). -/
theorem C62_both {η σ : Type} {lib : Rpmlib η} (p : PkgFile lib) (H : Bytes → Bytes) (U : Unpack σ)
    (c : Comp) (archive : Bytes) (h8 : 8 ≤ p.payload.length)
    (hc : StartsAs c p.payload) (hU : ReadsWhole p.payload archive (U c p.payload)) :
    ∃ x, rpmRead lib H U .decompress true true p.file = .ok x ∧ x.fullMd5 = some (H (p.leadsig ++ p.header)) := by
  refine ⟨_, rpmRead_of p H U _ _ _ _ (unpackArchive_of U true _ _ c h8 hc hU), ?_⟩
  simp

/-- Non-vacuity of C62: a package file of which everything is known. -/
example : ∃ x, rpmRead Toy.lib demoH Toy.world.U .decompress false true Toy.oldFile.file = .ok x ∧ x.st.archive = demoArchive ∧
    x.comp = some .gzip ∧ x.fullMd5 = some (demoH Toy.oldFile.file) := by
  have hu := Toy.unpacks Toy.oldFile demoArchive rfl
  obtain ⟨x, x1, x2, _, x3, _, x4⟩ := C62_unpacked (lib := Toy.lib) Toy.oldFile demoH Toy.world.U false true (by decide) .gzip demoArchive
    hu.length hu.method hu.whole
  exact ⟨x, x1, x2.parts.2.2.2.1, x3, x4⟩

example : 400 < Toy.oldFile.file.length ∧ (Toy.lib.get Toy.oldFile.hdr 1124).isSome ∧ 100 < Toy.oldFile.payload.length := by
  decide +kernel

/-! ## C63: what is refused -/

theorem dsDrain_defined (fuel : Nat) : ∀ s : DStrm, s.input.length < fuel → (dsDrain fuel s).Defined := by
  induction fuel with
  | zero => intro s h; omega
  | succ fuel ih =>
    intro s h
    rw [dsDrain]
    rcases hs : s.input with _ | ⟨x, xs⟩
    · simp only [dsChunk, hs]
      exact Out.defined_ok _
    · obtain ⟨b, e⟩ := x
      rw [hs, List.length_cons] at h
      simp only [dsChunk, hs]
      cases e with
      | none => exact ih _ (by simpa using h)
      | some e => cases e <;> exact Out.defined_ok _

theorem dsReadAll_defined (ev : Events) : (dsReadAll (dsInit ev)).Defined := by
  unfold dsReadAll
  refine (dsDrain_defined _ _ (Nat.lt_succ_self _)).bind (fun x _ => ?_)
  obtain ⟨e, s⟩ := x
  cases e <;> exact Out.defined_ok _

/-- C63 (safe): whatever the bytes, `rpm_read` returns: with the package or with an error. The
    decompressors are the only part of the code that may be asked to vouch for that. -/
theorem C63_safe {η σ : Type} (lib : Rpmlib η) (H : Bytes → Bytes) (U : Unpack σ) (hU : ∀ c z, 8 ≤ z.length → (U c z).Defined)
    (mode : ArchiveMode) (seqWanted fullWanted : Bool) (file : Bytes) :
    (rpmRead lib H U mode seqWanted fullWanted file).Defined := by
  have hexp : ∀ r : RpmSt η, (exportHeader lib r).Defined ∧ (exportSignature lib r).Defined := by
    intro r
    unfold exportHeader exportSignature
    constructor
    · cases lib.exp r.header
      · exact Out.defined_err _
      · exact Out.defined_ok _
    · cases lib.exp r.signature
      · exact Out.defined_err _
      · exact Out.defined_ok _
  have hun : ∀ z w, (unpackArchive U w z).Defined := by
    intro z w
    unfold unpackArchive
    by_cases h : z.length < 8
    · rw [if_pos h]; exact Out.defined_err _
    · rw [if_neg h]
      obtain ⟨m, e, _⟩ := detect_iff z (by omega)
      rw [e, Out.bind_ok]
      refine (hU _ _ (by omega)).bind (fun x _ => ?_)
      obtain ⟨ev, s⟩ := x
      refine (dsReadAll_defined ev).bind (fun x _ => ?_)
      obtain ⟨r, t⟩ := x
      cases r
      · exact Out.defined_err _
      · exact Out.defined_ok _
  unfold rpmRead
  refine Out.Defined.bind ?_ (fun x _ => ?_)
  · unfold readIntro
    by_cases h1 : file.length < 96
    · rw [if_pos h1]; exact Out.defined_err _
    · rw [if_neg h1]
      by_cases h2 : file.take 4 ≠ leadMagic
      · rw [if_pos h2]; exact Out.defined_err _
      · rw [if_neg h2]
        cases lib.read (file.drop 96) with
        | none => exact Out.defined_err _
        | some x =>
          obtain ⟨s, n⟩ := x
          simp only
          cases lib.read (file.drop (96 + n + sigPadding (96 + n))) with
          | none => exact Out.defined_err _
          | some y => exact Out.defined_ok _
  · obtain ⟨r, pos⟩ := x
    refine Out.Defined.bind ?_ (fun _ _ => Out.Defined.bind ?_ (fun _ _ => Out.Defined.bind ?_ (fun _ _ => Out.defined_ok _)))
    · unfold seqStart
      cases seqWanted
      · exact Out.defined_ok _
      · exact (hexp _).1
    · unfold fullStart
      cases fullWanted
      · exact Out.defined_ok _
      · exact (hexp _).2.bind (fun _ _ => (hexp _).1.bind (fun _ _ => Out.defined_ok _))
    · cases mode
      · exact Out.defined_ok _
      · exact Out.defined_ok _
      · exact hun _ _

/-- C63 (refused): what does not begin with a lead, a signature and a header is no package: the error
    is `DRPM_ERR_FORMAT`, whatever is asked for. -/
theorem C63_refused {η σ : Type} (lib : Rpmlib η) (H : Bytes → Bytes) (U : Unpack σ) (mode : ArchiveMode) (seqWanted fullWanted : Bool)
    (file : Bytes) (h : file.length < 96 ∨ ¬ leadMagic <+: file ∨ lib.read (file.drop 96) = none ∨
      ∃ s n, lib.read (file.drop 96) = some (s, n) ∧ ∀ pad, pad < 8 → (96 + n + pad) % 8 = 0 → lib.read (file.drop (96 + n + pad)) = none) :
    rpmRead lib H U mode seqWanted fullWanted file = .err .format := by
  have key : readIntro lib file = .err .format := by
    unfold readIntro
    by_cases h1 : file.length < 96
    · rw [if_pos h1]
    · rw [if_neg h1]
      by_cases h2 : file.take 4 = leadMagic
      · rw [if_neg (by rw [h2]; exact fun h => h rfl)]
        have h2' : leadMagic <+: file := ⟨file.drop 4, by rw [← h2, List.take_append_drop]⟩
        rcases h with h | h | h | ⟨s, n, h, h3⟩
        · exact absurd h h1
        · exact absurd h2' h
        · rw [h]
        · rw [h]
          simp only
          rw [h3 (sigPadding (96 + n)) (by unfold sigPadding; omega) (by unfold sigPadding; omega)]
      · rw [if_pos h2]
  unfold rpmRead
  rw [key]
  rfl

/-- C63 (payload): decompressing a payload of fewer than eight bytes is `DRPM_ERR_FORMAT` too. -/
theorem C63_short {η σ : Type} {lib : Rpmlib η} (p : PkgFile lib) (H : Bytes → Bytes) (U : Unpack σ) (h : p.payload.length < 8) :
    rpmRead lib H U .decompress false false p.file = .err .format := by
  unfold rpmRead
  rw [p.readIntro_file, Out.bind_ok]
  simp only [seqStart, fullStart, Bool.false_eq_true, if_false, Out.bind_ok]
  rw [p.drop_file]
  simp only [readPayload, readArchive, unpackArchive, if_true]
  rw [if_pos h]
  rfl

/-- Non-vacuity of C63: files without a lead, with half a lead, and with a lead only. -/
example : (∀ file, file ∈ [[], leadMagic, List.replicate 96 0, leadMagic ++ zeros 92, Toy.oldFile.file.take 300] →
    rpmRead Toy.lib demoH Toy.world.U .dontRead false false file = .err .format) := by
  intro file hf
  refine C63_refused Toy.lib demoH Toy.world.U _ _ _ file ?_
  simp only [List.mem_cons, List.not_mem_nil, or_false] at hf
  rcases hf with rfl | rfl | rfl | rfl | rfl
  · exact Or.inl (by decide +kernel)
  · exact Or.inl (by decide +kernel)
  · exact Or.inr (Or.inl (by decide +kernel))
  · refine Or.inr (Or.inr (Or.inl ?_))
    have : (Toy.lib.read ((leadMagic ++ zeros 92).drop 96)).isNone = true := by decide +kernel
    exact Option.isNone_iff_eq_none.1 this
  · refine Or.inr (Or.inr (Or.inr ?_))
    have : (match Toy.lib.read ((Toy.oldFile.file.take 300).drop 96) with
      | none => false
      | some (_, n) => (List.range 8).all (fun pad =>
          (96 + n + pad) % 8 ≠ 0 || (Toy.lib.read ((Toy.oldFile.file.take 300).drop (96 + n + pad))).isNone)) = true := by
      decide +kernel
    rcases hr : Toy.lib.read ((Toy.oldFile.file.take 300).drop 96) with _ | ⟨s, n⟩
    · rw [hr] at this; cases this
    · rw [hr] at this
      refine ⟨s, n, rfl, fun pad h1 h2 => ?_⟩
      have := List.all_eq_true.1 this pad (List.mem_range.2 h1)
      simp only [h2, ne_eq, not_true, decide_false, Bool.false_or] at this
      exact Option.isNone_iff_eq_none.1 this

/-- Non-vacuity of C63 (safe): decompressors that always return. -/
example (file : Bytes) : (rpmRead Toy.lib demoH Toy.world.U .decompress true false file).Defined :=
  C63_safe Toy.lib demoH Toy.world.U (fun _ _ _ => Out.defined_ok _) _ _ _ _

/-! ## C64: writing and reading back -/

/-- A package in memory whose parts can be stored, as a file. -/
def RpmSt.toFile {η : Type} {lib : Rpmlib η} (r : RpmSt η) (sigBlob hdrBlob payload : Bytes) (hl : r.lead.length = 96 ∧ leadMagic <+: r.lead)
    (hs : OnDisk lib r.signature sigBlob) (hh : OnDisk lib r.header hdrBlob) : PkgFile lib :=
  { lead := r.lead, sig := r.signature, sigBlob, pad := sigPadding (8 + sigBlob.length), hdr := r.header, hdrBlob
    payload, isLead := hl, sigOk := hs, hdrOk := hh
    aligned := by unfold sigPadding; omega }

theorem rpmWrite_of {η : Type} {lib : Rpmlib η} (r : RpmSt η) (p : PkgFile lib) (h1 : r.lead = p.lead) (h2 : r.signature = p.sig)
    (h3 : r.header = p.hdr) (archive full : Bool) :
    rpmWrite lib r archive full = .ok (p.leadsig ++ p.header ++ (if archive then r.archive else []),
      (if full then p.leadsig else []) ++ p.header ++ (if archive then r.archive else [])) := by
  unfold rpmWrite
  rw [p.exportSignature_of r h2, Out.bind_ok, p.exportHeader_of r h3, Out.bind_ok, h1]
  simp [PkgFile.leadsig, List.append_assoc]

/-- C64: a package that is written (`rpm_write` with its archive) and read back as it is, is the same
    package; the digest computed while writing is the one computed while reading. -/
theorem C64_roundtrip {η σ : Type} (lib : Rpmlib η) (H : Bytes → Bytes) (U : Unpack σ) (r : RpmSt η) (sigBlob hdrBlob : Bytes)
    (hl : r.lead.length = 96 ∧ leadMagic <+: r.lead) (hs : OnDisk lib r.signature sigBlob) (hh : OnDisk lib r.header hdrBlob)
    (full : Bool) :
    ∃ file digested x, rpmWrite lib r true full = .ok (file, digested) ∧
      rpmRead lib H U .asIs (!full) full file = .ok x ∧
      x.st.lead = r.lead ∧ x.st.signature = r.signature ∧ x.st.header = r.header ∧ x.st.archive = r.archive ∧
      (if full then x.fullMd5 else x.seqMd5) = some (H digested) := by
  let p := r.toFile sigBlob hdrBlob r.archive hl hs hh
  obtain ⟨x, x1, x2, _, x3, x4⟩ := C62_plain p H U (!full) full
  refine ⟨_, _, x, rpmWrite_of r p rfl rfl rfl true full, x1, x2.parts.1, x2.parts.2.1, x2.parts.2.2.1, x2.parts.2.2.2.1, ?_⟩
  cases full with
  | true => exact x4
  | false => exact x3

/-- Non-vacuity of C64. -/
example (full : Bool) : ∃ file digested x, rpmWrite Toy.lib ⟨Toy.newFile.lead, Toy.newFile.sig, Toy.newFile.hdr, demoArchive, 0, 0⟩ true full =
      .ok (file, digested) ∧ rpmRead Toy.lib demoH Toy.world.U .asIs (!full) full file = .ok x ∧ x.st.archive = demoArchive := by
  obtain ⟨file, digested, x, h1, h2, _, _, _, h3, _⟩ := C64_roundtrip Toy.lib demoH Toy.world.U
    ⟨Toy.newFile.lead, Toy.newFile.sig, Toy.newFile.hdr, demoArchive, 0, 0⟩ _ _ Toy.newFile.isLead Toy.newFile.sigOk Toy.newFile.hdrOk full
  exact ⟨file, digested, x, h1, h2, h3⟩

/-! ## C65: what the header says -/

theorem compName_names : ∀ e ∈ payloadNames, compName (ascii e.1) = some e.2 := by decide +kernel

theorem compName_of {s : Bytes} {c : Comp} (h : compName s = some c) : ∃ e ∈ payloadNames, s = ascii e.1 := by
  unfold compName at h
  split at h
  · exact ⟨("gzip", .gzip), by decide, by decide +kernel⟩
  · exact ⟨("bzip2", .bzip2), by decide, by decide +kernel⟩
  · exact ⟨("lzip", .lzip), by decide, by decide +kernel⟩
  · exact ⟨("lzma", .lzma), by decide, by decide +kernel⟩
  · exact ⟨("xz", .xz), by decide, by decide +kernel⟩
  · exact ⟨("zstd", .zstd), by decide, by decide +kernel⟩
  · cases h

/-- C65 (compression method): the method is the one of that name, and a header without a known name is
    refused. -/
theorem C65_compressor {η : Type} (lib : Rpmlib η) (h : η) :
    (∀ e ∈ payloadNames, lib.getStr h 1125 = some (ascii e.1) → getComp lib h = .ok e.2.code) ∧
    ((∀ e ∈ payloadNames, lib.getStr h 1125 ≠ some (ascii e.1)) → getComp lib h = .err .format) := by
  unfold getComp
  refine ⟨fun e he hs => by rw [hs]; simp only; rw [compName_names e he], fun hn => ?_⟩
  rcases hs : lib.getStr h 1125 with _ | s
  · rfl
  · simp only
    rcases hc : compName s with _ | c
    · rfl
    · obtain ⟨e, h1, h2⟩ := compName_of hc
      exact absurd (by rw [hs, h2]) (hn e h1)

/-- C65 (digest algorithm): MD5 if there is no tag or the tag says 1, SHA256 if it says 8
    (`PGPHASHALGO_MD5`, `PGPHASHALGO_SHA256`), and anything else is refused. -/
theorem C65_algorithm {η : Type} (lib : Rpmlib η) (h : η) :
    (lib.getExt h 5011 = none → getAlgo lib h = .ok 0) ∧
    (∀ rest, lib.getExt h 5011 = some (.u32 (1 :: rest)) → getAlgo lib h = .ok 0) ∧
    (∀ rest, lib.getExt h 5011 = some (.u32 (8 :: rest)) → getAlgo lib h = .ok 1) ∧
    (∀ d, lib.getExt h 5011 = some d → (∀ rest, d ≠ .u32 (1 :: rest) ∧ d ≠ .u32 (8 :: rest)) → getAlgo lib h = .err .format) := by
  unfold getAlgo
  refine ⟨fun h => by rw [h], fun rest h => by rw [h]; rfl, fun rest h => by rw [h]; rfl, fun d h hd => ?_⟩
  rw [h]
  simp only
  unfold firstU32
  split
  · rfl
  · rename_i e
    split at e
    · cases e; exact absurd rfl (hd _).1
    · cases e
  · rename_i e
    split at e
    · cases e; exact absurd rfl (hd _).2
    · cases e
  · rfl

/-- C65 (payload format). -/
theorem C65_format {η : Type} (lib : Rpmlib η) (h : η) :
    (lib.getStr h 1124 = some (ascii "drpm") → getPayFmt lib h = .ok .drpm) ∧
    (lib.getStr h 1124 = some (ascii "cpio") → getPayFmt lib h = .ok .cpio) ∧
    (lib.getStr h 1124 = some (ascii "xar") → getPayFmt lib h = .ok .xar) ∧
    (∀ f, getPayFmt lib h = .ok f → lib.getStr h 1124 = some (ascii (match f with | .drpm => "drpm" | .cpio => "cpio" | .xar => "xar"))) := by
  have e1 : ascii "drpm" = fmtDrpm := by decide +kernel
  have e2 : ascii "cpio" = fmtCpio := by decide +kernel
  have e3 : ascii "xar" = [120, 97, 114] := by decide +kernel
  unfold getPayFmt
  refine ⟨fun h => by rw [h, e1]; rfl, fun h => by rw [h, e2]; rfl, fun h => by rw [h, e3]; rfl, fun f hf => ?_⟩
  rcases hs : lib.getStr h 1124 with _ | s
  · rw [hs] at hf; cases hf
  · rw [hs] at hf
    simp only at hf
    split at hf
    · rename_i e; cases hf; rw [e, e1]
    · split at hf
      · rename_i e; cases hf; rw [e, e2]
      · split at hf
        · rename_i e; cases hf; rw [e, e3]
        · cases hf

/-- C65 (level, proved part): a number of one or two digits is the level; three bytes and more, or no
    tag, are refused. Missing: strings that are no such numbers are not refused, see below. -/
theorem C65_level_partial {η : Type} (lib : Rpmlib η) (h : η) :
    (∀ a, a < 10 → lib.getStr h 1126 = some [UInt8.ofNat (48 + a)] → getLevel lib h = .ok a) ∧
    (∀ a b, a < 10 → b < 10 → lib.getStr h 1126 = some [UInt8.ofNat (48 + a), UInt8.ofNat (48 + b)] →
      getLevel lib h = .ok (10 * a + b)) ∧
    (∀ s, lib.getStr h 1126 = some s → 3 ≤ s.length → getLevel lib h = .err .format) ∧
    (lib.getStr h 1126 = none → getLevel lib h = .err .format) := by
  have d1 : ∀ a, a < 10 → (atoi [UInt8.ofNat (48 + a)] % 2^16).toNat = a := by decide +kernel
  have d2 : ∀ a, a < 10 → ∀ b, b < 10 → (atoi [UInt8.ofNat (48 + a), UInt8.ofNat (48 + b)] % 2^16).toNat = 10 * a + b := by
    decide +kernel
  unfold getLevel
  refine ⟨fun a ha e => ?_, fun a b ha hb e => ?_, fun s e hs => ?_, fun e => by rw [e]⟩
  · rw [e]
    show Out.ok _ = _
    rw [d1 a ha]
  · rw [e]
    show Out.ok _ = _
    rw [d2 a ha b hb]
  · rw [e]
    simp only
    rw [if_pos (by omega)]

/-- C65 (level) is violated: "-5" is taken for level 65531, and what is no number ("T", or nothing) for
    level 0. -/
theorem C65_level_violated {η : Type} (lib : Rpmlib η) (h : η) :
    (lib.getStr h 1126 = some (ascii "-5") → getLevel lib h = .ok 65531) ∧
    (lib.getStr h 1126 = some (ascii "T") → getLevel lib h = .ok 0) ∧
    (lib.getStr h 1126 = some (ascii "") → getLevel lib h = .ok 0) ∧
    (lib.getStr h 1126 = some (ascii "9T") → getLevel lib h = .ok 9) := by
  have e1 : ascii "-5" = [45, 53] := by decide +kernel
  have e2 : ascii "T" = [84] := by decide +kernel
  have e3 : ascii "" = [] := by decide +kernel
  have e4 : ascii "9T" = [57, 84] := by decide +kernel
  unfold getLevel
  refine ⟨fun e => ?_, fun e => ?_, fun e => ?_, fun e => ?_⟩
  · rw [e, e1]
    have : (atoi [45, 53] % 2^16).toNat = 65531 := by decide +kernel
    show Out.ok _ = _
    rw [this]
  · rw [e, e2]; rfl
  · rw [e, e3]; rfl
  · rw [e, e4]
    have : (atoi [57, 84] % 2^16).toNat = 9 := by decide +kernel
    show Out.ok _ = _
    rw [this]

/-- Non-vacuity of C65. -/
example : Toy.lib.getStr Toy.oldFile.hdr 1125 = some (ascii "gzip") ∧ Toy.lib.getStr Toy.oldFile.hdr 1124 = some (ascii "cpio") ∧
    Toy.lib.getStr Toy.oldFile.hdr 1126 = some [UInt8.ofNat (48 + 9)] ∧ Toy.lib.getExt Toy.oldFile.hdr 5011 = none := by
  decide +kernel

/-! ## C66: the file list -/

theorem fileTags_of {η : Type} {lib : Rpmlib η} {h : η} {fs : List FileInfo} {colors : Bool} (hf : HasFiles lib h fs colors)
    (wantColors : Bool) :
    fileTags lib h wantColors = some ⟨.strs (fs.map (·.name)), .u32 (fs.map (·.flags)), .strs (fs.map (·.md5)), .u16 (fs.map (·.rdev)),
      .u32 (fs.map (·.size)), .u16 (fs.map (·.mode)), .u32 (fs.map (·.verify)), .strs (fs.map (·.linkto)),
      if wantColors && colors then some (.u32 (fs.map (·.color))) else none⟩ := by
  unfold fileTags
  rw [hf.names, hf.flags, hf.md5s, hf.rdevs, hf.sizes, hf.modes, hf.verify, hf.linktos, hf.colored]
  cases wantColors <;> cases colors <;> rfl

/-- C66: for every header with a file list, however long, there is one record for each file, in the
    order of the header, with the members the header has for it; colours are there if asked for and
    the header has them. -/
theorem C66_files {η : Type} (lib : Rpmlib η) (h : η) (fs : List FileInfo) (colors wantColors : Bool)
    (hf : HasFiles lib h fs colors) :
    getFileInfo lib h wantColors =
      .ok (if wantColors && colors then fs else fs.map (·.noColor), some (wantColors && colors)) := by
  have key : ∀ (t : FileTags), t = ⟨.strs (fs.map (·.name)), .u32 (fs.map (·.flags)), .strs (fs.map (·.md5)), .u16 (fs.map (·.rdev)),
      .u32 (fs.map (·.size)), .u16 (fs.map (·.mode)), .u32 (fs.map (·.verify)), .strs (fs.map (·.linkto)),
      if wantColors && colors then some (.u32 (fs.map (·.color))) else none⟩ →
      ∀ n i, i + n = fs.length → t.filesFrom n i = .ok ((if wantColors && colors then fs else fs.map (·.noColor)).drop i) := by
    intro t ht n
    induction n with
    | zero =>
      intro i hi
      rw [FileTags.filesFrom, List.drop_of_length_le]
      split <;> first | omega | (rw [List.length_map]; omega)
    | succ n ih =>
      intro i hi
      have hlt : i < fs.length := by omega
      have hat : t.fileAt i = some (if wantColors && colors then fs[i] else fs[i].noColor) := by
        unfold FileTags.fileAt FileTags.colorAt
        rw [ht]
        simp only [TagData.strAt, TagData.u32At, TagData.u16At, List.getElem?_map, List.getElem?_eq_getElem hlt, Option.map_some]
        cases wantColors && colors
        · rfl
        · simp only [if_true, List.getElem?_map, List.getElem?_eq_getElem hlt, Option.map_some]
          rfl
      rw [FileTags.filesFrom, hat]
      simp only
      rw [ih (i + 1) (by omega), Out.bind_ok]
      congr 1
      cases wantColors && colors
      · simp only [Bool.false_eq_true, if_false]
        rw [List.drop_eq_getElem_cons (i := i) (by simpa using hlt)]
        simp
      · simp only [if_true]
        exact (List.drop_eq_getElem_cons hlt).symm
  unfold getFileInfo
  rw [fileTags_of hf]
  simp only
  rw [if_neg, show (TagData.strs (fs.map (·.name))).count = fs.length by simp [TagData.count], key _ rfl fs.length 0 (by omega), Out.bind_ok]
  · cases wantColors && colors <;> simp
  · unfold FileTags.sameCount TagData.count
    simp only [List.length_map]
    cases wantColors && colors <;> simp

/-- C66 (refused): the counts must be the same. -/
theorem C66_counts {η : Type} (lib : Rpmlib η) (h : η) (wantColors : Bool) (t : FileTags) (ht : fileTags lib h wantColors = some t)
    (d : TagData) (hd : d ∈ [t.flags, t.md5s, t.rdevs, t.sizes, t.modes, t.verify, t.linktos] ∨ t.colors = some d)
    (hc : d.count ≠ t.names.count) : getFileInfo lib h wantColors = .err .format := by
  unfold getFileInfo
  rw [ht]
  simp only
  rw [if_pos]
  cases hs : t.sameCount with
  | false => rfl
  | true =>
    exfalso
    unfold FileTags.sameCount at hs
    simp only [Bool.and_eq_true, decide_eq_true_eq] at hs
    obtain ⟨⟨⟨⟨⟨⟨⟨h1, h2⟩, h3⟩, h4⟩, h5⟩, h6⟩, h7⟩, h8⟩ := hs
    rcases hd with hd | hd
    · simp only [List.mem_cons, List.not_mem_nil, or_false] at hd
      rcases hd with rfl | rfl | rfl | rfl | rfl | rfl | rfl <;> contradiction
    · rw [hd] at h8
      simp only [decide_eq_true_eq] at h8
      exact hc h8

/-- C66: a header that lacks one of the tags has no files as far as the code is concerned. -/
theorem C66_none {η : Type} (lib : Rpmlib η) (h : η) (wantColors : Bool)
    (hn : lib.getExt h 5000 = none ∨ ∃ t ∈ [1037, 1035, 1033, 1028, 1030, 1045, 1036], lib.get h t = none) :
    getFileInfo lib h wantColors = .ok ([], none) := by
  have : fileTags lib h wantColors = none := by
    unfold fileTags
    rcases hn with hn | ⟨t, ht, hn⟩
    · rw [hn]; rfl
    · simp only [List.mem_cons, List.not_mem_nil, or_false] at ht
      rcases ht with rfl | rfl | rfl | rfl | rfl | rfl | rfl <;> rw [hn] <;>
        simp [Option.bind_eq_bind]
  unfold getFileInfo
  rw [this]

/-- Non-vacuity of C66: three files. -/
example (wantColors : Bool) : getFileInfo Toy.lib Toy.oldFile.hdr wantColors = .ok (Toy.demoFiles.map (·.noColor), some false) := by
  have := C66_files Toy.lib Toy.oldFile.hdr Toy.demoFiles false wantColors Toy.demoHasFiles
  rwa [Bool.and_false, if_neg (by decide)] at this

example : Toy.demoFiles.length = 3 := rfl

end Drpm
