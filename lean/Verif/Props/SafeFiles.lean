import Verif.Props.RpmMake
import Verif.Props.Describe
import Verif.Props.SafeMake
import Verif.Props.SafeInstalled
import Verif.Props.SafeCheck
import Verif.RpmDemo
/-!
# Properties C53, C71, C83 and C54 for the bytes of the files

The theorems of `Verif/Props/Safe*.lean` are about packages as they were read. Here the packages and
deltas are files of any bytes, read by the code itself.
-/

namespace Drpm

/-- What is assumed of rpmlib: a header in its stored form has the two counts and less than 2^31 bytes
    (rpmlib refuses more); the region of a header is a header; headers can be reloaded; sixteen numbers
    or strings take sixteen bytes and more. Nothing is assumed of what headers contain. -/
structure SoundLib {η : Type} (lib : Rpmlib η) : Prop where
  blob : ∀ h b, lib.exp h = some b → 8 ≤ b.length ∧ b.length < 2^31
  region : ∀ h d, lib.get h 63 = some d → ∃ b g, d = .bin b ∧ lib.imp b = some g
  reload : ∀ h R, lib.reload h R ≠ none
  raw : ∀ d : TagData, d.count = 16 → 16 ≤ (lib.raw d).length

/-- What is assumed of the decompressors: they return (C63, C86), and do not make 2^62 bytes of a file. -/
structure SoundUnpack {σ : Type} (U : Unpack σ) : Prop where
  defined : ∀ c z, 8 ≤ z.length → (U c z).Defined
  small : ∀ c z ev s, U c z = .ok (ev, s) → ((ev.map (·.1)).flatten).length < 2^62

/-! ## rpmlib's answers are defined -/

theorem getNevr_defined {η : Type} (lib : Rpmlib η) (h : η) : (getNevr lib h).Defined := by
  unfold getNevr
  cases lib.nevr h
  · exact Out.defined_err _
  · exact Out.defined_ok _

theorem getLevel_defined {η : Type} (lib : Rpmlib η) (h : η) : (getLevel lib h).Defined := by
  unfold getLevel
  cases lib.getStr h 1126 with
  | none => exact Out.defined_err _
  | some s =>
    simp only
    split
    · exact Out.defined_err _
    · exact Out.defined_ok _

theorem getComp_defined {η : Type} (lib : Rpmlib η) (h : η) : (getComp lib h).Defined := by
  unfold getComp
  cases lib.getStr h 1125 with
  | none => exact Out.defined_err _
  | some s =>
    simp only
    cases compName s
    · exact Out.defined_err _
    · exact Out.defined_ok _

theorem getAlgo_defined {η : Type} (lib : Rpmlib η) (h : η) : (getAlgo lib h).Defined := by
  unfold getAlgo
  cases lib.getExt h 5011 with
  | none => exact Out.defined_ok _
  | some d =>
    simp only
    cases firstU32 d with
    | none => exact Out.defined_err _
    | some n =>
      split <;> first | exact Out.defined_ok _ | exact Out.defined_err _

theorem hasCpio_defined {η : Type} (lib : Rpmlib η) (h : η) : (hasCpio lib h).Defined := by
  unfold hasCpio getPayFmt
  refine Out.Defined.bind ?_ (fun _ _ => Out.defined_ok _)
  cases lib.getStr h 1124 with
  | none => exact Out.defined_err _
  | some s =>
    simp only
    split
    · exact Out.defined_ok _
    · split
      · exact Out.defined_ok _
      · split
        · exact Out.defined_ok _
        · exact Out.defined_err _

theorem filesFrom_defined (t : FileTags) : ∀ n i, (t.filesFrom n i).Defined := by
  intro n
  induction n with
  | zero => intro i; exact Out.defined_ok _
  | succ n ih =>
    intro i
    unfold FileTags.filesFrom
    cases t.fileAt i with
    | none => exact Out.defined_err _
    | some f => exact (ih _).bind (fun _ _ => Out.defined_ok _)

theorem getFileInfo_defined {η : Type} (lib : Rpmlib η) (h : η) (c : Bool) : (getFileInfo lib h c).Defined := by
  unfold getFileInfo
  cases fileTags lib h c with
  | none => exact Out.defined_ok _
  | some t =>
    simp only
    split
    · exact Out.defined_err _
    · exact (filesFrom_defined t _ _).bind (fun _ _ => Out.defined_ok _)

theorem sigGetMd5_defined {η : Type} {lib : Rpmlib η} (hl : SoundLib lib) (s : η) : (sigGetMd5 lib s).Defined := by
  unfold sigGetMd5
  split
  · exact Out.defined_ok _
  · split
    · exact Out.defined_err _
    · exact Out.defined_ok _
  · rename_i d _ _
    split
    · exact Out.defined_err _
    · have := hl.raw d (by omega)
      rw [rdBlk_ok (by omega), Out.bind_ok]
      exact Out.defined_ok _

theorem pkgOf_defined {η : Type} {lib : Rpmlib η} (hl : SoundLib lib) (s h : η) (c : Bool) :
    (pkgOf lib s h c).nevr.Defined ∧ (pkgOf lib s h c).files.Defined ∧ (pkgOf lib s h c).algo.Defined ∧
      (pkgOf lib s h c).sigMd5.Defined :=
  ⟨getNevr_defined lib h, (getFileInfo_defined lib h c).bind (fun _ _ => Out.defined_ok _), getAlgo_defined lib h,
    sigGetMd5_defined hl s⟩

theorem exportHeader_good {η : Type} {lib : Rpmlib η} (hl : SoundLib lib) (r : RpmSt η) :
    (exportHeader lib r).Good (fun b => 16 ≤ b.length ∧ b.length < 2^32 - 16) := by
  unfold exportHeader
  cases h : lib.exp r.header with
  | none => trivial
  | some b =>
    have := hl.blob _ _ h
    show 16 ≤ (headerMagic ++ b).length ∧ (headerMagic ++ b).length < 2^32 - 16
    rw [List.length_append, show headerMagic.length = 8 from rfl]
    omega

theorem exportSignature_defined {η : Type} (lib : Rpmlib η) (r : RpmSt η) : (exportSignature lib r).Defined := by
  unfold exportSignature
  cases lib.exp r.signature
  · exact Out.defined_err _
  · exact Out.defined_ok _

theorem fetchLeadsig_defined {η : Type} (lib : Rpmlib η) (r : RpmSt η) : (fetchLeadsig lib r).Defined := by
  unfold fetchLeadsig
  exact (exportSignature_defined lib r).bind (fun _ _ => Out.defined_ok _)

theorem unloadRegion_defined {η : Type} {lib : Rpmlib η} (hl : SoundLib lib) (h : η) : (unloadRegion lib h 63).Defined := by
  unfold unloadRegion
  cases hg : lib.get h 63 with
  | none => exact Out.defined_ok _
  | some d =>
    obtain ⟨b, g, rfl, hb⟩ := hl.region h d hg
    simp only
    rw [hb]
    exact Out.defined_ok _

theorem patchFormat_defined {η : Type} {lib : Rpmlib η} (hl : SoundLib lib) (h : η) (fmt : Bytes) : (patchFormat lib h fmt).Defined := by
  unfold patchFormat
  refine (unloadRegion_defined hl h).bind (fun u _ => ?_)
  cases lib.del u 1124 with
  | none => exact Out.defined_err _
  | some u =>
    simp only
    cases lib.put u 1124 (.str fmt) with
    | none => exact Out.defined_err _
    | some u =>
      simp only
      cases hr : lib.reload u 63 with
      | none => exact absurd hr (hl.reload _ _)
      | some u => exact Out.defined_ok _

theorem newSignature_defined {η : Type} {lib : Rpmlib η} (hl : SoundLib lib) (n : Nat) (m : Bytes) : (newSignature lib n m).Defined := by
  unfold newSignature
  simp only
  split
  · rename_i hr
    exact absurd hr (hl.reload _ _)
  · exact Out.defined_ok _

/-- Lead, signature and header in front of a standard delta, whatever the header is. -/
theorem deltaHead_defined {η : Type} {lib : Rpmlib η} (hl : SoundLib lib) (H : Bytes → Bytes) (lead header z : Bytes) :
    (deltaHead lib H lead header z).Defined := by
  unfold deltaHead
  cases lib.imp (header.drop 8) with
  | none => exact Out.defined_err _
  | some h =>
    simp only
    unfold standardHead rpmWrite
    refine (exportHeader_good hl _).defined.bind (fun x _ => (newSignature_defined hl _ _).bind (fun s _ => ?_))
    refine Out.Defined.bind ?_ (fun _ _ => Out.defined_ok _)
    exact (exportSignature_defined lib _).bind (fun _ _ => (exportHeader_good hl _).defined.bind (fun _ _ => Out.defined_ok _))

theorem markedHeader_good {η : Type} {lib : Rpmlib η} (hl : SoundLib lib) (header : Bytes) :
    (markedHeader lib header).Good (fun b => 16 ≤ b.length ∧ b.length < 2^32 - 16) := by
  unfold markedHeader
  cases lib.imp (header.drop 8) with
  | none => trivial
  | some h => exact (patchFormat_defined hl h fmtDrpm).good.bind (fun m _ => exportHeader_good hl _)

/-! ## Reading packages -/

theorem readIntro_defined {η : Type} (lib : Rpmlib η) (file : Bytes) : (readIntro lib file).Defined := by
  unfold readIntro
  split
  · exact Out.defined_err _
  · split
    · exact Out.defined_err _
    · cases lib.read (file.drop 96) with
      | none => exact Out.defined_err _
      | some x =>
        simp only
        cases lib.read (file.drop (96 + x.2 + sigPadding (96 + x.2)))
        · exact Out.defined_err _
        · exact Out.defined_ok _

theorem dsDrain_data : ∀ (fuel : Nat) (s : DStrm) (e : Option Err) (t : DStrm), dsDrain fuel s = .ok (e, t) →
    t.data.length ≤ s.data.length + ((s.input.map (·.1)).flatten).length ∧ t.pos = s.pos := by
  intro fuel
  induction fuel with
  | zero => intro s e t h; cases h
  | succ n ih =>
    intro s e t h
    unfold dsDrain at h
    rcases hs : s.input with _ | ⟨x, xs⟩
    · simp only [dsChunk, hs] at h
      cases h
      exact ⟨Nat.le_add_right _ _, rfl⟩
    · obtain ⟨b, x⟩ := x
      simp only [dsChunk, hs] at h
      cases x with
      | none =>
        simp only at h
        obtain ⟨h1, h2⟩ := ih _ _ _ h
        simp only [List.length_append, List.map_cons, List.flatten_cons] at h1 ⊢
        exact ⟨by omega, h2⟩
      | some x =>
        cases x <;> simp only at h <;> cases h <;>
          simp only [List.length_append, List.map_cons, List.flatten_cons] <;> exact ⟨by omega, trivial⟩

theorem readPayload_good {σ : Type} {U : Unpack σ} (hU : SoundUnpack U) (z : Bytes) :
    (readPayload U .decompress false z).Good (fun a => a.archive.length < 2^62) := by
  show (unpackArchive U false z).Good _
  unfold unpackArchive
  refine Out.Good.ite (fun _ => trivial) (fun h => ?_)
  obtain ⟨m, e, _⟩ := detect_iff z (by omega)
  rw [e, Out.bind_ok]
  refine (hU.defined _ _ (by omega)).good.bind ?_
  rintro ⟨ev, s⟩ hev
  refine (dsReadAll_defined ev).good.bind ?_
  rintro ⟨r, t⟩ hr
  cases r with
  | error e => trivial
  | ok b =>
    show b.length < 2^62
    have hs := hU.small _ _ _ _ hev
    unfold dsReadAll at hr
    rw [Out.bind_eq_ok] at hr
    obtain ⟨⟨x, y⟩, h1, h2⟩ := hr
    have := dsDrain_data _ _ _ _ h1
    cases x with
    | some x => cases h2
    | none =>
      cases h2
      rw [List.length_drop]
      have h0 : (dsInit ev).data.length = 0 := rfl
      have hi : (dsInit ev).input = ev := rfl
      rw [h0, hi] at this
      omega

theorem rpmOf_good {η σ : Type} {lib : Rpmlib η} {U : Unpack σ} (hl : SoundLib lib) (hU : SoundUnpack U) (c : Bool) (file : Bytes) :
    (rpmOf lib U c file).Good (fun r => r.nevr.Defined ∧ r.files.Defined ∧ r.algo.Defined ∧ r.sigMd5.Defined ∧ r.level.Defined ∧
      r.isCpio.Defined ∧ (16 ≤ r.header.length ∧ r.header.length < 2^32 - 16) ∧ r.archive.length < 2^62) := by
  unfold rpmOf
  refine (readIntro_defined lib file).good.bind ?_
  rintro ⟨r, pos⟩ _
  refine (readPayload_good hU _).bind (fun a ha => ?_)
  refine (fetchLeadsig_defined lib r).good.bind (fun ls _ => ?_)
  refine (exportHeader_good hl r).bind (fun h hh => ?_)
  obtain ⟨p1, p2, p3, p4⟩ := pkgOf_defined hl r.signature r.header c
  exact ⟨p1, p2, p3, p4, getLevel_defined _ _, hasCpio_defined _ _, hh, ha⟩

/-! ## C53 -/

/-- C53, partial, for the bytes of the two packages. Whatever bytes the two files consist of, `drpm_make`
    returns: with a delta or with an error, if
    - rpmlib and the libraries for compression keep to what is assumed of them,
    - the archive of the old package, if it is a package and the delta is a standard delta, is below 16 GiB, and
      has no entry with a name of length zero (`C53_violated_name`), and no digest in its header is longer than 65
      characters (`C58_violated`),
    - the archive of the new package, if it is one, is empty or has at least 16 bytes (`C03_violated`), and
    - the levels are levels the compressors have (`C61_violated`).

    Missing: what the conditions exclude, and failing allocations. -/
theorem C53_files_partial {η σ τ : Type} (w : World η σ τ) (hl : SoundLib w.lib) (hU : SoundUnpack w.U)
    (hz : (∀ c l ws, (w.addComp c l ws).Defined) ∧ ∀ c l s, (w.compress c l s).Defined) (o : Opts Bytes) (old new : Bytes)
    (hold : ∀ r, rpmOf w.lib w.U true old = .ok r → o.rpmOnly = false → r.archive.length < 2^34 ∧ NoEmptyName r.archive ∧
      ∀ fs, r.files = .ok fs → fs.length ≤ 2^32 ∧ ∀ f ∈ fs, f.md5.length ≤ 65)
    (hnew : ∀ r, rpmOf w.lib w.U true new = .ok r → (r.archive = [] ∨ 16 ≤ r.archive.length) ∧
      ∀ l, o.compFromRpm = true → r.level = .ok l → LevelFits r.comp l)
    (ha : LevelFits o.addblkComp o.addblkLevel) (hc : o.compFromRpm = false → LevelFits o.comp o.compLevel) :
    (makeFiles w o old new).Defined := by
  have hgo := rpmOf_good hl hU true old
  have hgn := rpmOf_good hl hU true new
  unfold makeFiles
  refine C53_partial _ o _ _ ⟨hz.1, hz.2, fun h z => deltaHead_defined hl _ _ _ _⟩ ?_ ?_ ?_ ha hc
  · rintro r (h | h)
    · cases h; exact hgo.defined
    · cases h; exact hgn.defined
  · rintro r (h | ⟨h, _⟩)
    · have h := Option.some.inj h
      rw [h] at hgo
      obtain ⟨p1, p2, p3, _, _, _, _, _⟩ := hgo
      exact ⟨p1, p2, p3, fun ho => (hold r h ho).1, fun ho => (hold r h ho).2.1, fun fs ho => (hold r h ho).2.2 fs⟩
    · cases h
  · rintro r (h | ⟨h, _⟩)
    · have h := Option.some.inj h
      rw [h] at hgn
      obtain ⟨p1, _, _, _, p5, p6, p7, p8⟩ := hgn
      have hm := markedHeader_good hl r.header
      refine ⟨p1, p5, p6, p7, ⟨hm.defined, fun b hb => ?_⟩, (hnew r h).1, by omega, (hnew r h).2⟩
      have hb : markedHeader w.lib r.header = .ok b := hb
      rw [hb] at hm
      exact hm
    · cases h

/-! ## C71, C83, C84 -/

theorem readdeltaStandard_defined {η σ : Type} {lib : Rpmlib η} {U : Unpack σ} (hU : SoundUnpack U) (f : Bytes) :
    (readdeltaStandard lib U f).Defined := by
  unfold readdeltaStandard
  exact (C63_safe lib _ U hU.defined _ _ _ f).bind (fun _ _ => (getComp_defined _ _).bind (fun _ _ => Out.defined_ok _))

theorem soundEnv_of {η σ τ : Type} {w : World η σ τ} (hl : SoundLib w.lib) (hU : SoundUnpack w.U)
    (hd : ∀ c z, (w.dec c z).length < 2^63) : SoundEnv w.applyEnv := by
  have hr : ∀ f, (rpmRead w.lib (fun b => b) w.U .dontRead false false f).Defined :=
    fun f => C63_safe w.lib _ w.U hU.defined _ _ _ f
  refine ⟨hd, fun f => ?_, fun f => ?_, fun b m h => ?_, fun b => ?_⟩
  · exact readdeltaStandard_defined hU f
  · show (unmarkedHeader w.lib w.U f).Defined
    unfold unmarkedHeader
    exact (hr f).bind (fun _ _ => (patchFormat_defined hl _ _).bind (fun _ _ => (exportHeader_good hl _).defined))
  · have h : (w.lib.imp b).map (sigGetMd5 w.lib) = some m := h
    obtain ⟨s, _, rfl⟩ := Option.map_eq_some_iff.mp h
    exact sigGetMd5_defined hl s
  · show (replaceLeadsig w.lib _ b >>= fun r => fetchLeadsig w.lib r).Defined
    refine Out.Defined.bind ?_ (fun _ _ => fetchLeadsig_defined _ _)
    unfold replaceLeadsig
    split
    · exact Out.defined_err _
    · split
      · exact Out.defined_err _
      · cases w.lib.imp (b.drop 104)
        · exact Out.defined_err _
        · exact Out.defined_ok _

/-- C71, partial, for the bytes of the old package and of the delta: applying returns, whatever the two files
    consist of, as long as they avoid the defects named in the conditions. -/
theorem C71_files_partial {η σ τ : Type} (w : World η σ τ) (hl : SoundLib w.lib) (hU : SoundUnpack w.U)
    (hz : ∀ c z, (w.dec c z).length < 2^63) (old delta : Bytes) (cleanup : Nat)
    (hf : CarefulFile w.dec (readdeltaStandard w.lib w.U) delta)
    (hp : ∀ r, rpmOf w.lib w.U false old = .ok r → NoEmptyName r.archive ∧
      ∀ fs, r.files = .ok fs → ∀ f ∈ fs, f.md5.length ≤ 65 ∧ f.name.length + 3 < 2^16)
    (hd : ∀ d r, readDelta w.dec (readdeltaStandard w.lib w.U) delta = .ok d → rpmOf w.lib w.U false old = .ok r →
      CarefulDelta w.applyEnv r d) :
    (applyFiles w old delta cleanup).1.Defined := by
  have hg := rpmOf_good hl hU false old
  refine C71_partial w.applyEnv delta _ cleanup (soundEnv_of hl hU hz) hf hg.defined (fun r h => ?_) hd
  rw [h] at hg
  obtain ⟨p1, p2, p3, p4, _, _, _, p8⟩ := hg
  exact ⟨p1, p2, p3, p4, by omega, (hp r h).1, (hp r h).2⟩

/-- C83, partial, for the bytes of the delta and the headers in the database: see `C83_partial`. -/
theorem C83_files_partial {η σ τ : Type} (w : World η σ τ) (hl : SoundLib w.lib) (hU : SoundUnpack w.U)
    (hz : ∀ c z, (w.dec c z).length < 2^63) (db : Bytes → Option Bytes → Bytes → Bytes → Option η) (disk : Disk) (delta : Bytes)
    (cleanup : Nat) (hf : CarefulFile w.dec (readdeltaStandard w.lib w.U) delta)
    (hp : ∀ n e v r h fs c, db n e v r = some h → getFileInfo w.lib h false = .ok (fs, c) →
      fs.length < 2^30 ∧ ∀ f ∈ fs, f.md5.length ≤ 65 ∧ f.Fits ∧ ∀ data, disk.get f.name = some data → CheckableFile f data)
    (hd : ∀ d, readDelta w.dec (readdeltaStandard w.lib w.U) delta = .ok d → CarefulParts w.applyEnv d ∧
      ∀ n e v r h, db n e v r = some h → CarefulOrder (pkgOf w.lib w.lib.new h false) d ∧
        ∀ fs c, getFileInfo w.lib h false = .ok (fs, c) → (∃ f ∈ fs, LooksPrelinked disk f) → CarefulPrelink disk fs d) :
    (applyInstalled w db disk delta cleanup).1.Defined := by
  have hfiles : ∀ (h : η) fs, (pkgOf w.lib w.lib.new h false).files = .ok fs → ∃ c, getFileInfo w.lib h false = .ok (fs, c) := by
    intro h fs he
    have he : (getFileInfo w.lib h false >>= fun x => (.ok x.1 : Out (List FileInfo))) = .ok fs := he
    obtain ⟨⟨fs', c⟩, h1, h2⟩ := Out.bind_eq_ok.mp he
    cases h2
    exact ⟨c, h1⟩
  have hdb : ∀ n e v r p, ((db n e v r).map (fun h => pkgOf w.lib w.lib.new h false)) = some p →
      ∃ h, db n e v r = some h ∧ p = pkgOf w.lib w.lib.new h false := by
    intro n e v r p hm
    obtain ⟨h, h1, h2⟩ := Option.map_eq_some_iff.mp hm
    exact ⟨h, h1, h2.symm⟩
  refine C83_partial w.applyEnv delta _ disk cleanup (soundEnv_of hl hU hz) hf ?_ (fun d h => (hd d h).1) ?_ ?_
  · intro n e v r p hm
    obtain ⟨h, h1, rfl⟩ := hdb n e v r p hm
    obtain ⟨p1, p2, p3, _⟩ := pkgOf_defined hl w.lib.new h false
    refine ⟨p1, p2, p3, fun fs hfs => ?_, fun fs hfs f hf => ?_⟩
    · obtain ⟨c, hc⟩ := hfiles h fs hfs
      obtain ⟨q1, q2⟩ := hp n e v r h fs c h1 hc
      exact ⟨q1, fun f hf => ⟨(q2 f hf).1, (q2 f hf).2.1⟩⟩
    · obtain ⟨c, hc⟩ := hfiles h fs hfs
      exact ((hp n e v r h fs c h1 hc).2 f hf).2.2
  · intro d n e v r p h0 hm
    obtain ⟨h, h1, rfl⟩ := hdb n e v r p hm
    exact ((hd d h0).2 n e v r h h1).1
  · intro d n e v r p fs h0 hm hfs hlk
    obtain ⟨h, h1, rfl⟩ := hdb n e v r p hm
    obtain ⟨c, hc⟩ := hfiles h fs hfs
    exact ((hd d h0).2 n e v r h h1).2 fs c hc hlk

/-- The package of a header: what `drpm_check` knows of it. -/
theorem checkable_of {η : Type} {lib : Rpmlib η} (hl : SoundLib lib) {sys : Sys} (s h : η)
    (hp : ∀ fs c, getFileInfo lib h false = .ok (fs, c) → ∀ f ∈ fs, f.md5.length ≤ 65 ∧
      ∀ b, sys.content f.name = some b → f.size < b.length → Detectable sys f.name b) :
    CheckablePkg sys (pkgOf lib s h false) := by
  obtain ⟨p1, p2, p3, p4⟩ := pkgOf_defined hl s h false
  have hfs : ∀ fs, (pkgOf lib s h false).files = .ok fs → ∃ c, getFileInfo lib h false = .ok (fs, c) := by
    intro fs he
    have he : (getFileInfo lib h false >>= fun x => (.ok x.1 : Out (List FileInfo))) = .ok fs := he
    obtain ⟨⟨fs', c⟩, h1, h2⟩ := Out.bind_eq_ok.mp he
    cases h2
    exact ⟨c, h1⟩
  refine ⟨p1, p2, p3, p4, fun fs he f hf => ?_, fun fs he f hf b hb hs => ?_⟩
  · obtain ⟨c, hc⟩ := hfs fs he
    exact (hp fs c hc f hf).1
  · obtain ⟨c, hc⟩ := hfs fs he
    exact (hp fs c hc f hf).2 b hb hs

/-- The headers of a database do not trigger the known defects (see `CheckablePkg`). -/
def CheckableDb {η : Type} (lib : Rpmlib η) (sys : Sys) (db : Bytes → Option Bytes → Bytes → Bytes → Option η) : Prop :=
  ∀ n e v r h fs c, db n e v r = some h → getFileInfo lib h false = .ok (fs, c) → ∀ f ∈ fs, f.md5.length ≤ 65 ∧
    ∀ b, sys.content f.name = some b → f.size < b.length → Detectable sys f.name b

/-- C84, partial, `drpm_check`, for the bytes of the delta and the headers in the database: see
    `C84_check_partial`. -/
theorem C84_files_partial {η σ τ : Type} (w : World η σ τ) (hl : SoundLib w.lib) (hU : SoundUnpack w.U)
    (db : Bytes → Option Bytes → Bytes → Bytes → Option η) (sys : Sys) (delta : Bytes) (mode : Int)
    (hu : ∀ n, (sys.undo n).Defined) (hf : CarefulFile w.dec (readdeltaStandard w.lib w.U) delta) (hp : CheckableDb w.lib sys db)
    (ho : ∀ d n e v r h fs c, readDelta w.dec (readdeltaStandard w.lib w.U) delta = .ok d → d.type = .standard →
      db n e v r = some h → getFileInfo w.lib h false = .ok (fs, c) → OrderTame fs.length (d.sequence.drop 16)) :
    (checkDeltaFile w db sys delta mode).Defined := by
  refine C84_check_partial sys w.H _ w.dec _ delta mode hu (readdeltaStandard_defined hU) hf ?_ ?_
  · intro n e v r p hm
    obtain ⟨h, h1, rfl⟩ := Option.map_eq_some_iff.mp hm
    exact checkable_of hl _ _ (fun fs c hc => hp n e v r h fs c h1 hc)
  · intro d n e v r p hd ht hm fs hfs
    obtain ⟨h, h1, rfl⟩ := Option.map_eq_some_iff.mp hm
    have hfs : (getFileInfo w.lib h false >>= fun x => (.ok x.1 : Out (List FileInfo))) = .ok fs := hfs
    obtain ⟨⟨fs', c⟩, h2, h3⟩ := Out.bind_eq_ok.mp hfs
    cases h3
    exact ho d n e v r h _ c hd ht h1 h2

/-- C84, partial, `drpm_check_sequence`, for the bytes of the old package or the headers in the database:
    see `C84_sequence_partial`. -/
theorem C84_sequence_files_partial {η σ τ : Type} (w : World η σ τ) (hl : SoundLib w.lib) (hU : SoundUnpack w.U)
    (db : Bytes → Option Bytes → Bytes → Bytes → Option η) (sys : Sys) (old : Option Bytes) (id : Bytes) (mode : Int)
    (hu : ∀ n, (sys.undo n).Defined) (hp : CheckableDb w.lib sys db)
    (ho : ∀ n e v r h fs c nevr seq, db n e v r = some h → getFileInfo w.lib h false = .ok (fs, c) →
      splitSeqId id = .ok (nevr, seq) → OrderTame fs.length (seq.drop 16))
    (hr : ∀ file x fs c, old = some file → rpmRead w.lib (fun b => b) w.U .dontRead false false file = .ok x →
      getFileInfo w.lib x.st.header false = .ok (fs, c) →
      (∀ f ∈ fs, f.md5.length ≤ 65 ∧ ∀ b, sys.content f.name = some b → f.size < b.length → Detectable sys f.name b) ∧
      ∀ nevr seq, splitSeqId id = .ok (nevr, seq) → OrderTame fs.length (seq.drop 16)) :
    (checkSeqFile w db sys old id mode).Defined := by
  have hcase : ∀ p, ((old.map (fun file => do
      let x ← rpmRead w.lib (fun b => b) w.U .dontRead false false file
      .ok (pkgOf w.lib x.st.signature x.st.header false))) = some (.ok p) ∨
      ∃ n e v r, ((db n e v r).map (fun h => pkgOf w.lib w.lib.new h false)) = some p) →
      ∃ s h, p = pkgOf w.lib s h false ∧ ∀ fs c, getFileInfo w.lib h false = .ok (fs, c) →
        (∀ f ∈ fs, f.md5.length ≤ 65 ∧ ∀ b, sys.content f.name = some b → f.size < b.length → Detectable sys f.name b) ∧
        ∀ nevr seq, splitSeqId id = .ok (nevr, seq) → OrderTame fs.length (seq.drop 16) := by
    rintro p (h | ⟨n, e, v, r, h⟩)
    · obtain ⟨file, h1, h2⟩ := Option.map_eq_some_iff.mp h
      obtain ⟨x, h3, h4⟩ := Out.bind_eq_ok.mp h2
      cases h4
      exact ⟨_, _, rfl, fun fs c hc => hr file x fs c h1 h3 hc⟩
    · obtain ⟨hd, h1, rfl⟩ := Option.map_eq_some_iff.mp h
      exact ⟨_, _, rfl, fun fs c hc => ⟨hp n e v r hd fs c h1 hc, fun nevr seq hs => ho n e v r hd fs c nevr seq h1 hc hs⟩⟩
  refine C84_sequence_partial sys w.H _ _ id mode hu ?_ ?_ ?_
  · intro q hq
    obtain ⟨file, _, rfl⟩ := Option.map_eq_some_iff.mp hq
    exact (C63_safe w.lib _ w.U hU.defined _ _ _ file).bind (fun _ _ => Out.defined_ok _)
  · intro p hpp
    obtain ⟨s, h, rfl, hh⟩ := hcase p hpp
    exact checkable_of hl s h (fun fs c hc => (hh fs c hc).1)
  · intro nevr seq p hs hpp
    obtain ⟨s, h, rfl, hh⟩ := hcase p hpp
    intro fs hfs
    have hfs : (getFileInfo w.lib h false >>= fun x => (.ok x.1 : Out (List FileInfo))) = .ok fs := hfs
    obtain ⟨⟨fs', c⟩, h2, h3⟩ := Out.bind_eq_ok.mp hfs
    cases h3
    exact (hh _ c h2).2 nevr seq hs

/-- C54, partial, for the bytes of the delta: `drpm_read` returns, unless the delta has tables or strings too
    long for it (`C54_violated`). -/
theorem C54_files_partial {η σ τ : Type} (w : World η σ τ) (hU : SoundUnpack w.U) (filename delta : Bytes)
    (hf : CarefulFile w.dec (readdeltaStandard w.lib w.U) delta)
    (hd : ∀ d, readDelta w.dec (readdeltaStandard w.lib w.U) delta = .ok d →
      (d.offadjCount = d.offadj.length ∧ d.offadj.length < 2^29) ∧ d.intCount < 2^29 ∧ d.extCount < 2^29 ∧
      d.sequence.length < 2^31 ∧ d.tgtLeadsig.length < 2^31 ∧ d.tgtCompParam.length < 2^31) :
    (readFiles w filename delta).Defined := by
  unfold readFiles drpmRead
  refine (C10_partial w.dec _ delta (readdeltaStandard_defined hU _) hf.name hf.counts).bind (fun d h => ?_)
  obtain ⟨h1, h2, h3, h4, h5, h6⟩ := hd d h
  obtain ⟨i1, i2⟩ := C51_partial _ _ _ _ h
  refine C54_partial filename _ d h1 ⟨(i1 (by omega)).symm, by rw [i1 (by omega)]; exact h2⟩
    ⟨(i2 (by omega)).symm, by rw [i2 (by omega)]; exact h3⟩ h4 h5 h6 ?_
  unfold deltaNevr
  exact (C63_safe w.lib _ w.U hU.defined _ _ _ delta).bind (fun _ _ => getNevr_defined _ _)

/-! ## Examples -/

namespace Toy

/-- Any library with what `SoundLib` asks for put right. -/
def tame {η : Type} (lib : Rpmlib η) : Rpmlib η :=
  { lib with
    exp := fun h => match lib.exp h with
      | some b => if 8 ≤ b.length ∧ b.length < 2^31 then some b else none
      | none => none
    get := fun h t => match lib.get h t with
      | some (.bin b) => if t = 63 ∧ (lib.imp b).isNone then none else some (.bin b)
      | some d => if t = 63 then none else some d
      | none => none
    reload := fun h t => some ((lib.reload h t).getD h)
    raw := fun _ => zeros 16 }

theorem tame_sound {η : Type} (lib : Rpmlib η) : SoundLib (tame lib) := by
  refine ⟨fun h b e => ?_, fun h d e => ?_, (fun h R e => by cases e), fun d _ => by simp [tame, zeros]⟩
  · simp only [tame] at e
    split at e
    · split at e
      · cases e; assumption
      · cases e
    · cases e
  · simp only [tame] at e
    split at e
    · rename_i b _
      split at e
      · cases e
      · rename_i hb
        cases e
        cases hi : lib.imp b with
        | none => exact absurd ⟨trivial, by simp [hi]⟩ hb
        | some g => exact ⟨b, g, rfl, hi⟩
    · cases e
    · cases e

/-- The world of the examples with limits. -/
def tworld : World Hdr Unit Bytes :=
  { world with
    lib := tame lib
    U := fun c z => .ok (plainEvents [if c = .none then z.take 5000 else (z.drop 8).take 5000], ⟨(), z.length, z⟩)
    dec := fun _ z => (z.drop 8).take 5000 }

theorem tworld_unpack : SoundUnpack tworld.U := by
  refine ⟨fun c z _ => Out.defined_ok _, fun c z ev s h => ?_⟩
  simp only [tworld, Out.ok.injEq, Prod.mk.injEq] at h
  rw [← h.1]
  simp only [plainEvents, List.map_cons, List.map_nil, List.flatten_cons, List.flatten_nil, List.append_nil]
  split <;> rw [List.length_take] <;> omega


theorem tworld_compress : (∀ c l ws, (tworld.addComp c l ws).Defined) ∧ ∀ c l s, (tworld.compress c l s).Defined :=
  ⟨fun _ _ _ => Out.defined_ok _, fun _ _ _ => Out.defined_ok _⟩

def filesFit (x : Out (List FileInfo)) : Bool :=
  x.okAnd (fun fs => decide (fs.length < 2^30 ∧ ∀ f ∈ fs, f.md5.length ≤ 65 ∧ f.name.length + 3 < 2^16))

/-- Both packages are read. -/
theorem tworld_old (c : Bool) : ∃ r, rpmOf tworld.lib tworld.U c oldFile.file = .ok r ∧ r.archive = demoArchive ∧ filesFit r.files = true := by
  have : (rpmOf tworld.lib tworld.U c oldFile.file).okAnd (fun r => decide (r.archive = demoArchive) && filesFit r.files) = true := by
    cases c <;> decide +kernel
  obtain ⟨r, h1, h2⟩ := okAnd_ok this
  rw [Bool.and_eq_true, decide_eq_true_iff] at h2
  exact ⟨r, h1, h2⟩

theorem tworld_new : ∃ r, rpmOf tworld.lib tworld.U true newFile.file = .ok r ∧ r.archive = demoNewPkg.archive ∧ r.comp = 1 ∧ r.level = .ok 9 := by
  have : (rpmOf tworld.lib tworld.U true newFile.file).okAnd (fun r => decide (r.archive = demoNewPkg.archive) &&
      (decide (r.comp = 1) && r.level.okAnd (fun l => decide (l = 9)))) = true := by decide +kernel
  obtain ⟨r, h1, h2⟩ := okAnd_ok this
  rw [Bool.and_eq_true, Bool.and_eq_true, decide_eq_true_iff, decide_eq_true_iff] at h2
  obtain ⟨l, h3, h4⟩ := okAnd_ok h2.2.2
  rw [decide_eq_true_iff] at h4
  exact ⟨r, h1, h2.1, h2.2.1, by rw [h3, h4]⟩

theorem filesFit_of {x : Out (List FileInfo)} (h : filesFit x = true) : ∀ fs, x = .ok fs → fs.length < 2^30 ∧
    ∀ f ∈ fs, f.md5.length ≤ 65 ∧ f.name.length + 3 < 2^16 := by
  intro fs e
  unfold filesFit at h
  obtain ⟨fs', h1, h2⟩ := okAnd_ok h
  rw [e] at h1
  cases h1
  exact of_decide_eq_true h2

end Toy

open Toy in
/-- Non-vacuity of C53 for files: both packages can be read, and meet the conditions for both kinds of delta. -/
example (rpmOnly addblk : Bool) : (makeFiles tworld (demoOpts rpmOnly 3 addblk) oldFile.file newFile.file).Defined := by
  refine C53_files_partial tworld (tame_sound _) tworld_unpack tworld_compress _ _ _ (fun r h _ => ?_) (fun r h => ?_)
    (Or.inl (Nat.le_refl _)) (fun h => by cases h)
  · obtain ⟨r', h1, h2, h3⟩ := tworld_old true
    rw [h] at h1
    cases h1
    rw [h2]
    refine ⟨by decide +kernel, noEmptyName_of (by decide +kernel), fun fs hfs => ?_⟩
    obtain ⟨f1, f2⟩ := filesFit_of h3 fs hfs
    exact ⟨by omega, fun f hf => (f2 f hf).1⟩
  · obtain ⟨r', h1, h2, h3, h4⟩ := tworld_new
    rw [h] at h1
    cases h1
    refine ⟨by rw [h2]; exact Or.inr (by decide +kernel), fun l _ hl => ?_⟩
    rw [h4] at hl
    cases hl
    rw [h3]
    exact Or.inl (Nat.le_refl _)

namespace Toy

/-- A delta from "a-1-1" in two files, in front of it lead, signature and header of the new package. -/
def stdDelta : Bytes := newFile.leadsig ++ newFile.header ++ (instFile [32] 130 300).drop 4

def dworld : World Hdr Unit Bytes := { tworld with H := zeroH, dec := fun _ z => z.take 1000 }

theorem stdDelta_careful : CarefulFile dworld.dec (readdeltaStandard dworld.lib dworld.U) stdDelta := by
  refine ⟨by decide +kernel, fun h => absurd h (by decide +kernel), fun k c s hk h => ?_⟩
  rcases hk with ⟨h, _⟩ | ⟨x, hk⟩
  · exact absurd h (by decide +kernel)
  · have e : Out.okAnd (readdeltaStandard dworld.lib dworld.U stdDelta) (fun x => Out.okAnd (openStream dworld.dec (stdDelta.drop x.1))
        (fun y => decide (CountsSmall y.2))) = true := by decide +kernel
    rw [hk] at e
    simp only [Out.okAnd, h] at e
    exact of_decide_eq_true e

theorem stdDelta_parts (d : Delta) (hd : readDelta dworld.dec (readdeltaStandard dworld.lib dworld.U) stdDelta = .ok d) :
    CarefulParts dworld.applyEnv d ∧ d.sequence.drop 16 = [32] ∧ (d.offadjCount = 0 ∧ d.offadj.length = 0) ∧ d.intCount = 1 ∧
      d.extCount = 1 ∧ d.sequence.length = 17 ∧ d.tgtLeadsig.length < 200 ∧ d.tgtCompParam.length = 0 := by
  have : Out.okAnd (readDelta dworld.dec (readdeltaStandard dworld.lib dworld.U) stdDelta) (fun d => decide (
      (d.intCount = 1 ∧ d.extCount = 1) ∧ d.tgtCompLevel ≤ 9 ∧
      112 + 16 * word d.tgtLeadsig 104 + word d.tgtLeadsig 108 ≤ d.tgtLeadsig.length ∧
      d.tgtHeaderLen ≤ producedBytes d.ints d.exts ∧ d.sequence.drop 16 = [32] ∧ (d.offadjCount = 0 ∧ d.offadj.length = 0) ∧
      d.sequence.length = 17 ∧ d.tgtLeadsig.length < 200 ∧ d.tgtCompParam.length = 0)) = true := by decide +kernel
  rw [hd] at this
  simp only [Out.okAnd, decide_eq_true_eq] at this
  obtain ⟨h2, h3, h4, h5, h6, h7, h8, h9, h10⟩ := this
  exact ⟨⟨⟨by omega, by omega⟩, Or.inl h3, fun _ => h4, h5⟩, h6, h7, h2.1, h2.2, h8, h9, h10⟩

theorem dworld_dec (c : Comp) (z : Bytes) : (dworld.dec c z).length < 2^63 := by
  show (z.take 1000).length < 2^63
  rw [List.length_take]
  omega

theorem three_tame : OrderTame 3 [32] := by
  refine orderTame_of (by decide +kernel) ?_
  have : runsOf [32] = [(0, 2)] := by decide +kernel
  rw [this]
  intro k hk r hr
  match k, hr with
  | 0, hr => cases hr; decide

/-- The files of the old package. -/
theorem old_files {fs : List FileInfo} {c : Option Bool} (h : getFileInfo dworld.lib oldFile.hdr false = .ok (fs, c)) : fs = demoFiles := by
  have e : Out.okAnd (getFileInfo dworld.lib oldFile.hdr false) (fun x => decide (x.1 = demoFiles)) = true := by decide +kernel
  rw [h] at e
  exact of_decide_eq_true e

theorem db_some {n : Bytes} {e : Option Bytes} {v r : Bytes} {h : Hdr} (hd : db n e v r = some h) : h = oldFile.hdr := by
  unfold db at hd
  split at hd
  · exact (Option.some.inj hd).symm
  · cases hd

/-- Both regular files are there, one of them longer than it should be. -/
def someFiles : List (Bytes × Bytes) := [(ascii "/a", [1, 2, 3, 4, 5, 6]), (ascii "/d", [1, 2, 3])]

theorem some_checkable : CheckableDb dworld.lib (checkSys someFiles) db := by
  intro n e v r h fs c h1 h2 f hf
  cases db_some h1
  cases old_files h2
  have : ∀ f ∈ demoFiles, f.md5.length ≤ 65 := by decide +kernel
  refine ⟨this f hf, fun b hb _ => Or.inl ?_⟩
  have hm : (f.name, b) ∈ someFiles := diskOf_mem (l := someFiles) hb
  have : ∀ x ∈ someFiles, x.2.take 4 ≠ [0x7F, 0x45, 0x4C, 0x46] := by decide +kernel
  exact this _ hm

theorem someFiles_elf {x : Bytes × Bytes} (h : x ∈ someFiles) : ¬ IsElf x.2 := by
  have : ∀ x ∈ someFiles, ¬ IsElf x.2 := by
    unfold IsElf
    decide +kernel
  exact this x h

theorem someFiles_plain {n data : Bytes} (h : (n, data) ∈ someFiles) :
    data.length ≤ 0x7ffff000 ∧ (IsElf data → HasSections data → NamesUsable data) :=
  ⟨(by decide +kernel : ∀ x ∈ someFiles, x.2.length ≤ 0x7ffff000) _ h, fun he => absurd he (someFiles_elf h)⟩

end Toy

open Toy in
/-- Non-vacuity of C84 for files. -/
example : (checkDeltaFile dworld db (checkSys someFiles) stdDelta 2).Defined ∧
    checkDeltaFile dworld db (checkSys someFiles) stdDelta 2 = .err .mismatch ∧ checkDeltaFile dworld db (checkSys []) stdDelta 2 = .err .noinstall := by
  refine ⟨C84_files_partial dworld (tame_sound _) tworld_unpack db _ stdDelta 2 (fun _ => Out.defined_err _) stdDelta_careful some_checkable ?_,
    by decide +kernel, by decide +kernel⟩
  intro d n e v r h fs c h1 h2 h3 h4
  cases db_some h3
  cases old_files h4
  rw [(stdDelta_parts d h1).2.1]
  exact three_tame

open Toy in
example : (checkSeqFile dworld db (checkSys someFiles) none (checkId [32]) 2).Defined := by
  have e : splitSeqId (checkId [32]) = .ok ([97, 45, 49, 45, 49], zeros 16 ++ [32]) := by decide +kernel
  refine C84_sequence_files_partial dworld (tame_sound _) tworld_unpack db _ none _ 2 (fun _ => Out.defined_err _) some_checkable ?_ ?_
  · intro n e' v r h fs c nevr seq h1 h2 h3
    cases db_some h1
    cases old_files h2
    rw [e] at h3
    cases h3
    exact three_tame
  · intro file x fs c h
    cases h

open Toy in
/-- Non-vacuity of C71 for files. -/
example : (applyFiles dworld oldFile.file stdDelta 0).1.Defined := by
  refine C71_files_partial dworld (tame_sound _) tworld_unpack dworld_dec _ stdDelta 0 stdDelta_careful (fun r h => ?_) (fun d r h1 h2 => ?_)
  · obtain ⟨r', h1, h2, h3⟩ := tworld_old false
    rw [show rpmOf dworld.lib dworld.U false oldFile.file = rpmOf tworld.lib tworld.U false oldFile.file from rfl, h1] at h
    cases h
    rw [h2]
    exact ⟨noEmptyName_of (by decide +kernel), fun fs hfs => (filesFit_of h3 fs hfs).2⟩
  · obtain ⟨p1, p2, _⟩ := stdDelta_parts d h1
    refine ⟨p1, fun fs hfs _ => ?_⟩
    have e : Out.okAnd (rpmOf dworld.lib dworld.U false oldFile.file) (fun r => Out.okAnd r.files (fun fs => decide (fs.length = 3))) = true := by
      decide +kernel
    rw [h2] at e
    simp only [Out.okAnd, hfs, decide_eq_true_eq] at e
    rw [e, p2]
    exact three_tame

open Toy in
/-- Non-vacuity of C83 for files. -/
example : (applyInstalled dworld db (diskOf someFiles) stdDelta 0).1.Defined := by
  refine C83_files_partial dworld (tame_sound _) tworld_unpack dworld_dec db _ stdDelta 0 stdDelta_careful ?_ ?_
  · intro n e v r h fs c h1 h2
    cases db_some h1
    cases old_files h2
    refine ⟨by decide +kernel, fun f hf => ⟨?_, ?_, ?_⟩⟩
    · exact (by decide +kernel : ∀ f ∈ demoFiles, f.md5.length ≤ 65) f hf
    · have : ∀ f ∈ demoFiles, f.mode < 2^16 ∧ f.rdev < 2^16 ∧ f.size + 3 < 2^32 ∧ f.linkto.length + 3 < 2^32 ∧
        f.name.length + 3 < 2^16 := by decide +kernel
      obtain ⟨a, b, c, d, e⟩ := this f hf
      exact ⟨a, b, c, d, e⟩
    · intro data hd
      exact Or.inr (someFiles_plain (diskOf_mem hd))
  · intro d hd
    obtain ⟨p1, p2, _⟩ := stdDelta_parts d hd
    refine ⟨p1, fun n e v r h h1 => ?_⟩
    cases db_some h1
    have hfiles : ∀ fs, (pkgOf dworld.lib dworld.lib.new oldFile.hdr false).files = .ok fs → fs = demoFiles := by
      intro fs hfs
      have hfs : (getFileInfo dworld.lib oldFile.hdr false >>= fun x => (.ok x.1 : Out (List FileInfo))) = .ok fs := hfs
      obtain ⟨⟨fs', c⟩, h2, h3⟩ := Out.bind_eq_ok.mp hfs
      cases h3
      exact old_files h2
    refine ⟨⟨fun fs hfs => ?_, fun fs hfs i hi f _ _ _ => ?_⟩, fun fs c h2 hl => ?_⟩
    · rw [hfiles fs hfs, p2]
      exact three_tame
    · have e : filesOf (runsOf [32]) = [0, 1] := by decide +kernel
      rw [p2, e] at hi ⊢
      simp only [List.mem_cons, List.not_mem_nil, or_false] at hi
      show i < 2
      omega
    · obtain ⟨f, _, data, h3, _, h4⟩ := hl
      exact absurd h4.1 (someFiles_elf (diskOf_mem h3))

open Toy in
/-- Non-vacuity of C54 for files. -/
example : (readFiles dworld (ascii "a.drpm") stdDelta).Defined := by
  refine C54_files_partial dworld tworld_unpack _ stdDelta stdDelta_careful (fun d hd => ?_)
  obtain ⟨_, _, p3, p4, p5, p6, p7, p8⟩ := stdDelta_parts d hd
  exact ⟨⟨by omega, by omega⟩, by omega, by omega, by omega, by omega, by omega⟩

end Drpm
