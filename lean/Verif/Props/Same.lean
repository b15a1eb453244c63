import Verif.SameLemmas
import Verif.Props.Describe
/-!
# Nothing of an unchanged payload is stored: C82
-/

namespace Drpm

/-! ## C82 -/

/-- **C82**, the search: if the new payload is the old one, or its beginning, then the difference has no bytes of
    its own, and every byte written to the add block is zero. -/
theorem C82_unchanged (old new : Bytes) (h : new <+: old) (hold : old.length < 2^63) (hnew : 16 ≤ new.length) (addblk : Bool) :
    ∃ d, makeDiff old new addblk = .ok d ∧ d.intData.flatten = [] ∧ ∀ b ∈ d.addWrites.flatten, b = 0 := by
  obtain ⟨d, h1, h2, h3⟩ := makeDiff_same h hold hnew addblk
  refine ⟨d, h1, h2, fun b hb => ?_⟩
  rw [h3] at hb
  split at hb
  · exact List.eq_of_mem_replicate hb
  · cases hb

/-- **C82** for rpm-only deltas: the delta from a package file to itself (or to a package that header and archive
    of the old one begin with) can be read, and its accessor says that it holds no internal data
    (`DRPM_TAG_INTDATALEN`, 18). -/
theorem C82_rpmonly {η σ τ : Type} (w : World η σ τ) (Ok : TagData → Prop) (hl : HeaderLaws w.lib Ok) (h16 : ∀ b, (w.H b).length = 16)
    (o : Opts Bytes) (ho : o.rpmOnly = true) (hv : o.version = 3)
    (old new : PkgFile w.lib) (oa na : Bytes) (oc nc : Comp) (level : Nat)
    (hold : Unpacks w.U old oa oc) (hnew : GoodNew w new na nc level)
    (hsame : new.header ++ na <+: old.header ++ oa)
    (on nn : Bytes) (hn : HasNevr w.lib old.hdr on) (hn' : HasNevr w.lib new.hdr nn)
    (hd : GoodDeltaComp w o new.lead nc level)
    (hsize : oa.length ≤ 2^43 ∧ na.length < 2^62)
    (hsmall : old.header.length + oa.length < 2^31 ∨ new.header.length + na.length < 2^31)
    (hcnt : FewCopies (old.header ++ oa) (new.header ++ na) o.addblk)
    (hadd : GoodAdd (w.makeEnv new.lead) w.applyEnv o (new.header.length + na.length)) (filename : Bytes) :
    ∃ delta i, makeFiles w o old.file new.file = .ok delta ∧ readFiles w filename delta = .ok i ∧
      ∀ r, getUllong (some i) 18 (some r) = (none, some 0) := by
  obtain ⟨delta, i, l, off, df, z, h1, h2, _, h3, h4⟩ := rpmonly_answers w Ok hl h16 o ho hv old new oa na oc nc level hold hnew on nn hn hn' hd hsize hsmall
    hcnt hadd filename
  refine ⟨delta, i, h1, h2, fun r => ?_⟩
  have lo := old.header_length
  have ln := new.header_length
  have so := old.hdrOk.small
  have co := old.hdrOk.counts
  have cn := new.hdrOk.counts
  obtain ⟨d, e1, e2, _⟩ := C82_unchanged _ _ hsame (by rw [List.length_append]; omega) (by rw [List.length_append]; omega) o.addblk
  rw [h3] at e1
  cases e1
  rw [h4.ullong]
  show (none, some df.intData.flatten.length) = _
  rw [e2]
  rfl

/-- Non-vacuity of C82 for the search. -/
example (addblk : Bool) : ∃ d, makeDiff ((List.range 100).map UInt8.ofNat) ((List.range 70).map UInt8.ofNat) addblk = .ok d ∧
    d.intData.flatten = [] :=
  have ⟨d, h1, h2, _⟩ := C82_unchanged ((List.range 100).map UInt8.ofNat) ((List.range 70).map UInt8.ofNat)
    ⟨(List.range' 70 30).map UInt8.ofNat, by decide +kernel⟩ (by rw [List.length_map, List.length_range]; omega)
    (by rw [List.length_map, List.length_range]; omega) addblk
  ⟨d, h1, h2⟩

open Toy in
/-- Non-vacuity of C82 for package files: a package and itself. -/
example (addblk : Bool) : ∃ delta i, makeFiles world (demoOpts true 3 addblk) newFile.file newFile.file = .ok delta ∧
    readFiles world (ascii "a.drpm") delta = .ok i ∧ getUllong (some i) 18 (some 7) = (none, some 0) := by
  obtain ⟨s1, s2, s3, s4, s5⟩ := demoSizes
  have l2 := newFile.header_length
  have c2 := newFile.hdrOk.counts
  obtain ⟨delta, i, h1, h2, h3⟩ := C82_rpmonly world Ok laws md5_16 (demoOpts true 3 addblk) rfl rfl newFile newFile demoNewPkg.archive demoNewPkg.archive
    .gzip .gzip 9 (unpacks _ _ rfl) goodNew (List.prefix_refl _) _ _ hasNevrs.2 hasNevrs.2 (goodComp _ rfl) (by omega) (by omega)
    (FewCopies.of_size _ _ _ (by simp only [List.length_append]; omega) (by simp only [List.length_append]; omega)
      (by simp only [List.length_append]; omega)) (goodAdd _ _ _ _ (by omega)) (ascii "a.drpm")
  exact ⟨delta, i, h1, h2, h3 _⟩

end Drpm
