import Verif.Props.Describe
/-!
# C26: what a success of `drpm_apply` means to the user

The MD5 that is compared is the one that `drpm_read` reports for the delta. So a delta that was made for a new
package yields this package or an error, whatever it is applied to and however it was damaged on the way,
as long as the MD5 in it is intact and does not collide.
-/

namespace Drpm

theorem dumpHex_inj {a b : Bytes} (h : dumpHex a = dumpHex b) : a = b := by
  have h1 := (C14_roundtrip a [] (by decide)).1
  have h2 := (C14_roundtrip b [] (by decide)).1
  rw [h, h2] at h1
  exact (Option.some.inj h1).symm

/-- C26 (right): any file `delta` for which `drpm_read` reports the MD5 of the package `new`, applied to any old package or
    installed files. If `drpm_apply` reports success, then the file at the output path is `new`, or another file of
    the same MD5. (An MD5 of all zeros would stand for none.) -/
theorem C26_right {σ : Type} (env : ApplyEnv σ) (rpmNevr : Bytes → Out Bytes) (filename delta : Bytes) (i : Info) (new : Bytes)
    (hread : drpmRead env.dec env.rpmHead rpmNevr filename delta = .ok i)
    (hmd5 : ∀ r, getString (some i) 8 true (some r) = (none, some (some (dumpHex (env.H new))))) (hz : env.H new ≠ zeros 16)
    (src : OldSrc) (cleanup : Nat) (left : Left)
    (h : drpmApply env ⟨some (.ok delta), true, true, src⟩ cleanup = (.ok (), left)) :
    ∃ b, left = .written b ∧ env.H b = env.H new := by
  obtain ⟨file, d, ls, rest, h1, h2, h3, _, h5, _⟩ := C26_verified env _ cleanup left h
  cases h1
  unfold drpmRead at hread
  rw [h2, Out.bind_ok] at hread
  unfold toDrpm at hread
  obtain ⟨_, _, hread⟩ := Out.bind_eq_ok.mp hread
  obtain ⟨_, _, hread⟩ := Out.bind_eq_ok.mp hread
  obtain ⟨_, _, hread⟩ := Out.bind_eq_ok.mp hread
  obtain ⟨_, _, hread⟩ := Out.bind_eq_ok.mp hread
  obtain ⟨_, _, hread⟩ := Out.bind_eq_ok.mp hread
  obtain ⟨_, _, hread⟩ := Out.bind_eq_ok.mp hread
  obtain ⟨_, _, hread⟩ := Out.bind_eq_ok.mp hread
  cases hread
  have hd : d.tgtMd5 = env.H new := by
    have := hmd5 none
    simp only [getString, stringOf] at this
    exact dumpHex_inj (Option.some.inj (Option.some.inj (Prod.mk.inj this).2))
  exact ⟨_, h3, by rw [h5 (by rw [hd]; exact hz), hd]⟩

/-- C26 for the rpm-only delta that `drpm_make` made of two package files: whatever it is applied to (another package,
    a damaged one), a success means the new package file, or another one of the same MD5. -/
theorem C26_made_rpmonly {η σ τ : Type} (w : World η σ τ) (Ok : TagData → Prop) (hl : HeaderLaws w.lib Ok) (h16 : ∀ b, (w.H b).length = 16)
    (o : Opts Bytes) (ho : o.rpmOnly = true) (hv : o.version = 3)
    (old new : PkgFile w.lib) (oa na : Bytes) (oc nc : Comp) (level : Nat)
    (hold : Unpacks w.U old oa oc) (hnew : GoodNew w new na nc level)
    (on nn : Bytes) (hn : HasNevr w.lib old.hdr on) (hn' : HasNevr w.lib new.hdr nn)
    (hd : GoodDeltaComp w o new.lead nc level)
    (hsize : oa.length ≤ 2^43 ∧ na.length < 2^62)
    (hsmall : old.header.length + oa.length < 2^31 ∨ new.header.length + na.length < 2^31)
    (hcnt : FewCopies (old.header ++ oa) (new.header ++ na) o.addblk)
    (hadd : GoodAdd (w.makeEnv new.lead) w.applyEnv o (new.header.length + na.length))
    (hz : w.H new.file ≠ zeros 16) :
    ∃ delta, makeFiles w o old.file new.file = .ok delta ∧ ∀ src cleanup left,
      drpmApply w.applyEnv ⟨some (.ok delta), true, true, src⟩ cleanup = (.ok (), left) →
      left = .written new.file ∨ ∃ b, left = .written b ∧ b ≠ new.file ∧ w.H b = w.H new.file := by
  obtain ⟨delta, i, h1, h2, _, h3⟩ := C81_rpmonly w Ok hl h16 o ho hv old new oa na oc nc level hold hnew on nn hn hn' hd hsize hsmall hcnt hadd []
  refine ⟨delta, h1, fun src cleanup left h => ?_⟩
  obtain ⟨b, e1, e2⟩ := C26_right w.applyEnv (deltaNevr w.lib w.U) [] delta i new.file h2 h3.tgtMd5 hz src cleanup left h
  by_cases hsame : b = new.file
  · exact .inl (by rw [e1, hsame])
  · exact .inr ⟨b, e1, hsame, e2⟩

/-- C26 for the standard deltas that `drpm_make` made of two package files: whatever they are applied to (another package,
    a damaged one, changed files), a success means the new package file, or another one of the same MD5. -/
theorem C26_made_standard {η σ τ : Type} (w : World η σ τ) (Ok : TagData → Prop) (hl : HeaderLaws w.lib Ok) (hnl : NevrLaw w.lib)
    (h16 : ∀ b, (w.H b).length = 16)
    (o : Opts Bytes) (ho : o.rpmOnly = false) (hv : 1 ≤ o.version ∧ o.version ≤ 3)
    (old new : PkgFile w.lib) (oa na : Bytes) (oc nc : Comp) (level : Nat)
    (hold : Unpacks w.U old oa oc) (fs : List FileInfo) (colors : Bool) (algo : Nat) (c : Made) (hb : GoodBase w o old oa fs colors algo c)
    (hnew : GoodNew w new na nc level) (on nn : Bytes) (hn : HasNevr w.lib old.hdr on) (hn' : HasNevr w.lib new.hdr nn)
    (hc : Comp) (hname : ∃ s, (s, hc) ∈ payloadNames ∧ w.lib.get new.hdr 1125 = some (.str (ascii s)))
    (hd : GoodDeltaComp w o new.lead nc level)
    (hsize : 16 ≤ na.length ∧ na.length < 2^63 ∧ (o.version < 3 → na.length < 2^32))
    (hsmall : c.cpio.length < 2^31 ∨ na.length < 2^31) (hseq : c.sequence.length < 2^31)
    (hcnt : FewCopies c.cpio na o.addblk)
    (hadd : GoodAdd (w.makeEnv new.lead) w.applyEnv o na.length)
    (hz : w.H new.file ≠ zeros 16) :
    ∃ delta, makeFiles w o old.file new.file = .ok delta ∧ ∀ src cleanup left,
      drpmApply w.applyEnv ⟨some (.ok delta), true, true, src⟩ cleanup = (.ok (), left) →
      left = .written new.file ∨ ∃ b, left = .written b ∧ b ≠ new.file ∧ w.H b = w.H new.file := by
  obtain ⟨delta, i, h1, h2, _, h3⟩ := C81_standard w Ok hl hnl h16 o ho hv old new oa na oc nc level hold fs colors algo c hb hnew on nn hn hn' hc hname hd
    hsize hsmall hseq hcnt hadd []
  refine ⟨delta, h1, fun src cleanup left h => ?_⟩
  obtain ⟨b, e1, e2⟩ := C26_right w.applyEnv (deltaNevr w.lib w.U) [] delta i new.file h2 h3.tgtMd5 hz src cleanup left h
  by_cases hsame : b = new.file
  · exact .inl (by rw [e1, hsame])
  · exact .inr ⟨b, e1, hsame, e2⟩

open Toy in
/-- Non-vacuity of C26_made_rpmonly: its conditions hold of the two packages, and a success does occur. -/
example (addblk : Bool) : ∃ delta, makeFiles world (demoOpts true 3 addblk) oldFile.file newFile.file = .ok delta ∧
    (∀ src cleanup left, drpmApply world.applyEnv ⟨some (.ok delta), true, true, src⟩ cleanup = (.ok (), left) →
      left = .written newFile.file ∨ ∃ b, left = .written b ∧ b ≠ newFile.file ∧ world.H b = world.H newFile.file) ∧
    ∃ src, ∀ cleanup, drpmApply world.applyEnv ⟨some (.ok delta), true, true, src⟩ cleanup = (.ok (), .written newFile.file) := by
  obtain ⟨s1, s2, s3, s4, s5⟩ := demoSizes
  have l1 := oldFile.header_length
  have l2 := newFile.header_length
  have c1 := oldFile.hdrOk.counts
  have c2 := newFile.hdrOk.counts
  obtain ⟨delta, h1, h2⟩ := C26_made_rpmonly world Ok laws md5_16 (demoOpts true 3 addblk) rfl rfl oldFile newFile demoArchive demoNewPkg.archive .gzip .gzip 9
    (unpacks _ _ rfl) goodNew _ _ hasNevrs.1 hasNevrs.2 (goodComp _ rfl) (by omega) (by omega)
    (FewCopies.of_size _ _ _ (by simp only [List.length_append]; omega) (by simp only [List.length_append]; omega)
      (by simp only [List.length_append]; omega)) (goodAdd _ _ _ _ (by omega)) (by decide +kernel)
  obtain ⟨delta', h3, h4⟩ := C68_demo_rpmonly addblk
  rw [h1] at h3
  cases h3
  exact ⟨delta, h1, h2, _, h4⟩

open Toy in
/-- Non-vacuity of C26_made_standard. -/
example (addblk : Bool) : ∃ delta, makeFiles world (demoOpts false 3 addblk) oldFile.file newFile.file = .ok delta ∧
    (∀ src cleanup left, drpmApply world.applyEnv ⟨some (.ok delta), true, true, src⟩ cleanup = (.ok (), left) →
      left = .written newFile.file ∨ ∃ b, left = .written b ∧ b ≠ newFile.file ∧ world.H b = world.H newFile.file) ∧
    ∃ src, ∀ cleanup, drpmApply world.applyEnv ⟨some (.ok delta), true, true, src⟩ cleanup = (.ok (), .written newFile.file) := by
  obtain ⟨_, _, s3, s4, s5⟩ := demoSizes
  obtain ⟨c, hb, hc, hq⟩ := goodBase addblk
  obtain ⟨delta, h1, h2⟩ := C26_made_standard world Ok laws nevrLaw md5_16 (demoOpts false 3 addblk) rfl (by show 1 ≤ 3 ∧ 3 ≤ 3; omega) oldFile newFile demoArchive demoNewPkg.archive
    .gzip .gzip 9 (unpacks _ _ rfl) demoFiles false 0 c hb goodNew _ _ hasNevrs.1 hasNevrs.2 .gzip
    ⟨"gzip", by decide +kernel, by decide +kernel⟩ (goodComp _ rfl) ⟨by omega, by omega, fun _ => by omega⟩ (by omega) (by omega)
    (FewCopies.of_size _ _ _ (by omega) (by omega) (by omega)) (goodAdd _ _ _ _ (by omega)) (by decide +kernel)
  obtain ⟨delta', h3, h4⟩ := C68_demo_standard addblk
  rw [h1] at h3
  cases h3
  exact ⟨delta, h1, h2, _, h4⟩

end Drpm
