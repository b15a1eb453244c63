import Verif.Replaced
import Verif.Props.Chain
import Verif.Props.Right
import Verif.Props.Consistent
/-!
# C105: packages and deltas that are replaced while they are read
-/

namespace Drpm

/-- Lead, signature and header of one version, and what the other version has behind the same number of bytes. -/
def PkgFile.mix {η : Type} {lib : Rpmlib η} (p : PkgFile lib) (second : Bytes) : PkgFile lib :=
  { p with payload := second.drop (p.leadsig.length + p.header.length) }

theorem mix_file {η : Type} {lib : Rpmlib η} (p : PkgFile lib) (second : Bytes) :
    (p.mix second).file = p.leadsig ++ p.header ++ second.drop (p.leadsig ++ p.header).length := by
  rw [List.length_append]
  rfl

theorem mix_self {η : Type} {lib : Rpmlib η} (p : PkgFile lib) : p.mix p.file = p := by
  unfold PkgFile.mix
  rw [p.drop_file]

theorem rpmOfTwice_mix {η σ : Type} (lib : Rpmlib η) (U : Unpack σ) (wantColors : Bool) (p : PkgFile lib) (second : Bytes) :
    rpmOfTwice lib U wantColors p.file second = rpmOf lib U wantColors (p.mix second).file := by
  unfold rpmOfTwice rpmOf
  rw [p.readIntro_file, (p.mix second).readIntro_file, Out.bind_ok, Out.bind_ok]
  simp only
  rw [(p.mix second).drop_file]
  rfl

theorem file_take96 {η : Type} {lib : Rpmlib η} (p : PkgFile lib) : p.file.take 96 = p.lead := by
  rw [p.file_lead, List.take_append_of_le_length (by rw [p.isLead.1]; omega), List.take_of_length_le (by rw [p.isLead.1]; omega)]

/-- C105 (what happens): if packages are replaced while `drpm_make` reads them, the result is that for mixtures: what precedes the payload in the one
    version, and the rest of the other. -/
theorem C105_make {η σ τ : Type} (w : World η σ τ) (o : Opts Bytes) (old new : PkgFile w.lib) (old₂ new₂ : Bytes) :
    makeReplaced w o old.file old₂ new.file new₂ = makeFiles w o (old.mix old₂).file (new.mix new₂).file := by
  unfold makeReplaced makeFiles
  rw [rpmOfTwice_mix, rpmOfTwice_mix, file_take96, file_take96]
  rfl

/-- Two versions of a package with the same number of bytes before the payload, that differ only before the payload or only in it. -/
def OneSided {η : Type} {lib : Rpmlib η} (p q : PkgFile lib) : Prop :=
  (p.leadsig ++ p.header).length = (q.leadsig ++ q.header).length ∧ (p.leadsig ++ p.header = q.leadsig ++ q.header ∨ p.payload = q.payload)

theorem OneSided.mix {η : Type} {lib : Rpmlib η} {p q : PkgFile lib} (h : OneSided p q) :
    (p.mix q.file).file = p.file ∨ (p.mix q.file).file = q.file := by
  rw [mix_file, h.1, List.length_append, q.drop_file]
  rcases h.2 with k | k
  · right
    rw [k]
    rfl
  · left
    rw [← k]
    rfl

/-- C105 (partial): if the versions have the same number of bytes before the payload, and differ only there (they are signed differently, say) or only
    in the payload, `drpm_make` has the result for one version of each package. Missing: versions that differ in both or in length,
    see `C105_violated`. -/
theorem C105_partial {η σ τ : Type} (w : World η σ τ) (o : Opts Bytes) (old old₂ new new₂ : PkgFile w.lib)
    (h1 : OneSided old old₂) (h2 : OneSided new new₂) :
    ∃ a ∈ [old, old₂], ∃ b ∈ [new, new₂], makeReplaced w o old.file old₂.file new.file new₂.file = makeFiles w o a.file b.file := by
  rw [C105_make]
  rcases h1.mix with k | k <;> rcases h2.mix with l | l <;> rw [k, l]
  · exact ⟨old, by simp, new, by simp, rfl⟩
  · exact ⟨old, by simp, new₂, by simp, rfl⟩
  · exact ⟨old₂, by simp, new, by simp, rfl⟩
  · exact ⟨old₂, by simp, new₂, by simp, rfl⟩

/-- C105 is violated by `drpm_make`: take any update from `old` to some package, one version of the new package that differs
    from it in the payload, and one that differs from it before the payload. If the one is replaced by the other while it is read,
    `drpm_make` reports success, and from the delta `drpm_apply` makes a package that is neither version. -/
theorem C105_violated {η σ τ : Type} (w : World η σ τ) (Ok : TagData → Prop) (hl : HeaderLaws w.lib Ok) (h16 : ∀ b, (w.H b).length = 16)
    (o : Opts Bytes) (old mixed new new₂ : PkgFile w.lib) (hu : Updates w o old mixed)
    (h1 : new.leadsig ++ new.header = mixed.leadsig ++ mixed.header) (h2 : new.payload ≠ mixed.payload)
    (h3 : new₂.payload = mixed.payload) (h4 : (new₂.leadsig ++ new₂.header).length = (mixed.leadsig ++ mixed.header).length)
    (h5 : new₂.leadsig ++ new₂.header ≠ mixed.leadsig ++ mixed.header) :
    ∃ delta, makeReplaced w o old.file old.file new.file new₂.file = .ok delta ∧
      (∀ cleanup, applyFiles w old.file delta cleanup = (.ok (), .written mixed.file)) ∧ mixed.file ≠ new.file ∧ mixed.file ≠ new₂.file := by
  obtain ⟨delta, d1, d2⟩ := hu.works hl h16
  have e : (new.mix new₂.file).file = mixed.file := by
    rw [mix_file, h1, ← h4, List.length_append, new₂.drop_file, h3]
    rfl
  refine ⟨delta, ?_, d2, fun h => ?_, fun h => ?_⟩
  · rw [C105_make, mix_self, e, d1]
  · have : mixed.leadsig ++ mixed.header ++ mixed.payload = new.leadsig ++ new.header ++ new.payload := h
    rw [h1] at this
    exact h2 (List.append_cancel_left this).symm
  · have : mixed.leadsig ++ mixed.header ++ mixed.payload = new₂.leadsig ++ new₂.header ++ new₂.payload := h
    exact h5 (List.append_inj_left this h4.symm).symm

section
variable {η σ τ : Type} (w : World η σ τ) (delta : Bytes)

theorem replaced_read : readDelta (w.applyEnvReplaced delta).dec (w.applyEnvReplaced delta).rpmHead delta =
    readDelta w.applyEnv.dec w.applyEnv.rpmHead delta := by
  show readDelta w.dec (fun _ => readdeltaStandard w.lib w.U delta) delta = readDelta w.dec (readdeltaStandard w.lib w.U) delta
  unfold readDelta
  rfl

theorem replaced_old (d : Delta) (src : OldSrc) : applyOld (w.applyEnvReplaced delta) delta d src = applyOld w.applyEnv delta d src := by
  cases src <;> rfl

theorem replaced_header (d : Delta) : applyHeader (w.applyEnvReplaced delta) delta d = applyHeader w.applyEnv delta d := by
  unfold applyHeader
  rfl

theorem replaced_compress (d : Delta) : compressNew (w.applyEnvReplaced delta) d = compressNew w.applyEnv d := by
  unfold compressNew
  rfl

theorem replaced_write (d : Delta) (ws : Out (List Bytes)) :
    applyWrite (w.applyEnvReplaced delta) delta d ws = applyWrite w.applyEnv delta d ws := by
  unfold applyWrite
  rw [replaced_header, replaced_compress]

theorem replaced_body (d : Delta) (old : OldData) (files : List FileInfo) (places : List CpioFile) (cleanup : Nat) :
    planBody (w.applyEnvReplaced delta) delta d old files places cleanup = planBody w.applyEnv delta d old files places cleanup := by
  have e : planDiff (w.applyEnvReplaced delta) delta d old files places cleanup = planDiff w.applyEnv delta d old files places cleanup := by
    unfold planDiff
    simp only [replaced_write]
    rfl
  unfold planBody
  rw [e]
  rfl

theorem replaced_plan (src : OldSrc) (cleanup : Nat) :
    planApply (w.applyEnvReplaced delta) delta src cleanup = planApply w.applyEnv delta src cleanup := by
  unfold planApply
  rw [replaced_read]
  simp only [replaced_old, replaced_body]
  rfl

theorem replaced_finish (d : Delta) (sig : Out (Option Bytes)) (x : Out (Bytes × Bytes)) :
    finishApply (w.applyEnvReplaced delta) d sig x = finishApply w.applyEnv d sig x := by
  cases x <;> rfl

/-- C105, undisturbed calls: if nothing is replaced, the call is the one of C90. -/
theorem C105_undisturbed (old : PkgFile w.lib) (cleanup : Nat) :
    applyReplaced w old.file old.file delta delta cleanup = applyFiles w old.file delta cleanup := by
  unfold applyReplaced applyFiles drpmApply
  rw [rpmOfTwice_mix, mix_self]
  simp only [applyTo, Out.bind_ok, replaced_plan, replaced_finish]

end

/-- C105 for the old package of `drpm_apply`: whatever stands under its name when it is opened and when it is opened again, a success with a delta that
    records the MD5 of `new` means that `new` was written, unless MD5 collides. -/
theorem C105_apply {η σ τ : Type} (w : World η σ τ) (filename delta : Bytes) (i : Info) (new : Bytes)
    (hread : drpmRead w.dec (readdeltaStandard w.lib w.U) (deltaNevr w.lib w.U) filename delta = .ok i)
    (hmd5 : ∀ r, getString (some i) 8 true (some r) = (none, some (some (dumpHex (w.H new))))) (hz : w.H new ≠ zeros 16)
    (old₁ old₂ : Bytes) (cleanup : Nat) (left : Left) (h : applyReplaced w old₁ old₂ delta delta cleanup = (.ok (), left)) :
    left = .written new ∨ ∃ b, left = .written b ∧ b ≠ new ∧ w.H b = w.H new := by
  have e : drpmRead w.dec (w.applyEnvReplaced delta).rpmHead (deltaNevr w.lib w.U) filename delta = .ok i := by
    rw [← hread]
    unfold drpmRead readDelta
    rfl
  obtain ⟨b, k1, k2⟩ := C26_right (w.applyEnvReplaced delta) (deltaNevr w.lib w.U) filename delta i new e hmd5 hz _ cleanup left h
  by_cases e : b = new
  · exact Or.inl (by rw [k1, e])
  · exact Or.inr ⟨b, k1, e, k2⟩

/-- C105 for the delta of `drpm_apply`: whatever stands under the names, a success means that the output has the digest recorded in
    the part of the delta that was read from the descriptor opened first. -/
theorem C105_delta {η σ τ : Type} (w : World η σ τ) (old₁ old₂ delta₁ delta₂ : Bytes) (cleanup : Nat) (left : Left)
    (h : applyReplaced w old₁ old₂ delta₁ delta₂ cleanup = (.ok (), left)) :
    ∃ d b, readDelta w.dec (fun _ => readdeltaStandard w.lib w.U delta₂) delta₁ = .ok d ∧ left = .written b ∧
      (d.tgtMd5 ≠ zeros 16 → w.H b = d.tgtMd5) := by
  obtain ⟨f, d, ls, rest, k1, k2, k3, _, k5, _⟩ := C26_verified _ _ _ _ h
  cases k1
  exact ⟨d, ls ++ rest, k2, k3, k5⟩

namespace Toy

/-- A version of the new package with another payload. -/
def otherPayload : PkgFile world.lib := { newFile with payload := demoPack demoArchive }

/-- A version of the new package with another lead. -/
def otherLead : PkgFile world.lib := { newFile with lead := newFile.lead.take 95 ++ [9], isLead := by decide +kernel }

end Toy

open Toy in
/-- Non-vacuity of C105_violated: both are packages with payloads that can be unpacked, and the mixture of them is the new package of the
    examples. -/
example (addblk : Bool) : ∃ delta,
    makeReplaced world (demoOpts true 3 addblk) oldFile.file oldFile.file otherPayload.file otherLead.file = .ok delta ∧
    (∀ cleanup, applyFiles world oldFile.file delta cleanup = (.ok (), .written newFile.file)) ∧
    newFile.file ≠ otherPayload.file ∧ newFile.file ≠ otherLead.file :=
  C105_violated world Ok laws md5_16 _ oldFile newFile otherPayload otherLead (updatesOnly addblk) rfl (by decide +kernel) rfl (by decide +kernel)
    (by decide +kernel)

open Toy in
/-- Non-vacuity of C105_partial. -/
example : OneSided newFile otherPayload ∧ OneSided newFile otherLead ∧ newFile.file ≠ otherLead.file :=
  ⟨⟨rfl, Or.inl rfl⟩, ⟨by decide +kernel, Or.inr rfl⟩, by decide +kernel⟩

open Toy in
/-- Non-vacuity of C105_apply and C105_delta: there is a delta for which the conditions hold, and a success does occur, also if the old package is
    replaced by the same file. -/
example (addblk : Bool) : ∃ delta i, drpmRead world.dec (readdeltaStandard world.lib world.U) (deltaNevr world.lib world.U) [] delta = .ok i ∧
    (∀ r, getString (some i) 8 true (some r) = (none, some (some (dumpHex (world.H newFile.file))))) ∧ world.H newFile.file ≠ zeros 16 ∧
    ∀ cleanup, applyReplaced world oldFile.file oldFile.file delta delta cleanup = (.ok (), .written newFile.file) := by
  obtain ⟨s1, s2, s3, s4, s5⟩ := demoSizes
  have l1 := oldFile.header_length
  have l2 := newFile.header_length
  have c1 := oldFile.hdrOk.counts
  have c2 := newFile.hdrOk.counts
  obtain ⟨delta, i, h1, h2, _, h3⟩ := C81_rpmonly world Ok laws md5_16 (demoOpts true 3 addblk) rfl rfl oldFile newFile demoArchive demoNewPkg.archive .gzip .gzip 9
    (unpacks _ _ rfl) goodNew _ _ hasNevrs.1 hasNevrs.2 (goodComp _ rfl) (by omega) (by omega)
    (FewCopies.of_size _ _ _ (by simp only [List.length_append]; omega) (by simp only [List.length_append]; omega)
      (by simp only [List.length_append]; omega)) (goodAdd _ _ _ _ (by omega)) []
  obtain ⟨delta', h4, h5⟩ := (updatesOnly addblk).works laws md5_16
  cases h1.symm.trans h4
  refine ⟨delta, i, h2, h3.tgtMd5, by decide +kernel, fun cleanup => ?_⟩
  rw [C105_undisturbed, h5 cleanup]

end Drpm
