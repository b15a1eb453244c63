import Verif.RpmFile
/-!
# Packages and deltas that are replaced while they are read

`rpm_read` opens a package by its name for lead, signature and header (src/drpm_rpm.c:288), and `rpm_read_archive`
opens the name once more for the payload (src/drpm_rpm.c:189), at the position where the header ended.
`read_deltarpm` opens a delta (src/drpm_read.c:442), and for a standard delta `readdelta_standard` has `rpm_read` open the name
again for lead, signature and header (src/drpm_read.c:417). If another file is given the name in between, the two come from
different files. Reads from one descriptor are of one file, which does not change.
-/

namespace Drpm

/-- A package file as src/drpm.c:358, 369-372, 556 read it (`rpmOf`); `first` has the name when lead, signature and header
    are read, `second` when the payload is. -/
def rpmOfTwice {η σ : Type} (lib : Rpmlib η) (U : Unpack σ) (wantColors : Bool) (first second : Bytes) : Out Rpm := do
  let (r, pos) ← readIntro lib first
  let a ← readPayload U .decompress false (second.drop pos)
  let ls ← fetchLeadsig lib r
  let h ← exportHeader lib r
  .ok { toPkg := pkgOf lib r.signature r.header wantColors
        leadsig := ls
        header := h
        payload := second.drop pos
        archive := a.archive
        comp := (a.comp.getD .none).code
        level := getLevel lib r.header
        isCpio := hasCpio lib r.header
        colors := colorsOf lib r.header
        source := isSourceRpm lib r.header }

/-- src/drpm.c:292-494 `drpm_make` on two names; each stands for one file when it is opened first and for another when it is opened
    again. -/
def makeReplaced {η σ τ : Type} (w : World η σ τ) (o : Opts Bytes) (old₁ old₂ new₁ new₂ : Bytes) : Out Bytes :=
  drpmMake (w.makeEnv (new₁.take 96)) o (some (rpmOfTwice w.lib w.U true old₁ old₂)) (some (rpmOfTwice w.lib w.U true new₁ new₂))

/-- What `drpm_apply` uses if the delta is `delta₂` when rpmlib reads the head of it (src/drpm_read.c:417). -/
def World.applyEnvReplaced {η σ τ : Type} (w : World η σ τ) (delta₂ : Bytes) : ApplyEnv τ :=
  { w.applyEnv with
    rpmHead := fun _ => readdeltaStandard w.lib w.U delta₂
    tgtSource := fun _ => deltaIsSource w.lib w.U delta₂
    tgtHeader := fun _ => unmarkedHeader w.lib w.U delta₂ }

/-- src/drpm.c:498-781 `drpm_apply` on a package file and a delta, likewise. -/
def applyReplaced {η σ τ : Type} (w : World η σ τ) (old₁ old₂ delta₁ delta₂ : Bytes) (cleanup : Nat) : Out Unit × Left :=
  drpmApply (w.applyEnvReplaced delta₂) ⟨some (.ok delta₁), true, true, .rpm (rpmOfTwice w.lib w.U false old₁ old₂)⟩ cleanup

end Drpm
