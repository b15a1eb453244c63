import Verif.Props.Either
import Verif.Props.Checked
/-!
# C87: the violation

A package whose file list begins with a configuration file, which `drpm_make` leaves out of the delta. From then on the
numbers of the files are not those of the archive entries, and the first defect of C40 meets a delta of this library.
-/

namespace Drpm

/-- The configuration file comes first. -/
def confList : List FileInfo :=
  [{ demoFile [47, 120, 121] 0o100644 6 [] with flags := 1 }, demoFile [47, 97] 0o100644 5 [], demoFile [47, 98] 0o120777 1 [97],
   demoFile [47, 100] 0o100755 3 []]

def confOld : Rpm := { demoOldPkg with files := .ok confList, nevr := .ok [97, 45, 49, 45, 49] }

def confDb : Db := fun n _ v r => if n = [97] ∧ v = [49] ∧ r = [49] then some confOld.toPkg else none

/-- The installed files as the check sees them. The digests are those in the file list. -/
def confSys : Sys :=
  { content := pickDisk.get, readable := fun _ => true, reads := fun _ k => some (k + 64), undo := pickDisk.undo
    digest := fun algo data => List.replicate (if algo = 0 then 16 else 32) (if data = [104, 101, 108, 108, 111] ∨ data = [7, 7, 7] then 0xAA else 0) }

/-- The delta. -/
def confDelta : Bytes :=
  [237, 171, 238, 219, 142, 173, 232, 1, 0, 0, 0, 0, 0, 0, 0, 2, 0, 0, 0, 10, 0, 0, 3, 232, 0, 0, 0, 6, 0, 0, 0, 0, 0, 0, 0, 1, 0,
  0, 4, 100, 0, 0, 0, 6, 0, 0, 0, 5, 0, 0, 0, 1, 97, 98, 99, 100, 0, 99, 112, 105, 111, 0, 31, 139, 8, 0, 0, 0, 0, 0, 68, 76, 84,
  51, 0, 0, 0, 6, 97, 45, 49, 45, 49, 0, 0, 0, 0, 18, 97, 0, 0, 0, 129, 164, 0, 0, 0, 5, 0, 0, 0, 0, 170, 170, 1, 48, 237, 171, 238,
  219, 0, 0, 0, 0, 0, 0, 0, 0, 0, 0, 0, 0, 0, 0, 3, 18, 0, 0, 9, 1, 0, 0, 0, 0, 0, 0, 0, 0, 0, 0, 0, 2, 0, 0, 0, 124, 0, 0, 0, 120,
  0, 0, 0, 124, 0, 0, 0, 120, 0, 0, 0, 112, 237, 171, 238, 219, 0, 0, 0, 0, 0, 0, 0, 0, 0, 0, 0, 0, 0, 0, 0, 0, 0, 0, 0, 0, 0, 0, 0,
  0, 0, 0, 0, 0, 0, 0, 0, 0, 0, 0, 0, 0, 0, 0, 0, 0, 0, 0, 0, 0, 0, 0, 0, 0, 0, 0, 0, 0, 0, 0, 0, 0, 0, 0, 0, 0, 0, 0, 0, 0, 0, 0,
  0, 0, 0, 0, 0, 0, 0, 0, 0, 0, 0, 0, 0, 0, 0, 0, 0, 0, 0, 0, 0, 0, 0, 0, 0, 0, 142, 173, 232, 1, 0, 0, 0, 0, 0, 0, 0, 0, 0, 0, 0,
  0, 0, 0, 0, 5, 0, 0, 0, 4, 0, 0, 0, 5, 0, 0, 0, 1, 0, 0, 0, 1, 0, 0, 0, 1, 0, 0, 0, 2, 0, 0, 0, 189, 0, 0, 0, 65, 0, 0, 0, 113, 0,
  0, 0, 0, 0, 0, 0, 0, 0, 0, 0, 189, 0, 0, 0, 65, 128, 0, 1, 57, 0, 0, 1, 50, 0, 0, 0, 13, 0, 0, 0, 55, 0, 0, 0, 55, 0, 0, 0, 37, 0,
  0, 0, 81, 0, 0, 0, 0, 0, 0, 1, 232, 0, 0, 0, 0, 0, 0, 0, 0, 0, 0, 1, 111, 49, 48, 48, 48, 48, 56, 49, 97, 52, 48, 48, 48, 48, 48,
  48, 48, 48, 48, 48, 48, 48, 48, 48, 48, 48, 48, 48, 48, 48, 48, 48, 48, 49, 53, 102, 53, 101, 49, 48, 48, 48, 48, 48, 48, 48, 48,
  48, 48, 53, 48, 48, 48, 48, 48, 48, 48, 56, 48, 48, 48, 48, 48, 48, 48, 49, 48, 48, 48, 48, 48, 48, 48, 48, 48, 48, 48, 48, 48,
  48, 48, 48, 48, 48, 48, 48, 48, 48, 48, 52, 48, 48, 48, 48, 48, 48, 48, 48, 46, 47, 97, 0, 0, 0, 104, 97, 108, 108, 111, 0, 0, 0,
  48, 55, 48, 55, 48, 49, 48, 48, 48, 48, 48, 48, 48, 51, 48, 48, 48, 48, 97, 49, 102, 102, 48, 48, 48, 48, 48, 48, 48, 48, 48, 48,
  48, 48, 48, 48, 48, 48, 48, 48, 48, 48, 48, 48, 48, 49, 53, 102, 53, 101, 49, 48, 48, 48, 48, 48, 48, 48, 48, 48, 48, 49, 48, 48,
  48, 48, 48, 48, 48, 56, 48, 48, 48, 48, 48, 48, 48, 49, 53, 48, 48, 48, 48, 56, 49, 101, 100, 48, 48, 48, 48, 48, 48, 48, 48, 48,
  48, 48, 48, 48, 48, 48, 48, 48, 48, 48, 48, 48, 48, 48, 49, 53, 102, 53, 101, 49, 48, 48, 48, 48, 48, 48, 48, 48, 48, 48, 51, 48,
  48, 48, 48, 48, 48, 48, 56, 48, 48, 48, 48, 48, 48, 48, 49, 54, 48, 48, 48, 48, 56, 49, 97, 52, 48, 48, 48, 48, 48, 48, 48, 48,
  48, 48, 48, 48, 48, 48, 48, 48, 48, 48, 48, 48, 48, 48, 48, 49, 53, 102, 53, 101, 49, 48, 48, 48, 48, 48, 48, 48, 48, 48, 48, 49,
  48, 48, 48, 48, 48, 48, 48, 56, 48, 48, 48, 48, 48, 48, 48, 49, 48, 48, 48, 48, 48, 48, 48, 48, 48, 48, 48, 48, 48, 48, 48, 48,
  48, 48, 48, 48, 48, 48, 48, 52, 48, 48, 48, 48, 48, 48, 48, 48, 46, 47, 101, 0, 0, 0, 42, 0, 0, 0, 48, 55, 48, 55, 48, 49]

theorem conf_made : drpmMake demoMake (demoOpts false 3 false) (some (.ok confOld)) (some (.ok demoNewPkg)) = .ok confDelta := by
  decide +kernel

/-- C87 does not hold in general: `drpm_make` makes a delta, the full check of the installed files accepts it, with the package file
    it gives the new package, but with the very files that were checked `drpm_apply` reads outside the file list. -/
theorem C87_violated : SameFiles confSys pickDisk ∧ DigestLengths confSys ∧
    ∃ delta, drpmMake demoMake (demoOpts false 3 false) (some (.ok confOld)) (some (.ok demoNewPkg)) = .ok delta ∧
      drpmCheck confSys demoApply.H confDb demoApply.dec demoApply.rpmHead delta 1 = .ok () ∧
      drpmApply demoApply ⟨some (.ok delta), true, true, .rpm (.ok confOld)⟩ 0 = (.ok (), .written demoNewPkg.file) ∧
      drpmApply demoApply ⟨some (.ok delta), true, true, .installed confDb pickDisk⟩ 0 = (.ub, .partly) := by
  refine ⟨⟨fun _ _ h _ => h, fun _ _ h => h, fun _ => ⟨fun _ => by simp [confSys], fun n h => by
    simp only [confSys, Option.some.injEq] at h
    omega⟩⟩, fun _ => ⟨List.length_replicate, List.length_replicate⟩, ?_⟩
  exact ⟨confDelta, conf_made, by decide +kernel, by decide +kernel, by decide +kernel⟩

end Drpm
