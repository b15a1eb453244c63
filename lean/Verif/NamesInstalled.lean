import Verif.Names
/-!
# The files behind the names, with installed files as the old package: src/drpm.c:498-781 `drpm_apply`

Like `applyNamed` in `Verif/Names.lean`, for a call with `old_rpm_name` NULL.
-/

namespace Drpm

/-- The installed files of a volume (`open` in src/drpm_block.c:586, 1048 and 1138), while `soFar` has been written to
    the output. -/
def Vol.installed (v : Vol) (out soFar : Bytes) (undo : Bytes → Out Bytes) : Disk := ⟨(v.set out soFar).get, undo⟩

/-- src/drpm.c:498-781 `drpm_apply` on names, with the installed files: the new package is created, and emptied if it
    exists (line 545), before the delta is read (line 549) and before any installed file is opened. Simplified:
    whenever an installed file is opened that is the output under another name, the same `soFar` is in it. -/
def applyNamedInstalled {σ : Type} (env : ApplyEnv σ) (db : Db) (undo : Bytes → Out Bytes) (f : ApplyFaults) (creatable : Bool)
    (soFar junk : Bytes) (v : Vol) (delta out : Bytes) (cleanup : Nat) : Out Unit × Vol :=
  if creatable = false then (.err .io, v)
  else
    let created := v.set out []
    let r := drpmApplyOn f env ⟨some (created.read delta), true, true, .installed db (v.installed out soFar undo)⟩ cleanup
    (r.1, created.leave out junk r.2)

end Drpm
