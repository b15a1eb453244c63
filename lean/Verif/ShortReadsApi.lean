import Verif.ShortReads
import Verif.Api
import Verif.Apply
import Verif.Check
/-!
# The functions of the API that read a delta, with short and failing reads of it
-/

namespace Drpm

/-- src/drpm.c:66-92 `drpm_read`, with a schedule of the calls of `read`. -/
def drpmReadShort (sched : Nat → ReadRes) (dec : Decoder) (rpmHead : Bytes → Out (Nat × Nat)) (rpmNevr : Bytes → Out Bytes)
    (filename file : Bytes) : Out Info := do
  let d ← readDeltaOn sched dec rpmHead file
  toDrpm filename (rpmNevr file) d

/-- src/drpm.c:783-835 `drpm_check`, with a schedule of the calls of `read` for the delta. -/
def drpmCheckShort (sched : Nat → ReadRes) (sys : Sys) (H : Bytes → Bytes) (db : Db) (dec : Decoder) (rpmHead : Bytes → Out (Nat × Nat))
    (file : Bytes) (mode : Int) : Out Unit :=
  if mode ≠ 2 ∧ mode ≠ 1 then .err .args else do
  let d ← readDeltaOn sched dec rpmHead file
  let p ← readInstalled db d.srcNevr
  let _ ← sameNevr d.srcNevr p
  if d.type = .standard then checkFiles sys H p d.sequence mode else .ok ()

/-- src/drpm.c:548-642: everything `drpm_apply` does before the first byte is written, with a schedule of the calls of `read` for the delta. -/
def planApplyShort {σ : Type} (sched : Nat → ReadRes) (env : ApplyEnv σ) (file : Bytes) (src : OldSrc) (cleanup : Nat) : Out ApplyPlan := do
  let d ← readDeltaOn sched env.dec env.rpmHead file
  let (p, old) ← applyOld env file d src
  let _ ← sameNevr d.srcNevr p
  let (files, places) ← applyPlaces env d p
  let sig ← replaceSig env d.tgtLeadsig
  let body ← planBody env file d old files places cleanup
  .ok ⟨d, sig, body⟩

/-- src/drpm.c:548-781: after the output file has been created (and truncated). -/
def applyToShort {σ : Type} (sched : Nat → ReadRes) (env : ApplyEnv σ) (delta : Out Bytes) (src : OldSrc) (cleanup : Nat) : Out Unit × Left :=
  match delta >>= fun file => planApplyShort sched env file src cleanup with
  | .ok pl => finishApply env pl.d pl.sig pl.body
  | .err e => (.err e, .written [])
  | .ub => (.ub, .partly)
  | .loop => (.loop, .partly)

/-- src/drpm.c:498-781 `drpm_apply`, with a schedule of the calls of `read` for the delta. -/
def drpmApplyShort {σ : Type} (sched : Nat → ReadRes) (env : ApplyEnv σ) (a : ApplyArgs) (cleanup : Nat) : Out Unit × Left :=
  match a.delta, a.named with
  | none, _ => (.err .args, .untouched)
  | some _, false => (.err .args, .untouched)
  | some delta, true =>
    if a.creatable = false then (.err .io, .untouched) else applyToShort sched env delta a.src cleanup

end Drpm
