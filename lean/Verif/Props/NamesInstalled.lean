import Verif.NamesInstalled
import Verif.Props.Names
import Verif.Props.Only
import Verif.Props.Moving
/-!
# Which files a call reads and changes, with installed files as the old package (C99)
-/

namespace Drpm

/-- **C99** (applying to installed files, others): no file changes but that of the new package. -/
theorem C99_installed_others {σ : Type} (env : ApplyEnv σ) (db : Db) (undo : Bytes → Out Bytes) (f : ApplyFaults) (creatable : Bool)
    (soFar junk : Bytes) (v : Vol) (delta out name : Bytes) (cleanup : Nat) (h : v.file name ≠ v.file out) :
    (applyNamedInstalled env db undo f creatable soFar junk v delta out cleanup).2.get name = v.get name := by
  unfold applyNamedInstalled
  split
  · rfl
  · simp only
    rw [Vol.get_leave_other _ _ _ (by exact h)]
    exact v.get_set_other _ h

/-- C99, applying to installed files (proved part): if the new package is neither the file of the delta nor that of
    an installed file that the package has and the delta names, then the call has the result and the output that it
    has with all files as they were before. Missing: names that stand for the same file, see
    `C99_violated_installed`. -/
theorem C99_installed_partial {σ : Type} (env : ApplyEnv σ) (db : Db) (undo : Bytes → Out Bytes) (soFar junk : Bytes) (v : Vol)
    (delta out d b : Bytes) (cleanup : Nat) (x : Out Unit) (hd : v.get delta = some d) (h1 : v.file delta ≠ v.file out)
    (h2 : ∀ f, OfPackage env.dec env.rpmHead db d f → v.file f.name ≠ v.file out)
    (h : drpmApply env ⟨some (.ok d), true, true, .installed db ⟨v.get, undo⟩⟩ cleanup = (x, .written b)) :
    ∃ v', applyNamedInstalled env db undo ⟨none, noFault, true⟩ true soFar junk v delta out cleanup = (x, v') ∧ v'.get out = some b := by
  have hs := C89_apply_partial env d true true db (v.installed out soFar undo) ⟨v.get, undo⟩ cleanup
    (fun f hf => ⟨v.get_set_other _ (h2 f hf), rfl⟩)
  rw [h] at hs
  unfold applyNamedInstalled
  rw [if_neg (by decide)]
  simp only
  rw [Vol.read_of (v.set out []) (b := d) (by rw [v.get_set_other _ h1]; exact hd),
    (C80_faultless ⟨none, noFault, true⟩ ⟨rfl, fun _ => rfl, rfl⟩ _ _ _).2 (by rw [hs]; nofun), hs]
  exact ⟨_, rfl, Vol.get_set_same _ _ rfl⟩

/-- Two installed files `/a` and `/b`, the delta `d` and, if it is there, the new package `n`. -/
def instVol : Vol :=
  ⟨fun n => if n = [47, 97] then 0 else if n = [47, 98] then 1 else if n = [100] then 2 else 3,
   fun i => if i = 0 then some [65] else if i = 1 then some [66] else if i = 2 then some movedDelta else none⟩

/-- C99 is violated with installed files: the delta can be applied if the new package is written to a file of its own;
    if it is written over a file of the package, which is empty or has the lead and the signature of the new package when it
    is opened, the call fails and the file is lost. -/
theorem C99_violated_installed :
    (let r := applyNamedInstalled movedEnv (instDb twoFiles) (fun _ => .err .io) ⟨none, noFault, true⟩ true (safeLeadsig 4 4) []
      instVol [100] [110] 0
     r.1 = .ok () ∧ r.2.get [110] = some movedNew ∧ r.2.get [47, 97] = some [65]) ∧
    (let r := applyNamedInstalled movedEnv (instDb twoFiles) (fun _ => .err .io) ⟨none, noFault, true⟩ true (safeLeadsig 4 4) []
      instVol [100] [47, 97] 0
     r.1 = .err .mismatch ∧ r.2.get [47, 97] ≠ some [65] ∧ r.2.get [110] = none) ∧
    (let r := applyNamedInstalled movedEnv (instDb twoFiles) (fun _ => .err .io) ⟨none, noFault, true⟩ true [] []
      instVol [100] [47, 97] 0
     r.1 = .err .format ∧ r.2.get [47, 97] ≠ some [65] ∧ r.2.get [110] = none) := by
  decide +kernel

/-- Non-vacuity of `C99_installed_partial`. -/
example (soFar : Bytes) : ∃ v', applyNamedInstalled movedEnv (instDb twoFiles) (fun _ => .err .io) ⟨none, noFault, true⟩ true soFar []
    instVol [100] [110] 0 = (.ok (), v') ∧ v'.get [110] = some movedNew :=
  C99_installed_partial movedEnv (instDb twoFiles) _ soFar [] instVol [100] [110] movedDelta movedNew 0 _ rfl (by decide) (by
    rintro f ⟨d, p, files, h1, h2, h3, order, i, h4, h5, h6⟩
    unfold readInstalled at h2
    obtain ⟨⟨n, e, v, r⟩, _, h2⟩ := Out.bind_eq_ok.mp h2
    simp only at h2
    split at h2
    · cases h2
    · rename_i hdb
      cases h2
      cases instDb_some hdb
      cases h3
      have hf := List.mem_of_getElem? h6
      simp only [twoFiles, List.mem_cons, List.not_mem_nil, or_false] at hf
      rcases hf with rfl | rfl <;> decide) (by decide +kernel)

end Drpm
