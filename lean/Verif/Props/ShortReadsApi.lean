import Verif.ShortReadsApi
import Verif.Props.ShortReads
/-!
# C104 for `drpm_read`, `drpm_check` and `drpm_apply`
-/

namespace Drpm

/-- C104 for `drpm_read`: whatever the calls of `read` do, if it succeeds it reports what it reports for the whole file; if
    it would succeed for the whole file, it does so or there is an error. -/
theorem C104_drpm_read (sched : Nat → ReadRes) (dec : Decoder) (hdec : ReadsInOrder dec) (rpmHead : Bytes → Out (Nat × Nat))
    (rpmNevr : Bytes → Out Bytes) (filename file : Bytes) (i : Info) :
    (drpmReadShort sched dec rpmHead rpmNevr filename file = .ok i → drpmRead dec rpmHead rpmNevr filename file = .ok i) ∧
    (drpmRead dec rpmHead rpmNevr filename file = .ok i →
      drpmReadShort sched dec rpmHead rpmNevr filename file = .ok i ∨
      ∃ e, drpmReadShort sched dec rpmHead rpmNevr filename file = .err e) := by
  unfold drpmReadShort drpmRead
  constructor
  · intro h
    obtain ⟨d, h1, h2⟩ := Out.bind_eq_ok.mp h
    rw [C104_accepted sched dec hdec rpmHead file d h1, Out.bind_ok, h2]
  · intro h
    obtain ⟨d, h1, h2⟩ := Out.bind_eq_ok.mp h
    rcases C104_refused sched dec hdec rpmHead file d h1 with k | ⟨e, k⟩
    · exact Or.inl (by rw [k, Out.bind_ok, h2])
    · exact Or.inr ⟨e, by rw [k, Out.bind_err]⟩

/-- C104 for `drpm_check`: whatever the calls of `read` for the delta do, it accepts only what it accepts for the whole
    file; if it would accept that, it does so or there is an error. -/
theorem C104_drpm_check (sched : Nat → ReadRes) (sys : Sys) (H : Bytes → Bytes) (db : Db) (dec : Decoder) (hdec : ReadsInOrder dec)
    (rpmHead : Bytes → Out (Nat × Nat)) (file : Bytes) (mode : Int) :
    (drpmCheckShort sched sys H db dec rpmHead file mode = .ok () → drpmCheck sys H db dec rpmHead file mode = .ok ()) ∧
    (drpmCheck sys H db dec rpmHead file mode = .ok () →
      drpmCheckShort sched sys H db dec rpmHead file mode = .ok () ∨
      ∃ e, drpmCheckShort sched sys H db dec rpmHead file mode = .err e) := by
  unfold drpmCheckShort drpmCheck
  split
  · exact ⟨nofun, nofun⟩
  constructor
  · intro h
    obtain ⟨d, h1, h2⟩ := Out.bind_eq_ok.mp h
    rw [C104_accepted sched dec hdec rpmHead file d h1, Out.bind_ok, h2]
  · intro h
    obtain ⟨d, h1, h2⟩ := Out.bind_eq_ok.mp h
    rcases C104_refused sched dec hdec rpmHead file d h1 with k | ⟨e, k⟩
    · exact Or.inl (by rw [k, Out.bind_ok, h2])
    · exact Or.inr ⟨e, by rw [k, Out.bind_err]⟩

/-- C104 for `drpm_apply`: whatever the calls of `read` for the delta do, if it succeeds then it would have succeeded with the
    whole file too, and the new package is the same. If it would succeed with the whole file, it does so with the same
    package, or there is an error and the output is empty. -/
theorem C104_drpm_apply {σ : Type} (sched : Nat → ReadRes) (env : ApplyEnv σ) (hdec : ReadsInOrder env.dec) (a : ApplyArgs)
    (cleanup : Nat) (left : Left) :
    (drpmApplyShort sched env a cleanup = (.ok (), left) → drpmApply env a cleanup = (.ok (), left)) ∧
    (drpmApply env a cleanup = (.ok (), left) →
      drpmApplyShort sched env a cleanup = (.ok (), left) ∨
      ∃ e, drpmApplyShort sched env a cleanup = (.err e, .written [])) := by
  obtain ⟨delta, named, creatable, src⟩ := a
  unfold drpmApplyShort drpmApply
  simp only
  rcases delta with _ | delta
  · exact ⟨nofun, nofun⟩
  cases named
  · exact ⟨nofun, nofun⟩
  · simp only
    split
    · exact ⟨nofun, nofun⟩
    unfold applyToShort applyTo
    cases delta with
    | err e => exact ⟨nofun, nofun⟩
    | ub => exact ⟨nofun, nofun⟩
    | loop => exact ⟨nofun, nofun⟩
    | ok file =>
      rw [Out.bind_ok, Out.bind_ok]
      unfold planApplyShort planApply
      rcases hOn : readDeltaOn sched env.dec env.rpmHead file with d | e | _ | _
      · rw [C104_accepted sched env.dec hdec env.rpmHead file d hOn]
        exact ⟨id, Or.inl⟩
      · rw [Out.bind_err]
        exact ⟨nofun, fun _ => Or.inr ⟨e, rfl⟩⟩
      all_goals
        refine ⟨nofun, fun h => ?_⟩
        rcases hr : readDelta env.dec env.rpmHead file with d | e | _ | _
        · rcases C104_refused sched env.dec hdec env.rpmHead file d hr with k | ⟨e, k⟩ <;> rw [k] at hOn <;> cases hOn
        all_goals rw [hr] at h; cases h

/-- Non-vacuity of C104_drpm_apply: the delta of C100 arrives one byte at a time after the head, and is applied; if a
    `read` fails in the middle, nothing is written. -/
example : let slow : Nat → ReadRes := fun i => if i < 2 then .upTo 0x7ffff000 else .upTo 1
    let broken : Nat → ReadRes := fun i => if i = 20 then .fails else slow i
    let args : ApplyArgs := ⟨some (.ok movedDelta), true, true, .installed (instDb twoFiles) (diskOf [([47, 97], [65]), ([47, 98], [66])])⟩
    (match drpmApplyShort slow movedEnv args 0 with
      | (.ok (), .written b) => decide (b = movedNew)
      | _ => false) = true ∧
    (match drpmApplyShort broken movedEnv args 0 with
      | (.err .format, .written []) => true
      | _ => false) = true := by
  decide +kernel

end Drpm
