import Verif.Props.Replaced
/-!
# C105: rpm-only deltas that are replaced

An rpm-only delta is opened once: what stands under its name afterwards does not matter.
-/

namespace Drpm

/-- The magic of packages is that of these four bytes only. -/
theorem fileBe32_rpm {file rest : Bytes} (h : fileBe32 file = .ok (0xEDABEEDB, rest)) : file.take 4 = [0xED, 0xAB, 0xEE, 0xDB] := by
  unfold fileBe32 at h
  rw [Out.bind_eq_ok] at h
  obtain ⟨⟨b, r⟩, h1, h2⟩ := h
  unfold sysRead at h1
  split at h1
  · cases h1
  · split at h1
    · cases h1
    · cases h1
      match file with
      | [] => simp_all
      | [_] => simp_all
      | [_, _] => simp_all
      | [_, _, _] => simp_all
      | b0 :: b1 :: b2 :: b3 :: f =>
        simp only [List.take_succ_cons, List.take_zero, List.drop_succ_cons, List.drop_zero, be32At,
          Out.bind_ok, Out.ok.injEq, Prod.mk.injEq] at h2
        have := C13_be32_unparse b0 b1 b2 b3
        rw [h2.1] at this
        simp only [List.take_succ_cons, List.take_zero]
        rw [← this]
        decide +kernel

section
variable {η σ τ : Type} (w : World η σ τ) (x y : Bytes)

theorem only_read {file : Bytes} (h : file.take 4 ≠ [0xED, 0xAB, 0xEE, 0xDB]) :
    readDelta (w.applyEnvReplaced x).dec (w.applyEnvReplaced x).rpmHead file =
      readDelta (w.applyEnvReplaced y).dec (w.applyEnvReplaced y).rpmHead file := by
  show readDelta w.dec (fun _ => readdeltaStandard w.lib w.U x) file = readDelta w.dec (fun _ => readdeltaStandard w.lib w.U y) file
  unfold readDelta
  cases hm : fileBe32 file with
  | err e => simp only [Out.bind_err]
  | ub => simp only [Out.bind_ub]
  | loop => simp only [Out.bind_loop]
  | ok r =>
    obtain ⟨m, rest⟩ := r
    simp only [Out.bind_ok]
    by_cases hr : m = 0xEDABEEDB
    · subst hr
      exact absurd (fileBe32_rpm hm) h
    · simp only [if_neg hr]

theorem only_type {file : Bytes} (h : file.take 4 ≠ [0xED, 0xAB, 0xEE, 0xDB]) {dec : Decoder} {rpmR : Bytes → Out (Nat × Nat)}
    {d : Delta} (hd : readDelta dec rpmR file = .ok d) : d.type = .rpmonly := by
  obtain ⟨d0, s, r, h1, h2, _⟩ := readDelta_inv _ _ _ _ hd
  obtain ⟨_, _, ht, _⟩ := rdRest_post d0 s d r h1
  rcases h2 with ⟨e, _⟩ | ⟨_, e⟩
  · rw [ht, e]
  · exact absurd e h

theorem only_body (file : Bytes) {d : Delta} (h : d.type = .rpmonly) (old : OldData) (files : List FileInfo) (places : List CpioFile)
    (cleanup : Nat) : planBody (w.applyEnvReplaced x) file d old files places cleanup =
      planBody (w.applyEnvReplaced y) file d old files places cleanup := by
  have e1 : ∀ v, applyHeader (w.applyEnvReplaced v) file d = .ok [] := by
    intro v
    unfold applyHeader
    rw [if_pos h]
  have e2 : ∀ v, compressNew (w.applyEnvReplaced v) d = compressNew w.applyEnv d := fun v => replaced_compress w v d
  have e3 : ∀ v ws, applyWrite (w.applyEnvReplaced v) file d ws = applyWrite (w.applyEnvReplaced y) file d ws := by
    intro v ws
    unfold applyWrite
    rw [e1, e1, e2, e2]
  have e4 : ∀ v, planDiff (w.applyEnvReplaced v) file d old files places cleanup = planDiff (w.applyEnvReplaced y) file d old files places cleanup := by
    intro v
    unfold planDiff
    simp only [e3 v]
    rfl
  unfold planBody
  rw [e4 x]
  rfl

theorem only_plan {file : Bytes} (h : file.take 4 ≠ [0xED, 0xAB, 0xEE, 0xDB]) (r : Out Rpm) (cleanup : Nat) :
    planApply (w.applyEnvReplaced x) file (.rpm r) cleanup = planApply (w.applyEnvReplaced y) file (.rpm r) cleanup := by
  unfold planApply
  rw [only_read w x y h]
  cases hd : readDelta (w.applyEnvReplaced y).dec (w.applyEnvReplaced y).rpmHead file with
  | err e => simp only [Out.bind_err]
  | ub => simp only [Out.bind_ub]
  | loop => simp only [Out.bind_loop]
  | ok d =>
    simp only [Out.bind_ok, only_body w x y file (only_type h hd)]
    rfl

theorem only_finish (d : Delta) (sig : Out (Option Bytes)) (b : Out (Bytes × Bytes)) :
    finishApply (w.applyEnvReplaced x) d sig b = finishApply (w.applyEnvReplaced y) d sig b := by
  cases b <;> rfl

end

/-- C105, rpm-only deltas: whatever is given the name of the delta after it was opened, `drpm_apply` does what it does if the delta
    stays. (So does it with a file that is no delta.) -/
theorem C105_rpmonly {η σ τ : Type} (w : World η σ τ) (old₁ old₂ delta₁ delta₂ : Bytes) (h : delta₁.take 4 ≠ [0xED, 0xAB, 0xEE, 0xDB]) (cleanup : Nat) :
    applyReplaced w old₁ old₂ delta₁ delta₂ cleanup = applyReplaced w old₁ old₂ delta₁ delta₁ cleanup := by
  unfold applyReplaced drpmApply
  simp only [applyTo, Out.bind_ok, only_plan w delta₂ delta₁ h, only_finish w delta₂ delta₁]

/-- A delta that `drpm_read` says is rpm-only does not begin like a package. -/
theorem told_rpmonly {dec : Decoder} {rpmR : Bytes → Out (Nat × Nat)} {rpmNevr : Bytes → Out Bytes} {filename file : Bytes} {i : Info}
    (h : drpmRead dec rpmR rpmNevr filename file = .ok i) (ht : getUint (some i) 2 (some 0) = (none, some 1)) :
    file.take 4 ≠ [0xED, 0xAB, 0xEE, 0xDB] := by
  unfold drpmRead at h
  rw [Out.bind_eq_ok] at h
  obtain ⟨d, h1, h2⟩ := h
  have hi : i.type = d.type.code := by
    unfold toDrpm at h2
    repeat (rw [Out.bind_eq_ok] at h2; obtain ⟨_, _, h2⟩ := h2)
    cases h2
    rfl
  obtain ⟨d0, s, r, g1, g2, _⟩ := readDelta_inv _ _ _ _ h1
  obtain ⟨_, _, g3, _⟩ := rdRest_post d0 s d r g1
  rcases g2 with ⟨_, e⟩ | ⟨e, _⟩
  · intro h
    have := congrArg (List.take 4) e
    rw [List.take_take, show min 4 8 = 4 from rfl, h] at this
    exact absurd this (by decide)
  · rw [g3, e] at hi
    have : getUint (some i) 2 (some 0) = (none, some (i.type % 2^32)) := rfl
    rw [this, hi] at ht
    exact absurd ht (by decide)

open Toy in
/-- Non-vacuity: a delta that this library made, replaced by any other file after it was opened. -/
example (addblk : Bool) : ∃ delta, makeFiles world (demoOpts true 3 addblk) oldFile.file newFile.file = .ok delta ∧
    ∀ other cleanup, applyReplaced world oldFile.file oldFile.file delta other cleanup = (.ok (), .written newFile.file) := by
  obtain ⟨s1, s2, s3, s4, s5⟩ := demoSizes
  have l1 := oldFile.header_length
  have l2 := newFile.header_length
  have c1 := oldFile.hdrOk.counts
  have c2 := newFile.hdrOk.counts
  obtain ⟨delta, i, h1, h2, _, h3⟩ := C81_rpmonly world Ok laws md5_16 (demoOpts true 3 addblk) rfl rfl oldFile newFile demoArchive demoNewPkg.archive .gzip .gzip 9
    (unpacks _ _ rfl) goodNew _ _ hasNevrs.1 hasNevrs.2 (goodComp _ rfl) (by omega) (by omega)
    (FewCopies.of_size _ _ _ (by simp only [List.length_append]; omega) (by simp only [List.length_append]; omega)
      (by simp only [List.length_append]; omega)) (goodAdd _ _ _ _ (by omega)) []
  obtain ⟨delta', h4, h5⟩ := (updatesOnly addblk).works laws md5_16
  cases h1.symm.trans h4
  refine ⟨delta, h1, fun other cleanup => ?_⟩
  rw [C105_rpmonly _ _ _ _ _ (told_rpmonly h2 (h3.type 0)), C105_undisturbed, h5 cleanup]

end Drpm
