import Verif.Retry
import Verif.Props.Names
import Verif.Props.History
/-!
# Property C101: a call that failed or was interrupted can be repeated
-/

namespace Drpm

variable {η σ τ : Type}

theorem Vol.get_put_other (v : Vol) {a b : Bytes} (x : Option Bytes) (h : v.file a ≠ v.file b) : (v.put b x).get a = v.get a := by
  unfold Vol.put Vol.get
  simp only
  rw [if_neg h]

theorem makeNamed_file (w : World η σ τ) (f : MakeFaults) (sigLen : Nat) (junk : Bytes) (o : Opts Bytes) (v : Vol)
    (old new delta : Option Bytes) : (makeNamed w f sigLen junk o v old new delta).2.file = v.file := by
  unfold makeNamed
  cases delta with
  | none => rfl
  | some d => simp only [Vol.leave_file]

theorem applyNamed_file (w : World η σ τ) (f : ApplyFaults) (creatable : Bool) (junk : Bytes) (v : Vol) (old delta out : Bytes) (cleanup : Nat) :
    (applyNamed w f creatable junk v old delta out cleanup).2.file = v.file := by
  unfold applyNamed
  split
  · rfl
  · simp only [Vol.leave_file]
    rfl

theorem makeAttempt_keeps (w : World η σ τ) (o : Opts Bytes) (old new : Option Bytes) (delta : Bytes) (v : Vol) (t : MakeAttempt) :
    (t.after w o old new delta v).file = v.file ∧
    ∀ name, v.file name ≠ v.file delta → (∀ s, o.seqfile = some s → v.file name ≠ v.file s) →
      (t.after w o old new delta v).get name = v.get name := by
  cases t with
  | killed x y =>
    unfold MakeAttempt.after
    cases hs : o.seqfile with
    | none => exact ⟨rfl, fun name h1 _ => v.get_put_other x h1⟩
    | some s =>
      refine ⟨rfl, fun name h1 h2 => ?_⟩
      simp only
      rw [Vol.get_put_other (v.put delta x) y (h2 s rfl), v.get_put_other x h1]
  | ended f sigLen junk =>
    exact ⟨makeNamed_file .., fun name h1 h2 => C99_make_others w f sigLen junk o v old new delta name h1 h2⟩

theorem makeAttempts_keep (w : World η σ τ) (o : Opts Bytes) (old new : Option Bytes) (delta : Bytes) : ∀ (ts : List MakeAttempt) (v : Vol),
    (ts.foldl (MakeAttempt.after w o old new delta) v).file = v.file ∧
    ∀ name, v.file name ≠ v.file delta → (∀ s, o.seqfile = some s → v.file name ≠ v.file s) →
      (ts.foldl (MakeAttempt.after w o old new delta) v).get name = v.get name := by
  intro ts
  induction ts with
  | nil => exact fun v => ⟨rfl, fun _ _ _ => rfl⟩
  | cons t ts ih =>
    intro v
    obtain ⟨h1, h2⟩ := makeAttempt_keeps w o old new delta v t
    obtain ⟨h3, h4⟩ := ih (t.after w o old new delta v)
    rw [h1] at h3 h4
    exact ⟨h3, fun name a b => (h4 name a b).trans (h2 name a b)⟩

theorem applyAttempt_keeps (w : World η σ τ) (old delta out : Bytes) (v : Vol) (t : ApplyAttempt) :
    (t.after w old delta out v).file = v.file ∧
    ∀ name, v.file name ≠ v.file out → (t.after w old delta out v).get name = v.get name := by
  cases t with
  | killed x => exact ⟨rfl, fun name h => v.get_put_other x h⟩
  | ended f creatable junk cleanup =>
    exact ⟨applyNamed_file .., fun name h => C99_apply_others w f creatable junk v old delta out name cleanup h⟩

theorem applyAttempts_keep (w : World η σ τ) (old delta out : Bytes) : ∀ (ts : List ApplyAttempt) (v : Vol),
    (ts.foldl (ApplyAttempt.after w old delta out) v).file = v.file ∧
    ∀ name, v.file name ≠ v.file out → (ts.foldl (ApplyAttempt.after w old delta out) v).get name = v.get name := by
  intro ts
  induction ts with
  | nil => exact fun v => ⟨rfl, fun _ _ => rfl⟩
  | cons t ts ih =>
    intro v
    obtain ⟨h1, h2⟩ := applyAttempt_keeps w old delta out v t
    obtain ⟨h3, h4⟩ := ih (t.after w old delta out v)
    rw [h1] at h3 h4
    exact ⟨h3, fun name a => (h4 name a).trans (h2 name a)⟩

/-- **C101** (making): the delta and the sequence file are neither of the packages, nor the same file. However often
    `drpm_make` was called, with whatever faults, and killed at whatever moments, leaving anything in its output files:
    the next call that nothing disturbs writes the delta and the sequence file that the first one would have written. -/
theorem C101_make (w : World η σ τ) (sigLen : Nat) (junk : Bytes) (o : Opts Bytes) (v : Vol) (old new delta a b d line : Bytes)
    (ha : v.get old = some a) (hb : v.get new = some b) (hd : makeFiles w o a b = .ok d)
    (hl : makeSeqFile (w.makeEnv (b.take 96)) o (some (rpmOf w.lib w.U true a)) (some (rpmOf w.lib w.U true b)) = .ok line)
    (h1 : v.file old ≠ v.file delta) (h2 : v.file new ≠ v.file delta)
    (hs : ∀ s, o.seqfile = some s → v.file old ≠ v.file s ∧ v.file new ≠ v.file s ∧ v.file s ≠ v.file delta)
    (attempts : List MakeAttempt) (f : MakeFaults) (hf : f.None line.length) :
    ∃ v', makeNamed w f sigLen junk o (attempts.foldl (MakeAttempt.after w o (some old) (some new) delta) v) (some old) (some new) (some delta) =
        (.ok (), v') ∧ v'.get delta = some d ∧ (∀ s, o.seqfile = some s → v'.get s = some line) ∧
      ∀ name, v.file name ≠ v.file delta → (∀ s, o.seqfile = some s → v.file name ≠ v.file s) → v'.get name = v.get name := by
  obtain ⟨k1, k2⟩ := makeAttempts_keep w o (some old) (some new) delta attempts v
  generalize attempts.foldl (MakeAttempt.after w o (some old) (some new) delta) v = u at k1 k2
  have ga : u.get old = some a := by rw [k2 old h1 (fun s h => (hs s h).1), ha]
  have gb : u.get new = some b := by rw [k2 new h2 (fun s h => (hs s h).2.1), hb]
  obtain ⟨v', e1, e2, e3⟩ := C99_make w sigLen junk o u old new delta a b d line f hf ga gb hd hl
  refine ⟨v', e1, e2 (fun s h => by rw [k1]; exact (hs s h).2.2), e3, fun name n1 n2 => ?_⟩
  have := C99_make_others w f sigLen junk o u (some old) (some new) delta name (by rw [k1]; exact n1) (by rw [k1]; exact n2)
  rw [e1] at this
  exact this.trans (k2 name n1 n2)

/-- **C101** (applying): the new package is neither the old one nor the delta. However often `drpm_apply` was called,
    with whatever faults, and killed at whatever moments, leaving anything at the output path: the next call that
    nothing disturbs has the outcome that the first one would have had, in the same process or another one. -/
theorem C101_apply (w : World η σ τ) (junk : Bytes) (v : Vol) (old delta out a d b : Bytes) (c1 c2 : Nat) (x : Out Unit)
    (ha : v.get old = some a) (hd : v.get delta = some d) (h1 : v.file old ≠ v.file out) (h2 : v.file delta ≠ v.file out)
    (h : applyFiles w a d c1 = (x, .written b)) (attempts : List ApplyAttempt) :
    ∃ v', applyNamed w ⟨none, noFault, true⟩ true junk (attempts.foldl (ApplyAttempt.after w old delta out) v) old delta out c2 = (x, v') ∧
      v'.get out = some b ∧ ∀ name, v.file name ≠ v.file out → v'.get name = v.get name := by
  obtain ⟨k1, k2⟩ := applyAttempts_keep w old delta out attempts v
  generalize attempts.foldl (ApplyAttempt.after w old delta out) v = u at k1 k2
  have ga : u.get old = some a := by rw [k2 old h1, ha]
  have gd : u.get delta = some d := by rw [k2 delta h2, hd]
  obtain ⟨v', e1, e2⟩ := C99_apply_partial w junk u old delta out a d b c2 x ga gd (by rw [k1]; exact h1) (by rw [k1]; exact h2)
    (by rw [C88_files w a d c2 c1]; exact h)
  refine ⟨v', e1, e2, fun name n1 => ?_⟩
  have := C99_apply_others w ⟨none, noFault, true⟩ true junk u old delta out name c2 (by rw [k1]; exact n1)
  rw [e1] at this
  exact this.trans (k2 name n1)

open Toy in
/-- Non-vacuity of C101, making: three calls that do not come to an end, one of them killed while it wrote garbage. -/
example (addblk : Bool) : ∃ delta line v',
    makeNamed world ⟨none, true, true, fun _ => .all, true, true, true, line.length⟩ 8 [] (seqOpts true addblk)
      ([MakeAttempt.killed (some [1, 2, 3]) none, .ended ⟨none, true, true, fun _ => .part 3, true, true, true, 0⟩ 8 [9],
        .killed (some delta) (some [7])].foldl
        (MakeAttempt.after world (seqOpts true addblk) (some [1]) (some [2]) [4]) (vol 3 5 packages))
      (some [1]) (some [2]) (some [4]) = (.ok (), v') ∧
    v'.get [4] = some delta ∧ v'.get [115] = some line ∧ v'.get [1] = some oldFile.file := by
  obtain ⟨delta, line, h1, h2, _⟩ := demoSeq addblk
  have hf : MakeFaults.None ⟨none, true, true, fun _ => .all, true, true, true, line.length⟩ line.length :=
    ⟨rfl, rfl, rfl, fun _ => rfl, rfl, rfl, rfl, Nat.le_refl _⟩
  obtain ⟨v', e1, e2, e3, e4⟩ := C101_make world 8 [] (seqOpts true addblk) (vol 3 5 packages) [1] [2] [4] _ _ delta line rfl rfl h1 h2
    (by decide) (by decide) (by rintro s ⟨⟩; decide) _ _ hf
  exact ⟨delta, line, v', e1, e2, e3 _ rfl, (e4 [1] (by decide) (by rintro s ⟨⟩; decide)).trans rfl⟩

open Toy in
/-- Non-vacuity of C101, applying. -/
example (addblk : Bool) (cleanup : Nat) : ∃ delta v',
    applyNamed world ⟨none, noFault, true⟩ true []
      ([ApplyAttempt.killed (some [1, 2]), .ended ⟨some .io, noFault, true⟩ true [9] 77, .killed none].foldl
        (ApplyAttempt.after world [1] [4] [5]) (vol 3 1 (fun i => if i = 4 then some delta else packages i))) [1] [4] [5] cleanup = (.ok (), v') ∧
    v'.get [5] = some newFile.file := by
  obtain ⟨delta, h1, h2⟩ := C68_demo_rpmonly addblk
  obtain ⟨v', e1, e2, _⟩ := C101_apply world [] (vol 3 1 (fun i => if i = 4 then some delta else packages i)) [1] [4] [5] _ _ _ 0 cleanup _ rfl rfl
    (show (1 : Nat) ≠ 5 by decide) (show (4 : Nat) ≠ 5 by decide) (h2 0)
    [ApplyAttempt.killed (some [1, 2]), .ended ⟨some .io, noFault, true⟩ true [9] 77, .killed none]
  exact ⟨delta, v', e1, e2⟩

end Drpm
