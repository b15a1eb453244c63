import Verif.Names
import Verif.Props.WriteFault
/-!
# Which files a call reads and changes (C99)
-/

namespace Drpm

theorem Vol.get_set_other (v : Vol) {a b : Bytes} (x : Bytes) (h : v.file a ≠ v.file b) : (v.set b x).get a = v.get a := by
  show (if v.file a = v.file b then some x else v.data (v.file a)) = v.data (v.file a)
  rw [if_neg h]

theorem Vol.get_set_same (v : Vol) {a b : Bytes} (x : Bytes) (h : v.file a = v.file b) : (v.set b x).get a = some x := by
  show (if v.file a = v.file b then some x else v.data (v.file a)) = some x
  rw [if_pos h]

theorem Vol.leave_file (v : Vol) (n junk : Bytes) (l : Left) : (v.leave n junk l).file = v.file := by
  cases l <;> rfl

theorem Vol.get_leave_other (v : Vol) {a b : Bytes} (junk : Bytes) (l : Left) (h : v.file a ≠ v.file b) :
    (v.leave b junk l).get a = v.get a := by
  cases l with
  | untouched => rfl
  | written x => exact v.get_set_other x h
  | partly => exact v.get_set_other junk h

theorem Vol.read_of (v : Vol) {n b : Bytes} (h : v.get n = some b) : v.read n = .ok b := by
  unfold Vol.read
  rw [h]

/-- **C99** (making, others): no file changes but that of the delta and that of the sequence file. -/
theorem C99_make_others {η σ τ : Type} (w : World η σ τ) (f : MakeFaults) (sigLen : Nat) (junk : Bytes) (o : Opts Bytes) (v : Vol)
    (old new : Option Bytes) (delta name : Bytes) (hd : v.file name ≠ v.file delta)
    (hs : ∀ s, o.seqfile = some s → v.file name ≠ v.file s) :
    (makeNamed w f sigLen junk o v old new (some delta)).2.get name = v.get name := by
  unfold makeNamed
  simp only
  cases hseq : o.seqfile with
  | some s =>
    rw [Vol.get_leave_other _ _ _ (by rw [Vol.leave_file]; exact hs s hseq), Vol.get_leave_other _ _ _ hd]
  | none =>
    have hq : ∀ env a b, (drpmMakeOn f sigLen env o a b).2.2 = .untouched := by
      intro env a b
      unfold drpmMakeOn
      split
      · rfl
      split
      · unfold writeBothOn
        rw [hseq]
        split <;> rfl
      all_goals rfl
    rw [hq]
    exact Vol.get_leave_other _ _ _ hd

/-- **C99** (making, inputs): the packages are read as they were before the call, also when the delta is written
    over one of them or when all names stand for the same file; the sequence file comes last. Nothing fails in
    this call. -/
theorem C99_make {η σ τ : Type} (w : World η σ τ) (sigLen : Nat) (junk : Bytes) (o : Opts Bytes) (v : Vol)
    (old new delta a b d line : Bytes) (f : MakeFaults) (hf : f.None line.length)
    (ha : v.get old = some a) (hb : v.get new = some b) (hd : makeFiles w o a b = .ok d)
    (hl : makeSeqFile (w.makeEnv (b.take 96)) o (some (rpmOf w.lib w.U true a)) (some (rpmOf w.lib w.U true b)) = .ok line) :
    ∃ v', makeNamed w f sigLen junk o v (some old) (some new) (some delta) = (.ok (), v') ∧
      ((∀ s, o.seqfile = some s → v.file s ≠ v.file delta) → v'.get delta = some d) ∧
      (∀ s, o.seqfile = some s → v'.get s = some line) := by
  unfold makeNamed
  simp only [Option.map_some]
  rw [v.read_of ha, v.read_of hb, Out.bind_ok, Out.bind_ok]
  have hlead : v.lead (some old) (some new) = b.take 96 := by
    show ((v.get new).getD []).take 96 = _
    rw [hb]
    rfl
  rw [hlead, C79_faultless f sigLen _ o _ _ d line hd hl hf]
  refine ⟨_, rfl, fun hs => ?_, fun s hs => ?_⟩
  · cases hseq : o.seqfile with
    | none =>
      rw [if_pos rfl]
      exact v.get_set_same d rfl
    | some s =>
      rw [if_neg nofun]
      show ((v.set delta d).set s line).get delta = some d
      rw [(v.set delta d).get_set_other line (a := delta) (b := s) (fun h => hs s hseq h.symm)]
      exact v.get_set_same d rfl
  · rw [hs, if_neg nofun]
    exact Vol.get_set_same _ _ rfl

/-- C99 is violated when a delta is made: if the sequence file and the delta are the same file, then `drpm_make`
    reports success and the delta is lost. -/
theorem C99_violated_make {η σ τ : Type} (w : World η σ τ) (sigLen : Nat) (junk : Bytes) (o : Opts Bytes) (v : Vol)
    (old new delta s a b d line : Bytes) (f : MakeFaults) (hf : f.None line.length)
    (ha : v.get old = some a) (hb : v.get new = some b) (hd : makeFiles w o a b = .ok d)
    (hl : makeSeqFile (w.makeEnv (b.take 96)) o (some (rpmOf w.lib w.U true a)) (some (rpmOf w.lib w.U true b)) = .ok line)
    (hs : o.seqfile = some s) (hsame : v.file s = v.file delta) :
    ∃ v', makeNamed w f sigLen junk o v (some old) (some new) (some delta) = (.ok (), v') ∧ v'.get delta = some line := by
  obtain ⟨v', h1, _, h2⟩ := C99_make w sigLen junk o v old new delta a b d line f hf ha hb hd hl
  refine ⟨v', h1, ?_⟩
  rw [← h2 s hs]
  have hfile : v'.file = v.file := by
    have := congrArg (fun p => p.2.file) h1
    simp only [makeNamed, Vol.leave_file] at this
    exact this.symm
  unfold Vol.get
  rw [hfile, hsame]

/-- **C99** (applying, others): no file changes but that of the new package. -/
theorem C99_apply_others {η σ τ : Type} (w : World η σ τ) (f : ApplyFaults) (creatable : Bool) (junk : Bytes) (v : Vol)
    (old delta out name : Bytes) (cleanup : Nat) (h : v.file name ≠ v.file out) :
    (applyNamed w f creatable junk v old delta out cleanup).2.get name = v.get name := by
  unfold applyNamed
  split
  · rfl
  · simp only
    rw [Vol.get_leave_other _ _ _ (by exact h)]
    exact v.get_set_other _ h

/-- C99, applying (proved part): if the new package is neither the file of the delta nor that of the old package,
    then these are read as they were before the call. Missing: names that stand for the same file, see
    `C99_violated_delta` and `C99_violated_old`. -/
theorem C99_apply_partial {η σ τ : Type} (w : World η σ τ) (junk : Bytes) (v : Vol) (old delta out a d b : Bytes) (cleanup : Nat) (x : Out Unit)
    (ha : v.get old = some a) (hd : v.get delta = some d) (h1 : v.file old ≠ v.file out) (h2 : v.file delta ≠ v.file out)
    (h : applyFiles w a d cleanup = (x, .written b)) :
    ∃ v', applyNamed w ⟨none, noFault, true⟩ true junk v old delta out cleanup = (x, v') ∧ v'.get out = some b := by
  unfold applyNamed
  rw [if_neg (by decide)]
  simp only
  rw [Vol.read_of (v.set out []) (b := d) (by rw [v.get_set_other _ h2]; exact hd),
    Vol.read_of (v.set out []) (b := a) (by rw [v.get_set_other _ h1]; exact ha), Out.bind_ok,
    (C80_faultless ⟨none, noFault, true⟩ ⟨rfl, fun _ => rfl, rfl⟩ _ _ _).2 (by
      rw [show drpmApply _ _ cleanup = (x, .written b) from h]
      nofun),
    show drpmApply _ _ cleanup = (x, .written b) from h]
  exact ⟨_, rfl, Vol.get_set_same _ _ rfl⟩

/-- An empty file is not a delta. -/
theorem readDelta_nil (dec : Decoder) (rpmHead : Bytes → Out (Nat × Nat)) : ∃ e, readDelta dec rpmHead [] = .err e :=
  ⟨_, rfl⟩

/-- C99 is violated when a delta is applied: if the new package is to be written over the delta (under its name or
    another one), the call fails and the delta is lost. -/
theorem C99_violated_delta {η σ τ : Type} (w : World η σ τ) (f : ApplyFaults) (junk : Bytes) (v : Vol) (old delta out : Bytes) (cleanup : Nat)
    (h : v.file delta = v.file out) :
    ∃ e v', applyNamed w f true junk v old delta out cleanup = (.err e, v') ∧ v'.get delta = some [] := by
  unfold applyNamed
  rw [if_neg (by decide)]
  simp only
  rw [Vol.read_of (v.set out []) (b := []) (v.get_set_same _ h)]
  have key : ∀ src, ∃ e, drpmApplyOn f w.applyEnv ⟨some (.ok []), true, true, src⟩ cleanup = (.err e, .written []) := by
    intro src
    show ∃ e, applyToOn f w.applyEnv (.ok []) src cleanup = (.err e, .written [])
    unfold applyToOn
    split
    · exact ⟨_, rfl⟩
    · obtain ⟨e, he⟩ := readDelta_nil w.applyEnv.dec w.applyEnv.rpmHead
      have : planApplyOn w.applyEnv [] src cleanup = .err e := by
        unfold planApplyOn
        rw [he]
        rfl
      simp only [this]
      exact ⟨e, rfl⟩
  obtain ⟨e, he⟩ := key (.rpm ((v.set out []).read old >>= rpmOf w.lib w.U false))
  rw [he]
  exact ⟨e, _, rfl, Vol.get_set_same _ _ h⟩

/-- C99 is violated when a delta is applied: if the old package is to be replaced by the new one, the call fails
    and the old package is lost, whatever the delta is (as long as reading it returns). -/
theorem C99_violated_old {η σ τ : Type} (w : World η σ τ) (f : ApplyFaults) (junk : Bytes) (v : Vol) (old delta out d : Bytes) (cleanup : Nat)
    (h : v.file old = v.file out) (hd : v.get delta = some d) (hdef : (readDelta w.applyEnv.dec w.applyEnv.rpmHead d).Defined) :
    ∃ e v', applyNamed w f true junk v old delta out cleanup = (.err e, v') ∧ v'.get old = some [] := by
  by_cases hs : v.file delta = v.file out
  · obtain ⟨e, v', h1, h2⟩ := C99_violated_delta w f junk v old delta out cleanup hs
    refine ⟨e, v', h1, ?_⟩
    rw [← h2]
    have hfile : v'.file = v.file := by
      have := congrArg (fun p => p.2.file) h1
      simp only [applyNamed, Bool.true_eq_false, if_false, Vol.leave_file] at this
      exact this.symm
    unfold Vol.get
    rw [hfile, h, hs]
  unfold applyNamed
  rw [if_neg (by decide)]
  simp only
  rw [Vol.read_of (v.set out []) (b := d) (by rw [v.get_set_other _ hs]; exact hd),
    Vol.read_of (v.set out []) (b := []) (v.get_set_same _ h), Out.bind_ok]
  have hr : rpmOf w.lib w.U false [] = .err .format := rfl
  rw [hr]
  have key : ∃ e, drpmApplyOn f w.applyEnv ⟨some (.ok d), true, true, .rpm (.err .format)⟩ cleanup = (.err e, .written []) := by
    show ∃ e, applyToOn f w.applyEnv (.ok d) (.rpm (.err .format)) cleanup = (.err e, .written [])
    unfold applyToOn
    split
    · exact ⟨_, rfl⟩
    · have : ∃ e, planApplyOn w.applyEnv d (.rpm (.err .format)) cleanup = .err e := by
        unfold planApplyOn
        rcases hq : readDelta w.applyEnv.dec w.applyEnv.rpmHead d with q | e | _ | _
        · exact ⟨.format, rfl⟩
        · exact ⟨e, rfl⟩
        · rw [hq] at hdef; exact absurd rfl hdef.1
        · rw [hq] at hdef; exact absurd rfl hdef.2
      obtain ⟨e, he⟩ := this
      simp only [he]
      exact ⟨e, rfl⟩
  obtain ⟨e, he⟩ := key
  rw [he]
  exact ⟨e, _, rfl, Vol.get_set_same _ _ h⟩

namespace Toy

/-- Names of one byte; `a` and `b` are names for the same file, which is in the place of `b`. -/
def vol (a b : UInt8) (data : Nat → Option Bytes) : Vol :=
  ⟨fun n => (if n = [a] then b else n.headD 0).toNat, data⟩

/-- The old package is file 1, the new one is file 2. -/
def packages : Nat → Option Bytes := fun i => if i = 1 then some oldFile.file else if i = 2 then some newFile.file else none

end Toy

open Toy in
/-- Non-vacuity of C99, making: the delta is written under a name (3) of the old package; then under that of the
    sequence file (115). -/
example (addblk : Bool) : ∃ delta line,
    (∃ v', makeNamed world ⟨none, true, true, fun _ => .all, true, true, true, line.length⟩ 8 [] (seqOpts true addblk) (vol 3 1 packages)
        (some [1]) (some [2]) (some [3]) = (.ok (), v') ∧
      v'.get [1] = some delta ∧ v'.get [2] = some newFile.file ∧ v'.get [115] = some line) ∧
    (∃ v', makeNamed world ⟨none, true, true, fun _ => .all, true, true, true, line.length⟩ 8 [] (seqOpts true addblk) (vol 3 115 packages)
        (some [1]) (some [2]) (some [3]) = (.ok (), v') ∧ v'.get [3] = some line) := by
  obtain ⟨delta, line, h1, h2, _⟩ := demoSeq addblk
  have hf : MakeFaults.None ⟨none, true, true, fun _ => .all, true, true, true, line.length⟩ line.length :=
    ⟨rfl, rfl, rfl, fun _ => rfl, rfl, rfl, rfl, Nat.le_refl _⟩
  refine ⟨delta, line, ?_, C99_violated_make world 8 [] (seqOpts true addblk) (vol 3 115 packages) [1] [2] [3] [115] _ _ delta line _ hf rfl rfl h1 h2 rfl rfl⟩
  obtain ⟨v', h3, h4, h5⟩ := C99_make world 8 [] (seqOpts true addblk) (vol 3 1 packages) [1] [2] [3] _ _ delta line _ hf rfl rfl h1 h2
  have h6 := C99_make_others world ⟨none, true, true, fun _ => .all, true, true, true, line.length⟩ 8 [] (seqOpts true addblk)
    (vol 3 1 packages) (some [1]) (some [2]) [3] [2] (by decide) (by rintro s ⟨⟩; decide)
  have hfile : v'.file = (vol 3 1 packages).file := by
    have := congrArg (fun p => p.2.file) h3
    simp only [makeNamed, Vol.leave_file] at this
    exact this.symm
  rw [h3] at h6
  refine ⟨v', h3, ?_, h6, h5 _ rfl⟩
  have := h4 (by rintro s ⟨⟩; decide)
  unfold Vol.get at this ⊢
  rw [hfile] at this ⊢
  exact this

open Toy in
/-- Non-vacuity of C99, applying: the delta is file 4. The new package is written to a new file (5); in place of
    the old package; in place of the delta. -/
example (addblk : Bool) (cleanup : Nat) : ∃ delta,
    let v := vol 3 1 (fun i => if i = 4 then some delta else packages i)
    let apply := fun out => applyNamed world ⟨none, noFault, true⟩ true [] v [1] [4] out cleanup
    (∃ v', apply [5] = (.ok (), v') ∧ v'.get [5] = some newFile.file) ∧
    (∃ e v', apply [3] = (.err e, v') ∧ v'.get [1] = some []) ∧
    (∃ e v', apply [4] = (.err e, v') ∧ v'.get [4] = some []) := by
  obtain ⟨delta, h1, h2⟩ := C68_demo_rpmonly addblk
  refine ⟨delta, C99_apply_partial world [] _ [1] [4] [5] _ _ _ cleanup _ rfl rfl
      (show (1 : Nat) ≠ 5 by decide) (show (4 : Nat) ≠ 5 by decide) (h2 cleanup),
    C99_violated_old world _ [] _ [1] [4] [3] delta cleanup rfl rfl ?_, C99_violated_delta world _ [] _ [1] [4] [4] cleanup rfl⟩
  rcases hq : readDelta world.applyEnv.dec world.applyEnv.rpmHead delta with q | e | _ | _
  · exact ⟨nofun, nofun⟩
  · exact ⟨nofun, nofun⟩
  all_goals
    have h3 := h2 cleanup
    exfalso
    revert h3
    show applyTo world.applyEnv (.ok delta) _ cleanup ≠ _
    unfold applyTo planApply
    simp [hq]

end Drpm
