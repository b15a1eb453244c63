import Verif.WriteFaultLemmas
import Verif.Props.Api
import Verif.Props.Cut

/-!
# C79, C80: system calls that fail while a delta or a package is written
-/

namespace Drpm

/-! ## Specification -/

/-- What is at the path is what was there before the call, or a part of `b` from its beginning, perhaps all of it. -/
def Left.UpTo (b : Bytes) (l : Left) : Prop := l = .untouched ∨ ∃ p, l = .written p ∧ p <+: b

/-- Nothing fails; the line of the sequence file, of `n` bytes, reaches the disk. -/
structure MakeFaults.None (f : MakeFaults) (n : Nat) : Prop where
  early : f.early = none
  create : f.create = true
  parts : f.parts = true
  writes : ∀ k, f.writes k = .all
  reopen : f.reopen = true
  seqOpen : f.seqOpen = true
  seqRoom : f.seqRoom = true
  seqBytes : n ≤ f.seqBytes

/-- Nothing fails. -/
structure ApplyFaults.None (f : ApplyFaults) : Prop where
  early : f.early = none
  writes : ∀ k, f.writes k = .all
  reopen : f.reopen = true

/-! ## C79: making -/

theorem drpmMake_parts (env : MakeEnv) (o : Opts Bytes) (old new : Option (Out Rpm)) :
    drpmMake env o old new = makeParts env o old new >>= fun p => .ok (writeHead p.1 p.2.1 ++ p.2.2) := by
  unfold drpmMake makeParts
  by_cases h1 : old.isNone ∧ new.isNone
  · rw [if_pos h1, if_pos h1, Out.bind_err]
  rw [if_neg h1, if_neg h1]
  by_cases h2 : o.rpmOnly ∧ o.version < 3
  · rw [if_pos h2, if_pos h2, Out.bind_err]
  rw [if_neg h2, if_neg h2, Out.assoc]
  refine congrArg _ (funext fun p => ?_)
  obtain ⟨d, header, level⟩ := p
  simp only
  unfold writeDelta
  rw [Out.assoc]
  refine congrArg _ (funext fun s => ?_)
  rw [Out.assoc]
  refine congrArg _ (funext fun z => ?_)
  rw [Out.assoc]
  refine congrArg _ (funext fun h => ?_)
  rw [Out.bind_ok]

theorem writeDeltaOn_cases (f : MakeFaults) (sigLen : Nat) (d : Delta) (head z : Bytes) :
    writeDeltaOn f sigLen d head z = (.ok (), .written (writeHead d head ++ z)) ∨
      (¬ (f.create = true ∧ f.parts = true ∧ f.writes = noFault ∧ f.reopen = true) ∧
        ∃ e l, writeDeltaOn f sigLen d head z = (.err e, l) ∧ l.UpTo (writeHead d head ++ z)) := by
  unfold writeDeltaOn writeHead
  by_cases hc : f.create = false
  · rw [if_pos hc]
    exact Or.inr ⟨(fun h => by rw [h.1] at hc; cases hc), _, _, rfl, Or.inl rfl⟩
  rw [if_neg hc]
  cases d.type with
  | rpmonly =>
    simp only
    have hfl : (rpmonlyPieces d z).flatten =
        [100, 114, 112, 109] ++ versionBytes d.version ++ writeCStr d.tgtNevr ++ writeBuf d.addData ++ z := by
      simp [rpmonlyPieces, writeCStr, writeBuf]
    rcases putAll_cases f.writes (rpmonlyPieces d z) 0 [] with ⟨k', h⟩ | ⟨hf, t, k', h, ht⟩
    · rw [h, hfl]
      exact Or.inl rfl
    · rw [hfl] at ht
      rw [h]
      exact Or.inr ⟨fun h => hf h.2.2.1, _, _, rfl, Or.inr ⟨_, rfl, ht⟩⟩
  | standard =>
    simp only
    by_cases hp : f.parts = false
    · rw [if_pos hp]
      exact Or.inr ⟨(fun h => by rw [h.2.1] at hp; cases hp), _, _, rfl, Or.inr ⟨_, rfl, List.nil_prefix⟩⟩
    rw [if_neg hp]
    have hfl : [head.take 96, (head.drop 96).take sigLen, (head.drop 96).drop sigLen].flatten = head := by
      simp only [List.flatten_cons, List.flatten_nil, List.append_nil, List.take_append_drop]
    rcases putAll_cases f.writes [head.take 96, (head.drop 96).take sigLen, (head.drop 96).drop sigLen] 0 [] with
      ⟨k', h⟩ | ⟨hf, t, k', h, ht⟩
    · rw [h, hfl]
      simp only [List.nil_append]
      by_cases hr : f.reopen = false
      · rw [if_pos hr]
        exact Or.inr ⟨(fun h => by rw [h.2.2.2] at hr; cases hr), _, _, rfl, Or.inr ⟨_, rfl, List.prefix_append _ _⟩⟩
      rw [if_neg hr]
      rcases put_cases f.writes k' head z with h | ⟨hf, t, h, ht⟩
      · rw [h]
        exact Or.inl rfl
      · rw [h]
        exact Or.inr ⟨fun h => hf h.2.2.1, _, _, rfl, Or.inr ⟨_, rfl, (List.prefix_append_right_inj _).mpr ht⟩⟩
    · rw [hfl] at ht
      rw [h]
      exact Or.inr ⟨fun h => hf h.2.2.1, _, _, rfl, Or.inr ⟨_, rfl, ht.trans (List.prefix_append _ _)⟩⟩

/-- The sequence file `drpm_make` is to write. -/
def makeSeqFile (env : MakeEnv) (o : Opts Bytes) (old new : Option (Out Rpm)) : Out Bytes := do
  let p ← makeParts env o old new
  seqLine p.1.srcNevr p.1.sequence

/-- What a call under faults does, against the call without: `delta` is what `drpm_make` would write. -/
theorem drpmMakeOn_cases (f : MakeFaults) (sigLen : Nat) (env : MakeEnv) (o : Opts Bytes) (old new : Option (Out Rpm)) (delta : Bytes)
    (h : drpmMake env o old new = .ok delta) :
    (∃ e l, drpmMakeOn f sigLen env o old new = (.err e, l, .untouched) ∧ l.UpTo delta ∧
        ¬ (f.early = none ∧ f.create = true ∧ f.parts = true ∧ f.writes = noFault ∧ f.reopen = true)) ∨
      (o.seqfile = none ∧ drpmMakeOn f sigLen env o old new = (.ok (), .written delta, .untouched)) ∨
      (o.seqfile ≠ none ∧ ∃ d, makeSeqFile env o old new = seqLine d.srcNevr d.sequence ∧
        drpmMakeOn f sigLen env o old new = ((writeSeqOn f d).1, .written delta, (writeSeqOn f d).2)) := by
  rw [drpmMake_parts] at h
  obtain ⟨⟨d, head, z⟩, h1, h2⟩ := Out.bind_eq_ok.mp h
  cases h2
  unfold drpmMakeOn makeSeqFile
  rw [h1]
  cases he : f.early with
  | some e => exact Or.inl ⟨e, _, rfl, Or.inl rfl, fun h => by cases h.1⟩
  | none =>
    simp only [Out.bind_ok]
    unfold writeBothOn
    rcases writeDeltaOn_cases f sigLen d head z with h | ⟨hn, e, l, h, hl⟩
    · rw [h]
      simp only
      cases hs : o.seqfile with
      | none => exact Or.inr (Or.inl ⟨rfl, rfl⟩)
      | some s => exact Or.inr (Or.inr ⟨nofun, d, rfl, rfl⟩)
    · rw [h]
      exact Or.inl ⟨e, l, rfl, hl, fun h => hn h.2⟩

theorem writeSeqOn_ok (f : MakeFaults) (d : Delta) (q : Left) (h : writeSeqOn f d = (.ok (), q)) :
    ∃ line, seqLine d.srcNevr d.sequence = .ok line ∧ q = .written (line.take f.seqBytes) := by
  unfold writeSeqOn at h
  split at h
  · cases h
  split at h
  · cases h
  split at h
  · next line hl =>
    cases h
    exact ⟨line, hl, rfl⟩
  · cases h
  · cases h
  · cases h

/-- **C79** (first part): if `drpm_make` reports success, then the delta is complete, whatever the system calls
    did; and if a sequence file was asked for, the file holds a part of its line from the beginning. That it
    holds the whole line does not follow, see `C79_violated`. -/
theorem C79_success_partial (f : MakeFaults) (sigLen : Nat) (env : MakeEnv) (o : Opts Bytes) (old new : Option (Out Rpm)) (l q : Left)
    (h : drpmMakeOn f sigLen env o old new = (.ok (), l, q)) :
    ∃ delta, drpmMake env o old new = .ok delta ∧ l = .written delta ∧
      (o.seqfile = none → q = .untouched) ∧
      (o.seqfile ≠ none → ∃ line, makeSeqFile env o old new = .ok line ∧ ∃ p, q = .written p ∧ p <+: line) := by
  cases hm : drpmMake env o old new with
  | ok delta =>
    refine ⟨delta, rfl, ?_⟩
    rcases drpmMakeOn_cases f sigLen env o old new delta hm with ⟨e, l', h', _⟩ | ⟨hs, h'⟩ | ⟨hs, d, h1, h'⟩
    · rw [h'] at h
      cases h
    · rw [h'] at h
      cases h
      exact ⟨rfl, fun _ => rfl, fun c => absurd hs c⟩
    · rw [h'] at h
      simp only [Prod.mk.injEq] at h
      obtain ⟨e1, e2, e3⟩ := h
      obtain ⟨line, hl, hq⟩ := writeSeqOn_ok f d q (Prod.ext e1 e3)
      exact ⟨e2.symm, fun c => absurd c hs, fun _ => ⟨line, h1.trans hl, _, hq, List.take_prefix _ _⟩⟩
  | err e =>
    exfalso
    rw [drpmMake_parts] at hm
    unfold drpmMakeOn at h
    cases hp : makeParts env o old new with
    | ok p => rw [hp] at hm; cases hm
    | err e => rw [hp] at h; cases he : f.early <;> rw [he] at h <;> cases h
    | ub => rw [hp] at h; cases he : f.early <;> rw [he] at h <;> cases h
    | loop => rw [hp] at h; cases he : f.early <;> rw [he] at h <;> cases h
  | ub =>
    exfalso
    rw [drpmMake_parts] at hm
    unfold drpmMakeOn at h
    cases hp : makeParts env o old new with
    | ok p => rw [hp] at hm; cases hm
    | err e => rw [hp] at h; cases he : f.early <;> rw [he] at h <;> cases h
    | ub => rw [hp] at h; cases he : f.early <;> rw [he] at h <;> cases h
    | loop => rw [hp] at h; cases he : f.early <;> rw [he] at h <;> cases h
  | loop =>
    exfalso
    rw [drpmMake_parts] at hm
    unfold drpmMakeOn at h
    cases hp : makeParts env o old new with
    | ok p => rw [hp] at hm; cases hm
    | err e => rw [hp] at h; cases he : f.early <;> rw [he] at h <;> cases h
    | ub => rw [hp] at h; cases he : f.early <;> rw [he] at h <;> cases h
    | loop => rw [hp] at h; cases he : f.early <;> rw [he] at h <;> cases h

/-- **C79** (second part): whatever fails, what is at the path of the delta is the old file or a part of the delta
    from its beginning; and the sequence file is only touched once the delta is complete. -/
theorem C79_prefix (f : MakeFaults) (sigLen : Nat) (env : MakeEnv) (o : Opts Bytes) (old new : Option (Out Rpm)) (delta : Bytes)
    (h : drpmMake env o old new = .ok delta) :
    (drpmMakeOn f sigLen env o old new).2.1.UpTo delta ∧
      ((drpmMakeOn f sigLen env o old new).2.2 ≠ .untouched → (drpmMakeOn f sigLen env o old new).2.1 = .written delta) := by
  rcases drpmMakeOn_cases f sigLen env o old new delta h with ⟨e, l', h', hl, _⟩ | ⟨hs, h'⟩ | ⟨hs, d, h1, h'⟩
  · rw [h']
    exact ⟨hl, fun c => absurd rfl c⟩
  · rw [h']
    exact ⟨Or.inr ⟨_, rfl, List.prefix_refl _⟩, fun _ => rfl⟩
  · rw [h']
    exact ⟨Or.inr ⟨_, rfl, List.prefix_refl _⟩, fun _ => rfl⟩

/-- **C79** (third part): a call that is refused leaves both paths alone. -/
theorem C79_refused (f : MakeFaults) (sigLen : Nat) (env : MakeEnv) (o : Opts Bytes) (old new : Option (Out Rpm)) (e : Err)
    (h : drpmMake env o old new = .err e) :
    ∃ e', drpmMakeOn f sigLen env o old new = (.err e', .untouched, .untouched) ∧ (f.early = none → e' = e) := by
  rw [drpmMake_parts] at h
  unfold drpmMakeOn
  cases hp : makeParts env o old new with
  | ok p => rw [hp] at h; cases h
  | err e1 =>
    rw [hp] at h
    cases h
    cases he : f.early with
    | some e2 => exact ⟨e2, rfl, nofun⟩
    | none => exact ⟨e, rfl, fun _ => rfl⟩
  | ub => rw [hp] at h; cases h
  | loop => rw [hp] at h; cases h

/-- **C79** (fourth part): if nothing fails, both files are complete. -/
theorem C79_faultless (f : MakeFaults) (sigLen : Nat) (env : MakeEnv) (o : Opts Bytes) (old new : Option (Out Rpm)) (delta line : Bytes)
    (h : drpmMake env o old new = .ok delta) (hl : makeSeqFile env o old new = .ok line) (hf : f.None line.length) :
    drpmMakeOn f sigLen env o old new =
      (.ok (), .written delta, if o.seqfile = none then .untouched else .written line) := by
  have hw : f.writes = noFault := funext hf.writes
  rcases drpmMakeOn_cases f sigLen env o old new delta h with ⟨e, l', h', _, hn⟩ | ⟨hs, h'⟩ | ⟨hs, d, h1, h'⟩
  · exact absurd ⟨hf.early, hf.create, hf.parts, hw, hf.reopen⟩ hn
  · rw [h', if_pos hs]
  · rw [h', if_neg hs]
    have hsl : seqLine d.srcNevr d.sequence = .ok line := h1.symm.trans hl
    unfold writeSeqOn
    rw [hf.seqOpen, hf.seqRoom, hsl]
    simp only [Bool.true_eq_false, if_false]
    rw [List.take_of_length_le hf.seqBytes]

/-- **C79** is false as it stands (defect 36): `drpm_make` reports success although nothing of the sequence file
    was written. For every call that would write one there are such faults: a full disk is enough. -/
theorem C79_violated (sigLen : Nat) (env : MakeEnv) (o : Opts Bytes) (old new : Option (Out Rpm)) (delta line : Bytes)
    (h : drpmMake env o old new = .ok delta) (hl : makeSeqFile env o old new = .ok line) (hs : o.seqfile ≠ none) :
    ∃ f : MakeFaults, drpmMakeOn f sigLen env o old new = (.ok (), .written delta, .written []) := by
  refine ⟨⟨none, true, true, noFault, true, true, true, 0⟩, ?_⟩
  rcases drpmMakeOn_cases ⟨none, true, true, noFault, true, true, true, 0⟩ sigLen env o old new delta h with
    ⟨e, l', h', _, hn⟩ | ⟨hs', h'⟩ | ⟨_, d, h1, h'⟩
  · exact absurd ⟨rfl, rfl, rfl, rfl, rfl⟩ hn
  · exact absurd hs' hs
  · rw [h']
    have hsl : seqLine d.srcNevr d.sequence = .ok line := h1.symm.trans hl
    unfold writeSeqOn
    rw [hsl]
    rfl

/-- **C79** (fifth part): whatever fails while a delta is written, applying what is then at the path (if anything
    new is) does the same as applying the whole delta, or is refused and nothing is written. -/
theorem C79_cut {η σ τ : Type} (w : World η σ τ) (Ok : TagData → Prop) (hl : HeaderLaws w.lib Ok) (hw : WholeHeaders w.lib)
    (h16 : ∀ b, (w.H b).length = 16) (hdec : ReadsInOrder w.dec) (f : MakeFaults) (sigLen : Nat) (o : Opts Bytes) (old new delta : Bytes)
    (h : makeFiles w o old new = .ok delta) (d : Delta) (hd : readDelta w.dec w.applyEnv.rpmHead delta = .ok d)
    (b : Bytes) (hb : (drpmMakeOn f sigLen (w.makeEnv (new.take 96)) o (some (rpmOf w.lib w.U true old))
      (some (rpmOf w.lib w.U true new))).2.1 = .written b) (src : OldSrc) (cleanup : Nat) :
    applyTo w.applyEnv (.ok b) src cleanup = applyTo w.applyEnv (.ok delta) src cleanup ∨
      ∃ e, applyTo w.applyEnv (.ok b) src cleanup = (.err e, .written []) := by
  have hp := (C79_prefix f sigLen _ o _ _ delta h).1
  rw [hb] at hp
  rcases hp with hp | ⟨p, hp, hpre⟩
  · cases hp
  · cases hp
    have := C78_files w Ok hl hw h16 hdec o old new delta h d hd b.length src cleanup
    rwa [← List.prefix_iff_eq_take.mp hpre] at this

/-! ## C80: applying -/

/-- **C80** (first part): if `drpm_apply` reports success, then the package is complete, whatever the writes did. -/
theorem C80_success {σ : Type} (f : ApplyFaults) (env : ApplyEnv σ) (a : ApplyArgs) (cleanup : Nat) (l : Left)
    (h : drpmApplyOn f env a cleanup = (.ok (), l)) : drpmApply env a cleanup = (.ok (), l) := by
  unfold drpmApplyOn at h
  unfold drpmApply
  split at h
  · cases h
  · cases h
  next delta h1 h2 =>
    rw [h1, h2]
    simp only
    split at h
    · cases h
    next hc =>
      rw [if_neg hc]
      unfold applyToOn at h
      unfold applyTo
      cases he : f.early with
      | some e => rw [he] at h; cases h
      | none =>
        rw [he] at h
        cases delta with
        | err e => cases h
        | ub => cases h
        | loop => cases h
        | ok file =>
          simp only at h
          rw [Out.bind_ok, planApply_on]
          cases hp : planApplyOn env file a.src cleanup with
          | err e => rw [hp] at h; cases h
          | ub => rw [hp] at h; cases h
          | loop => rw [hp] at h; cases h
          | ok p =>
            obtain ⟨d, sig, body⟩ := p
            rw [hp] at h
            simp only at h
            rw [Out.bind_ok]
            simp only
            have sim := writeBodyOn_sim f env file d body
            unfold BodySim at sim
            split at sim
            · next out hashed hb =>
              rw [hb]
              rcases sim with sim | ⟨_, e, b, sim, _⟩
              · rw [sim] at h
                exact h
              · rw [sim] at h
                cases h
            · obtain ⟨e', l', sim, _⟩ := sim
              rw [sim] at h
              cases h
            · obtain ⟨l', sim | ⟨_, e, sim⟩⟩ := sim <;> rw [sim] at h <;> cases h
            · obtain ⟨l', sim | ⟨_, e, sim⟩⟩ := sim <;> rw [sim] at h <;> cases h

/-- **C80** (second part): if the call would leave the file `out` at the path when nothing fails, then whatever
    fails, it leaves a part of `out` from its beginning; and if that is not the whole outcome, it reports an
    error. -/
theorem C80_prefix {σ : Type} (f : ApplyFaults) (env : ApplyEnv σ) (a : ApplyArgs) (cleanup : Nat) (x : Out Unit) (out : Bytes)
    (h : drpmApply env a cleanup = (x, .written out)) :
    drpmApplyOn f env a cleanup = (x, .written out) ∨
      ∃ e b, drpmApplyOn f env a cleanup = (.err e, .written b) ∧ b <+: out := by
  unfold drpmApply at h
  unfold drpmApplyOn
  split at h
  · cases h
  · cases h
  next delta h1 h2 =>
    rw [h1, h2]
    simp only
    split at h
    · cases h
    next hc =>
      rw [if_neg hc]
      unfold applyTo at h
      unfold applyToOn
      cases he : f.early with
      | some e => exact Or.inr ⟨e, [], rfl, List.nil_prefix⟩
      | none =>
        cases delta with
        | err e =>
          cases h
          exact Or.inl rfl
        | ub => cases h
        | loop => cases h
        | ok file =>
          simp only
          rw [Out.bind_ok, planApply_on] at h
          cases hp : planApplyOn env file a.src cleanup with
          | err e =>
            rw [hp] at h
            cases h
            exact Or.inl rfl
          | ub => rw [hp] at h; cases h
          | loop => rw [hp] at h; cases h
          | ok p =>
            obtain ⟨d, sig, body⟩ := p
            rw [hp, Out.bind_ok] at h
            simp only at h ⊢
            have sim := writeBodyOn_sim f env file d body
            unfold BodySim at sim
            split at sim
            · next o hashed hb =>
              rw [hb] at h
              simp only [finishApply, Prod.mk.injEq, Left.written.injEq] at h
              obtain ⟨e1, e2⟩ := h
              subst e1 e2
              rcases sim with sim | ⟨_, e, b, sim, hb⟩
              · rw [sim]
                exact Or.inl rfl
              · rw [sim]
                exact Or.inr ⟨e, b, rfl, hb⟩
            · next e hb => rw [hb] at h; cases h
            · next hb => rw [hb] at h; cases h
            · next hb => rw [hb] at h; cases h

/-- **C80** (third part): an output path that is not touched without faults is not touched with them. -/
theorem C80_untouched {σ : Type} (f : ApplyFaults) (env : ApplyEnv σ) (a : ApplyArgs) (cleanup : Nat) (x : Out Unit)
    (h : drpmApply env a cleanup = (x, .untouched)) : drpmApplyOn f env a cleanup = (x, .untouched) := by
  obtain ⟨delta, named, creatable, src⟩ := a
  cases delta with
  | none => exact h
  | some delta =>
    cases named with
    | false => exact h
    | true =>
      cases creatable with
      | false => exact h
      | true =>
        exfalso
        have h : applyTo env delta src cleanup = (x, .untouched) := h
        unfold applyTo at h
        split at h
        next pl _ =>
          unfold finishApply at h
          split at h <;> cases h
        · cases h
        · cases h
        · cases h

/-- **C80** (fourth part): if nothing fails, the outcome is that of the call without faults. -/
theorem C80_faultless {σ : Type} (f : ApplyFaults) (hf : f.None) (env : ApplyEnv σ) (a : ApplyArgs) (cleanup : Nat) :
    (drpmApplyOn f env a cleanup).1 = (drpmApply env a cleanup).1 ∧
      ((drpmApply env a cleanup).2 ≠ .partly → drpmApplyOn f env a cleanup = drpmApply env a cleanup) := by
  have hw : f.writes = noFault ∧ f.reopen = true := ⟨funext hf.writes, hf.reopen⟩
  obtain ⟨delta, named, creatable, src⟩ := a
  cases delta with
  | none => exact ⟨rfl, fun _ => rfl⟩
  | some delta =>
    cases named with
    | false => exact ⟨rfl, fun _ => rfl⟩
    | true =>
      cases creatable with
      | false => exact ⟨rfl, fun _ => rfl⟩
      | true =>
        show (applyToOn f env delta src cleanup).1 = (applyTo env delta src cleanup).1 ∧
          ((applyTo env delta src cleanup).2 ≠ .partly → applyToOn f env delta src cleanup = applyTo env delta src cleanup)
        unfold applyToOn applyTo
        rw [hf.early]
        cases delta with
        | err e => exact ⟨rfl, fun _ => rfl⟩
        | ub => exact ⟨rfl, fun _ => rfl⟩
        | loop => exact ⟨rfl, fun _ => rfl⟩
        | ok file =>
          simp only
          rw [Out.bind_ok, planApply_on]
          cases hp : planApplyOn env file src cleanup with
          | err e => exact ⟨rfl, fun _ => rfl⟩
          | ub => exact ⟨rfl, fun _ => rfl⟩
          | loop => exact ⟨rfl, fun _ => rfl⟩
          | ok p =>
            obtain ⟨d, sig, body⟩ := p
            rw [Out.bind_ok]
            simp only
            have sim := writeBodyOn_sim f env file d body
            unfold BodySim at sim
            split at sim
            · next o hashed hb =>
              rw [hb]
              rcases sim with sim | ⟨n, _⟩
              · rw [sim]
                exact ⟨rfl, fun _ => rfl⟩
              · exact absurd hw n
            · next e hb =>
              obtain ⟨e', l', sim, e2⟩ := sim
              rw [sim, hb, e2 hw]
              exact ⟨rfl, fun h => absurd rfl h⟩
            · next hb =>
              obtain ⟨l', sim | ⟨n, e, sim⟩⟩ := sim
              · rw [sim, hb]
                exact ⟨rfl, fun h => absurd rfl h⟩
              · exact absurd hw n
            · next hb =>
              obtain ⟨l', sim | ⟨n, e, sim⟩⟩ := sim
              · rw [sim, hb]
                exact ⟨rfl, fun h => absurd rfl h⟩
              · exact absurd hw n

/-! ## Examples -/

theorem makePair_seqfile (env : MakeEnv) (o : Opts Bytes) (s : Option Bytes) (old new : Rpm) :
    makePair env { o with seqfile := s } old new = makePair env o old new := by
  unfold makePair targetNevr diffInputs addBlock fillDelta deltaComp
  rfl

/-- Whether a sequence file is asked for does not change the delta. -/
theorem makeParts_seqfile (env : MakeEnv) (o : Opts Bytes) (s : Option Bytes) (old new : Option (Out Rpm)) :
    makeParts env { o with seqfile := s } old new = makeParts env o old new := by
  have h : makeAny env { o with seqfile := s } old new = makeAny env o old new := by
    unfold makeAny makeNoDiff
    simp only [makePair_seqfile]
  unfold makeParts
  simp only [h]

theorem makeParts_rpmonly (env : MakeEnv) (o : Opts Bytes) (old new : Option (Out Rpm)) (h16 : ∀ b, (env.H b).length = 16)
    (ho : o.rpmOnly = true) (p : Delta × Bytes × Bytes) (h : makeParts env o old new = .ok p) : p.1.sequence.length = 16 ∧ p.1.type = .rpmonly := by
  have pair : ∀ r r' x, makePair env o r r' = .ok x → x.1.sequence.length = 16 ∧ x.1.type = .rpmonly := by
    intro r r' x hx
    unfold makePair at hx
    obtain ⟨_, _, hx⟩ := Out.bind_eq_ok.mp hx
    obtain ⟨_, _, hx⟩ := Out.bind_eq_ok.mp hx
    obtain ⟨_, _, hx⟩ := Out.bind_eq_ok.mp hx
    obtain ⟨_, _, hx⟩ := Out.bind_eq_ok.mp hx
    obtain ⟨i, hi, hx⟩ := Out.bind_eq_ok.mp hx
    obtain ⟨_, _, hx⟩ := Out.bind_eq_ok.mp hx
    obtain ⟨_, _, hx⟩ := Out.bind_eq_ok.mp hx
    obtain ⟨_, _, hx⟩ := Out.bind_eq_ok.mp hx
    cases hx
    unfold diffInputs at hi
    rw [if_pos ho] at hi
    cases hi
    exact ⟨h16 _, if_pos ho⟩
  have alone : ∀ r x, makeNoDiff env o r = .ok x → x.1.sequence.length = 16 ∧ x.1.type = .rpmonly := by
    intro r x hx
    unfold makeNoDiff at hx
    obtain ⟨_, _, hx⟩ := Out.bind_eq_ok.mp hx
    cases hx
    exact ⟨h16 _, rfl⟩
  have any : ∀ x, makeAny env o old new = .ok x → x.1.sequence.length = 16 ∧ x.1.type = .rpmonly := by
    intro x hx
    unfold makeAny at hx
    split at hx
    · cases hx
    · obtain ⟨_, _, hx⟩ := Out.bind_eq_ok.mp hx
      obtain ⟨_, _, hx⟩ := Out.bind_eq_ok.mp hx
      exact pair _ _ _ hx
    · obtain ⟨_, _, hx⟩ := Out.bind_eq_ok.mp hx
      rw [if_pos ho] at hx
      exact alone _ _ hx
    · obtain ⟨_, _, hx⟩ := Out.bind_eq_ok.mp hx
      rw [if_pos ho] at hx
      exact alone _ _ hx
  unfold makeParts at h
  split at h
  · cases h
  split at h
  · cases h
  obtain ⟨x, hx, h⟩ := Out.bind_eq_ok.mp h
  obtain ⟨_, _, h⟩ := Out.bind_eq_ok.mp h
  obtain ⟨_, _, h⟩ := Out.bind_eq_ok.mp h
  obtain ⟨_, _, h⟩ := Out.bind_eq_ok.mp h
  cases h
  exact any x hx

namespace Toy

/-- The options of `demoOpts`, and a sequence file. -/
def seqOpts (rpmOnly addblk : Bool) : Opts Bytes := { demoOpts rpmOnly 3 addblk with seqfile := some [115] }

theorem demoSeq (addblk : Bool) : ∃ delta line,
    makeFiles world (seqOpts true addblk) oldFile.file newFile.file = .ok delta ∧
    makeSeqFile (world.makeEnv (newFile.file.take 96)) (seqOpts true addblk) (some (rpmOf world.lib world.U true oldFile.file))
      (some (rpmOf world.lib world.U true newFile.file)) = .ok line ∧ 32 < line.length ∧
    ∀ cleanup, applyFiles world oldFile.file delta cleanup = (.ok (), .written newFile.file) := by
  obtain ⟨delta, h1, h2⟩ := C68_demo_rpmonly addblk
  have h3 : makeFiles world (seqOpts true addblk) oldFile.file newFile.file = .ok delta := by
    rw [← h1]
    unfold makeFiles
    rw [drpmMake_parts, drpmMake_parts, seqOpts, makeParts_seqfile]
  have h4 := h3
  unfold makeFiles at h4
  rw [drpmMake_parts] at h4
  obtain ⟨p, hp, h4⟩ := Out.bind_eq_ok.mp h4
  have h5 := makeParts_rpmonly _ _ _ _ md5_16 rfl p hp
  refine ⟨delta, p.1.srcNevr ++ [45] ++ dumpHex p.1.sequence ++ [10], h3, ?_, ?_, h2⟩
  · unfold makeSeqFile seqLine
    rw [hp, Out.bind_ok, hexString_ok _ (by omega), Out.bind_ok]
  · simp only [List.length_append, List.length_cons, List.length_nil, dumpHex_length]
    omega

end Toy

open Toy in
/-- Non-vacuity of C79: two packages, a delta and a sequence file; nothing fails; the disk is full when the sequence
    file is written; the third write stops after one byte. -/
example (addblk : Bool) : ∃ delta line,
    let make := fun f : MakeFaults => drpmMakeOn f 8 (world.makeEnv (newFile.file.take 96)) (seqOpts true addblk)
      (some (rpmOf world.lib world.U true oldFile.file)) (some (rpmOf world.lib world.U true newFile.file))
    make ⟨none, true, true, fun _ => .all, true, true, true, line.length⟩ = (.ok (), .written delta, .written line) ∧
    (∃ f, make f = (.ok (), .written delta, .written [])) ∧ line ≠ [] ∧
    make ⟨none, true, true, fun k => if k = 2 then .part 1 else .all, true, true, true, 0⟩ =
      (.err .io, .written (delta.take 9), .untouched) ∧ 9 < delta.length := by
  obtain ⟨delta, line, h1, h3, h4, _⟩ := demoSeq addblk
  refine ⟨delta, line, ?_, C79_violated 8 _ _ _ _ delta line h1 h3 nofun, ?_, ?_⟩
  · exact C79_faultless _ 8 _ _ _ _ delta line h1 h3 ⟨rfl, rfl, rfl, fun _ => rfl, rfl, rfl, rfl, Nat.le_refl _⟩
  · rintro rfl
    cases h4
  · unfold makeFiles at h1
    rw [drpmMake_parts] at h1
    obtain ⟨p, hp, h5⟩ := Out.bind_eq_ok.mp h1
    cases h5
    have ht := (makeParts_rpmonly _ _ _ _ md5_16 rfl p hp).2
    unfold drpmMakeOn
    rw [hp]
    obtain ⟨d, head, z⟩ := p
    have ht : d.type = .rpmonly := ht
    simp only [writeBothOn, writeDeltaOn, ht, writeHead]
    simp [rpmonlyPieces, putAll, put, WriteRes.returned, WriteRes.wrote, writeCStr, createBe32, versionBytes]

open Toy in
/-- Non-vacuity of C79_cut: a rpm-only delta whose write is cut anywhere. -/
example (addblk : Bool) (f : MakeFaults) (b : Bytes) (hb : (drpmMakeOn f 8 (world.makeEnv (newFile.file.take 96)) (seqOpts true addblk)
      (some (rpmOf world.lib world.U true oldFile.file)) (some (rpmOf world.lib world.U true newFile.file))).2.1 = .written b) (cleanup : Nat) :
    applyFiles world oldFile.file b cleanup = (.ok (), .written newFile.file) ∨
      ∃ e, applyFiles world oldFile.file b cleanup = (.err e, .written []) := by
  obtain ⟨delta, line, h1, _, _, h2⟩ := demoSeq addblk
  have h3 := h2 cleanup
  have h4 : planApply world.applyEnv delta (.rpm (rpmOf world.lib world.U false oldFile.file)) cleanup >>= (fun p => .ok p.d) =
      readDelta world.dec world.applyEnv.rpmHead delta ∨ (applyFiles world oldFile.file delta cleanup).1 ≠ .ok () := by
    unfold applyFiles drpmApply applyTo
    simp only [Bool.true_eq_false, if_false, Out.bind_ok]
    cases hp : planApply world.applyEnv delta (.rpm (rpmOf world.lib world.U false oldFile.file)) cleanup with
    | ok p =>
      left
      unfold planApply at hp
      obtain ⟨d, hd, hp⟩ := Out.bind_eq_ok.mp hp
      obtain ⟨_, _, hp⟩ := Out.bind_eq_ok.mp hp
      obtain ⟨_, _, hp⟩ := Out.bind_eq_ok.mp hp
      obtain ⟨_, _, hp⟩ := Out.bind_eq_ok.mp hp
      obtain ⟨_, _, hp⟩ := Out.bind_eq_ok.mp hp
      obtain ⟨_, _, hp⟩ := Out.bind_eq_ok.mp hp
      cases hp
      exact hd.symm
    | err e => exact Or.inr nofun
    | ub => exact Or.inr nofun
    | loop => exact Or.inr nofun
  rcases h4 with h4 | h4
  · cases hp : planApply world.applyEnv delta (.rpm (rpmOf world.lib world.U false oldFile.file)) cleanup with
    | ok p =>
      rw [hp, Out.bind_ok] at h4
      rw [← h3]
      exact C79_cut world Ok laws whole md5_16 inOrder f 8 _ _ _ delta h1 p.d h4.symm b hb _ cleanup
    | err e =>
      have : applyFiles world oldFile.file delta cleanup = (.err e, .written []) := by
        unfold applyFiles drpmApply applyTo
        simp only [Bool.true_eq_false, if_false, Out.bind_ok, hp]
      rw [this] at h3
      cases h3
    | ub =>
      have : applyFiles world oldFile.file delta cleanup = (.ub, .partly) := by
        unfold applyFiles drpmApply applyTo
        simp only [Bool.true_eq_false, if_false, Out.bind_ok, hp]
      rw [this] at h3
      cases h3
    | loop =>
      have : applyFiles world oldFile.file delta cleanup = (.loop, .partly) := by
        unfold applyFiles drpmApply applyTo
        simp only [Bool.true_eq_false, if_false, Out.bind_ok, hp]
      rw [this] at h3
      cases h3
  · rw [h3] at h4
    exact absurd rfl h4

/-- If no write succeeds, an empty file is left. -/
theorem allFail {σ : Type} (env : ApplyEnv σ) (a : ApplyArgs) (cleanup : Nat) (l : Left) (h : drpmApply env a cleanup = (.ok (), l)) :
    drpmApplyOn ⟨none, fun _ => .fail, true⟩ env a cleanup = (.err .io, .written []) := by
  have h' := (C80_faultless ⟨none, fun _ => .all, true⟩ ⟨rfl, fun _ => rfl, rfl⟩ env a cleanup).1
  rw [h] at h'
  obtain ⟨delta, named, creatable, src⟩ := a
  cases delta with
  | none => cases h'
  | some delta =>
    cases named with
    | false => cases h'
    | true =>
      cases creatable with
      | false => cases h'
      | true =>
        change (applyToOn ⟨none, fun _ => .all, true⟩ env delta src cleanup).1 = .ok () at h'
        show applyToOn ⟨none, fun _ => .fail, true⟩ env delta src cleanup = _
        unfold applyToOn at h' ⊢
        simp only at h' ⊢
        cases delta with
        | err e => cases h'
        | ub => cases h'
        | loop => cases h'
        | ok file =>
          simp only at h' ⊢
          cases hp : planApplyOn env file src cleanup with
          | err e => rw [hp] at h'; cases h'
          | ub => rw [hp] at h'; cases h'
          | loop => rw [hp] at h'; cases h'
          | ok p =>
            obtain ⟨d, sig, body⟩ := p
            rw [hp] at h'
            simp only at h' ⊢
            cases body with
            | diff ws => rfl
            | same r =>
              unfold writeBodyOn writeOldOn at h' ⊢
              simp only [Bool.true_eq_false, if_false] at h' ⊢
              cases he : env.exportSig d.tgtLeadsig with
              | ok ls => rfl
              | err e => rw [he] at h'; cases h'
              | ub => rw [he] at h'; cases h'
              | loop => rw [he] at h'; cases h'

open Toy in
/-- Non-vacuity of C80: a delta is applied; nothing fails; any faults; nothing can be written. -/
example (addblk : Bool) (cleanup : Nat) : ∃ delta,
    let apply := fun f : ApplyFaults => drpmApplyOn f world.applyEnv
      ⟨some (.ok delta), true, true, .rpm (rpmOf world.lib world.U false oldFile.file)⟩ cleanup
    apply ⟨none, fun _ => .all, true⟩ = (.ok (), .written newFile.file) ∧
    (∀ f, apply f = (.ok (), .written newFile.file) ∨ ∃ e b, apply f = (.err e, .written b) ∧ b <+: newFile.file) ∧
    apply ⟨none, fun _ => .fail, true⟩ = (.err .io, .written []) := by
  obtain ⟨delta, _, h⟩ := C68_demo_standard addblk
  have h := h cleanup
  unfold applyFiles at h
  refine ⟨delta, ?_, fun f => C80_prefix f _ _ _ _ _ h, allFail _ _ _ _ h⟩
  have := (C80_faultless ⟨none, fun _ => .all, true⟩ ⟨rfl, fun _ => rfl, rfl⟩ world.applyEnv
    ⟨some (.ok delta), true, true, .rpm (rpmOf world.lib world.U false oldFile.file)⟩ cleanup).2 (by rw [h]; nofun)
  rw [h] at this
  exact this

end Drpm
