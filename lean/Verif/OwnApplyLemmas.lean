import Verif.OwnBlockLemmas

/-!
# Ownership: lemmas about `drpm_apply`
-/

namespace Drpm.Own

/-- Two lists have the same numbers, for the variables of `drpm_apply`. -/
syntax "samea" "[" term,* "]" : tactic

macro_rules
  | `(tactic| samea []) => `(tactic| (intro a; simp only [ApplyP.own, List.count_append]; sameb))
  | `(tactic| samea [$ls,*]) =>
    `(tactic| (intro a; simp only [ApplyP.own, List.count_append, $[$ls:term],*]; sameb))

theorem applyEnd_spec (s : Sched) (a : ApplyP) (hb : a.blks ≠ .dangling) :
    Gives s (applyEnd a) a.own (fun _ => []) fun _ lk => lk = codecsOf a.csw := by
  unfold applyEnd
  refine Spec.free (k := ownFiles a.list ++ a.files.toList ++ a.delta.own ++ ownRpm a.old ++
    a.nevr.toList ++ a.blks.own ++ ownStrm a.strm ++ ownWrap a.csw ++ a.cpio.toList ++
    a.addbuf.toList ++ a.buffer.toList ++ a.header.toList ++ a.comp.toList) (by samea []) ?_
  refine Gives.call (a.files.toList ++ a.delta.own ++ ownRpm a.old ++
    a.nevr.toList ++ a.blks.own ++ ownStrm a.strm ++ ownWrap a.csw ++ a.cpio.toList ++
    a.addbuf.toList ++ a.buffer.toList ++ a.header.toList ++ a.comp.toList)
    (freeFiles_spec s a.list) (by samea []) ?_
  rintro _ _ rfl
  refine Spec.free (k := a.delta.own ++ ownRpm a.old ++
    a.nevr.toList ++ a.blks.own ++ ownStrm a.strm ++ ownWrap a.csw ++ a.cpio.toList ++
    a.addbuf.toList ++ a.buffer.toList ++ a.header.toList ++ a.comp.toList) (by samea []) ?_
  refine Gives.call (ownRpm a.old ++
    a.nevr.toList ++ a.blks.own ++ ownStrm a.strm ++ ownWrap a.csw ++ a.cpio.toList ++
    a.addbuf.toList ++ a.buffer.toList ++ a.header.toList ++ a.comp.toList)
    (freeDelta_spec s a.delta) (by samea []) ?_
  rintro _ _ ⟨rfl, rfl⟩
  refine Gives.call (
    a.nevr.toList ++ a.blks.own ++ ownStrm a.strm ++ ownWrap a.csw ++ a.cpio.toList ++
    a.addbuf.toList ++ a.buffer.toList ++ a.header.toList ++ a.comp.toList)
    (rpmDestroy_spec s a.old) (by samea []) ?_
  rintro _ _ rfl
  refine Spec.free (k :=
    a.blks.own ++ ownStrm a.strm ++ ownWrap a.csw ++ a.cpio.toList ++
    a.addbuf.toList ++ a.buffer.toList ++ a.header.toList ++ a.comp.toList) (by samea []) ?_
  refine Gives.call (
    ownStrm a.strm ++ ownWrap a.csw ++ a.cpio.toList ++
    a.addbuf.toList ++ a.buffer.toList ++ a.header.toList ++ a.comp.toList)
    (blocksDestroy_spec s a.blks hb) (by samea []) ?_
  rintro _ _ rfl
  refine Gives.call (ownWrap a.csw ++ a.cpio.toList ++
    a.addbuf.toList ++ a.buffer.toList ++ a.header.toList ++ a.comp.toList)
    (strmDestroy_spec s a.strm) (by samea []) ?_
  rintro _ _ rfl
  refine Gives.call (a.cpio.toList ++
    a.addbuf.toList ++ a.buffer.toList ++ a.header.toList ++ a.comp.toList)
    (wrapDestroy_spec s a.csw) (by samea []) ?_
  rintro _ _ rfl
  refine Spec.same (l' := ids [a.cpio, a.addbuf, a.buffer, a.header, a.comp] ++ codecsOf a.csw)
    (by samea [])
    (Spec.mono (freeAll_spec s _ _) fun _ _ h => ⟨codecsOf a.csw, by rw [h]; same, rfl⟩)

/-- After the delta has been read, these are the calls whose failure makes `drpm_apply` forget
something besides the state inside the compression library. -/
structure OutKept (s : Sched) : Prop where
  self : s.Passes .blkSelf
  chunk : s.Passes .zstdChunk
  known : s.Passes .compKnown
  param : s.Passes .compParam
  write : s.Passes .compWrite
  finish : s.Passes .compFinish

/-- The variables that are still empty at the several points of `drpm_apply`. -/
structure Late (a : ApplyP) : Prop where
  csw : a.csw = none
  comp : a.comp = none

structure Mid (a : ApplyP) : Prop extends Late a where
  blks : a.blks = .null
  strm : a.strm = none
  addbuf : a.addbuf = none
  buffer : a.buffer = none
  header : a.header = none

structure Early (a : ApplyP) : Prop extends Mid a where
  nevr : a.nevr = none
  files : a.files = none
  list : a.list = []
  cpio : a.cpio = none

/-- The cache may be used. -/
structure BlksOk (s : Sched) (b : BlksR) : Prop where
  live : b ≠ .dangling
  files : ∀ c, b = .blks c → FilesSafe s c.kind

theorem BlksOk.null {s : Sched} : BlksOk s .null := ⟨nofun, nofun⟩

/-- What every step guarantees. -/
structure Post (s : Sched) (r : ApplyP × Bool) (lk : List Nat) : Prop where
  blks : BlksOk s r.1.blks
  leak : r.2 = true ∨ OutKept s → lk = []
  codec : s.Never .compressed → codecsOf r.1.csw = []

/-- A step: what holds before, and what its success guarantees. -/
def Step (s : Sched) (Pre : ApplyP → Prop) (f : ApplyP → Res (ApplyP × Bool))
    (After : ApplyP → Prop) : Prop :=
  ∀ a, Pre a → Gives s (f a) a.own (fun r => r.1.own)
    fun r lk => Post s r lk ∧ (r.2 = true → After r.1)

theorem Step.andThen {s : Sched} {Pre Mid After : ApplyP → Prop}
    {f g : ApplyP → Res (ApplyP × Bool)} (hf : Step s Pre f Mid) (hg : Step s Mid g After) :
    Step s Pre (andThen f g) After := by
  intro a ha
  unfold Own.andThen
  refine Gives.call [] (hf a ha) (by same) ?_
  rintro ⟨a', _ | _⟩ lk ⟨hp, hm⟩
  · exact Gives.ret lk (by same) ⟨hp, nofun⟩
  · cases hp.leak (.inl rfl)
    exact Gives.same (by same) (hg a' (hm rfl))

theorem Post.of (s : Sched) {a : ApplyP} {b : Bool} (hb : BlksOk s a.blks)
    (hc : s.Never .compressed → codecsOf a.csw = []) : Post s (a, b) [] :=
  ⟨hb, fun _ => rfl, hc⟩

/-- Returning without leaving anything. -/
theorem step_ret {s : Sched} {a' : ApplyP} {b : Bool} {l : List Nat} {After : ApplyP → Prop}
    (hl : Same l (a'.own ++ [])) (hb : BlksOk s a'.blks)
    (hc : s.Never .compressed → codecsOf a'.csw = []) (ha : b = true → After a') :
    Gives s (pure (a', b)) l (fun r : ApplyP × Bool => r.1.own)
      fun r lk => Post s r lk ∧ (r.2 = true → After r.1) :=
  Gives.ret [] hl ⟨Post.of s hb hc, ha⟩

theorem Mid.ok {s : Sched} {a : ApplyP} (h : Mid a) : BlksOk s a.blks := by
  rw [h.blks]; exact BlksOk.null

theorem Late.codec {s : Sched} {a : ApplyP} (h : Late a) :
    s.Never .compressed → codecsOf a.csw = [] := fun _ => by rw [h.csw]; rfl

theorem applySeq_spec (s : Sched) : Step s Early applySeq Mid := by
  intro a ha
  unfold applySeq
  refine Gives.call a.own (cmpNevr_spec s) (by same) ?_
  rintro ⟨n, _ | _⟩ lk rfl
  · exact step_ret (a' := { a with nevr := n }) (by samea [ha.nevr]) ha.ok ha.codec nofun
  refine Spec.cond (fun _ => ?_) fun h => absurd rfl h
  refine Spec.cond (fun _ => ?_) fun _ => ?_
  · exact step_ret (a' := { a with nevr := n }) (by samea [ha.nevr]) ha.ok ha.codec
      fun _ => ⟨⟨ha.csw, ha.comp⟩, ha.blks, ha.strm, ha.addbuf, ha.buffer, ha.header⟩
  refine Gives.call (n.toList ++ a.own) (getFileInfo_spec s) (by same) ?_
  rintro ⟨p, fs, _ | _⟩ lk rfl
  · exact step_ret (a' := { a with nevr := n, files := p, list := fs })
      (by samea [ha.nevr, ha.files, ha.list]) ha.ok ha.codec nofun
  refine Gives.call (p.toList ++ ownFiles fs ++ n.toList ++ a.own) (getTag_spec s) (by same) ?_
  rintro (_ | _) lk rfl
  · exact step_ret (a' := { a with nevr := n, files := p, list := fs })
      (by samea [ha.nevr, ha.files, ha.list]) ha.ok ha.codec nofun
  refine Gives.call (p.toList ++ ownFiles fs ++ n.toList ++ a.own)
    (expandSeq_spec s true .none (.inl rfl) (.inr rfl)) (by same) ?_
  rintro ⟨q, b⟩ lk ⟨-, hm, -⟩
  cases hm rfl
  exact step_ret (a' := { a with nevr := n, files := p, list := fs, cpio := q })
    (by samea [ha.nevr, ha.files, ha.list, ha.cpio]) ha.ok ha.codec
    fun _ => ⟨⟨ha.csw, ha.comp⟩, ha.blks, ha.strm, ha.addbuf, ha.buffer, ha.header⟩

theorem applySig_spec (s : Sched) : Step s Mid applySig Mid := by
  intro a ha
  unfold applySig
  cases ho : a.old with
  | none => exact step_ret (by samea []) ha.ok ha.codec nofun
  | some r =>
    refine Gives.call ([a.fd] ++ ownFiles a.list ++ a.files.toList ++ a.delta.own ++ a.nevr.toList ++
      a.blks.own ++ ownStrm a.strm ++ ownWrap a.csw ++ a.cpio.toList ++ a.addbuf.toList ++
      a.buffer.toList ++ a.header.toList ++ a.comp.toList) (replaceSig_spec s r)
      (by samea [ho]) ?_
    rintro ⟨r', b⟩ lk rfl
    exact step_ret (a' := { a with old := some r' }) (by samea []) ha.ok ha.codec
      fun _ => ⟨⟨ha.csw, ha.comp⟩, ha.blks, ha.strm, ha.addbuf, ha.buffer, ha.header⟩

/-- The state after the cache has been created. -/
structure Open (s : Sched) (a : ApplyP) : Prop extends Late a where
  blks : BlksOk s a.blks
  header : a.header = none

theorem applyOpen_spec (s : Sched) (hs : CacheSafe s) (fromRpm : Bool)
    (hf : fromRpm = false → s.Passes .elfStr ∧ s.Passes .prelinkOpen) :
    Step s Mid (applyOpen fromRpm) (Open s) := by
  intro a ha
  unfold applyOpen
  have hk : ∀ kind, kind = (if fromRpm then if a.delta.rpmonly then SrcKind.rpmonly else .standard
      else .filesystem) → FilesSafe s kind := by
    rintro _ rfl h
    refine hf ?_
    cases fromRpm with
    | false => rfl
    | true => cases hr : a.delta.rpmonly <;> simp [hr] at h
  refine Gives.call a.own (blocksCreate_spec s hs _) (by same) ?_
  rintro ⟨b, ok⟩ lk ⟨hl, hb, hn⟩
  have hbo : BlksOk s b := by
    rcases hb with rfl | ⟨c, rfl, hc⟩
    · exact BlksOk.null
    · refine ⟨nofun, fun c' e => ?_⟩
      cases e
      exact hk _ hc
  cases ok with
  | false =>
    refine Gives.ret lk (by samea [ha.blks]) ⟨⟨hbo, ?_, ha.codec⟩, nofun⟩
    rintro (h | h)
    · exact nomatch h
    · exact hl (.inr h.self)
  | true =>
    cases hl (.inl rfl)
    have buf : ∀ (st : Option StrmP) (ab : Option Nat), Gives s (do
        let buf ← alloc .call
        let good ← test .call
        pure (({ a with blks := b, strm := st, addbuf := ab, buffer := buf } : ApplyP),
          buf.isSome && good)) (ab.toList ++ ownStrm st ++ b.own ++ a.own)
        (fun r => r.1.own) fun r lk => Post s r lk ∧ (r.2 = true → Open s r.1) := by
      intro st ab
      have af : ∀ buf : Option Nat, Open s { a with blks := b, strm := st, addbuf := ab, buffer := buf } :=
        fun _ => ⟨⟨ha.csw, ha.comp⟩, hbo, ha.header⟩
      refine Spec.bind (alloc_spec s .call _) ?_
      rintro p l' ⟨rfl, -⟩
      refine Spec.test ?_ ?_ <;>
      · exact step_ret (by samea [ha.blks, ha.strm, ha.addbuf, ha.buffer]) hbo ha.codec
          fun _ => af p
    refine Spec.test ?_ ?_
    · refine Spec.same (l' := (none : Option Nat).toList ++ ownStrm none ++ b.own ++ a.own) (by same) ?_
      exact buf none none
    · refine Gives.call (b.own ++ a.own) (strmInit_spec s) (by same) ?_
      rintro (_ | st) lk rfl
      · exact step_ret (a' := { a with blks := b }) (by samea [ha.blks]) hbo ha.codec nofun
      refine Spec.cond (fun h => nomatch h.2) fun _ => ?_
      refine Spec.alloc ?_ fun ab => ?_
      · exact step_ret (a' := { a with blks := b, strm := some st })
          (by samea [ha.blks, ha.strm]) hbo ha.codec nofun
      refine Spec.cond (fun h => nomatch h.2) fun _ => ?_
      exact Gives.same (by same) (buf (some st) (some ab))

/-- The state after the header has been written. -/
structure Ready (s : Sched) (a : ApplyP) : Prop extends Late a where
  blks : BlksOk s a.blks

theorem applyHeader_spec (s : Sched) : Step s (Open s) applyHeader (Ready s) := by
  intro a ha
  unfold applyHeader
  cases hr : a.delta.rpmonly with
  | true => exact step_ret (by samea []) ha.blks ha.codec fun _ => ⟨⟨ha.csw, ha.comp⟩, ha.blks⟩
  | false =>
    cases ht : a.delta.tgtRpm with
    | none => exact step_ret (by samea []) ha.blks ha.codec nofun
    | some t =>
      have hd : a.delta.own = t.own ++ ids a.delta.ptrs := by
        rw [DeltaP.own_standard hr, ht]; rfl
      have hd' : ∀ t' : RpmP, ({ a.delta with tgtRpm := some t' } : DeltaP).own =
          t'.own ++ ids a.delta.ptrs := fun t' => DeltaP.own_standard (d := { a.delta with tgtRpm := some t' }) hr
      refine Gives.call ([a.fd] ++ ownFiles a.list ++ a.files.toList ++ ids a.delta.ptrs ++
        ownRpm a.old ++ a.nevr.toList ++
        a.blks.own ++ ownStrm a.strm ++ ownWrap a.csw ++ a.cpio.toList ++ a.addbuf.toList ++
        a.buffer.toList ++ a.header.toList ++ a.comp.toList) (patchFormat_spec s t)
        (by samea [hd]) ?_
      rintro ⟨t', _ | _⟩ lk rfl
      · exact step_ret (a' := { a with delta := { a.delta with tgtRpm := some t' } })
          (by samea [hd']) ha.blks ha.codec nofun
      refine Gives.call ({ a with delta := { a.delta with tgtRpm := some t' } } : ApplyP).own
        (exportHdr_spec s .call) (by samea [hd']) ?_
      rintro p lk ⟨rfl, -⟩
      refine Spec.test ?_ ?_ <;>
      · exact step_ret (a' := { a with delta := { a.delta with tgtRpm := some t' }, header := p })
          (by samea [hd', ha.header]) ha.blks ha.codec
          fun _ => ⟨⟨ha.csw, ha.comp⟩, ha.blks⟩

/-- The state while the data are written. -/
structure Running (s : Sched) (a : ApplyP) : Prop where
  comp : a.comp = none
  blks : BlksOk s a.blks
  codec : s.Never .compressed → codecsOf a.csw = []

theorem applyWrap_spec (s : Sched) : Step s (Ready s) applyWrap (Running s) := by
  intro a ha
  unfold applyWrap
  refine Gives.call a.own (wrapInit_spec s) (by same) ?_
  rintro w lk ⟨hl, hc⟩
  refine Gives.ret lk (by samea [ha.csw]) ⟨⟨ha.blks, ?_, hc⟩, fun _ => ⟨ha.comp, ha.blks, hc⟩⟩
  rintro (h | h)
  · refine hl (.inl ?_)
    rintro rfl
    exact nomatch h
  · exact hl (.inr ⟨h.known, h.param⟩)

theorem applyPiece_spec (s : Sched) (hs : CacheSafe s) :
    Step s (Running s) applyPiece (Running s) := by
  intro a ha
  unfold applyPiece
  cases hb : a.blks with
  | null => exact step_ret (by samea []) ha.blks ha.codec nofun
  | dangling => exact step_ret (by samea []) ha.blks ha.codec nofun
  | blks b =>
    refine Gives.call ([a.fd] ++ ownFiles a.list ++ a.files.toList ++ a.delta.own ++
        ownRpm a.old ++ a.nevr.toList ++
        ownStrm a.strm ++ ownWrap a.csw ++ a.cpio.toList ++ a.addbuf.toList ++
        a.buffer.toList ++ a.header.toList ++ a.comp.toList)
      (blocksNext_spec s hs b (ha.blks.files b hb)) (by samea [hb]) ?_
    rintro ⟨b', ok⟩ lk ⟨rfl, hk⟩
    have hbo : BlksOk s (.blks b') := by
      refine ⟨nofun, fun c e => ?_⟩
      cases e
      dsimp only at hk
      rw [hk]
      exact ha.blks.files b hb
    cases ok with
    | false =>
      exact step_ret (a' := { a with blks := .blks b' }) (by samea []) hbo ha.codec nofun
    | true =>
      refine Spec.cond (fun _ => ?_) fun h => absurd rfl h
      cases hst : a.strm with
      | none =>
        exact step_ret (a' := { a with blks := .blks b', strm := none }) (by samea []) hbo ha.codec
          fun _ => ⟨ha.comp, hbo, ha.codec⟩
      | some st =>
        refine Gives.call ([a.fd] ++ ownFiles a.list ++ a.files.toList ++ a.delta.own ++
            ownRpm a.old ++ a.nevr.toList ++ b'.own ++
            ownWrap a.csw ++ a.cpio.toList ++ a.addbuf.toList ++
            a.buffer.toList ++ a.header.toList ++ a.comp.toList)
          (strmRead_spec s st) (by samea []) ?_
        rintro ⟨st', ok⟩ lk hl
        refine Gives.ret lk (by samea []) ⟨⟨hbo, ?_, ha.codec⟩, fun _ => ⟨ha.comp, hbo, ha.codec⟩⟩
        rintro (h | h)
        · exact hl (.inl h)
        · exact hl (.inr h.chunk)

theorem applyWrite_spec (s : Sched) : Step s (Running s) applyWrite (Running s) := by
  intro a ha
  unfold applyWrite
  cases hw : a.csw with
  | none => exact step_ret (by samea []) ha.blks ha.codec nofun
  | some w =>
    refine Gives.call ([a.fd] ++ ownFiles a.list ++ a.files.toList ++ a.delta.own ++
        ownRpm a.old ++ a.nevr.toList ++ a.blks.own ++
        ownStrm a.strm ++ a.cpio.toList ++ a.addbuf.toList ++
        a.buffer.toList ++ a.header.toList ++ a.comp.toList)
      (wrapWrite_spec s w) (by samea [hw]) ?_
    rintro ⟨w', ok⟩ lk ⟨hl, hc⟩
    have hc' : s.Never .compressed → codecsOf (some w') = [] := fun h => by
      have := ha.codec h
      rw [hw] at this
      show w'.strm.codec.toList = []
      dsimp only at hc
      rw [hc]
      exact this
    refine Gives.ret lk (by samea []) ⟨⟨ha.blks, ?_, hc'⟩, fun _ => ⟨ha.comp, ha.blks, hc'⟩⟩
    rintro (h | h)
    · exact hl (.inl h)
    · exact hl (.inr h.write)

theorem applyLoop_spec (s : Sched) (hs : CacheSafe s) : ∀ n : Nat,
    Step s (Running s) (applyLoop n) (Running s)
  | 0 => fun a ha => Spec.test (step_ret (by same) ha.blks ha.codec nofun)
      (step_ret (by same) ha.blks ha.codec fun _ => ha)
  | n + 1 => by
    have rest : Step s (Running s) (fun a => do
        let w ← applyWrite a
        if w.2 then applyLoop n w.1 else pure (w.1, false)) (Running s) := by
      intro a ha
      refine Gives.call [] (applyWrite_spec s a ha) (by same) ?_
      rintro ⟨a', _ | _⟩ lk ⟨hp, hm⟩
      · exact Gives.ret lk (by same) ⟨hp, nofun⟩
      · cases hp.leak (.inl rfl)
        exact Gives.same (by same) (applyLoop_spec s hs n a' (hm rfl))
    intro a ha
    unfold applyLoop
    refine Spec.test (rest a ha) ?_
    refine Gives.call [] (applyPiece_spec s hs a ha) (by same) ?_
    rintro ⟨a', _ | _⟩ lk ⟨hp, hm⟩
    · exact Gives.ret lk (by same) ⟨hp, nofun⟩
    · cases hp.leak (.inl rfl)
      exact Gives.same (by same) (rest a' (hm rfl))

/-- The state after the output has been finished. -/
structure Done (s : Sched) (a : ApplyP) : Prop where
  blks : BlksOk s a.blks
  codec : codecsOf a.csw = []

theorem applyFinish_spec (s : Sched) (hj : s.Passes .finishJoin) :
    Step s (Running s) applyFinish (Done s) := by
  intro a ha
  unfold applyFinish
  cases hw : a.csw with
  | none => exact step_ret (by samea []) ha.blks ha.codec nofun
  | some w =>
    refine Gives.call ([a.fd] ++ ownFiles a.list ++ a.files.toList ++ a.delta.own ++
        ownRpm a.old ++ a.nevr.toList ++ a.blks.own ++
        ownStrm a.strm ++ a.cpio.toList ++ a.addbuf.toList ++
        a.buffer.toList ++ a.header.toList)
      (wrapFinish_spec s hj w) (by samea [hw, ha.comp]) ?_
    rintro ⟨w', p, ok⟩ lk ⟨hl, hc⟩
    have hc' : s.Never .compressed → codecsOf (some w') = [] := fun h => by
      have h1 := ha.codec h
      rw [hw] at h1
      have h2 : w.strm.codec = none := by
        cases hcw : w.strm.codec with
        | none => rfl
        | some i => rw [codecsOf, hcw] at h1; exact nomatch h1
      show w'.strm.codec.toList = []
      rw [hc h2]; rfl
    have hl' : ok = true ∨ OutKept s → lk = [] := by
      rintro (h | h)
      · exact (hl (.inl h)).1
      · exact (hl (.inr h.finish)).1
    refine Spec.test ?_ ?_
    · refine Gives.ret lk (by samea []) ⟨⟨ha.blks, ?_, hc'⟩, ?_⟩
      · rintro (h | h)
        · simp at h
        · exact hl' (.inr h)
      · intro h
        simp at h
    · refine Gives.ret lk (by samea []) ⟨⟨ha.blks, ?_, hc'⟩, ?_⟩
      · rintro (h | h)
        · exact hl' (.inl (by simpa using h))
        · exact hl' (.inr h)
      · intro h
        have hn := (hl (.inl (by simpa using h))).2
        refine ⟨ha.blks, ?_⟩
        show w'.strm.codec.toList = []
        dsimp only at hn
        rw [hn]; rfl

theorem applyCheck_spec (s : Sched) : Step s (Done s) applyCheck (Done s) := by
  intro a ha
  unfold applyCheck
  refine Spec.test ?_ ?_
  · refine Gives.call a.own (getTag_spec s) (by same) ?_
    rintro b lk rfl
    exact step_ret (by samea []) ha.blks (fun _ => ha.codec) fun _ => ha
  · exact Spec.test (step_ret (by same) ha.blks (fun _ => ha.codec) fun _ => ha)
      (step_ret (by same) ha.blks (fun _ => ha.codec) fun _ => ha)

theorem applyDiff_spec (s : Sched) (hs : CacheSafe s) (hj : s.Passes .finishJoin) (fromRpm : Bool)
    (hf : fromRpm = false → s.Passes .elfStr ∧ s.Passes .prelinkOpen) :
    Step s Mid (applyDiff fromRpm) (Done s) :=
  (applyOpen_spec s hs fromRpm hf).andThen <| (applyHeader_spec s).andThen <|
    (applyWrap_spec s).andThen <|
      Step.andThen (fun a ha => Spec.pick fun n => applyLoop_spec s hs n a ha)
        (applyFinish_spec s hj)

theorem applyOut_spec (s : Sched) (hs : CacheSafe s) (hj : s.Passes .finishJoin) (fromRpm : Bool)
    (hf : fromRpm = false → s.Passes .elfStr ∧ s.Passes .prelinkOpen) :
    Step s Mid (applyOut fromRpm) (Done s) := by
  intro a ha
  unfold applyOut
  have key : ∀ nodiff : Bool, Gives s (if a.delta.rpmonly = true ∧ nodiff = true then do
      let w ← rpmWrite .call
      pure (a, w)
    else applyDiff fromRpm a) a.own (fun r => r.1.own)
      fun r lk => Post s r lk ∧ (r.2 = true → Done s r.1) := by
    intro nodiff
    refine Spec.cond (fun _ => ?_) fun _ => applyDiff_spec s hs hj fromRpm hf a ha
    refine Gives.call a.own (rpmWrite_spec s .call) (by same) ?_
    rintro b lk rfl
    exact step_ret (by samea []) ha.ok ha.codec fun _ => ⟨ha.ok, by rw [ha.csw]; rfl⟩
  exact Spec.test (key false) (key true)

/-- The state before the old package is read. -/
structure Start (a : ApplyP) : Prop extends Early a where
  old : a.old = none

/-- Reading the old package leaves one block from the rpm database, nothing from a file. -/
theorem applyOld_spec (s : Sched) (fromRpm : Bool)
    (hx : fromRpm = false → s.Passes .dbExport ∧ s.Passes .nevrCopy) (a : ApplyP) (ha : Start a) :
    Gives s (applyOld fromRpm a) a.own (fun r => r.1.own)
      fun r lk => (fromRpm = true → r.2 = true ∨ s.Passes .zstdChunk → lk = []) ∧
        (fromRpm = false → lk.length ≤ 1 ∧ (r.2 = true → lk.length = 1)) ∧ Early r.1 := by
  have early : ∀ o : Option RpmP, Early { a with old := o } := fun o =>
    ⟨⟨⟨ha.csw, ha.comp⟩, ha.blks, ha.strm, ha.addbuf, ha.buffer, ha.header⟩, ha.nevr, ha.files,
      ha.list, ha.cpio⟩
  unfold applyOld
  cases fromRpm with
  | true =>
    refine Gives.call a.own (rpmRead_spec s .call .decomp false false nofun) (by same) ?_
    rintro ⟨r, _ | _⟩ lk ⟨hz, -⟩
    · exact Gives.ret lk (by samea [ha.old])
        ⟨fun _ h => hz (.inr (.inl (h.resolve_left nofun))), nofun, early r⟩
    cases hz (.inl rfl)
    refine Spec.cond (fun _ => ?_) fun h => absurd rfl h
    refine Spec.cond (fun _ => ?_) fun _ =>
      Gives.ret [] (by samea [ha.old]) ⟨fun _ _ => rfl, nofun, early r⟩
    refine Gives.call (ownRpm r ++ a.own) (getTag_spec s) (by same) ?_
    rintro (_ | _) lk' rfl
    · exact Gives.ret [] (by samea [ha.old]) ⟨fun _ _ => rfl, nofun, early r⟩
    · exact Spec.test
        (Gives.ret [] (by samea [ha.old]) ⟨fun _ _ => rfl, nofun, early r⟩)
        (Gives.ret [] (by samea [ha.old]) ⟨fun _ _ => rfl, nofun, early r⟩)
  | false =>
    refine Gives.call a.own (readHeader_spec s (hx rfl).1 (hx rfl).2) (by same) ?_
    rintro ⟨r, b⟩ lk ⟨hl, h1, -⟩
    exact Gives.ret lk (by samea [ha.old]) ⟨nofun, fun _ => ⟨hl, fun h => (h1 h).1⟩, early r⟩

/-- What has to go well for `drpm_apply` to do nothing undefined. -/
structure ApplySafe (s : Sched) (fromRpm : Bool) : Prop where
  cache : CacheSafe s
  join : s.Passes .finishJoin
  files : fromRpm = false → s.Passes .elfStr ∧ s.Passes .prelinkOpen
  header : fromRpm = false → s.Passes .dbExport ∧ s.Passes .nevrCopy

/-- What has to go well for `drpm_apply` to forget nothing but the state inside the compression library
and, without an old package, the block of the rpm database. -/
structure ApplyKept (s : Sched) (fromRpm : Bool) : Prop where
  read : ReadLeakFree s
  out : OutKept s
  args : fromRpm = false → s.Passes .applyArgs ∧ s.Never .rpmonly

/-- What is left of an installed package. -/
def dbBlocks (fromRpm : Bool) : Nat := if fromRpm then 0 else 1

theorem codecsOf_length (w : Option WrapP) : (codecsOf w).length ≤ 1 := by
  cases w with
  | none => exact Nat.zero_le _
  | some w =>
    show w.strm.codec.toList.length ≤ 1
    cases w.strm.codec <;> simp

theorem applyBody_spec (s : Sched) (fromRpm : Bool) (hs : ApplySafe s fromRpm) (a : ApplyP)
    (ha : Start a) :
    Gives s (applyBody fromRpm a) a.own (fun r => r.1.own)
      fun r lk => r.1.blks ≠ .dangling ∧
        (r.2 = true → lk.length = dbBlocks fromRpm ∧ codecsOf r.1.csw = []) ∧
        (OutKept s → lk.length ≤ dbBlocks fromRpm) ∧
        (s.Never .compressed → codecsOf r.1.csw = []) := by
  unfold applyBody
  conv => enter [2]; unfold Own.andThen
  refine Gives.call [] (applyOld_spec s fromRpm hs.header a ha) (by same) ?_
  have rest : Step s Early (Own.andThen applySeq <| Own.andThen applySig <|
      Own.andThen (applyOut fromRpm) applyCheck) (Done s) :=
    (applySeq_spec s).andThen <| (applySig_spec s).andThen <|
      (applyOut_spec s hs.cache hs.join fromRpm hs.files).andThen (applyCheck_spec s)
  rintro ⟨b, _ | _⟩ lk ⟨h1, h2, he⟩
  · refine Gives.ret lk (by same) ⟨(he.ok (s := s)).live, nofun, fun h => ?_, he.codec⟩
    cases fromRpm with
    | true => rw [h1 rfl (.inr h.chunk)]; exact Nat.zero_le _
    | false => exact (h2 rfl).1
  · have hlk : lk.length = dbBlocks fromRpm := by
      cases fromRpm with
      | true => rw [h1 rfl (.inl rfl)]; rfl
      | false => exact (h2 rfl).2 rfl
    refine Gives.last lk (rest b he) (by same) ?_
    rintro ⟨c, ok⟩ lk' ⟨hp, hd⟩
    refine ⟨lk' ++ lk, by same, hp.blks.live, fun h => ⟨?_, (hd h).codec⟩, fun h => ?_, hp.codec⟩
    · rw [hp.leak (.inl h)]; exact hlk
    · rw [hp.leak (.inr h)]; exact Nat.le_of_eq hlk

theorem drpmApply_spec (s : Sched) (fromRpm : Bool) (hs : ApplySafe s fromRpm) :
    Gives s (drpmApply fromRpm) [] (fun _ => [])
      fun r lk => (r = true → lk.length = dbBlocks fromRpm) ∧
        (ApplyKept s fromRpm → lk.length ≤ dbBlocks fromRpm + 1 ∧
          (s.Never .compressed → lk.length ≤ dbBlocks fromRpm)) := by
  unfold drpmApply
  refine Spec.alloc (Gives.ret [] (by same) ⟨nofun, fun _ => ⟨Nat.zero_le _, fun _ => Nat.zero_le _⟩⟩)
    fun fd => ?_
  have start : ∀ d, Start { fd := fd, delta := d } := fun d =>
    ⟨⟨⟨⟨rfl, rfl⟩, rfl, rfl, rfl, rfl, rfl⟩, rfl, rfl, rfl, rfl⟩, rfl⟩
  refine Gives.call [fd] (readDeltarpm_spec s) (by same) ?_
  rintro ⟨d, _ | _⟩ lk ⟨hl, -, hr⟩
  · refine Gives.call lk (applyEnd_spec s { fd := fd, delta := d } nofun) (by samea []) ?_
    rintro _ _ rfl
    refine Gives.ret lk (show Same ([] ++ lk) ([] ++ lk) from Same.rfl) ⟨nofun, fun h => ?_⟩
    cases hl (.inr h.read)
    exact ⟨Nat.zero_le _, fun _ => Nat.zero_le _⟩
  cases hl (.inl rfl)
  have go : ∀ l, Same l ({ fd := fd, delta := d } : ApplyP).own → Gives s (do
      let r ← applyBody fromRpm { fd := fd, delta := d }
      applyEnd r.1
      pure r.2) l (fun _ => []) fun r lk => (r = true → lk.length = dbBlocks fromRpm) ∧
        (ApplyKept s fromRpm → lk.length ≤ dbBlocks fromRpm + 1 ∧
          (s.Never .compressed → lk.length ≤ dbBlocks fromRpm)) := by
    intro l hsame
    refine Gives.same hsame ?_
    refine Gives.call [] (applyBody_spec s fromRpm hs _ (start d)) (by same) ?_
    rintro ⟨b, ok⟩ lk ⟨hb, h1, h2, h3⟩
    refine Gives.call lk (applyEnd_spec s b hb) (by same) ?_
    rintro _ _ rfl
    refine Gives.ret (codecsOf b.csw ++ lk) (by same) ⟨fun h => ?_, fun h => ⟨?_, fun hn => ?_⟩⟩
    · rw [(h1 h).2]; exact (h1 h).1
    · have := codecsOf_length b.csw
      have := h2 h.out
      simp only [List.length_append]
      omega
    · rw [h3 hn]; exact h2 h.out
  have key : ∀ binary : Bool, (binary = false → ¬ s.Passes .applyArgs) →
      Gives s (if fromRpm = false ∧ (d.rpmonly = true ∨ binary = false) then pure false
        else do
          let r ← applyBody fromRpm { fd := fd, delta := d }
          applyEnd r.1
          pure r.2) (d.own ++ [] ++ [fd]) (fun _ => [])
        fun r lk => (r = true → lk.length = dbBlocks fromRpm) ∧
        (ApplyKept s fromRpm → lk.length ≤ dbBlocks fromRpm + 1 ∧
          (s.Never .compressed → lk.length ≤ dbBlocks fromRpm)) := by
    intro binary hbin
    refine Spec.cond (fun hc => ?_) fun _ => go _ (by samea [])
    refine Gives.ret (d.own ++ [fd]) (by same) ⟨nofun, fun h => absurd (h.args hc.1) ?_⟩
    rintro ⟨h1, h2⟩
    rcases hc.2 with h | h
    · exact hr h h2
    · exact hbin h h1
  refine Spec.cond (fun _ => ?_) fun h => absurd rfl h
  exact Spec.testP (fun h => key false fun _ => h) (key true nofun)

end Drpm.Own
