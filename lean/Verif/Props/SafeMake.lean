import Verif.MakeSafe
import Verif.Props.Safe
/-!
# Property C53: making a delta is memory-safe, whatever the packages contain

The full statement `∀ env o old new, (drpmMake env o old new).Defined` is false: `C53_violated_name`,
`C53_violated_short`, `C58_violated`, `C61_violated_api`. The conditions below exclude these.
-/

namespace Drpm

/-- C53 (archive): building the altered archive of an old package, its file order and its offset
    adjustments stays inside all buffers and ends, whatever bytes the archive consists of and whatever
    the file list says, for archives below 16 GiB in which no CPIO header has a name of length zero and
    file lists in which no digest is longer than 65 characters. -/
theorem C53_archive (H : Bytes → Bytes) (m : MakeIn) (hl : m.archive.length < 2^34) (hc : m.files.length ≤ 2^32)
    (hne : ∀ off h, cpioHeaderRead (slice m.archive off 110) = .ok h → h.namesize ≠ 0)
    (hd : ∀ f ∈ m.files, f.md5.length ≤ 65) : (makeCpio H m).Defined :=
  (makeCpio_good H hl hne (fun f hf => Nat.lt_succ_of_le (hd f hf)) hc).defined

/-- A level that the compressor of the method has (`C61_violated`). -/
def LevelFits (comp level : Nat) : Prop :=
  level ≤ 9 ∨ (comp ≠ Comp.gzip.code ∧ comp ≠ Comp.bzip2.code ∧ comp ≠ Comp.lzma.code)

/-- Outside the library: the compressors' own functions are defined, and so is what rpmlib does to put lead,
    signature and header in front of a standard delta (for rpmlib with `SoundLib`: `deltaHead_defined` in `Props/SafeFiles`). -/
structure SoundMakeEnv (env : MakeEnv) : Prop where
  addComp : ∀ c l ws, (env.addComp c l ws).Defined
  compress : ∀ c l s, (env.compress c l s).Defined
  head : ∀ h z, (env.rpmW h z).Defined

/-- The old package of a delta: rpmlib's answers are defined; for a standard delta, its archive is below
    16 GiB and has no entry with a name of length zero (`C53_violated_name`), and no digest in its
    header is longer than 65 characters (`C58_violated`). -/
structure CarefulOld (o : Opts Bytes) (r : Rpm) : Prop where
  nevr : r.nevr.Defined
  files : r.files.Defined
  algo : r.algo.Defined
  small : o.rpmOnly = false → r.archive.length < 2^34
  names : o.rpmOnly = false → NoEmptyName r.archive
  listed : ∀ fs, o.rpmOnly = false → r.files = .ok fs → fs.length ≤ 2^32 ∧ ∀ f ∈ fs, f.md5.length ≤ 65

/-- The new package of a delta: rpmlib's answers are defined, the header is at least 16 bytes long (and
    so is the one rpmlib makes from it with the payload format "drpm"), a non-empty archive has at least 16 bytes (`C03_violated`), and a level taken from the package is one
    its compressor has (`C61_violated`). -/
structure CarefulNew (env : MakeEnv) (o : Opts Bytes) (r : Rpm) : Prop where
  nevr : r.nevr.Defined
  level : r.level.Defined
  isCpio : r.isCpio.Defined
  header : 16 ≤ r.header.length ∧ r.header.length < 2^32 - 16
  marked : (env.markHeader r.header).Defined ∧ ∀ h, env.markHeader r.header = .ok h → 16 ≤ h.length ∧ h.length < 2^32 - 16
  archive : r.archive = [] ∨ 16 ≤ r.archive.length
  small : r.header.length + r.archive.length < 2^63
  fits : ∀ l, o.compFromRpm = true → r.level = .ok l → LevelFits r.comp l

theorem compressDelta_good {env : MakeEnv} (he : SoundMakeEnv env) {comp level : Nat} (h : LevelFits comp level) (s : Bytes) :
    (compressDelta env comp level s).Good (fun _ => True) := by
  unfold compressDelta
  refine (strmOpen_good (by unfold LevelFits at h; omega)).bind (fun _ _ => ?_)
  split
  · trivial
  · exact (he.compress _ _ _).good.mono (fun _ _ => trivial)

theorem addBlock_good {env : MakeEnv} (he : SoundMakeEnv env) {o : Opts Bytes} (h : LevelFits o.addblkComp o.addblkLevel) (ws : List Bytes) :
    (addBlock env o ws).Good (fun _ => True) := by
  unfold addBlock
  split
  · trivial
  · refine (strmOpen_good (by unfold LevelFits at h; omega)).bind (fun _ _ => ?_)
    refine Out.Good.bind (P := fun _ => True) ?_ (fun _ _ => trivial)
    unfold addData
    split
    · trivial
    · exact (he.addComp _ _ _).good.mono (fun _ _ => trivial)

theorem diffInputs_good {env : MakeEnv} {o : Opts Bytes} {old new : Rpm} (ho : CarefulOld o old)
    (hn : CarefulNew env o new) : (diffInputs env o old new).Good (fun i => (i.new = [] ∨ 16 ≤ i.new.length) ∧ i.new.length < 2^63 ∧
      16 ≤ i.header.length ∧ i.header.length < 2^32 - 16) := by
  have h1 := hn.header
  have h2 := hn.small
  unfold diffInputs
  split
  · refine ⟨Or.inr ?_, ?_, h1⟩ <;> simp only [List.length_append] <;> omega
  · rename_i hr
    have hr : o.rpmOnly = false := by simpa using hr
    refine ho.files.good.bind ?_
    intro fs hfs
    obtain ⟨l1, l2⟩ := ho.listed fs hr hfs
    refine ho.algo.good.bind (fun algo _ => ?_)
    refine (makeCpio_good env.H (ho.small hr) (ho.names hr) (fun f hf => Nat.lt_succ_of_le (l2 f hf)) l1).bind (fun c _ => ?_)
    refine hn.marked.1.good.bind (fun h hh => ?_)
    exact ⟨hn.archive, by simp only; omega, hn.marked.2 h hh⟩

theorem makePair_good {env : MakeEnv} (he : SoundMakeEnv env) {o : Opts Bytes} {old new : Rpm} (ho : CarefulOld o old)
    (hn : CarefulNew env o new) (ha : LevelFits o.addblkComp o.addblkLevel) (hc : o.compFromRpm = false → LevelFits o.comp o.compLevel) :
    (makePair env o old new).Good (fun x => (writeStream x.1).Good (fun _ => True) ∧ LevelFits x.1.comp x.2.2) := by
  unfold makePair
  refine Out.Good.bind (P := fun _ => True) ?_ (fun _ _ => ?_)
  · unfold requireCpio
    refine hn.isCpio.good.bind (fun c _ => ?_)
    split <;> trivial
  refine hn.level.good.bind (fun l hl => ?_)
  refine ho.nevr.good.bind (fun src _ => ?_)
  refine Out.Good.bind (P := fun _ => True) ?_ (fun tgt _ => ?_)
  · unfold targetNevr
    split
    · exact hn.nevr.good.mono (fun _ _ => trivial)
    · trivial
  refine (diffInputs_good ho hn).bind (fun i hi => ?_)
  refine (fmtOffset_good hi.2.2.1 hi.2.2.2).bind (fun off _ => ?_)
  refine (makeDiff_good i.old i.new o.addblk hi.1 hi.2.1).bind (fun df hdf => ?_)
  refine (addBlock_good he ha _).bind (fun add _ => ?_)
  refine ⟨writeStream_good (d := fillDelta env o new l src tgt i off df add) rfl rfl rfl
    (writeIntData_good rfl rfl hdf), ?_⟩
  show LevelFits (deltaComp o new l).1 (deltaComp o new l).2
  unfold deltaComp
  split
  · exact hn.fits l ‹_› hl
  · exact hc (by simpa using ‹¬ o.compFromRpm = true›)

theorem makeNoDiff_good {env : MakeEnv} {o : Opts Bytes} {r : Rpm} (hr : r.nevr.Defined) (hc : o.compFromRpm = false → LevelFits o.comp o.compLevel) :
    (makeNoDiff env o r).Good (fun x => (writeStream x.1).Good (fun _ => True) ∧ LevelFits x.1.comp x.2.2) := by
  unfold makeNoDiff
  refine hr.good.bind (fun n _ => ?_)
  refine ⟨?_, ?_⟩
  · exact writeStream_good rfl rfl rfl trivial
  · cases h : o.compFromRpm with
    | true => exact Or.inl (by simp)
    | false => simpa using hc h

/-- C53, partial. Making a delta is memory-safe and ends, whatever the two packages contain: for every
    choice of options, of one or two packages, and every outcome of reading them, `drpm_make` either
    succeeds or returns an error, if
    - the compressors are sound (`SoundMakeEnv`),
    - the old package does not trigger the known defects (`CarefulOld`), nor does the new one
      (`CarefulNew`); a single package plays both parts, and
    - the levels in the options are levels the compressors have (the options functions ensure it).

    Missing: packages and levels for which the program is in fact not memory-safe (the theorems named
    above and `C53_violated_*`), and failing allocations. -/
theorem C53_partial (env : MakeEnv) (o : Opts Bytes) (old new : Option (Out Rpm)) (he : SoundMakeEnv env)
    (hdef : ∀ r, old = some r ∨ new = some r → r.Defined)
    (hold : ∀ r, old = some (.ok r) ∨ (old = none ∧ new = some (.ok r)) → CarefulOld o r)
    (hnew : ∀ r, new = some (.ok r) ∨ (new = none ∧ old = some (.ok r)) → CarefulNew env o r)
    (ha : LevelFits o.addblkComp o.addblkLevel) (hc : o.compFromRpm = false → LevelFits o.comp o.compLevel) :
    (drpmMake env o old new).Defined := by
  suffices h : (makeAny env o old new).Good (fun x => (writeStream x.1).Good (fun _ => True) ∧ LevelFits x.1.comp x.2.2) by
    refine Out.Good.defined (P := fun _ => True) ?_
    unfold drpmMake
    split
    · trivial
    · split
      · trivial
      · refine h.bind ?_
        rintro ⟨d, header, level⟩ ⟨h1, h2⟩
        exact writeDelta_good h1 (compressDelta_good he h2) (fun _ z => (he.head header z).good.mono (fun _ _ => trivial))
  cases old with
  | none =>
    cases new with
    | none => trivial
    | some r =>
      unfold makeAny
      refine (hdef r (Or.inr rfl)).good.bind ?_
      intro p hp
      subst hp
      have h1 := hold p (Or.inr ⟨rfl, rfl⟩)
      have h2 := hnew p (Or.inl rfl)
      split
      · exact makeNoDiff_good h2.nevr hc
      · exact makePair_good he h1 h2 ha hc
  | some r =>
    cases new with
    | none =>
      unfold makeAny
      refine (hdef r (Or.inl rfl)).good.bind ?_
      intro p hp
      subst hp
      have h1 := hold p (Or.inl rfl)
      have h2 := hnew p (Or.inr ⟨rfl, rfl⟩)
      split
      · exact makeNoDiff_good h2.nevr hc
      · exact makePair_good he h1 h2 ha hc
    | some s =>
      unfold makeAny
      refine (hdef r (Or.inl rfl)).good.bind ?_
      intro p hp
      subst hp
      refine (hdef s (Or.inr rfl)).good.bind ?_
      intro q hq
      subst hq
      exact makePair_good he (hold p (Or.inl rfl)) (hnew q (Or.inl rfl)) ha hc

/-! ### Examples and counterexamples -/

/-- Non-vacuity of C53: two packages that meet all the conditions, and from which both kinds of delta
    are made. -/
theorem C53_example (rpmOnly : Bool) : SoundMakeEnv demoMake ∧ CarefulOld (demoOpts rpmOnly 3 true) demoOldPkg ∧
    CarefulNew demoMake (demoOpts rpmOnly 3 true) demoNewPkg ∧
    ∃ file, drpmMake demoMake (demoOpts rpmOnly 3 true) (some (.ok demoOldPkg)) (some (.ok demoNewPkg)) = .ok file := by
  refine ⟨⟨fun _ _ _ => Out.defined_ok _, fun _ _ _ => Out.defined_ok _, fun _ _ => Out.defined_ok _⟩,
    ⟨Out.defined_ok _, Out.defined_ok _, Out.defined_ok _, fun _ => by decide +kernel,
      fun _ => noEmptyName_of (by decide +kernel), fun fs _ h => ?_⟩,
    ⟨Out.defined_ok _, Out.defined_ok _, Out.defined_ok _, by decide +kernel, ⟨Out.defined_ok _, fun h hh => ?_⟩,
      Or.inr (by decide +kernel), by decide +kernel, fun l _ h => ?_⟩, ?_⟩
  · have h : (.ok demoIn.files : Out (List FileInfo)) = .ok fs := h
    cases h
    exact ⟨by decide +kernel, by decide +kernel⟩
  · have hh : (.ok demoNewPkg.header : Out Bytes) = .ok h := hh
    cases hh
    decide +kernel
  · have h : (.ok 9 : Out Nat) = .ok l := h
    cases h
    exact Or.inl (Nat.le_refl _)
  · cases rpmOnly with
    | false =>
      obtain ⟨file, h, _⟩ := C48_demo_standard true 3 (by omega)
      exact ⟨file, h⟩
    | true =>
      obtain ⟨file, h, _⟩ := C48_demo_rpmonly true
      exact ⟨file, h⟩

/-- C53 is violated by names of length zero: if the first CPIO header of the old package says that the
    name takes no bytes, the program writes in front of the buffer for names. -/
theorem C53_violated_name (H : Bytes → Bytes) (m : MakeIn) (h : CpioHdr) (hl : 110 ≤ m.archive.length) (hl' : m.archive.length < 2^63)
    (hr : cpioHeaderRead (slice m.archive 0 110) = .ok h) (h0 : h.namesize = 0) : makeCpio H m = .ub := by
  unfold makeCpio
  rw [mkLoop]
  have : readHead m.archive 0 = .ub := by
    unfold readHead
    rw [archiveRead_ok hl' (by omega), Out.bind_ok]
    simp only
    rw [hr, Out.bind_ok, h0, archiveRead_ok hl' (by omega), Out.bind_ok]
    rfl
  rw [this]
  rfl

/-- An old package whose archive is one header with a name of length zero. -/
def namelessPkg : Rpm := { demoOldPkg with archive := cpioHeaderWrite CpioHdr.zero }

example : drpmMake demoMake (demoOpts false 3 true) (some (.ok namelessPkg)) (some (.ok demoNewPkg)) = .ub := by decide +kernel

/-- C53 is violated by new packages whose archive is shorter than 16 bytes but not empty: the program
    reads behind it. -/
theorem C53_violated_short (env : MakeEnv) (o : Opts Bytes) (old new : Rpm) (ho : o.rpmOnly = false) (h1 : 1 ≤ new.archive.length)
    (h2 : new.archive.length ≤ 15) (x : DiffIn) (hx : diffInputs env o old new = .ok x) (off : Nat) (hf : fmtOffset x.header = .ok off)
    (n : Bytes) (hn : old.nevr = .ok n) (l : Nat) (hl : new.level = .ok l) (hc : new.isCpio = .ok true) :
    drpmMake env o (some (.ok old)) (some (.ok new)) = .ub := by
  have hxn : x.new = new.archive := by
    unfold diffInputs at hx
    rw [if_neg (by simp [ho])] at hx
    obtain ⟨_, _, hx⟩ := Out.bind_eq_ok.1 hx
    obtain ⟨_, _, hx⟩ := Out.bind_eq_ok.1 hx
    obtain ⟨_, _, hx⟩ := Out.bind_eq_ok.1 hx
    obtain ⟨_, _, hx⟩ := Out.bind_eq_ok.1 hx
    cases hx
    rfl
  unfold drpmMake
  rw [if_neg (by simp), if_neg (by simp [ho])]
  unfold makeAny
  simp only [Out.bind_ok]
  unfold makePair requireCpio targetNevr
  simp only [hc, hl, hn, ho, hx, Out.bind_ok, if_true, Bool.false_eq_true, if_false]
  rw [hf, Out.bind_ok, C03_violated _ _ _ (by rw [hxn]; exact h1) (by rw [hxn]; exact h2)]
  rfl

example : drpmMake demoMake (demoOpts false 3 true) (some (.ok demoOldPkg)) (some (.ok { demoNewPkg with archive := [1, 2, 3] })) = .ub := by
  decide +kernel

end Drpm
