import Verif.OnlyLemmas
import Verif.RpmFile
import Verif.Props.Files
import Verif.Props.SafeCheck
/-!
# C89: nothing but the package's own files is looked at

Whatever a delta says, applying it to an installed package and checking it look only at files that are
in the file list of the package it names: two systems that agree about these files cannot be told apart.
-/

namespace Drpm

/-- The sequence of a delta, whose first 16 bytes are a digest, names the file `f` of the list. -/
def Names (files : List FileInfo) (sequence : Bytes) (f : FileInfo) : Prop :=
  ∃ order i, decodeSeq files.length (sequence.drop 16) = .ok order ∧ i ∈ order ∧ files[i]? = some f

/-- `f` is in the file list of the installed package that the delta says it applies to, and is one of the
    files that the delta names. -/
def OfPackage (dec : Decoder) (rpmHead : Bytes → Out (Nat × Nat)) (db : Db) (delta : Bytes) (f : FileInfo) : Prop :=
  ∃ d p files, readDelta dec rpmHead delta = .ok d ∧ readInstalled db d.srcNevr = .ok p ∧ p.files = .ok files ∧
    Names files d.sequence f

/-- A regular file (the file type is in the upper four of the sixteen bits of the mode) with contents. -/
def Regular (f : FileInfo) : Prop := f.mode &&& 0xF000 = 0x8000 ∧ 0 < f.size

/-! ## Applying -/

theorem applyTo_only {σ : Type} (env : ApplyEnv σ) (file : Bytes) (db : Db) (d d' : Disk) (c : Nat)
    (h : ∀ dl p files algo places, readDelta env.dec env.rpmHead file = .ok dl → readInstalled db dl.srcNevr = .ok p →
      p.files = .ok files → expandSeq env.H files algo noCheck dl.sequence = .ok places → SameWhere d d' files places) :
    applyTo env (.ok file) (.installed db d) c = applyTo env (.ok file) (.installed db d') c := by
  have hp : planApply env file (.installed db d) c = planApply env file (.installed db d') c := by
    unfold planApply
    refine Out.bind_ext (fun dl hd => ?_)
    have e : ∀ x, applyOld env file dl (.installed db x) = if dl.type = .rpmonly then .err .args
        else if env.tgtSource file then .err .args
        else (readInstalled db dl.srcNevr >>= fun p => .ok (p, .files x)) := fun _ => rfl
    rw [e, e]
    by_cases hst : dl.type = .rpmonly
    · rw [if_pos hst, if_pos hst]
    · rw [if_neg hst, if_neg hst]
      by_cases hso : env.tgtSource file = true
      · rw [if_pos hso, if_pos hso]
      · rw [if_neg hso, if_neg hso]
        cases hr : readInstalled db dl.srcNevr with
        | err e => rfl
        | ub => rfl
        | loop => rfl
        | ok p =>
          simp only [Out.bind_ok]
          refine Out.bind_ext (fun _ _ => Out.bind_ext ?_)
          rintro ⟨files, places⟩ hpl
          refine Out.bind_ext (fun sig _ => ?_)
          unfold applyPlaces at hpl
          rw [if_neg hst] at hpl
          obtain ⟨fs, hfs, hpl⟩ := Out.bind_eq_ok.mp hpl
          obtain ⟨algo, _, hpl⟩ := Out.bind_eq_ok.mp hpl
          obtain ⟨ps, hx, hpl⟩ := Out.bind_eq_ok.mp hpl
          cases hpl
          have hsw := h dl p files algo places hd hr hfs hx
          have hl : ∀ cfg add, applyLoop dl (.files d) files places cfg c add = applyLoop dl (.files d') files places cfg c add := by
            intro cfg add
            unfold applyLoop
            simp only
            rw [diskFiller_only cfg hsw]
          have hb : planBody env file dl (.files d) files places c = planBody env file dl (.files d') files places c := by
            have e : ∀ x, planBody env file dl (.files x) files places c = planDiff env file dl (.files x) files places c := by
              intro x
              unfold planBody
              cases isNoDiff dl <;> rfl
            rw [e, e]
            unfold planDiff
            simp only [hl]
          rw [hb]
  unfold applyTo
  simp only [Out.bind_ok, hp]

theorem seqPlaces_get : ∀ (ks : List (Nat × FileInfo)) (off k : Nat) (c : CpioFile), (seqPlaces ks off)[k]? = some c →
    ∃ x o, ks[k]? = some x ∧ c = seqPlace x.1 x.2 o := by
  intro ks
  induction ks with
  | nil => intro off k c h; simp [seqPlaces] at h
  | cons x ks ih =>
    obtain ⟨i, f⟩ := x
    intro off k c h
    rw [seqPlaces] at h
    cases k with
    | zero =>
      simp only [List.getElem?_cons_zero, Option.some.injEq] at h
      exact ⟨(i, f), off, rfl, h.symm⟩
    | succ k =>
      rw [List.getElem?_cons_succ] at h
      obtain ⟨y, o, h1, h2⟩ := ih _ _ _ h
      exact ⟨y, o, by simpa using h1, h2⟩

theorem placesFile {files : List FileInfo} {pos : List Nat} {off k : Nat} {c : CpioFile} {i : Nat}
    (h : rd (seqPlaces (namedFiles files pos) 0 ++ [trailerPlace off]) k = .ok c) (hi : c.index = some i) :
    ∃ f o, (namedFiles files pos)[k]? = some (i, f) ∧ files[i]? = some f ∧ i ∈ pos ∧ c = seqPlace i f o := by
  have h := rd_eq_ok.mp h
  rw [List.getElem?_append] at h
  split at h
  · obtain ⟨⟨j, f⟩, o, h1, h2⟩ := seqPlaces_get _ _ _ _ h
    subst h2
    cases hi
    obtain ⟨m1, m2⟩ := namedFiles_mem (List.mem_of_getElem? h1)
    exact ⟨f, o, h1, m2, m1, rfl⟩
  · have := List.mem_of_getElem? h
    simp only [List.mem_singleton] at this
    subst this
    cases hi

/-- C89, applying. If two file systems agree about every file of the package that the delta names, then applying the delta, whatever it contains, has the same result and the same output
    with both. -/
theorem C89_apply_partial {σ : Type} (env : ApplyEnv σ) (delta : Bytes) (named creatable : Bool) (db : Db) (disk disk' : Disk)
    (cleanup : Nat)
    (h : ∀ f, OfPackage env.dec env.rpmHead db delta f →
      disk.get f.name = disk'.get f.name ∧ disk.undo f.name = disk'.undo f.name) :
    drpmApply env ⟨some (.ok delta), named, creatable, .installed db disk⟩ cleanup =
      drpmApply env ⟨some (.ok delta), named, creatable, .installed db disk'⟩ cleanup := by
  have := applyTo_only env delta db disk disk' cleanup (by
    intro dl p files algo places h1 h2 h3 hx k i cpio f hk hi hf _ _
    obtain ⟨pos, q1, q2, rfl⟩ := expandSeq_inv hx
    have hm : ∀ {k j : Nat} {c : CpioFile} {g : FileInfo}, rd (seqPlaces (namedFiles files pos) 0 ++
        [trailerPlace (seqEnd (namedFiles files pos) 0)]) k = .ok c → c.index = some j → rd files j = .ok g → SameThere disk disk' g.name :=
      fun hc hj hg => h _ ⟨dl, p, files, h1, h2, h3, pos, _, q1, (placesFile hc hj).choose_spec.choose_spec.2.2.1, rd_eq_ok.mp hg⟩
    exact ⟨hm hk hi hf, fun c j g hc hj hg => hm hc hj hg⟩)
  unfold drpmApply
  cases named with
  | false => rfl
  | true => simp only [this]

/-- C89, applying, with a sequence that names the files in the order of the archive: only the regular
    files with contents are looked at. -/
theorem C89_regular_partial {σ : Type} (env : ApplyEnv σ) (delta : Bytes) (named creatable : Bool) (db : Db) (disk disk' : Disk)
    (cleanup : Nat)
    (hord : ∀ d p files pos, readDelta env.dec env.rpmHead delta = .ok d → readInstalled db d.srcNevr = .ok p →
      p.files = .ok files → decodeSeq files.length (d.sequence.drop 16) = .ok pos → InOrder files pos)
    (h : ∀ f, OfPackage env.dec env.rpmHead db delta f → Regular f →
      disk.get f.name = disk'.get f.name ∧ disk.undo f.name = disk'.undo f.name) :
    drpmApply env ⟨some (.ok delta), named, creatable, .installed db disk⟩ cleanup =
      drpmApply env ⟨some (.ok delta), named, creatable, .installed db disk'⟩ cleanup := by
  have := applyTo_only env delta db disk disk' cleanup (by
    intro dl p files algo places h1 h2 h3 hx k i cpio f hk hi hf hl hc
    obtain ⟨pos, q1, q2, rfl⟩ := expandSeq_inv hx
    have hio := hord dl p files pos h1 h2 h3 q1
    obtain ⟨f', o, k1, k2, k3, rfl⟩ := placesFile hk hi
    have hff : f' = f := by
      have := rd_eq_ok.mp hf
      rw [k2] at this
      cases this
      rfl
    subst hff
    have hreg : isReg f' = true ∧ 0 < f'.size := by
      simp only [seqPlace] at hc
      by_cases hr : isReg f' = true
      · refine ⟨hr, ?_⟩
        unfold seqFilesize at hc
        rw [if_pos hr] at hc
        rcases Nat.eq_zero_or_pos f'.size with h0 | h0
        · rw [h0] at hc; exact absurd hc (by decide)
        · exact h0
      · unfold seqFilesize at hc
        rw [if_neg hr, if_neg (by rw [hl]; decide)] at hc
        exact absurd hc (by decide)
    have hR : Regular f' := by
      refine ⟨?_, hreg.2⟩
      have := hreg.1
      unfold isReg at this
      simpa using this
    have hs := h _ ⟨dl, p, files, h1, h2, h3, pos, i, q1, k3, k2⟩ hR
    refine ⟨hs, fun c j g hc' hj hg => ?_⟩
    have hpi := hio i k3 f' k2 (by
      unfold needsOpen
      simp [hreg.1, hreg.2])
    obtain ⟨g', hg1, hg2⟩ := namedFiles_get q2 i i hpi
    obtain ⟨g'', o', k1', k2', k3', rfl⟩ := placesFile hc' hj
    rw [hg1] at k1'
    cases k1'
    have : g = f' := by
      have := rd_eq_ok.mp hg
      rw [k2] at this
      cases this
      rfl
    rw [this]
    exact hs)
  unfold drpmApply
  cases named with
  | false => rfl
  | true => simp only [this]

/-! ## Checking -/

theorem expandSeq_check (H : Bytes → Bytes) (files : List FileInfo) (algo : Nat) {check check' : Bytes → Bytes → Nat → Out Unit}
    (sequence : Bytes) (h : ∀ f, Names files sequence f → Regular f → ∀ digest, fileDigest algo f = .ok digest →
      check f.name digest f.size = check' f.name digest f.size) :
    expandSeq H files algo check sequence = expandSeq H files algo check' sequence := by
  have hb : ∀ f, Names files sequence f → seqMd5 algo check f = seqMd5 algo check' f := by
    intro f hf
    have : seqBody algo check f = seqBody algo check' f := by
      unfold seqBody
      split
      · rfl
      · split
        · rename_i hr
          rw [Bool.and_eq_true] at hr
          have hsz : seqFilesize f = f.size := by unfold seqFilesize; rw [if_pos hr.1]
          have hr2 : 0 < f.size := by rw [hsz] at hr; simpa using hr.2
          have hr1 := hr.1
          unfold isReg at hr1
          unfold seqDigest
          refine Out.bind_ext (fun d hd => ?_)
          rw [hsz, h f hf ⟨by simpa using hr1, hr2⟩ d hd]
        · rfl
    unfold seqMd5
    rw [this]
  have hl : ∀ order, decodeSeq files.length (sequence.drop 16) = .ok order → ∀ pos, (∀ i ∈ pos, i ∈ order) → ∀ md out off,
      seqLoop files algo check pos md out off = seqLoop files algo check' pos md out off := by
    intro order ho pos
    induction pos with
    | nil => intro _ md out off; rfl
    | cons i pos ih =>
      intro hp md out off
      rw [seqLoop, seqLoop]
      refine Out.bind_ext (fun f hf => ?_)
      rw [hb f ⟨order, i, ho, hp i (by simp), rd_eq_ok.mp hf⟩]
      refine Out.bind_ext (fun b _ => ?_)
      exact ih (fun j hj => hp j (by simp [hj])) _ _ _
  unfold expandSeq
  split
  · rfl
  · refine Out.bind_ext (fun order ho => ?_)
    rw [hl order ho order (fun _ h => h)]

/-- What the checks can see of two systems under one name is the same. -/
structure SeesSame (sys sys' : Sys) (name : Bytes) : Prop where
  content : sys.content name = sys'.content name
  readable : sys.readable name = sys'.readable name
  reads : sys.reads name = sys'.reads name
  undo : sys.undo name = sys'.undo name

theorem checkPrelink_only {sys sys' : Sys} (hd : sys.digest = sys'.digest) {name : Bytes} (h : SeesSame sys sys' name) (algo : Nat)
    (digest : Bytes) (size : Nat) : checkPrelink sys name algo digest size = checkPrelink sys' name algo digest size := by
  unfold checkPrelink prelinkResult compareDigest
  rw [h.undo, h.reads, hd]

theorem checkFilesize_only {sys sys' : Sys} (hd : sys.digest = sys'.digest) {name : Bytes} (h : SeesSame sys sys' name) (algo : Nat)
    (digest : Bytes) (size : Nat) : checkFilesize sys name algo digest size = checkFilesize sys' name algo digest size := by
  unfold checkFilesize afterPrelink
  simp only [checkPrelink_only hd h]
  rw [h.content, h.readable, h.reads]

theorem checkFull_only {sys sys' : Sys} (hd : sys.digest = sys'.digest) {name : Bytes} (h : SeesSame sys sys' name) (algo : Nat)
    (digest : Bytes) (size : Nat) : checkFull sys name algo digest size = checkFull sys' name algo digest size := by
  unfold checkFull fullFirst afterPrelink fullRest compareDigest
  simp only [checkPrelink_only hd h]
  rw [h.content, h.readable, h.reads, hd]

theorem checkFiles_only {sys sys' : Sys} (hd : sys.digest = sys'.digest) (H : Bytes → Bytes) (p : Pkg) (sequence : Bytes) (mode : Int)
    (h : mode ≠ 0 → ∀ files, p.files = .ok files → ∀ f, Names files sequence f → Regular f → SeesSame sys sys' f.name) :
    checkFiles sys H p sequence mode = checkFiles sys' H p sequence mode := by
  unfold checkFiles checkOf
  refine Out.bind_ext (fun files hf => Out.bind_ext (fun algo _ => ?_))
  split
  · rfl
  · rename_i h0
    split
    · simp only [Out.bind_ok]
      rw [expandSeq_check (check' := fun name digest size => checkFull sys' name algo digest size) H files algo sequence (fun f hm hr d _ => checkFull_only hd (h h0 files hf f hm hr) algo d f.size)]
    · split
      · simp only [Out.bind_ok]
        rw [expandSeq_check (check' := fun name digest size => checkFilesize sys' name algo digest size) H files algo sequence (fun f hm hr d _ => checkFilesize_only hd (h h0 files hf f hm hr) algo d f.size)]
      · rfl

/-- C89, checking a delta. If two systems agree about the regular files with contents of the
    package that the delta names, the verdict is the same, whatever the delta contains. -/
theorem C89_check {sys sys' : Sys} (hd : sys.digest = sys'.digest) (H : Bytes → Bytes) (db : Db) (dec : Decoder)
    (rpmHead : Bytes → Out (Nat × Nat)) (delta : Bytes) (mode : Int)
    (h : ∀ f, OfPackage dec rpmHead db delta f → Regular f → SeesSame sys sys' f.name) :
    drpmCheck sys H db dec rpmHead delta mode = drpmCheck sys' H db dec rpmHead delta mode := by
  unfold drpmCheck
  split
  · rfl
  · refine Out.bind_ext (fun d h1 => Out.bind_ext (fun p h2 => Out.bind_ext (fun _ _ => ?_)))
    split
    · exact checkFiles_only hd H p d.sequence mode (fun _ files h3 f hf hr => h f ⟨d, p, files, h1, h2, h3, hf⟩ hr)
    · rfl

/-- C89, checking a sequence against the installed files: only the regular files with contents of the
    package that the sequence names are looked at. -/
theorem C89_sequence {sys sys' : Sys} (hd : sys.digest = sys'.digest) (H : Bytes → Bytes) (db : Db) (id : Bytes) (mode : Int)
    (h : ∀ nevr seq p files f, splitSeqId id = .ok (nevr, seq) → readInstalled db nevr = .ok p → p.files = .ok files → Names files seq f →
      Regular f → SeesSame sys sys' f.name) :
    drpmCheckSequence sys H db none id mode = drpmCheckSequence sys' H db none id mode := by
  unfold drpmCheckSequence
  split
  · rfl
  · refine Out.bind_ext ?_
    rintro ⟨nevr, seq⟩ h1
    refine Out.bind_ext ?_
    rintro ⟨p, ro⟩ h2
    refine Out.bind_ext (fun _ _ => ?_)
    unfold seqSource at h2
    obtain ⟨q, h4, h3⟩ := Out.bind_eq_ok.mp h2
    cases h3
    exact checkFiles_only hd H p seq mode (fun _ files h3 f hf hr => h nevr seq p files f h1 h4 h3 hf hr)

/-- C89, checking a sequence without the files (`DRPM_CHECK_NONE`, the only mode with a package file):
    nothing on the system is looked at. -/
theorem C89_nothing (sys sys' : Sys) (H : Bytes → Bytes) (db : Db) (old : Option (Out Pkg)) (id : Bytes) :
    drpmCheckSequence sys H db old id 0 = drpmCheckSequence sys' H db old id 0 := by
  unfold drpmCheckSequence
  split
  · rfl
  · refine Out.bind_ext ?_
    rintro ⟨nevr, seq⟩ h1
    refine Out.bind_ext ?_
    rintro ⟨p, ro⟩ h2
    refine Out.bind_ext (fun _ _ => ?_)
    rfl

/-- C89, checking the sizes only: the contents of a file that is not longer than recorded are not looked
    at, only its length. -/
theorem C89_sizes {sys sys' : Sys} (H : Bytes → Bytes) (db : Db) (dec : Decoder)
    (rpmHead : Bytes → Out (Nat × Nat)) (delta : Bytes)
    (h : ∀ f, OfPackage dec rpmHead db delta f → Regular f →
      (sys.content f.name = none ∧ sys'.content f.name = none) ∨
      ∃ c c', sys.content f.name = some c ∧ sys'.content f.name = some c' ∧ c.length = c'.length ∧ c.length ≤ f.size) :
    drpmCheck sys H db dec rpmHead delta 2 = drpmCheck sys' H db dec rpmHead delta 2 := by
  unfold drpmCheck
  split
  · rfl
  · refine Out.bind_ext (fun d h1 => Out.bind_ext (fun p h2 => Out.bind_ext (fun _ _ => ?_)))
    split
    · unfold checkFiles checkOf
      refine Out.bind_ext (fun files h3 => Out.bind_ext (fun algo _ => ?_))
      simp only [show ¬ (2 : Int) = 0 by decide, show ¬ (2 : Int) = 1 by decide, if_false, if_true, Out.bind_ok]
      rw [expandSeq_check H files algo d.sequence (fun f hm hr dg _ => ?_)]
      rcases h f ⟨d, p, files, h1, h2, h3, hm⟩ hr with ⟨e, e'⟩ | ⟨c, c', e, e', hl, hle⟩
      · unfold checkFilesize
        rw [e, e']
      · unfold checkFilesize
        rw [e, e']
        simp only [← hl]
        split
        · rfl
        · rw [if_neg (by omega), if_neg (by omega)]
    · rfl

/-! ## For package headers in the database -/

/-- C89 for the headers in the database of rpmlib, applying. -/
theorem C89_files_partial {η σ τ : Type} (w : World η σ τ) (db : Bytes → Option Bytes → Bytes → Bytes → Option η) (disk disk' : Disk)
    (delta : Bytes) (cleanup : Nat)
    (h : ∀ d n e v r hdr files f, readDelta w.dec (readdeltaStandard w.lib w.U) delta = .ok d → splitNevr d.srcNevr = .ok (n, e, v, r) →
      db n e v r = some hdr → (pkgOf w.lib w.lib.new hdr false).files = .ok files → Names files d.sequence f →
      disk.get f.name = disk'.get f.name ∧ disk.undo f.name = disk'.undo f.name) :
    applyInstalled w db disk delta cleanup = applyInstalled w db disk' delta cleanup := by
  refine C89_apply_partial w.applyEnv delta true true _ disk disk' cleanup ?_
  rintro f ⟨d, p, files, h1, h2, h3, h4⟩
  unfold readInstalled at h2
  obtain ⟨⟨n, e, v, r⟩, h5, h6⟩ := Out.bind_eq_ok.mp h2
  simp only at h6
  cases h7 : db n e v r with
  | none => rw [h7] at h6; cases h6
  | some hdr =>
    rw [h7] at h6
    cases h6
    exact h d n e v r hdr files f h1 h5 h7 h3 h4

/-! ## Concrete cases -/

theorem ofPackage_inst {delta : Bytes} {files : List FileInfo} {f : FileInfo}
    (h : OfPackage instEnv.dec instEnv.rpmHead (instDb files) delta f) : f ∈ files := by
  obtain ⟨d, p, fs, _, h2, h3, h4⟩ := h
  unfold readInstalled at h2
  obtain ⟨⟨n, e, v, r⟩, _, h6⟩ := Out.bind_eq_ok.mp h2
  simp only at h6
  split at h6
  · cases h6
  · rename_i q hq
    cases h6
    cases instDb_some hq
    cases h3
    obtain ⟨_, _, _, _, h5⟩ := h4
    exact List.mem_of_getElem? h5

/-- The two files and one that is not in the package: what the latter contains, and whether it is there,
    does not matter; the delta is applied. -/
example : applied instEnv (instFile [32] 130 300) (.installed (instDb twoFiles) twoDisk) 0 = .ok () ∧
    ∀ secret c, drpmApply instEnv ⟨some (.ok (instFile [32] 130 300)), true, true,
        .installed (instDb twoFiles) (diskOf [([47, 97], [65]), ([47, 98], [66]), ([47, 99], secret)])⟩ c =
      drpmApply instEnv ⟨some (.ok (instFile [32] 130 300)), true, true, .installed (instDb twoFiles) twoDisk⟩ c := by
  refine ⟨by decide +kernel, fun secret c => C89_apply_partial _ _ _ _ _ _ _ _ (fun f hf => ?_)⟩
  have := ofPackage_inst hf
  simp only [twoFiles, List.mem_cons, List.not_mem_nil, or_false] at this
  rcases this with rfl | rfl <;> exact ⟨rfl, rfl⟩

/-- A symbolic link "/a" to "/x", and a regular file "/b". -/
def linkAndFile : List FileInfo := [demoFile [47, 97] 0o120777 2 [47, 120], demoFile [47, 98] 0o100644 1 []]

/-- The disk with "/b"; opening "/a" finds what is in `behind`, that is, in "/x". -/
def behindDisk (behind : Bytes) : Disk := diskOf [([47, 97], behind), ([47, 98], [66])]

/-- C89 for regular files only is violated: a delta that names the file first and the link second, other
    than the file list, puts what is behind the link into the output. -/
theorem C89_violated : (∀ f ∈ linkAndFile, Regular f → (behindDisk [65]).get f.name = (behindDisk [67]).get f.name ∧
      (behindDisk [65]).undo f.name = (behindDisk [67]).undo f.name) ∧
    decodeSeq 2 [1, 16, 1] = .ok [1, 0] ∧
    ∃ b b', drpmApply instEnv ⟨some (.ok (instFile [1, 16, 1] 30 300)), true, true, .installed (instDb linkAndFile) (behindDisk [65])⟩ 0 =
        (.ok (), .written b) ∧
      drpmApply instEnv ⟨some (.ok (instFile [1, 16, 1] 30 300)), true, true, .installed (instDb linkAndFile) (behindDisk [67])⟩ 0 =
        (.ok (), .written b') ∧ slice b 132 1 = [65] ∧ slice b' 132 1 = [67] := by
  refine ⟨?_, by decide +kernel, ?_⟩
  · intro f hf hr
    simp only [linkAndFile, List.mem_cons, List.not_mem_nil, or_false] at hf
    rcases hf with rfl | rfl
    · exact absurd hr.1 (by decide)
    · exact ⟨rfl, rfl⟩
  · have h : ∀ x : Out Unit × Left, ∀ (p : Bytes → Bool), (match x with | (.ok (), .written b) => p b | _ => false) = true →
        ∃ b, x = (.ok (), .written b) ∧ p b = true := by
      intro x p h
      obtain ⟨a, l⟩ := x
      cases a <;> cases l <;> first | (cases h; done) | exact ⟨_, rfl, h⟩
    obtain ⟨b, h1, h2⟩ := h (drpmApply instEnv ⟨some (.ok (instFile [1, 16, 1] 30 300)), true, true,
      .installed (instDb linkAndFile) (behindDisk [65])⟩ 0) (fun b => slice b 132 1 == [65]) (by decide +kernel)
    obtain ⟨b', h1', h2'⟩ := h (drpmApply instEnv ⟨some (.ok (instFile [1, 16, 1] 30 300)), true, true,
      .installed (instDb linkAndFile) (behindDisk [67])⟩ 0) (fun b => slice b 132 1 == [67]) (by decide +kernel)
    exact ⟨b, b', h1, h1', eq_of_beq h2, eq_of_beq h2'⟩

/-- With the order of the file list, what is behind the link does not matter. -/
example : applied instEnv (instFile [32] 130 300) (.installed (instDb linkAndFile) (behindDisk [65])) 0 = .ok () ∧
    ∀ x y c, drpmApply instEnv ⟨some (.ok (instFile [32] 130 300)), true, true, .installed (instDb linkAndFile) (behindDisk x)⟩ c =
      drpmApply instEnv ⟨some (.ok (instFile [32] 130 300)), true, true, .installed (instDb linkAndFile) (behindDisk y)⟩ c := by
  refine ⟨by decide +kernel, fun x y c => C89_regular_partial _ _ _ _ _ _ _ _ ?_ (fun f hf hr => ?_)⟩
  · intro d p files pos h1 h2 h3 h4
    have hs := (inst_parts d h1).2
    rw [hs] at h4
    unfold readInstalled at h2
    obtain ⟨⟨n, e, v, r⟩, _, h6⟩ := Out.bind_eq_ok.mp h2
    simp only at h6
    split at h6
    · cases h6
    · rename_i q hq
      cases h6
      cases instDb_some hq
      cases h3
      have : decodeSeq 2 [32] = .ok [0, 1] := by decide +kernel
      rw [show linkAndFile.length = 2 from rfl, this] at h4
      cases h4
      exact inOrder_of (by decide +kernel)
  · have := ofPackage_inst hf
    simp only [linkAndFile, List.mem_cons, List.not_mem_nil, or_false] at this
    rcases this with rfl | rfl
    · exact absurd hr.1 (by decide)
    · exact ⟨rfl, rfl⟩

/-- Checks of a delta: another file on the system, or what is behind the link, does not matter; a check
    of the sizes does not even look at the contents of the file. -/
example : drpmCheck (checkSys [([47, 97], [65, 65]), ([47, 98], [66])]) zeroH (instDb linkAndFile) instEnv.dec instEnv.rpmHead
      (instFile [32] 130 300) 1 = .ok () ∧
    (∀ x y, drpmCheck (checkSys [([47, 97], x), ([47, 98], [66]), ([47, 99], y)]) zeroH (instDb linkAndFile) instEnv.dec instEnv.rpmHead
      (instFile [32] 130 300) 1 =
      drpmCheck (checkSys [([47, 97], [65, 65]), ([47, 98], [66])]) zeroH (instDb linkAndFile) instEnv.dec instEnv.rpmHead
      (instFile [32] 130 300) 1) ∧
    ∀ x, drpmCheck (checkSys [([47, 98], [x])]) zeroH (instDb linkAndFile) instEnv.dec instEnv.rpmHead (instFile [32] 130 300) 2 =
      drpmCheck (checkSys [([47, 98], [66])]) zeroH (instDb linkAndFile) instEnv.dec instEnv.rpmHead (instFile [32] 130 300) 2 := by
  refine ⟨by decide +kernel, fun x y => C89_check (by rfl) _ _ _ _ _ _ (fun f hf hr => ?_), fun x => C89_sizes _ _ _ _ _ (fun f hf hr => ?_)⟩ <;>
  · have := ofPackage_inst hf
    simp only [linkAndFile, List.mem_cons, List.not_mem_nil, or_false] at this
    rcases this with rfl | rfl
    · exact absurd hr.1 (by decide)
    · first | exact ⟨rfl, rfl, rfl, rfl⟩ | exact Or.inr ⟨[x], [66], rfl, rfl, rfl, Nat.le_refl 1⟩

/-- Checks of a sequence. -/
example : drpmCheckSequence (checkSys [([47, 98], [66])]) zeroH (instDb linkAndFile) none (checkId [32]) 2 = .ok () ∧
    ∀ x y, drpmCheckSequence (checkSys [([47, 97], x), ([47, 98], [66]), ([47, 99], y)]) zeroH (instDb linkAndFile) none (checkId [32]) 2 =
      drpmCheckSequence (checkSys [([47, 98], [66])]) zeroH (instDb linkAndFile) none (checkId [32]) 2 := by
  refine ⟨by decide +kernel, fun x y => C89_sequence (by rfl) _ _ _ _ ?_⟩
  intro nevr seq p files f _ h2 h3 hf hr
  unfold readInstalled at h2
  obtain ⟨⟨n, e, v, r⟩, _, h6⟩ := Out.bind_eq_ok.mp h2
  simp only at h6
  split at h6
  · cases h6
  · rename_i q hq
    cases h6
    cases instDb_some hq
    cases h3
    obtain ⟨_, _, _, _, h5⟩ := hf
    have hf := List.mem_of_getElem? h5
    simp only [linkAndFile, List.mem_cons, List.not_mem_nil, or_false] at hf
    rcases hf with rfl | rfl
    · exact absurd hr.1 (by decide)
    · exact ⟨rfl, rfl, rfl, rfl⟩

end Drpm
