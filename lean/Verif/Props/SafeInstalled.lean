import Verif.InstalledPrelink
import Verif.Props.Safe
import Verif.Props.Files
/-!
# Property C83: applying a delta to installed files is memory-safe, whatever the files contain

The full statement `∀ env file db disk cleanup, (applied env file (.installed db disk) cleanup).Defined`
is false; the conditions below name the ways in which it fails.
-/

namespace Drpm

variable {σ : Type}

/-- A file on the disk that is either of the size the package tells or no ELF file that `is_prelinked`
    stumbles over (`C39_violated`). -/
def CheckableFile (f : FileInfo) (data : Bytes) : Prop :=
  data.length = f.size ∨ (data.length ≤ 0x7ffff000 ∧ (IsElf data → HasSections data → NamesUsable data))

/-- The file on the disk is taken for one that prelink changed: it has another size than the package
    tells, and the section that prelink leaves. -/
def LooksPrelinked (disk : Disk) (f : FileInfo) : Prop :=
  ∃ data, disk.get f.name = some data ∧ data.length ≠ f.size ∧ HasUndoSection data

/-- An installed package that does not trigger the known defects: rpmlib's answers are defined, its
    files have sizes, names and link targets within the limits of the cpio format and digests of at
    most 65 characters (`C58_violated`), and what is found on the disk under their names, if anything,
    is a checkable file. Nothing is said about the contents, and a file may have any size. -/
structure CarefulInstalled (disk : Disk) (p : Pkg) : Prop where
  nevr : p.nevr.Defined
  files : p.files.Defined
  algo : p.algo.Defined
  listed : ∀ fs, p.files = .ok fs → fs.length < 2^30 ∧ ∀ f ∈ fs, f.md5.length ≤ 65 ∧ f.Fits
  onDisk : ∀ fs, p.files = .ok fs → ∀ f ∈ fs, ∀ data, disk.get f.name = some data → CheckableFile f data

/-- A file order that does not trigger the known defects: it neither overruns the tables nor shifts too
    far (`C17_violated_*`), and every file with contents has a number below the number of files in the
    order (`C40_violated_skipped`). -/
structure CarefulOrder (p : Pkg) (d : Delta) : Prop where
  order : ∀ fs, p.files = .ok fs → OrderTame fs.length (d.sequence.drop 16)
  opened : ∀ fs, p.files = .ok fs → ∀ i ∈ filesOf (runsOf (d.sequence.drop 16)), ∀ f, fs[i]? = some f → isReg f = true →
    0 < f.size → i < (filesOf (runsOf (d.sequence.drop 16))).length

/-- The length of the entry of a file in the archive that the installed files stand for: its header, its
    contents or target, padding. -/
def entrySize (f : FileInfo) : Nat :=
  (alteredHeader f).length +
  (if isReg f then f.size + cpioPadding f.size else if isLnk f then f.linkto.length + cpioPadding f.linkto.length else 0)

/-- Where the contents (or target) of the `k`-th file of `fs`, which is `f`, begin in that archive. -/
def bodyAt (fs : List FileInfo) (k : Nat) (f : FileInfo) : Nat :=
  ((fs.take k).map entrySize).sum + (alteredHeader f).length

/-- The files in the order that `order` encodes. -/
def orderedFiles (fs : List FileInfo) (order : Bytes) : List FileInfo :=
  (filesOf (runsOf order)).filterMap (fun i => fs[i]?)

/-- What is needed if some file looks prelinked: the tool that undoes it works or fails; every file with
    contents is at the place of its number (`C40_violated_order`); no block of 8192 bytes begins inside
    the target of a link (`C40_violated_link`); and the blocks that begin inside a file that looks
    prelinked begin within the length of the old data that the delta states (`C83_violated_prelink`). -/
structure CarefulPrelink (disk : Disk) (fs : List FileInfo) (d : Delta) : Prop where
  undone : ∀ f ∈ fs, (disk.undo f.name).Defined
  inPlace : ∀ i ∈ filesOf (runsOf (d.sequence.drop 16)), ∀ f, fs[i]? = some f → isReg f = true → 0 < f.size →
    (filesOf (runsOf (d.sequence.drop 16)))[i]? = some i
  links : ∀ k f j, (orderedFiles fs (d.sequence.drop 16))[k]? = some f → isLnk f = true →
    ¬ (bodyAt (orderedFiles fs (d.sequence.drop 16)) k f < 8192 * j ∧
      8192 * j < bodyAt (orderedFiles fs (d.sequence.drop 16)) k f + f.linkto.length)
  inside : ∀ k f j, (orderedFiles fs (d.sequence.drop 16))[k]? = some f → isReg f = true → LooksPrelinked disk f →
    bodyAt (orderedFiles fs (d.sequence.drop 16)) k f < 8192 * j →
    8192 * j < bodyAt (orderedFiles fs (d.sequence.drop 16)) k f + f.size → 8192 * j < d.extDataLen

theorem splitNevr_defined (nevr : Bytes) : (splitNevr nevr).Good (fun _ => True) := by
  unfold splitNevr
  split
  · trivial
  · trivial
  · simp only
    split
    · trivial
    · split <;> trivial
    · split <;> trivial

theorem pushRun_length {fc : Nat} : ∀ (n pos : Nat) (ps : List Nat) (x : List Nat × Nat), pushRun fc n pos ps = .ok x →
    ps.length ≤ fc → x.1.length ≤ fc := by
  intro n
  induction n with
  | zero => intro pos ps x h hl; cases h; exact hl
  | succ n ih =>
    intro pos ps x h hl
    unfold pushRun at h
    split at h
    · cases h
    · split at h
      · cases h
      · exact ih _ _ _ h (by rw [List.length_append, List.length_singleton]; omega)

theorem decStep_length {fc : Nat} {s t : DecSt} {nib : Nat} (h : decStep fc s nib = .ok t) (hl : s.positions.length ≤ fc) :
    t.positions.length ≤ fc := by
  unfold decStep at h
  split at h
  · obtain ⟨b, _, h⟩ := Out.bind_eq_ok.mp h
    cases h
    exact hl
  · obtain ⟨b, _, h⟩ := Out.bind_eq_ok.mp h
    simp only at h
    split at h
    · cases h; exact hl
    · split at h
      · cases h; exact hl
      · split at h
        · cases h; exact hl
        · obtain ⟨x, hx, h⟩ := Out.bind_eq_ok.mp h
          cases h
          exact pushRun_length _ _ _ _ hx hl

theorem decodeSeq_length {fc : Nat} {bs : Bytes} {ps : List Nat} (h : decodeSeq fc bs = .ok ps) : ps.length ≤ fc := by
  have key : ∀ (ns : List Nat) (s t : DecSt), ns.foldlM (decStep fc) s = .ok t → s.positions.length ≤ fc → t.positions.length ≤ fc := by
    intro ns
    induction ns with
    | nil => intro s t h hl; cases h; exact hl
    | cons a ns ih =>
      intro s t h hl
      rw [List.foldlM_cons] at h
      obtain ⟨u, hu, h⟩ := Out.bind_eq_ok.mp h
      exact ih u t h (decStep_length hu hl)
  unfold decodeSeq at h
  obtain ⟨s, hs, h⟩ := Out.bind_eq_ok.mp h
  split at h
  · cases h
  · cases h
    exact key _ _ _ hs (Nat.zero_le _)

/-- The places: one after the other. -/
theorem seqPlaces_layout : ∀ (ks : List (Nat × FileInfo)) (off : Nat), (∀ x ∈ ks, x.2.Fits) →
    off + ks.length * 2^33 < 2^64 →
    (seqPlaces ks off).length = ks.length ∧
    (∀ k, k < ks.length → ∃ x o, ks[k]? = some x ∧ (seqPlaces ks off)[k]? = some (seqPlace x.1 x.2 o) ∧
      o = off + ((ks.take k).map (fun x => headLen x.2 + contLen x.2)).sum) ∧
    (∀ (k : Nat) p q, (seqPlaces ks off ++ [trailerPlace (seqEnd ks off)])[k]? = some p →
      (seqPlaces ks off ++ [trailerPlace (seqEnd ks off)])[k + 1]? = some q →
      q.offset = p.offset + p.headerLen + p.contentLen) ∧
    (∀ p, (seqPlaces ks off ++ [trailerPlace (seqEnd ks off)])[0]? = some p → p.offset = off) := by
  intro ks
  induction ks with
  | nil =>
    intro off _ _
    refine ⟨rfl, fun k hk => absurd hk (Nat.not_lt_zero _), ?_, ?_⟩
    · intro k p q _ h2
      simp [seqPlaces] at h2
    · intro p h
      simp only [seqPlaces, seqEnd, List.nil_append, List.getElem?_cons_zero, Option.some.injEq] at h
      subst h
      rfl
  | cons x ks ih =>
    intro off hf hlt
    obtain ⟨i, f⟩ := x
    have hfit : f.Fits := hf (i, f) (by simp)
    have hsz : (seqPlace i f off).headerLen + (seqPlace i f off).contentLen < 2^33 := by
      have hn := hfit.name
      have hr : (relName f).length ≤ f.name.length := by
        unfold relName
        split
        · rename_i h; rw [h]; simp
        · exact Nat.le_refl _
      have hc : (seqPlace i f off).contentLen < 2^32 := Nat.mod_lt _ (by decide)
      have hh : (seqPlace i f off).headerLen = 110 + (relName f).length + 3 + cpioPadding (110 + (relName f).length + 3) := rfl
      have := cpioPadding_lt (110 + (relName f).length + 3)
      omega
    rw [List.length_cons] at hlt
    have e : (off + ((seqPlace i f off).headerLen + (seqPlace i f off).contentLen)) % 2^64 =
        off + ((seqPlace i f off).headerLen + (seqPlace i f off).contentLen) := Nat.mod_eq_of_lt (by omega)
    obtain ⟨h1, h2, h3, h4⟩ := ih (off + ((seqPlace i f off).headerLen + (seqPlace i f off).contentLen))
      (fun x hx => hf x (by simp [hx])) (by omega)
    rw [seqPlaces, seqEnd, e]
    refine ⟨by rw [List.length_cons, List.length_cons, h1], ?_, ?_, ?_⟩
    · intro k hk
      cases k with
      | zero => exact ⟨(i, f), off, rfl, rfl, rfl⟩
      | succ k =>
        obtain ⟨x, o, q1, q2, q3⟩ := h2 k (by simpa using hk)
        refine ⟨x, o, by simpa using q1, by simpa using q2, ?_⟩
        rw [q3, List.take_succ_cons, List.map_cons, List.sum_cons]
        have e1 : (seqPlace i f off).headerLen = headLen f := rfl
        have e2 : (seqPlace i f off).contentLen = contLen f := rfl
        rw [e1, e2]
        simp only
        omega
    · intro k p q hp hq
      cases k with
      | zero =>
        simp only [List.cons_append, List.getElem?_cons_zero, Option.some.injEq] at hp
        subst hp
        rw [List.cons_append, List.getElem?_cons_succ] at hq
        rw [h4 q hq]
        show off + _ = off + _ + _
        omega
      | succ k =>
        rw [List.cons_append, List.getElem?_cons_succ] at hp hq
        exact h3 k p q hp hq
    · intro p hp
      simp only [List.cons_append, List.getElem?_cons_zero, Option.some.injEq] at hp
      subst hp
      rfl

theorem namedFiles_length {files : List FileInfo} : ∀ {pos : List Nat}, (∀ i ∈ pos, ∃ f, files[i]? = some f) →
    (namedFiles files pos).length = pos.length := by
  intro pos
  induction pos with
  | nil => intro _; rfl
  | cons i pos ih =>
    intro h
    obtain ⟨f, hf⟩ := h i (by simp)
    have e : namedFiles files (i :: pos) = (i, f) :: namedFiles files pos := by simp [namedFiles, hf]
    rw [e, List.length_cons, List.length_cons, ih (fun j hj => h j (by simp [hj]))]

theorem namedFiles_get_iff {files : List FileInfo} : ∀ {pos : List Nat}, (∀ i ∈ pos, ∃ f, files[i]? = some f) → ∀ (k i : Nat) f,
    (namedFiles files pos)[k]? = some (i, f) ↔ pos[k]? = some i ∧ files[i]? = some f := by
  intro pos
  induction pos with
  | nil => intro _ k i f; simp [namedFiles]
  | cons j pos ih =>
    intro h k i f
    obtain ⟨g, hg⟩ := h j (by simp)
    have e : namedFiles files (j :: pos) = (j, g) :: namedFiles files pos := by simp [namedFiles, hg]
    rw [e]
    cases k with
    | zero =>
      simp only [List.getElem?_cons_zero, Option.some.injEq, Prod.mk.injEq]
      constructor
      · rintro ⟨rfl, rfl⟩; exact ⟨rfl, hg⟩
      · rintro ⟨rfl, h2⟩; rw [hg] at h2; exact ⟨rfl, Option.some.inj h2⟩
    | succ k =>
      simp only [List.getElem?_cons_succ]
      exact ih (fun i hi => h i (by simp [hi])) k i f

theorem namedFiles_snd (files : List FileInfo) (pos : List Nat) :
    (namedFiles files pos).map (·.2) = pos.filterMap (fun i => files[i]?) := by
  induction pos with
  | nil => rfl
  | cons i pos ih =>
    cases h : files[i]? with
    | none => simpa [namedFiles, h] using ih
    | some f => simpa [namedFiles, h] using ih

theorem checkable_answer {f : FileInfo} {d : Bytes} (h : CheckableFile f d) :
    ∃ b, openedPrelinked f d = .ok b ∧ (b = true → d.length ≠ f.size ∧ HasUndoSection d) := by
  unfold openedPrelinked
  by_cases hne : d.length ≠ f.size
  · rw [if_pos hne]
    rcases h with h | ⟨a, b⟩
    · exact absurd h hne
    · obtain ⟨x, e1, e2⟩ := (isPrelinked_ok d 128 (Or.inl (by decide)) a).2 b
      exact ⟨x, e1, fun hx => ⟨hne, e2.mp hx⟩⟩
  · rw [if_neg hne]
    exact ⟨false, rfl, fun h => by cases h⟩

theorem headLen_eq (f : FileInfo) : headLen f = (alteredHeader f).length := by
  rw [alteredHeader_length]
  rfl

theorem entrySize_eq {f : FileInfo} (h : f.Fits) : entrySize f = headLen f + contLen f := by
  unfold entrySize
  rw [headLen_eq]
  by_cases h1 : isReg f = true
  · rw [if_pos h1, contLen_reg h h1]
  · by_cases h2 : isLnk f = true
    · rw [if_neg h1, if_pos h2, contLen_lnk h h2]
    · rw [if_neg h1, if_neg h2, contLen_other h1 h2]

theorem layout_of {H : Bytes → Bytes} {files : List FileInfo} {algo : Nat} {sequence : Bytes} {places : List CpioFile} {disk : Disk}
    {d : Delta} (hd : d.sequence = sequence) (hx : expandSeq H files algo noCheck sequence = .ok places) (hcount : files.length < 2^30)
    (hfit : ∀ f ∈ files, f.Fits)
    (hdisk : ∀ f ∈ files, ∀ data, disk.get f.name = some data → CheckableFile f data)
    (hpos : ∀ ps, decodeSeq files.length (sequence.drop 16) = .ok ps → ps = filesOf (runsOf (sequence.drop 16)))
    (hop : ∀ i ∈ filesOf (runsOf (sequence.drop 16)), ∀ f, files[i]? = some f → isReg f = true → 0 < f.size →
      i < (filesOf (runsOf (sequence.drop 16))).length)
    (hpre : (∃ f ∈ files, LooksPrelinked disk f) → CarefulPrelink disk files d) :
    ∃ n, Layout ⟨disk, files, places⟩ n ∧ ∀ nblk, (∀ j, 8192 * j < d.extDataLen → j < nblk) →
      (∃ f ∈ files, IsPre ⟨disk, files, places⟩ f) → PreLayout ⟨disk, files, places⟩ n nblk := by
  subst hd
  obtain ⟨ps, h1, h2, rfl⟩ := expandSeq_inv hx
  have hps := hpos ps h1
  rw [← hps] at hop
  have hlen := decodeSeq_length h1
  have hnl := namedFiles_length h2
  have hmf : ∀ x ∈ namedFiles files ps, x.2.Fits := fun x hx => hfit _ (List.mem_of_getElem? (namedFiles_mem hx).2)
  obtain ⟨l1, l2, l3, l4⟩ := seqPlaces_layout (namedFiles files ps) 0 hmf (by rw [hnl]; omega)
  generalize hpl : seqPlaces (namedFiles files ps) 0 ++ [trailerPlace (seqEnd (namedFiles files ps) 0)] = places at *
  have hplen : places.length = ps.length + 1 := by
    rw [← hpl, List.length_append, l1, hnl]; rfl
  have hlast : places[ps.length]? = some (trailerPlace (seqEnd (namedFiles files ps) 0)) := by
    rw [← hpl, List.getElem?_append_right (by omega), l1, hnl, Nat.sub_self]
    rfl
  have hent : ∀ k, k < ps.length → ∃ i f, places[k]? =
      some (seqPlace i f (((namedFiles files ps).take k).map (fun x => headLen x.2 + contLen x.2)).sum) ∧
      files[i]? = some f ∧ f.Fits ∧ ps[k]? = some i := by
    intro k hk
    obtain ⟨x, o, q1, q2, q3⟩ := l2 k (by omega)
    have hm := List.mem_of_getElem? q1
    rw [Nat.zero_add] at q3
    subst q3
    exact ⟨x.1, x.2, by rw [← hpl, List.getElem?_append_left (by omega)]; exact q2, (namedFiles_mem hm).2, hmf x hm,
      ((namedFiles_get_iff h2 k x.1 x.2).mp q1).1⟩
  have hent' : ∀ (k i : Nat) f o, places[k]? = some (seqPlace i f o) → files[i]? = some f → k < ps.length ∧ ps[k]? = some i ∧
      o = (((namedFiles files ps).take k).map (fun x => headLen x.2 + contLen x.2)).sum := by
    intro k i f o hp hf
    have hkl : k < ps.length := by
      have hlt := (List.getElem?_eq_some_iff.mp hp).1
      by_cases hk : k = ps.length
      · subst hk
        rw [hlast] at hp
        cases hp
      · omega
    obtain ⟨i', f', q1, q2, q3, q4⟩ := hent k hkl
    rw [q1] at hp
    have e : some i' = some i := congrArg CpioFile.index (Option.some.inj hp)
    have e2 : _ = o := congrArg CpioFile.offset (Option.some.inj hp)
    cases e
    exact ⟨hkl, q4, e2.symm⟩
  have hasked : ∀ f ∈ files, IsPre ⟨disk, files, places⟩ f → LooksPrelinked disk f := by
    rintro f hf ⟨data, h3, h4⟩
    obtain ⟨b, h5, h6⟩ := checkable_answer (hdisk f hf data h3)
    rw [h5] at h4
    cases h4
    exact ⟨data, h3, h6 rfl⟩
  refine ⟨ps.length, ⟨hplen, ?_, ?_, l3, ?_, l4, ?_⟩, ?_⟩
  · intro p hp
    simp only at hp
    rw [hlast] at hp
    cases hp
    exact ⟨rfl, by rw [fillHeader_none, trailerBytes_length]; rfl⟩
  · intro k hk
    obtain ⟨i, f, q1, q2, q3, _⟩ := hent k hk
    exact ⟨i, f, _, q1, q2, q3⟩
  · intro k i f o hp hf hr hs
    obtain ⟨_, q4, _⟩ := hent' k i f o hp hf
    exact hop i (List.mem_of_getElem? q4) f hf hr hs
  · intro f hf data hd
    obtain ⟨b, h5, _⟩ := checkable_answer (hdisk f hf data hd)
    rw [h5]
    trivial
  · rintro nblk hn ⟨f0, hf0, hpre0⟩
    have hP := hpre ⟨f0, hf0, hasked f0 hf0 hpre0⟩
    have hof : orderedFiles files (d.sequence.drop 16) = (namedFiles files ps).map (·.2) := by
      rw [namedFiles_snd, hps]; rfl
    have hat : ∀ (k i : Nat) f o, places[k]? = some (seqPlace i f o) → files[i]? = some f →
        (orderedFiles files (d.sequence.drop 16))[k]? = some f ∧
        o + (seqPlace i f o).headerLen = bodyAt (orderedFiles files (d.sequence.drop 16)) k f := by
      intro k i f o hp hf
      obtain ⟨_, q1, q2⟩ := hent' k i f o hp hf
      have hk := (namedFiles_get_iff h2 k i f).mpr ⟨q1, hf⟩
      refine ⟨by rw [hof, List.getElem?_map, hk]; rfl, ?_⟩
      have e : (seqPlace i f o).headerLen = headLen f := rfl
      unfold bodyAt
      have e2 : ((namedFiles files ps).take k).map (fun x => headLen x.2 + contLen x.2) =
          (((namedFiles files ps).map (·.2)).take k).map entrySize := by
        rw [← List.map_take, List.map_map]
        apply List.map_congr_left
        intro x hx
        exact (entrySize_eq (hmf x (List.mem_of_mem_take hx))).symm
      rw [e, headLen_eq, q2, hof, e2]
    refine ⟨fun f hf => (hP.undone f hf).good.mono (fun _ _ => trivial), ?_, ?_, ?_⟩
    · intro k i f o hp hf hr hs
      obtain ⟨_, q1, _⟩ := hent' k i f o hp hf
      have hi := hP.inPlace i (by rw [← hps]; exact List.mem_of_getElem? q1) f hf hr hs
      rw [← hps] at hi
      obtain ⟨i', f', w1, w2, _, w4⟩ := hent i (List.getElem?_eq_some_iff.mp hi).1
      rw [hi] at w4
      cases w4
      simp only at hf
      rw [hf] at w2
      cases w2
      exact ⟨_, w1⟩
    · intro k i f o j hp hf hl
      obtain ⟨q1, q2⟩ := hat k i f o hp hf
      rw [q2]
      exact hP.links k f j q1 hl
    · intro k i f o j hp hf hr hpr
      obtain ⟨q1, q2⟩ := hat k i f o hp hf
      rw [q2]
      intro h3 h4
      exact hn j (hP.inside k f j q1 hr (hasked f (List.mem_of_getElem? hf) hpr) h3 h4)

/-- C83 (partial): applying a delta to installed files never reads or writes outside a buffer and never
    hangs, whatever the delta file (truncated, inconsistent, hostile) and whatever the files on the disk
    contain: they may be missing, changed, longer or shorter than the package says, in any order, there
    may be more of them than the library keeps open, and prelink may have changed some of them. Missing:
    the conditions, each of which is violated by some input (see the theorems named there). -/
theorem C83_partial (env : ApplyEnv σ) (file : Bytes) (db : Db) (disk : Disk) (cleanup : Nat) (he : SoundEnv env)
    (hf : CarefulFile env.dec env.rpmHead file) (hp : ∀ n e v r p, db n e v r = some p → CarefulInstalled disk p)
    (hd : ∀ d, readDelta env.dec env.rpmHead file = .ok d → CarefulParts env d)
    (ho : ∀ d n e v r p, readDelta env.dec env.rpmHead file = .ok d → db n e v r = some p → CarefulOrder p d)
    (hpre : ∀ d n e v r p fs, readDelta env.dec env.rpmHead file = .ok d → db n e v r = some p → p.files = .ok fs →
      (∃ f ∈ fs, LooksPrelinked disk f) → CarefulPrelink disk fs d) :
    (applied env file (.installed db disk) cleanup).Defined := by
  refine applied_good env file _ cleanup he hf (fun d p old => d.type = .standard ∧ (∃ n e v r, db n e v r = some p) ∧
    old = .files disk) ?_ ?_
  · intro d _ _
    unfold applyOld
    refine Out.Good.ite (fun _ => trivial) (fun ht => Out.Good.ite (fun _ => trivial) (fun _ => ?_))
    have hty : d.type = .standard := by
      cases h : d.type with
      | standard => rfl
      | rpmonly => exact absurd h ht
    unfold readInstalled
    refine Out.Good.bind (P := fun p => ∃ n e v r, db n e v r = some p) ?_ (fun p hp => ⟨hty, hp, rfl⟩)
    refine (splitNevr_defined _).bind ?_
    rintro ⟨n, e, v, r⟩ _
    simp only
    cases h : db n e v r with
    | none => trivial
    | some p => exact ⟨n, e, v, r, h⟩
  · rintro d p old hd1 ⟨hty, ⟨n, e, v, r, hdb⟩, rfl⟩
    have hpk := hp n e v r p hdb
    have hor := ho d n e v r p hd1 hdb
    refine ⟨hpk.nevr, hd d hd1, ?_⟩
    have hpl : (applyPlaces env d p).Good (fun x => ∃ n, Layout ⟨disk, x.1, x.2⟩ n ∧ ∀ nblk, (∀ j, 8192 * j < d.extDataLen → j < nblk) →
        (∃ f ∈ x.1, IsPre ⟨disk, x.1, x.2⟩ f) → PreLayout ⟨disk, x.1, x.2⟩ n nblk) := by
      unfold applyPlaces
      rw [if_neg (by rw [hty]; decide)]
      refine hpk.files.good.bind ?_
      intro fs hfs
      refine hpk.algo.good.bind ?_
      intro algo _
      obtain ⟨hc, hl⟩ := hpk.listed fs hfs
      have hex := expandSeq_good (H := env.H) (algo := algo) [] (fun f hf => ⟨(hl f hf).1, (hl f hf).2.name⟩)
        ((hor.order fs hfs).good.mono (fun _ h => h.1))
      refine Out.Good.bind (P := fun places => expandSeq env.H fs algo noCheck d.sequence = .ok places) hex.defined.good ?_
      intro places hplc
      exact layout_of rfl hplc hc (fun f hf => (hl f hf).2) (hpk.onDisk fs hfs)
        (fun ps h => ((C17_accepts _ _ (hor.order fs hfs).short ps).mp h).2.1) (hor.opened fs hfs)
        (hpre d n e v r p fs hd1 hdb hfs)
    refine hpl.mono ?_
    rintro ⟨files, places⟩ ⟨m, hlay, hpl⟩ cfg add hcfg hext hc hen hint
    unfold applyLoop
    refine reconWrites_may (SafeInv.init _ m) (diskFiller_may hlay (hpl cfg.nblk ?_)) hcfg hext hc hen cleanup _ _ _ _ hint
    intro j hj
    unfold blocksCreate at hcfg
    split at hcfg
    · cases hcfg
    · obtain ⟨mx, _, h⟩ := Out.bind_eq_ok.mp hcfg
      cases h
      show j < blocksOf d.extDataLen
      unfold blocksOf
      rw [show blockSize = 8192 from rfl]
      omega

/-! ### Examples and counterexamples -/

/-- A standard delta from the package "a-1-1": a head of four bytes and the delta proper, with the file
    order `order`, two bytes of its own, and `n` bytes of the old files from offset 100 on. -/
def instFile (order : Bytes) (n extLen : Nat) : Bytes :=
  [0xED, 0xAB, 0xEE, 0xDB] ++ ([68, 76, 84, 51] ++ (createBe32 5 ++ [97, 45, 49, 45, 49] ++
  createBe32 (16 + order.length) ++ zeros 16 ++ order ++ zeros 16 ++
  createBe32 100 ++ createBe32 0 ++ createBe32 0 ++ createBe32 0 ++ createBe32 0 ++
  createBe32 (safeLeadsig 4 4).length ++ safeLeadsig 4 4 ++ createBe32 0 ++ createBe32 1 ++
  createBe32 1 ++ [1, 2, 100, n].flatMap createBe32 ++ createBe64 extLen ++ createBe32 0 ++ createBe64 2 ++ [7, 8]))

/-- Outside the library, for the examples. -/
def instEnv : ApplyEnv Bytes := { safeEnv with H := zeroH, rpmHead := fun _ => .ok (4, 0), tgtHeader := fun _ => .ok [] }

/-- The database knows "a-1-1", with these files. -/
def instDb (files : List FileInfo) : Db := fun n _ v r =>
  if n = [97] ∧ v = [49] ∧ r = [49] then some ⟨.ok [97, 45, 49, 45, 49], .ok files, .ok 0, .ok none⟩ else none

theorem instDb_some {files : List FileInfo} {n : Bytes} {e : Option Bytes} {v r : Bytes} {p : Pkg} (h : instDb files n e v r = some p) :
    p = ⟨.ok [97, 45, 49, 45, 49], .ok files, .ok 0, .ok none⟩ := by
  unfold instDb at h
  split at h
  · exact (Option.some.inj h).symm
  · cases h

/-- One file too long, the other one missing. -/
def damagedDisk : Disk := diskOf [([47, 97], [1, 2, 3])]

theorem diskOf_mem {l : List (Bytes × Bytes)} {n d : Bytes} (h : (diskOf l).get n = some d) : (n, d) ∈ l := by
  replace h : l.lookup n = some d := h
  induction l with
  | nil => cases h
  | cons x l ih =>
    obtain ⟨a, b⟩ := x
    rw [List.lookup_cons] at h
    split at h
    · rename_i e
      cases h
      rw [beq_iff_eq] at e
      subst e
      exact List.mem_cons_self
    · exact List.mem_cons_of_mem _ (ih h)

theorem inst_env : SoundEnv instEnv := by
  refine ⟨fun c z => ?_, fun f => Out.defined_ok _, fun f => Out.defined_ok _, fun b m h => ?_, fun b => Out.defined_ok _⟩
  · show (z.take 1000).length < 2^63
    rw [List.length_take]
    omega
  · have h : some (.ok none) = some m := h
    cases h
    exact Out.defined_ok _

theorem inst_file : CarefulFile instEnv.dec instEnv.rpmHead (instFile [32] 130 300) := by
  refine ⟨by decide +kernel, fun h => absurd h (by decide +kernel), fun k c s hk h => ?_⟩
  rcases hk with ⟨h, _⟩ | ⟨_, hk⟩
  · exact absurd h (by decide +kernel)
  · obtain ⟨x, hx, rfl⟩ := hk
    have : Out.okAnd (openStream instEnv.dec ((instFile [32] 130 300).drop 4)) (fun x => decide (CountsSmall x.2)) = true := by
      decide +kernel
    rw [h] at this
    simpa [Out.okAnd] using this

theorem inst_parts (d : Delta) (hd : readDelta instEnv.dec instEnv.rpmHead (instFile [32] 130 300) = .ok d) :
    CarefulParts instEnv d ∧ d.sequence.drop 16 = [32] := by
  have : Out.okAnd (readDelta instEnv.dec instEnv.rpmHead (instFile [32] 130 300)) (fun d => decide (
      (d.intCount < 2^31 ∧ d.extCount < 2^31) ∧ d.tgtCompLevel ≤ 9 ∧
      112 + 16 * word d.tgtLeadsig 104 + word d.tgtLeadsig 108 ≤ d.tgtLeadsig.length ∧
      d.tgtHeaderLen ≤ producedBytes d.ints d.exts ∧ d.sequence.drop 16 = [32])) = true := by decide +kernel
  rw [hd] at this
  simp only [Out.okAnd, decide_eq_true_eq] at this
  obtain ⟨h2, h3, h4, h5, h6⟩ := this
  exact ⟨⟨h2, Or.inl h3, fun _ => h4, h5⟩, h6⟩

theorem two_tame : OrderTame 2 [32] := by
  refine orderTame_of (by decide +kernel) ?_
  have : runsOf [32] = [(0, 2)] := by decide +kernel
  rw [this]
  intro k hk r hr
  match k, hr with
  | 0, hr => cases hr; decide

theorem inst_order {n : Bytes} {e : Option Bytes} {v r : Bytes} {p : Pkg} (d : Delta)
    (hd : readDelta instEnv.dec instEnv.rpmHead (instFile [32] 130 300) = .ok d) (h : instDb twoFiles n e v r = some p) :
    CarefulOrder p d := by
  cases instDb_some h
  refine ⟨?_, ?_⟩
  · intro fs hfs
    cases hfs
    rw [(inst_parts d hd).2]
    exact two_tame
  · intro fs hfs i hi f _ _ _
    have e : filesOf (runsOf [32]) = [0, 1] := by decide +kernel
    rw [(inst_parts d hd).2, e] at hi ⊢
    simp only [List.mem_cons, List.not_mem_nil, or_false] at hi
    show i < 2
    omega

theorem inst_pkg {l : List (Bytes × Bytes)} (hl : ∀ x ∈ l, x.2.length ≤ 100 ∧ ¬ IsElf x.2) {n : Bytes} {e : Option Bytes} {v r : Bytes}
    {p : Pkg} (h : instDb twoFiles n e v r = some p) : CarefulInstalled (diskOf l) p := by
  cases instDb_some h
  refine ⟨Out.defined_ok _, Out.defined_ok _, Out.defined_ok _, ?_, ?_⟩
  · intro fs hfs
    cases hfs
    refine ⟨by decide, fun f hf => ?_⟩
    simp only [twoFiles, List.mem_cons, List.not_mem_nil, or_false] at hf
    rcases hf with rfl | rfl <;> exact ⟨by decide, by decide, by decide, by decide, by decide, by decide⟩
  · intro fs hfs f hf d hd
    obtain ⟨h1, h2⟩ := hl _ (diskOf_mem hd)
    exact Or.inr ⟨by simp only at h1; omega, fun h => absurd h h2⟩

/-- Non-vacuity of C83: with both files in place the delta is applied; with one too long and the other
    missing it is refused. In both cases all the conditions are met. -/
theorem C83_example :
    (∀ n e v r p, instDb twoFiles n e v r = some p → CarefulInstalled twoDisk p ∧ CarefulInstalled damagedDisk p) ∧
    applied instEnv (instFile [32] 130 300) (.installed (instDb twoFiles) twoDisk) 0 = .ok () ∧
    applied instEnv (instFile [32] 130 300) (.installed (instDb twoFiles) damagedDisk) 0 = .err .io := by
  refine ⟨fun n e v r p h => ⟨inst_pkg ?_ h, inst_pkg ?_ h⟩, by decide +kernel, by decide +kernel⟩ <;>
  · unfold IsElf
    decide +kernel

example : (applied instEnv (instFile [32] 130 300) (.installed (instDb twoFiles) damagedDisk) 0).Defined :=
  C83_partial instEnv _ _ _ 0 inst_env inst_file (fun n e v r p h => (C83_example.1 n e v r p h).2)
    (fun d hd => (inst_parts d hd).1) (fun d _ _ _ _ _ hd h => inst_order d hd h) (by
      rintro d n e v r p fs hd h hfs ⟨f, _, data, h1, _, h2⟩
      have h3 := diskOf_mem h1
      simp only [List.mem_singleton, Prod.mk.injEq] at h3
      rw [h3.2] at h2
      have h5 : ¬ IsElf [1, 2, 3] := by unfold IsElf; decide +kernel
      exact absurd h2.1 h5)

/-! #### With prelinked files -/

/-- What `CarefulPrelink` says of the layout, computed. -/
def prelinkB (disk : Disk) (fs : List FileInfo) (order : Bytes) (extLen : Nat) : Bool :=
  (filesOf (runsOf order)).all (fun i => (filesOf (runsOf order))[i]? == some i) &&
  fs.all (fun f => decide ((disk.undo f.name).Defined)) &&
  (List.range (orderedFiles fs order).length).all (fun k => match (orderedFiles fs order)[k]? with
    | none => true
    | some f => (!isLnk f || bodyAt (orderedFiles fs order) k f / 8192 == (bodyAt (orderedFiles fs order) k f + f.linkto.length - 1) / 8192)
      && (!isReg f || decide (bodyAt (orderedFiles fs order) k f + f.size ≤ extLen)))

theorem carefulPrelink_of {disk : Disk} {fs : List FileInfo} {d : Delta}
    (h : prelinkB disk fs (d.sequence.drop 16) d.extDataLen = true) : CarefulPrelink disk fs d := by
  unfold prelinkB at h
  rw [Bool.and_eq_true, Bool.and_eq_true, List.all_eq_true, List.all_eq_true, List.all_eq_true] at h
  obtain ⟨⟨h1, h2⟩, h3⟩ := h
  have h3' : ∀ (k : Nat) f, (orderedFiles fs (d.sequence.drop 16))[k]? = some f → _ := fun k f hk => by
    have := h3 k (List.mem_range.mpr (List.getElem?_eq_some_iff.mp hk).1)
    rw [hk] at this
    rw [Bool.and_eq_true, Bool.or_eq_true, Bool.or_eq_true] at this
    exact this
  refine ⟨fun f hf => of_decide_eq_true (h2 f hf), fun i hi f _ _ _ => eq_of_beq (h1 i hi), ?_, ?_⟩
  · intro k f j hk hl hj
    rcases (h3' k f hk).1 with h | h
    · rw [hl] at h; cases h
    · have := eq_of_beq h
      omega
  · intro k f j hk hr _ _ hj
    rcases (h3' k f hk).2 with h | h
    · rw [hr] at h; cases h
    · have := of_decide_eq_true h
      omega

/-- A delta from the package with the files `plFiles`. -/
def preFile : Bytes := instFile [64] 9000 9604

/-- The same disk, but what `prelink -u` makes of the programs is too short. -/
def cutDisk : Disk := { plDisk with undo := fun _ => .ok [1, 2, 3] }

theorem pre_file : CarefulFile instEnv.dec instEnv.rpmHead preFile := by
  refine ⟨by decide +kernel, fun h => absurd h (by decide +kernel), fun k c s hk h => ?_⟩
  rcases hk with ⟨h, _⟩ | ⟨_, hk⟩
  · exact absurd h (by decide +kernel)
  · obtain ⟨x, hx, rfl⟩ := hk
    have : Out.okAnd (openStream instEnv.dec (preFile.drop 4)) (fun x => decide (CountsSmall x.2)) = true := by
      decide +kernel
    rw [h] at this
    simpa [Out.okAnd] using this

theorem pre_parts (d : Delta) (hd : readDelta instEnv.dec instEnv.rpmHead preFile = .ok d) :
    CarefulParts instEnv d ∧ d.sequence.drop 16 = [64] ∧ d.extDataLen = 9604 := by
  have : Out.okAnd (readDelta instEnv.dec instEnv.rpmHead preFile) (fun d => decide (
      (d.intCount < 2^31 ∧ d.extCount < 2^31) ∧ d.tgtCompLevel ≤ 9 ∧
      112 + 16 * word d.tgtLeadsig 104 + word d.tgtLeadsig 108 ≤ d.tgtLeadsig.length ∧
      d.tgtHeaderLen ≤ producedBytes d.ints d.exts ∧ d.sequence.drop 16 = [64] ∧ d.extDataLen = 9604)) = true := by decide +kernel
  rw [hd] at this
  simp only [Out.okAnd, decide_eq_true_eq] at this
  obtain ⟨h2, h3, h4, h5, h6⟩ := this
  exact ⟨⟨h2, Or.inl h3, fun _ => h4, h5⟩, h6⟩

theorem four_tame : OrderTame 4 [64] := by
  refine orderTame_of (by decide +kernel) ?_
  have : runsOf [64] = [(0, 4)] := by decide +kernel
  rw [this]
  intro k hk r hr
  match k, hr with
  | 0, hr => cases hr; decide

theorem pre_order {n : Bytes} {e : Option Bytes} {v r : Bytes} {p : Pkg} (d : Delta)
    (hd : readDelta instEnv.dec instEnv.rpmHead preFile = .ok d) (h : instDb plFiles n e v r = some p) :
    CarefulOrder p d := by
  cases instDb_some h
  refine ⟨?_, ?_⟩
  · intro fs hfs
    cases hfs
    rw [(pre_parts d hd).2.1]
    exact four_tame
  · intro fs hfs i hi f _ _ _
    have e : filesOf (runsOf [64]) = [0, 1, 2, 3] := by decide +kernel
    rw [(pre_parts d hd).2.1, e] at hi ⊢
    simp only [List.mem_cons, List.not_mem_nil, or_false] at hi
    show i < 4
    omega

theorem pre_pkg {n : Bytes} {e : Option Bytes} {v r : Bytes} {p : Pkg} (h : instDb plFiles n e v r = some p) :
    CarefulInstalled cutDisk p := by
  cases instDb_some h
  refine ⟨Out.defined_ok _, Out.defined_ok _, Out.defined_ok _, ?_, ?_⟩
  · intro fs hfs
    cases hfs
    refine ⟨by decide, fun f hf => ?_⟩
    simp only [plFiles, List.mem_cons, List.not_mem_nil, or_false] at hf
    rcases hf with rfl | rfl | rfl | rfl <;> exact ⟨by decide, by decide, by decide, by decide, by decide, by decide⟩
  · intro fs hfs f hf d hd
    have hm := diskOf_mem (l := [([47, 98], undoElf true), ([47, 99], [1, 2, 3]), ([47, 100], undoElf false)]) hd
    simp only [List.mem_cons, List.not_mem_nil, or_false, Prod.mk.injEq] at hm
    right
    rcases hm with ⟨_, rfl⟩ | ⟨_, rfl⟩ | ⟨_, rfl⟩
    · refine ⟨by decide +kernel, fun _ _ => ?_⟩; unfold NamesUsable; decide +kernel
    · refine ⟨by decide, fun h _ => absurd h ?_⟩; unfold IsElf; decide +kernel
    · refine ⟨by decide +kernel, fun _ _ => ?_⟩; unfold NamesUsable; decide +kernel

/-- Two of the files look prelinked; applying succeeds if undoing it works, and is refused if it yields
    something too short. -/
theorem C83_example_prelink : (∃ f ∈ plFiles, LooksPrelinked cutDisk f) ∧
    applied instEnv preFile (.installed (instDb plFiles) plDisk) 0 = .ok () ∧
    applied instEnv preFile (.installed (instDb plFiles) cutDisk) 0 = .err .io := by
  refine ⟨⟨demoFile [47, 98] 0o100755 9001 [], by simp [plFiles], undoElf true, by decide +kernel, by decide +kernel, ?_⟩,
    by decide +kernel, by decide +kernel⟩
  have hu : IsElf (undoElf true) ∧ HasSections (undoElf true) ∧ NamesUsable (undoElf true) := by
    refine ⟨?_, ?_, ?_⟩ <;> first | unfold IsElf; decide +kernel | unfold HasSections; decide +kernel | unfold NamesUsable; decide +kernel
  obtain ⟨x, e1, e2⟩ := (isPrelinked_ok (undoElf true) 128 (Or.inl (by decide)) (by decide +kernel)).2 (fun _ _ => hu.2.2)
  exact e2.mp (by
    have : isPrelinked (undoElf true) ((undoElf true).take 128) = .ok true := by decide +kernel
    rw [this] at e1
    exact (Out.ok.inj e1).symm)

example : (applied instEnv preFile (.installed (instDb plFiles) cutDisk) 0).Defined :=
  C83_partial instEnv _ _ _ 0 inst_env pre_file (fun n e v r p h => pre_pkg h)
    (fun d hd => (pre_parts d hd).1) (fun d _ _ _ _ _ hd h => pre_order d hd h) (by
      intro d n e v r p fs hd h hfs _
      cases instDb_some h
      cases hfs
      apply carefulPrelink_of
      rw [(pre_parts d hd).2.1, (pre_parts d hd).2.2]
      decide +kernel)

/-- C83 is violated: with the same files, a delta that states 8192 bytes of old data, of which it uses
    two from the first block. A prelinked program begins in that block and goes on in the next one, which
    has no entry in the table of the blocks. -/
theorem C83_violated_prelink :
    applied instEnv (instFile [64] 2 8192) (.installed (instDb plFiles) plDisk) 0 = .ub := by
  decide +kernel

/-- C83 is violated: a delta from a package whose archive leaves out the first file (say, a
    configuration file), with the second in place. The file list is read before its start. -/
theorem C83_violated_skipped :
    applied instEnv (instFile [1, 16] 15 132) (.installed (instDb twoFiles) twoDisk) 0 = .ub := by
  decide +kernel

/-- C83 is violated: the first file has been replaced by an ELF file of another size with an unnamed
    section. A pointer into the middle of a buffer is freed. -/
theorem C83_violated_elf :
    applied instEnv (instFile [32] 130 300)
      (.installed (instDb twoFiles) (diskOf [([47, 97], tinyElf true (List.replicate 40 0) []), ([47, 98], [66])])) 0 = .ub := by
  decide +kernel

end Drpm
