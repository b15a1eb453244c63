import Verif.Props.Check
import Verif.Props.SafeInstalled
/-!
# Property C84: checking is memory-safe, whatever is installed

The full statements `(drpmCheck ..).Defined` and `(drpmCheckSequence ..).Defined` for all inputs are
false; the conditions below name the ways in which they fail.
-/

namespace Drpm

/-- Whether a file is prelinked can be found out (`C39_violated`): it is no ELF file, or one whose
    section names, if it has sections, can be read; and the first `read` delivers 64 bytes (or all). -/
def Detectable (sys : Sys) (name c : Bytes) : Prop :=
  c.take 4 ≠ [0x7F, 0x45, 0x4C, 0x46] ∨
  (FirstReadLong sys name ∧ c.length ≤ 0x7ffff000 ∧ (IsElf c → HasSections c → NamesUsable c))

/-- An installed package that does not trigger the known defects: rpmlib's answers are defined, the
    digests in its header have at most 65 characters (`C58_violated`), and for a file that is longer
    than the package says it can be found out whether it is prelinked. -/
structure CheckablePkg (sys : Sys) (p : Pkg) : Prop where
  nevr : p.nevr.Defined
  files : p.files.Defined
  algo : p.algo.Defined
  sigMd5 : p.sigMd5.Defined
  listed : ∀ fs, p.files = .ok fs → ∀ f ∈ fs, f.md5.length ≤ 65
  onDisk : ∀ fs, p.files = .ok fs → ∀ f ∈ fs, ∀ c, sys.content f.name = some c → f.size < c.length → Detectable sys f.name c

/-- A file order that neither overruns the tables nor shifts too far (`C17_violated_*`). -/
def OrderInside (p : Pkg) (seq : Bytes) : Prop :=
  ∀ fs, p.files = .ok fs → OrderTame fs.length (seq.drop 16)

theorem detect_good {sys : Sys} {name c b : Bytes} {cap : Nat} (h : Detectable sys name c) (hcap : 64 ≤ cap)
    (hb : readStep c cap (sys.reads name 0) = some b) : (isPrelinked c b).Good (fun _ => True) := by
  rcases h with h | ⟨h1, h2, h3⟩
  · obtain ⟨n, rfl, _⟩ := readStep_some hb
    rw [isPrelinked_not_elf n h]
    trivial
  · unfold readStep at hb
    rw [Option.map_eq_some_iff] at hb
    obtain ⟨k, hk, rfl⟩ := hb
    have := h1 k hk
    obtain ⟨b, e1, _⟩ := C39_partial c (min cap (max 1 k)) (Or.inl (by omega)) h2 h3
    rw [e1]
    trivial

theorem digestLen_good (algo : Nat) : (digestLen algo).Good (fun n => (algo = 0 ∧ n = 16) ∨ (algo = 1 ∧ n = 32)) := by
  unfold digestLen
  refine Out.Good.ite (fun h => Or.inl ⟨h, rfl⟩) (fun _ => Out.Good.ite (fun h => Or.inr ⟨h, rfl⟩) (fun _ => trivial))

theorem fileDigest_length {algo : Nat} {f : FileInfo} {d : Bytes} (h : fileDigest algo f = .ok d) :
    (algo = 0 → d.length = 16) ∧ (algo = 1 → d.length = 32) := by
  unfold fileDigest at h
  split at h
  · rename_i h0
    split at h
    · cases h
    · split at h
      · rename_i e
        cases h
        unfold parseMd5 at e
        refine ⟨fun _ => ?_, fun h => by omega⟩
        revert e
        repeat' split
        all_goals intro e
        all_goals first | cases e | skip
        all_goals first | assumption | omega
      · cases h
  · rename_i h0
    split at h
    · split at h
      · cases h
      · split at h
        · rename_i e
          cases h
          unfold parseSha256 at e
          refine ⟨fun h => by omega, fun _ => ?_⟩
          revert e
          repeat' split
          all_goals intro e
          all_goals first | cases e | skip
          all_goals first | assumption | omega
        · cases h
    · exact ⟨fun h => by omega, fun h => by omega⟩

theorem compareDigest_good {sys : Sys} {algo n : Nat} {digest data : Bytes} (h : n ≤ digest.length) :
    (compareDigest sys algo digest data n).Good (fun _ => True) := by
  unfold compareDigest
  exact (rdBlk_good (by omega)).bind (fun _ _ => Out.Good.ite (fun _ => trivial) (fun _ => trivial))

theorem checkPrelink_good {sys : Sys} (hu : ∀ n, (sys.undo n).Defined) {name : Bytes} {algo : Nat} {digest : Bytes} {fs : Nat}
    (hd : (algo = 0 → digest.length = 16) ∧ (algo = 1 → digest.length = 32)) (hfs : 0 < fs) :
    (checkPrelink sys name algo digest fs).Good (fun _ => True) := by
  unfold checkPrelink
  refine (hu name).good.bind (fun c _ => (digestLen_good algo).bind (fun n hn => ?_))
  refine Out.Good.ite (fun h => by omega) (fun _ => ?_)
  obtain ⟨p, failed, e, _⟩ := hashLoop_spec (sys.reads name) (fs + 1) 0 c fs [] (by omega)
  rw [e, Out.bind_ok]
  unfold prelinkResult
  refine Out.Good.ite (fun _ => trivial) (fun _ => compareDigest_good ?_)
  rcases hn with ⟨h1, h2⟩ | ⟨h1, h2⟩
  · have := hd.1 h1; omega
  · have := hd.2 h1; omega

theorem fullRest_good {sys : Sys} {name : Bytes} {algo : Nat} {digest : Bytes} {n k : Nat} {rest : Bytes} {fs : Nat} {acc : Bytes}
    (h : n ≤ digest.length) : (fullRest sys name algo digest n k rest fs acc).Good (fun _ => True) := by
  obtain ⟨p, e, _⟩ := fullRest_spec sys name algo digest n k rest fs acc
  rw [e]
  exact compareDigest_good h

theorem checkFilesize_good {sys : Sys} (hu : ∀ n, (sys.undo n).Defined) {name : Bytes} {algo : Nat} {digest : Bytes} {fs : Nat}
    (hd : (algo = 0 → digest.length = 16) ∧ (algo = 1 → digest.length = 32)) (hfs : 0 < fs)
    (hc : ∀ c, sys.content name = some c → fs < c.length → Detectable sys name c) :
    (checkFilesize sys name algo digest fs).Good (fun _ => True) := by
  unfold checkFilesize
  split
  · trivial
  · rename_i c hcont
    refine Out.Good.ite (fun _ => trivial) (fun _ => Out.Good.ite (fun hlt => Out.Good.ite (fun _ => ?_) (fun _ => trivial)) (fun _ => trivial))
    split
    · trivial
    · rename_i b hb
      refine (detect_good (hc c hcont hlt) (by decide) hb).bind (fun p _ => ?_)
      unfold afterPrelink
      exact Out.Good.ite (fun _ => checkPrelink_good hu hd hfs) (fun _ => trivial)

theorem checkFull_good {sys : Sys} (hu : ∀ n, (sys.undo n).Defined) {name : Bytes} {algo : Nat} {digest : Bytes} {fs : Nat}
    (hd : (algo = 0 → digest.length = 16) ∧ (algo = 1 → digest.length = 32)) (hfs : 0 < fs)
    (hc : ∀ c, sys.content name = some c → fs < c.length → Detectable sys name c) :
    (checkFull sys name algo digest fs).Good (fun _ => True) := by
  unfold checkFull
  split
  · trivial
  · rename_i c hcont
    refine Out.Good.ite (fun _ => ?_) (fun _ => trivial)
    refine (digestLen_good algo).bind (fun n hn => ?_)
    have hl : n ≤ digest.length := by
      rcases hn with ⟨h1, h2⟩ | ⟨h1, h2⟩
      · have := hd.1 h1; omega
      · have := hd.2 h1; omega
    refine Out.Good.ite (fun hlt => ?_) (fun _ => fullRest_good hl)
    unfold fullFirst
    split
    · exact fullRest_good hl
    · rename_i b hb
      refine (detect_good (hc c hcont hlt) (by decide) hb).bind (fun p _ => ?_)
      unfold afterPrelink
      exact Out.Good.ite (fun _ => checkPrelink_good hu hd hfs) (fun _ => fullRest_good hl)

theorem seqLoop_defined {files : List FileInfo} {algo : Nat} {check : Bytes → Bytes → Nat → Out Unit}
    (hm : ∀ f ∈ files, (seqMd5 algo check f).Good (fun _ => True)) :
    ∀ (ps : List Nat) (md : Bytes) (out : List CpioFile) (off : Nat), (∀ p ∈ ps, p < files.length) →
      (seqLoop files algo check ps md out off).Good (fun _ => True) := by
  intro ps
  induction ps with
  | nil => intro md out off _; trivial
  | cons p ps ih =>
    intro md out off h
    unfold seqLoop
    have hp : p < files.length := h p (by simp)
    rw [rd_ok hp, Out.bind_ok]
    exact (hm _ (List.getElem_mem hp)).bind (fun b _ => ih _ _ _ (fun q hq => h q (by simp [hq])))

theorem checkFiles_good {sys : Sys} (hu : ∀ n, (sys.undo n).Defined) {H : Bytes → Bytes} {p : Pkg} (hp : CheckablePkg sys p)
    {seq : Bytes} (ho : OrderInside p seq) (mode : Int) : (checkFiles sys H p seq mode).Good (fun _ => True) := by
  unfold checkFiles
  refine hp.files.good.bind (fun fs hfs => hp.algo.good.bind (fun algo _ => ?_))
  have hcheck : (checkOf sys mode algo).Good (fun check => ∀ f ∈ fs, ∀ d, 0 < seqFilesize f →
      ((algo = 0 → d.length = 16) ∧ (algo = 1 → d.length = 32)) → isReg f = true →
      (check f.name d (seqFilesize f)).Good (fun _ => True)) := by
    have hsz : ∀ f ∈ fs, isReg f = true → seqFilesize f = f.size := by
      intro f _ hr
      unfold seqFilesize
      rw [if_pos hr]
    unfold checkOf
    refine Out.Good.ite (fun _ f _ d _ _ _ => trivial) (fun _ => Out.Good.ite (fun _ f hf d h0 hd hr => ?_)
      (fun _ => Out.Good.ite (fun _ f hf d h0 hd hr => ?_) (fun _ => trivial)))
    · exact checkFull_good hu hd h0 (fun c h1 h2 => hp.onDisk fs hfs f hf c h1 (by rw [hsz f hf hr] at h2; exact h2))
    · exact checkFilesize_good hu hd h0 (fun c h1 h2 => hp.onDisk fs hfs f hf c h1 (by rw [hsz f hf hr] at h2; exact h2))
  refine hcheck.bind (fun check hck => ?_)
  refine Out.Good.bind (P := fun _ => True) ?_ (fun _ _ => trivial)
  unfold expandSeq
  refine Out.Good.ite (fun _ => trivial) (fun _ => ((ho fs hfs).good.mono (fun _ h => h.1)).bind (fun ps hps => ?_))
  refine Out.Good.bind (seqLoop_defined (fun f hf => ?_) ps [] [] 0 hps) (fun x _ => ?_)
  · unfold seqMd5 seqBody
    refine Out.Good.bind (P := fun _ => True) (Out.Good.ite (fun _ => trivial) (fun _ => Out.Good.ite (fun hr => ?_)
      (fun _ => trivial))) (fun _ _ => trivial)
    rw [Bool.and_eq_true, decide_eq_true_eq] at hr
    unfold seqDigest
    refine Out.Good.bind (C58_partial algo f (hp.listed fs hfs f hf)).good (fun d hd => ?_)
    exact (hck f hf d hr.2 (fileDigest_length hd) hr.1).bind (fun _ _ => trivial)
  · exact Out.Good.ite (fun _ => trivial) (fun _ => trivial)

theorem sameNevr_good {nevr : Bytes} {p : Pkg} (h : p.nevr.Defined) : (sameNevr nevr p).Good (fun _ => True) := by
  unfold sameNevr
  exact h.good.bind (fun _ _ => Out.Good.ite (fun _ => trivial) (fun _ => trivial))

theorem readInstalled_good (db : Db) (nevr : Bytes) :
    (readInstalled db nevr).Good (fun p => ∃ n e v r, db n e v r = some p) := by
  unfold readInstalled
  refine (splitNevr_defined _).bind ?_
  rintro ⟨n, e, v, r⟩ _
  simp only
  cases h : db n e v r with
  | none => trivial
  | some p => exact ⟨n, e, v, r, h⟩

theorem splitSeqId_defined (id : Bytes) : (splitSeqId id).Defined := by
  refine Out.Good.defined (P := fun _ => True) ?_
  unfold splitSeqId
  split
  · trivial
  · trivial
  · refine Out.Good.ite (fun _ => trivial) (fun _ => ?_)
    split
    · trivial
    · exact Out.Good.ite (fun _ => trivial) (fun _ => trivial)

/-- C84 (partial), `drpm_check`: whatever the delta file, the check mode, the database and the contents
    of the installed files, the call returns a result; it reads and writes inside its buffers only and
    does not hang. Prelinked files are included. Missing: the conditions, each of which is violated by
    some input (see the theorems named there). -/
theorem C84_check_partial (sys : Sys) (H : Bytes → Bytes) (db : Db) (dec : Decoder) (rpmHead : Bytes → Out (Nat × Nat))
    (file : Bytes) (mode : Int) (hu : ∀ n, (sys.undo n).Defined) (hr : ∀ f, (rpmHead f).Defined) (hf : CarefulFile dec rpmHead file)
    (hp : ∀ n e v r p, db n e v r = some p → CheckablePkg sys p)
    (ho : ∀ d n e v r p, readDelta dec rpmHead file = .ok d → d.type = .standard → db n e v r = some p → OrderInside p d.sequence) :
    (drpmCheck sys H db dec rpmHead file mode).Defined := by
  refine Out.Good.defined (P := fun _ => True) ?_
  unfold drpmCheck
  refine Out.Good.ite (fun _ => trivial) (fun _ => ?_)
  refine (C10_partial dec rpmHead file (hr _) hf.name hf.counts).good.bind (fun d hd => ?_)
  refine (readInstalled_good db _).bind ?_
  rintro p ⟨n, e, v, r, hdb⟩
  have hpk := hp n e v r p hdb
  refine (sameNevr_good hpk.nevr).bind (fun _ _ => Out.Good.ite (fun ht => ?_) (fun _ => trivial))
  exact checkFiles_good hu hpk (ho d n e v r p hd ht hdb) mode

/-- C84 (partial), `drpm_check_sequence`: the same for every sequence ID, with a package file or with
    the database. -/
theorem C84_sequence_partial (sys : Sys) (H : Bytes → Bytes) (db : Db) (oldRpm : Option (Out Pkg)) (id : Bytes) (mode : Int)
    (hu : ∀ n, (sys.undo n).Defined) (hq : ∀ q, oldRpm = some q → q.Defined)
    (hp : ∀ p, (oldRpm = some (.ok p) ∨ ∃ n e v r, db n e v r = some p) → CheckablePkg sys p)
    (ho : ∀ nevr seq p, splitSeqId id = .ok (nevr, seq) → (oldRpm = some (.ok p) ∨ ∃ n e v r, db n e v r = some p) →
      OrderInside p seq) :
    (drpmCheckSequence sys H db oldRpm id mode).Defined := by
  refine Out.Good.defined (P := fun _ => True) ?_
  unfold drpmCheckSequence
  refine Out.Good.ite (fun _ => trivial) (fun _ => ?_)
  refine (splitSeqId_defined id).good.bind ?_
  rintro ⟨nevr, seq⟩ hid
  simp only
  have hsrc : (seqSource db oldRpm nevr seq).Good (fun x => oldRpm = some (.ok x.1) ∨ ∃ n e v r, db n e v r = some x.1) := by
    unfold seqSource
    split
    · exact (readInstalled_good db _).bind (fun p h => Or.inr h)
    · rename_i _ q _
      refine (hq q rfl).good.bind (fun p hqp => ?_)
      subst hqp
      exact (hp p (Or.inl rfl)).sigMd5.good.bind (fun m _ => Or.inl rfl)
  refine hsrc.bind ?_
  rintro ⟨p, only⟩ hs
  simp only at hs ⊢
  have hpk := hp p hs
  refine (sameNevr_good hpk.nevr).bind (fun _ _ => Out.Good.ite (fun _ => trivial) (fun _ => ?_))
  exact checkFiles_good hu hpk (ho nevr seq p hid hs) mode

/-! ### Examples and counterexamples -/

/-- A system with these files, which can all be read at once, none of them prelinked. -/
def checkSys (l : List (Bytes × Bytes)) : Sys :=
  { content := fun n => l.lookup n, readable := fun _ => true, reads := fun _ _ => some (2^20), undo := fun _ => .err .other
    digest := fun a _ => if a = 0 then List.replicate 16 0xaa else List.replicate 32 0xaa }

theorem check_pkg {l : List (Bytes × Bytes)} (hl : ∀ x ∈ l, x.2.take 4 ≠ [0x7F, 0x45, 0x4C, 0x46]) {n : Bytes} {e : Option Bytes}
    {v r : Bytes} {p : Pkg} (h : instDb twoFiles n e v r = some p) : CheckablePkg (checkSys l) p := by
  cases instDb_some h
  refine ⟨Out.defined_ok _, Out.defined_ok _, Out.defined_ok _, Out.defined_ok _, ?_, ?_⟩
  · intro fs hfs
    cases hfs
    show ∀ f ∈ twoFiles, f.md5.length ≤ 65
    decide
  · intro fs hfs f hf c hc _
    exact Or.inl (hl _ (diskOf_mem (l := l) hc))

theorem check_order {n : Bytes} {e : Option Bytes} {v r : Bytes} {p : Pkg} {seq : Bytes} (hs : seq.drop 16 = [32])
    (h : instDb twoFiles n e v r = some p) : OrderInside p seq := by
  cases instDb_some h
  intro fs hfs
  cases hfs
  rw [hs]
  exact two_tame

/-- The sequence ID "a-1-1-00..0020" and the like. -/
def checkId (order : Bytes) : Bytes := [97, 45, 49, 45, 49, 45] ++ dumpHex (zeros 16 ++ order)

/-- Non-vacuity of C84: both files intact (success), one replaced by a longer one, one missing. -/
theorem C84_example :
    drpmCheck (checkSys [([47, 97], [65]), ([47, 98], [66])]) zeroH (instDb twoFiles) instEnv.dec instEnv.rpmHead
      (instFile [32] 130 300) 1 = .ok () ∧
    drpmCheck (checkSys [([47, 97], [65, 65]), ([47, 98], [66])]) zeroH (instDb twoFiles) instEnv.dec instEnv.rpmHead
      (instFile [32] 130 300) 2 = .err .mismatch ∧
    drpmCheckSequence (checkSys [([47, 98], [66])]) zeroH (instDb twoFiles) none (checkId [32]) 2 = .err .noinstall := by
  refine ⟨?_, ?_, ?_⟩ <;> decide +kernel

example : (drpmCheck (checkSys [([47, 97], [65, 65]), ([47, 98], [66])]) zeroH (instDb twoFiles) instEnv.dec instEnv.rpmHead
      (instFile [32] 130 300) 2).Defined :=
  C84_check_partial _ _ _ _ _ _ _ (fun _ => Out.defined_err _) (fun _ => Out.defined_ok _) inst_file
    (fun _ _ _ _ _ h => check_pkg (by decide) h) (fun d _ _ _ _ _ hd _ h => check_order (inst_parts d hd).2 h)

example : (drpmCheckSequence (checkSys [([47, 98], [66])]) zeroH (instDb twoFiles) none (checkId [32]) 2).Defined :=
  C84_sequence_partial _ _ _ _ _ _ (fun _ => Out.defined_err _) (fun _ h => by cases h)
    (fun p h => by
      rcases h with h | ⟨n, e, v, r, h⟩
      · cases h
      · exact check_pkg (by decide) h)
    (fun nevr seq p hid h => by
      rcases h with h | ⟨n, e, v, r, h⟩
      · cases h
      · have : splitSeqId (checkId [32]) = .ok ([97, 45, 49, 45, 49], zeros 16 ++ [32]) := by decide +kernel
        rw [this] at hid
        cases hid
        exact check_order (by decide) h)

/-- C84 is violated: a sequence ID with one file too many for the package writes beyond the table of
    positions, in every check mode, also with none of the files there. -/
theorem C84_violated_order :
    drpmCheckSequence (checkSys []) zeroH (instDb twoFiles) none (checkId [0x30]) 0 = .ub ∧
    drpmCheckSequence (checkSys []) zeroH (instDb twoFiles) none (checkId [0x30]) 2 = .ub := by
  constructor <;> decide +kernel

/-- C84 is violated: an installed file has been replaced by a longer ELF file with an unnamed section. -/
theorem C84_violated_elf :
    drpmCheck (checkSys [([47, 97], tinyElf true (List.replicate 40 0) [])]) zeroH (instDb twoFiles) instEnv.dec instEnv.rpmHead
      (instFile [32] 130 300) 2 = .ub := by
  decide +kernel

end Drpm
