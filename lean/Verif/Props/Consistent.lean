import Verif.Props.Checked
import Verif.Props.Describe
import Verif.Props.Make
/-!
# Property C102: the functions that look at a delta do not contradict each other

`drpm_check` (delta against the installed files), `drpm_check_sequence` (sequence ID against the installed files
or a package file) and `drpm_apply` are separate implementations of the same tests.
-/

namespace Drpm

variable {η σ τ : Type}

/-- The sequence ID of a delta: the name, epoch, version and release of its source package, a dash, and its
    sequence in hexadecimal, as `drpm_get_string` reports them (`DRPM_TAG_SRCNEVR`, `DRPM_TAG_SEQUENCE`). -/
def SequenceId (i : Info) (id : Bytes) : Prop :=
  ∃ nevr seq, (∀ r, getString (some i) 5 true (some r) = (none, some (some nevr))) ∧
    (∀ r, getString (some i) 4 true (some r) = (none, some (some seq))) ∧ id = nevr ++ [45] ++ seq

theorem readFiles_inv {w : World η σ τ} {filename delta : Bytes} {i : Info} (h : readFiles w filename delta = .ok i) :
    ∃ d, readDelta w.dec (readdeltaStandard w.lib w.U) delta = .ok d ∧ i.type = d.type.code ∧ i.srcNevr = d.srcNevr ∧
      i.sequence = dumpHex d.sequence ∧ d.sequence.length < 2^31 := by
  unfold readFiles drpmRead at h
  obtain ⟨d, hd, h⟩ := Out.bind_eq_ok.mp h
  unfold toDrpm at h
  obtain ⟨_, _, h⟩ := Out.bind_eq_ok.mp h
  obtain ⟨_, _, h⟩ := Out.bind_eq_ok.mp h
  obtain ⟨_, _, h⟩ := Out.bind_eq_ok.mp h
  obtain ⟨s, hs, h⟩ := Out.bind_eq_ok.mp h
  obtain ⟨_, _, h⟩ := Out.bind_eq_ok.mp h
  obtain ⟨_, _, h⟩ := Out.bind_eq_ok.mp h
  obtain ⟨_, _, h⟩ := Out.bind_eq_ok.mp h
  cases h
  unfold hexString hexRoom at hs
  split at hs
  · rename_i hl
    cases hs
    refine ⟨d, hd, rfl, rfl, rfl, ?_⟩
    rw [List.length_append, dumpHex_length] at hl
    simp only [List.length_singleton] at hl
    omega
  · cases hs

theorem splitSeqId_id (nevr seq : Bytes) (hs : 16 ≤ seq.length ∧ seq.length < 2^31) :
    splitSeqId (nevr ++ [45] ++ dumpHex seq) = if nevr = [] then .err .format else .ok (nevr, seq) := by
  split
  · rename_i h
    subst h
    unfold splitSeqId
    rw [show ([] ++ [45] ++ dumpHex seq : Bytes) = [] ++ 45 :: dumpHex seq from rfl, strrchr_last 45 [] _ (dumpHex_no (by decide) seq)]
    rfl
  · rename_i h
    obtain ⟨line, h1, _, h3⟩ := C19_roundtrip nevr seq h hs
    unfold seqLine at h1
    rw [hexString_ok _ hs.2, Out.bind_ok] at h1
    rw [List.append_cancel_right (Out.ok.inj h1), h3]

theorem sequenceId_inv {w : World η σ τ} {filename delta id : Bytes} {i : Info} (h : readFiles w filename delta = .ok i) (hid : SequenceId i id) :
    ∃ d, readDelta w.dec (readdeltaStandard w.lib w.U) delta = .ok d ∧ i.type = d.type.code ∧
      splitSeqId id = if d.srcNevr = [] then .err .format else .ok (d.srcNevr, d.sequence) := by
  obtain ⟨d, h1, h2, h3, h4, h5⟩ := readFiles_inv h
  obtain ⟨nevr, seq, e1, e2, rfl⟩ := hid
  have e1 := e1 none
  have e2 := e2 none
  simp only [getString, stringOf] at e1 e2
  have e1 : i.srcNevr = nevr := Option.some.inj (Option.some.inj (Prod.mk.inj e1).2)
  have e2 : i.sequence = seq := Option.some.inj (Option.some.inj (Prod.mk.inj e2).2)
  subst e1 e2
  refine ⟨d, h1, h2, ?_⟩
  rw [h3, h4, splitSeqId_id _ _ ⟨(readDelta_shape h1).1, h5⟩]

/-- **C102** (two checks): for a standard delta, `drpm_check` with the delta and `drpm_check_sequence` with its sequence ID
    have the same result, error codes included, whatever is installed. -/
theorem C102_checks (w : World η σ τ) (filename delta : Bytes) (i : Info) (hread : readFiles w filename delta = .ok i)
    (ht : getUint (some i) 2 (some 0) = (none, some 0)) (id : Bytes) (hid : SequenceId i id)
    (db : Bytes → Option Bytes → Bytes → Bytes → Option η) (sys : Sys) (mode : Int) (hmode : mode = 1 ∨ mode = 2) :
    checkSeqFile w db sys none id mode = checkDeltaFile w db sys delta mode := by
  obtain ⟨d, h1, h2, h3⟩ := sequenceId_inv hread hid
  have ht : d.type = .standard := by
    simp only [getUint] at ht
    have := Option.some.inj (Prod.mk.inj ht).2
    rw [h2] at this
    cases hd : d.type with
    | standard => rfl
    | rpmonly => rw [hd] at this; exact absurd this (by decide)
  unfold checkSeqFile checkDeltaFile drpmCheckSequence drpmCheck
  rw [if_neg (by simp only [Option.map_none, Option.isSome_none]; rcases hmode with h | h <;> subst h <;> decide),
    if_neg (by rcases hmode with h | h <;> subst h <;> decide), h1, Out.bind_ok, h3]
  by_cases hn : d.srcNevr = []
  · rw [if_pos hn, hn, Out.bind_err]
    rfl
  · rw [if_neg hn, Out.bind_ok]
    simp only [Option.map_none, seqSource, ht, if_true]
    cases hr : readInstalled (fun n e v r => (db n e v r).map (fun h => pkgOf w.lib w.lib.new h false)) d.srcNevr with
    | err e => rw [Out.bind_err, Out.bind_err, Out.bind_err]
    | ub => rw [Out.bind_ub, Out.bind_ub, Out.bind_ub]
    | loop => rw [Out.bind_loop, Out.bind_loop, Out.bind_loop]
    | ok p => 
      simp only [Out.bind_ok]
      rfl

theorem applied_plan {σ : Type} {env : ApplyEnv σ} {file : Bytes} {src : OldSrc} {cleanup : Nat} {left : Left}
    (h : drpmApply env ⟨some (.ok file), true, true, src⟩ cleanup = (.ok (), left)) :
    ∃ d p old files places, readDelta env.dec env.rpmHead file = .ok d ∧ applyOld env file d src = .ok (p, old) ∧
      sameNevr d.srcNevr p = .ok () ∧ applyPlaces env d p = .ok (files, places) := by
  unfold drpmApply applyTo at h
  simp only [Out.bind_ok] at h
  rw [if_neg (by simp)] at h
  cases hp : planApply env file src cleanup with
  | err e => rw [hp] at h; cases h
  | ub => rw [hp] at h; cases h
  | loop => rw [hp] at h; cases h
  | ok pl =>
    unfold planApply at hp
    obtain ⟨d, hd, hp⟩ := Out.bind_eq_ok.1 hp
    obtain ⟨⟨p, old⟩, ho, hp⟩ := Out.bind_eq_ok.1 hp
    obtain ⟨_, hn, hp⟩ := Out.bind_eq_ok.1 hp
    obtain ⟨⟨files, places⟩, hf, _⟩ := Out.bind_eq_ok.1 hp
    exact ⟨d, p, old, files, places, hd, ho, hn, hf⟩

theorem checkFiles_none (sys : Sys) {σ : Type} {env : ApplyEnv σ} {d : Delta} {p : Pkg} {files : List FileInfo} {places : List CpioFile}
    (ht : d.type = .standard) (h : applyPlaces env d p = .ok (files, places)) : checkFiles sys env.H p d.sequence 0 = .ok () := by
  unfold applyPlaces at h
  rw [if_neg (by rw [ht]; decide)] at h
  obtain ⟨fs, e1, h⟩ := Out.bind_eq_ok.1 h
  obtain ⟨a, e2, h⟩ := Out.bind_eq_ok.1 h
  obtain ⟨pl, e3, h⟩ := Out.bind_eq_ok.1 h
  unfold checkFiles
  rw [e1, Out.bind_ok, e2, Out.bind_ok]
  simp only [checkOf, if_true, Out.bind_ok]
  rw [e3, Out.bind_ok]

/-- **C102** (applying to a package file): whenever `drpm_apply` has succeeded with a package file, `drpm_check_sequence`
    accepts the sequence ID of the delta for this package file. (If its signature has an MD5, it must be one: 16 bytes.) -/
theorem C102_package (w : World η σ τ) (filename delta old : Bytes) (i : Info) (hread : readFiles w filename delta = .ok i)
    (hne : ∀ r, getString (some i) 5 true (some r) ≠ (none, some (some []))) (id : Bytes) (hid : SequenceId i id)
    (hsig : ∀ r pos, readIntro w.lib old = .ok (r, pos) → ∃ m, sigGetMd5 w.lib r.signature = .ok m)
    (cleanup : Nat) (left : Left) (h : applyFiles w old delta cleanup = (.ok (), left))
    (db : Bytes → Option Bytes → Bytes → Bytes → Option η) (sys : Sys) :
    checkSeqFile w db sys (some old) id 0 = .ok () := by
  obtain ⟨d, h1, _, h3⟩ := sequenceId_inv hread hid
  obtain ⟨dd, p, od, files, places, e1, e2, e3, e4⟩ := applied_plan h
  cases h1.symm.trans e1
  have hne : d.srcNevr ≠ [] := by
    intro hd
    obtain ⟨d1, g1, _, g2, _⟩ := readFiles_inv hread
    cases h1.symm.trans g1
    refine hne none ?_
    simp only [getString, stringOf]
    rw [g2, hd]
    rfl
  unfold applyOld at e2
  obtain ⟨r, hr, e2⟩ := Out.bind_eq_ok.1 e2
  obtain ⟨_, hs, e2⟩ := Out.bind_eq_ok.1 e2
  cases e2
  unfold rpmOf at hr
  obtain ⟨⟨st, pos⟩, q1, hr⟩ := Out.bind_eq_ok.1 hr
  obtain ⟨a, _, hr⟩ := Out.bind_eq_ok.1 hr
  obtain ⟨ls, _, hr⟩ := Out.bind_eq_ok.1 hr
  obtain ⟨hd, _, hr⟩ := Out.bind_eq_ok.1 hr
  cases hr
  dsimp only at e3 e4 hs
  obtain ⟨m, hm⟩ := hsig st pos q1
  have hp : (rpmRead w.lib (fun b => b) w.U .dontRead false false old >>= fun x =>
      Out.ok (pkgOf w.lib x.st.signature x.st.header false)) = .ok (pkgOf w.lib st.signature st.header false) := by
    unfold rpmRead
    rw [q1, Out.bind_ok]
    rfl
  unfold checkSeqFile drpmCheckSequence
  rw [if_neg (by simp), h3, if_neg hne, Out.bind_ok]
  have hm' : (pkgOf w.lib st.signature st.header false).sigMd5 = .ok m := hm
  simp only [Option.map_some, seqSource, hp, hm', Out.bind_ok, e3]
  split
  · rfl
  · rename_i hno
    cases ht : d.type with
    | standard => exact checkFiles_none sys (env := w.applyEnv) ht e4
    | rpmonly =>
      exfalso
      have hl := (readDelta_shape h1).2.1 ht
      unfold sameSource at hs
      rw [if_pos ht] at hs
      dsimp only at hs
      rw [hm', Out.bind_ok] at hs
      cases m with
      | none => cases hs
      | some m =>
        dsimp only at hs
        obtain ⟨x, hx, hs⟩ := Out.bind_eq_ok.1 hs
        rw [rdBlk_ok (by omega)] at hx
        cases hx
        split at hs
        · cases hs
        · rename_i hxm
          apply hno
          simp [hl] at hxm ⊢
          exact hxm.symm

/-- **C102** (applying to installed files): whenever `drpm_apply` has succeeded with the installed files, `drpm_check_sequence`
    accepts the sequence ID of the delta for the installed package. -/
theorem C102_installed (w : World η σ τ) (filename delta : Bytes) (i : Info) (hread : readFiles w filename delta = .ok i)
    (id : Bytes) (hid : SequenceId i id)
    (db : Bytes → Option Bytes → Bytes → Bytes → Option η) (disk : Disk) (cleanup : Nat) (left : Left)
    (h : applyInstalled w db disk delta cleanup = (.ok (), left)) (sys : Sys) :
    checkSeqFile w db sys none id 0 = .ok () := by
  obtain ⟨d, h1, _, h3⟩ := sequenceId_inv hread hid
  obtain ⟨dd, p, od, files, places, e1, e2, e3, e4⟩ := applied_plan h
  cases h1.symm.trans e1
  unfold applyOld at e2
  dsimp only at e2
  split at e2
  · cases e2
  rename_i ht
  split at e2
  · cases e2
  obtain ⟨q, hq, e2⟩ := Out.bind_eq_ok.1 e2
  cases e2
  have hne : d.srcNevr ≠ [] := by
    intro hd
    rw [hd] at hq
    cases hq
  have ht : d.type = .standard := by
    cases hd : d.type with
    | standard => rfl
    | rpmonly => exact absurd hd ht
  unfold checkSeqFile drpmCheckSequence
  rw [if_neg (by simp), h3, if_neg hne, Out.bind_ok]
  simp only [Option.map_none, seqSource, hq, Out.bind_ok, e3]
  exact checkFiles_none sys (env := w.applyEnv) ht e4

/-- **C102 is violated** by `drpm_check` for rpm-only deltas: if the package that the delta is for is installed, the check
    succeeds, full or not, whatever the files are, although such a delta can never be applied to installed files. -/
theorem C102_violated (w : World η σ τ) (filename delta : Bytes) (i : Info) (hread : readFiles w filename delta = .ok i)
    (ht : getUint (some i) 2 (some 0) = (none, some 1))
    (nevr n v r : Bytes) (e : Option Bytes) (hnevr : ∀ x, getString (some i) 5 true (some x) = (none, some (some nevr)))
    (hsplit : splitNevr nevr = .ok (n, e, v, r))
    (db : Bytes → Option Bytes → Bytes → Bytes → Option η) (hdr : η) (hdb : db n e v r = some hdr) (hh : getNevr w.lib hdr = .ok nevr) :
    (∀ sys mode, mode = 1 ∨ mode = 2 → checkDeltaFile w db sys delta mode = .ok ()) ∧
    ∀ disk cleanup, applyInstalled w db disk delta cleanup = (.err .args, .written []) := by
  obtain ⟨d, h1, h2, h3, _⟩ := readFiles_inv hread
  have e1 := hnevr none
  simp only [getString, stringOf] at e1
  have e1 : i.srcNevr = nevr := Option.some.inj (Option.some.inj (Prod.mk.inj e1).2)
  have hn : d.srcNevr = nevr := h3.symm.trans e1
  have ht : d.type = .rpmonly := by
    simp only [getUint] at ht
    have := Option.some.inj (Prod.mk.inj ht).2
    rw [h2] at this
    cases hd : d.type with
    | rpmonly => rfl
    | standard => rw [hd] at this; exact absurd this (by decide)
  constructor
  · intro sys mode hmode
    unfold checkDeltaFile drpmCheck
    rw [if_neg (by rcases hmode with h | h <;> subst h <;> decide), h1, Out.bind_ok, hn]
    unfold readInstalled
    rw [hsplit, Out.bind_ok]
    simp only [hdb, Option.map_some, Out.bind_ok, sameNevr]
    have : (pkgOf w.lib w.lib.new hdr false).nevr = .ok nevr := hh
    rw [this]
    simp [Out.bind_ok, ht]
  · intro disk cleanup
    unfold applyInstalled drpmApply applyTo planApply
    simp only [Out.bind_ok]
    rw [if_neg (by simp)]
    have : readDelta w.applyEnv.dec w.applyEnv.rpmHead delta = .ok d := h1
    rw [this, Out.bind_ok]
    unfold applyOld
    dsimp only
    rw [if_pos ht, Out.bind_err]

namespace Toy

theorem demoStd (addblk : Bool) : ∃ delta i id, makeFiles world (demoOpts false 3 addblk) oldFile.file newFile.file = .ok delta ∧
    readFiles world [] delta = .ok i ∧ SequenceId i id ∧ (∀ r, getUint (some i) 2 (some r) = (none, some 0)) ∧
    ∀ r, getString (some i) 5 true (some r) = (none, some (some (ascii "a-1-1"))) := by
  obtain ⟨_, _, s3, s4, s5⟩ := demoSizes
  obtain ⟨c, hb, hc, hq⟩ := goodBase addblk
  obtain ⟨delta, i, h1, h2, _, h3⟩ := C81_standard world Ok laws nevrLaw md5_16 (demoOpts false 3 addblk) rfl (by show 1 ≤ 3 ∧ 3 ≤ 3; omega) oldFile newFile demoArchive demoNewPkg.archive
    .gzip .gzip 9 (unpacks _ _ rfl) demoFiles false 0 c hb goodNew _ _ hasNevrs.1 hasNevrs.2 .gzip
    ⟨"gzip", by decide +kernel, by decide +kernel⟩ (goodComp _ rfl) ⟨by omega, by omega, fun _ => by omega⟩ (by omega) (by omega)
    (FewCopies.of_size _ _ _ (by omega) (by omega) (by omega)) (goodAdd _ _ _ _ (by omega)) []
  exact ⟨delta, i, _, h1, h2, ⟨_, _, h3.srcNevr, h3.sequence, rfl⟩, h3.type, h3.srcNevr⟩

theorem demoOnly (addblk : Bool) : ∃ delta i id, makeFiles world (demoOpts true 3 addblk) oldFile.file newFile.file = .ok delta ∧
    readFiles world [] delta = .ok i ∧ SequenceId i id ∧ (∀ r, getUint (some i) 2 (some r) = (none, some 1)) ∧
    ∀ r, getString (some i) 5 true (some r) = (none, some (some (ascii "a-1-1"))) := by
  obtain ⟨s1, s2, s3, s4, s5⟩ := demoSizes
  have l1 := oldFile.header_length
  have l2 := newFile.header_length
  have c1 := oldFile.hdrOk.counts
  have c2 := newFile.hdrOk.counts
  obtain ⟨delta, i, h1, h2, _, h3⟩ := C81_rpmonly world Ok laws md5_16 (demoOpts true 3 addblk) rfl rfl oldFile newFile demoArchive demoNewPkg.archive .gzip .gzip 9
    (unpacks _ _ rfl) goodNew _ _ hasNevrs.1 hasNevrs.2 (goodComp _ rfl) (by omega) (by omega)
    (FewCopies.of_size _ _ _ (by simp only [List.length_append]; omega) (by simp only [List.length_append]; omega)
      (by simp only [List.length_append]; omega)) (goodAdd _ _ _ _ (by omega)) []
  exact ⟨delta, i, _, h1, h2, ⟨_, _, h3.srcNevr, h3.sequence, rfl⟩, h3.type, h3.srcNevr⟩

theorem oldSigOk : ∀ r pos, readIntro world.lib oldFile.file = .ok (r, pos) → ∃ m, sigGetMd5 world.lib r.signature = .ok m := by
  intro r pos h
  have : Out.okAnd (readIntro world.lib oldFile.file) (fun x => Out.okAnd (sigGetMd5 world.lib x.1.signature) (fun _ => true)) = true := by decide +kernel
  rw [h] at this
  have this : Out.okAnd (sigGetMd5 world.lib r.signature) (fun _ => true) = true := this
  cases hs : sigGetMd5 world.lib r.signature with
  | ok m => exact ⟨m, rfl⟩
  | err e => rw [hs] at this; cases this
  | ub => rw [hs] at this; cases this
  | loop => rw [hs] at this; cases this

end Toy

open Toy in
/-- Non-vacuity of C102 for standard deltas: both checks pass; the delta is applied to the package file and to the
    installed files, and its sequence ID accepted for both. -/
example (addblk : Bool) : ∃ delta id, makeFiles world (demoOpts false 3 addblk) oldFile.file newFile.file = .ok delta ∧
    checkDeltaFile world db checkSys delta 1 = .ok () ∧ checkSeqFile world db checkSys none id 1 = .ok () ∧
    (∀ cleanup, applyFiles world oldFile.file delta cleanup = (.ok (), .written newFile.file)) ∧
    checkSeqFile world db checkSys (some oldFile.file) id 0 = .ok () ∧
    (∀ cleanup, applyInstalled world db checkDisk delta cleanup = (.ok (), .written newFile.file)) ∧
    checkSeqFile world db checkSys none id 0 = .ok () := by
  obtain ⟨delta, i, id, h1, h2, h3, h4, h5⟩ := demoStd addblk
  obtain ⟨d1, q1, q2, q3⟩ := C87_demo addblk
  obtain ⟨d2, q4, q5⟩ := C68_demo_standard addblk
  cases h1.symm.trans q1
  cases h1.symm.trans q4
  exact ⟨delta, id, h1, q2, (C102_checks world [] delta i h2 (h4 0) id h3 db checkSys 1 (Or.inl rfl)).trans q2, q5,
    C102_package world [] delta oldFile.file i h2 (fun r => by rw [h5]; decide +kernel) id h3 oldSigOk 0 _ (q5 0) db checkSys, q3,
    C102_installed world [] delta i h2 id h3 db checkDisk 0 _ (q3 0) checkSys⟩

open Toy in
/-- Non-vacuity of C102 for rpm-only deltas: the delta is applied to the package file and its sequence ID accepted for it;
    `drpm_check` accepts it for the installed files, whatever they are, and `drpm_apply` refuses it. -/
example (addblk : Bool) : ∃ delta id, makeFiles world (demoOpts true 3 addblk) oldFile.file newFile.file = .ok delta ∧
    (∀ cleanup, applyFiles world oldFile.file delta cleanup = (.ok (), .written newFile.file)) ∧
    checkSeqFile world db checkSys (some oldFile.file) id 0 = .ok () ∧
    (∀ sys, checkDeltaFile world db sys delta 1 = .ok ()) ∧
    ∀ disk cleanup, applyInstalled world db disk delta cleanup = (.err .args, .written []) := by
  obtain ⟨delta, i, id, h1, h2, h3, h4, h5⟩ := demoOnly addblk
  obtain ⟨d2, q4, q5⟩ := C68_demo_rpmonly addblk
  cases h1.symm.trans q4
  obtain ⟨v1, v2⟩ := C102_violated world [] delta i h2 (h4 0) (ascii "a-1-1") (ascii "a") (ascii "1") (ascii "1") none h5 (by decide +kernel)
    db oldFile.hdr rfl nevrs.1
  exact ⟨delta, id, h1, q5, C102_package world [] delta oldFile.file i h2 (fun r => by rw [h5]; decide +kernel) id h3 oldSigOk 0 _ (q5 0) db checkSys,
    fun sys => v1 sys 1 (Or.inl rfl), v2⟩

end Drpm
