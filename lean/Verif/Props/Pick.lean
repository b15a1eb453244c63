import Verif.PickLemmas
import Verif.Props.Delta
import Verif.Props.Newc
/-!
# C93: standard deltas made from any choice of files

C92 speaks of the files that this library itself would take. Which files a standard delta is made from is said
by its sequence (`Verif/PickSpec.lean`), and another program may choose as it likes.
-/

namespace Drpm

/-- What a choice is to the program. -/
theorem Choice.picked {algo : Nat} {files : List FileInfo} {archive : Bytes} {ents : List (Bytes × Bytes)} {used : List Used}
    (h : Choice algo files archive ents used) (hl : archive.length < 2^63) :
    ∃ es ks, Entries archive 0 es ∧ Picked files archive es ks ∧ used = ks.map (usedOf archive) ∧ (es.map AEnt.name).Nodup ∧
      (∀ x ∈ ks, DigestOk algo x.2.1) ∧ usedArchive used = pickData archive ks := by
  obtain ⟨es, e1, e2⟩ := newc_entries h.newc [] (by simpa using hl) h.names
  simp only [List.nil_append, List.length_nil] at e1 e2
  obtain ⟨ks, k1, k2⟩ := chosen_picked h.chosen e2 h.fit
  have hmem : ∀ x ∈ ks, usedOf archive x ∈ used := fun x hx => by rw [k2]; exact List.mem_map_of_mem hx
  refine ⟨es, ks, e1, k1, k2, by rw [seesAll_names e2]; exact h.unique, fun x hx hr h0 => ⟨fun ha => ?_, fun ha => ?_⟩, ?_⟩
  · exact h.md5 ha _ (hmem x hx) hr h0
  · exact h.sha256 ha _ (hmem x hx) hr h0
  · rw [k2]
    refine pickData_used k1 (fun e he => ?_)
    obtain ⟨y, _, hy⟩ := seesAll_mem e2 e he
    rw [hy.data, hy.size]

/-- C93, reading. For every payload, every choice of its files and every sequence that stands for it, however its
    order is written: the sequence is accepted, and the old package, read with it, yields the archive of the
    chosen files. -/
theorem C93_reads (H : Bytes → Bytes) {algo : Nat} {files : List FileInfo} {archive : Bytes} {ents : List (Bytes × Bytes)} {used : List Used}
    (h : Choice algo files archive ents used) (hl : archive.length < 2^63) {sequence : Bytes} (hs : SequenceOf H algo used sequence)
    (check : Bytes → Bytes → Nat → Out Unit) (hc : Passes check algo files) :
    ∃ places, expandSeq H files algo check sequence = .ok places ∧
      YieldsBlocks (stdStep ⟨archive, files, places⟩) StdSrc.init (usedArchive used) := by
  obtain ⟨es, ks, e1, k1, k2, k3, k4, k5⟩ := h.picked hl
  subst k2
  refine ⟨_, expand_picked k1 k3 k4 hs check hc, ?_⟩
  refine std_picked hl ⟨[], 0, Or.inl ⟨rfl, rfl, rfl⟩, Or.inr ⟨es, ks, 0, seqEnd (pickFiles ks) 0, Nat.zero_le _, e1, ⟨k3, k1⟩, rfl, Or.inl rfl, ?_⟩⟩
  rw [k5]
  rfl

theorem usedArchive_pos (used : List Used) : 0 < (usedArchive used).length := by
  have : (newcText 0 0 newcTrailerName []).length = 124 := by decide +kernel
  unfold usedArchive
  rw [List.length_append, this]
  omega

/-- C93, applying. For every old package, every choice of its files and every standard delta that is made from the
    archive of these files, whoever made it: `drpm_apply` succeeds and writes the new package. -/
theorem C93_standard {σ : Type} (env : ApplyEnv σ) (old new : Rpm) (algo : Nat) (fs : List FileInfo) (ents : List (Bytes × Bytes)) (used : List Used)
    (hp : old.files = .ok fs ∧ old.algo = .ok algo) (hc : Choice algo fs old.archive ents used) (hl : old.archive.length < 2^63)
    (hlim : (usedArchive used).length ≤ 2^44)
    (f : DeltaInfo) (file source sequence : Bytes) (hs : SequenceOf env.H algo used sequence) (hn : old.nevr = .ok source)
    (hd : StandardDelta env.rpmHead env.tgtHeader env.H env.dec source sequence (usedArchive used) new f file)
    (hsig : GoodSignature env new) (hcc : new.comp ≤ 6)
    (hlevel : UsableLevel new.comp (if f.version = 1 then 0 else f.level))
    (hcomp : Reproduces env new.comp (if f.version = 1 then 0 else f.level) new.archive new.payload) :
    ∀ cleanup, drpmApply env ⟨some (.ok file), true, true, .rpm (.ok old)⟩ cleanup = (.ok (), .written new.file) := by
  refine standard_turns env new f file source sequence (usedArchive used) hd ⟨usedArchive_pos used, hlim⟩ hsig hcc hlevel hcomp
    (.rpm (.ok old)) old.toPkg (.rpm old) ?_ fs fs algo ⟨hn, hp.1, hp.2⟩ rfl ?_
  · intro d ht _
    simp only [applyOld, sameSource]
    rw [Out.bind_ok, ht]
    simp
  · intro d cfg cleanup add ht _ hi he hb
    obtain ⟨places, p1, p2⟩ := C93_reads env.H hc hl hs noCheck (fun _ _ _ _ _ _ => rfl)
    have hm : cfg.maxCore = maxCoreBlocks := by
      unfold blocksCreate at hb
      split at hb
      · cases hb
      · rw [Out.bind_eq_ok] at hb
        obtain ⟨mx, _, hb⟩ := hb
        cases hb
        rfl
    refine ⟨places, p1, ?_⟩
    unfold applyLoop
    simp only [ht]
    refine C23_cache_exact_rpm _ _ _ p2 (usedArchive_pos used) (by omega) d.exts d.ints hi he maxCoreBlocks (by decide) cleanup cfg ?_ add.isSome d.intBytes (add.getD [])
    unfold tablesFor
    rw [hb, Out.bind_ok, ← hm]

/-- C93, installed files. The same for the files of an installed package, as far as the defects of C40 do not
    touch them: every standard delta from the archive of the chosen files gives the new package. -/
theorem C93_installed {σ : Type} (env : ApplyEnv σ) (new : Rpm) (algo : Nat) (fs files : List FileInfo) (disk : Disk) (get : Bytes → Option Bytes)
    (used : List Used) (hc : DiskChoice algo files disk get used) (hlim : (usedArchive used).length ≤ 2^44)
    (f : DeltaInfo) (file source sequence : Bytes) (hs : SequenceOf env.H algo used sequence)
    (db : Db) (p : Pkg) (hdb : readInstalled db source = .ok p) (hbin : env.tgtSource file = false)
    (hp : p.nevr = .ok source ∧ p.files = .ok fs ∧ p.algo = .ok algo) (hfs : SameButColors fs files)
    (hsv : DiskServes disk get used (wordsOf f.exts))
    (hd : StandardDelta env.rpmHead env.tgtHeader env.H env.dec source sequence (usedArchive used) new f file)
    (hsig : GoodSignature env new) (hcc : new.comp ≤ 6)
    (hlevel : UsableLevel new.comp (if f.version = 1 then 0 else f.level))
    (hcomp : Reproduces env new.comp (if f.version = 1 then 0 else f.level) new.archive new.payload) :
    ∀ cleanup, drpmApply env ⟨some (.ok file), true, true, .installed db disk⟩ cleanup = (.ok (), .written new.file) := by
  refine standard_turns env new f file source sequence (usedArchive used) hd ⟨usedArchive_pos used, hlim⟩ hsig hcc hlevel hcomp
    (.installed db disk) p (.files disk) ?_ fs files algo hp hfs ?_
  · intro d ht hn
    simp only [applyOld]
    rw [if_neg (by rw [ht]; simp), if_neg (by rw [hbin]; simp), hn, hdb, Out.bind_ok]
  · intro d cfg cleanup add ht hx hi he hb
    have hnum : (usedFiles used).map (fun k => k.1) = used.map (·.number) := by unfold usedFiles; rw [List.map_map]; rfl
    have mem : ∀ k ∈ usedFiles used, ∃ u ∈ used, k = (u.number, u.file) := by
      intro k hk
      unfold usedFiles at hk
      rw [List.mem_map] at hk
      obtain ⟨u, h1, rfl⟩ := hk
      exact ⟨u, h1, rfl⟩
    obtain ⟨hdec, hexp⟩ := expand_named (H := env.H) (algo := algo) (files := files) (ks := usedFiles used) (sequence := sequence)
      (fun k hk => by obtain ⟨u, hu, rfl⟩ := mem k hk; exact hc.listed u hu) (by rw [hnum]; exact hc.once)
      (fun k hk hr h0 => by
        obtain ⟨u, hu, rfl⟩ := mem k hk
        exact ⟨fun ha => hc.md5 ha u hu hr h0, fun ha => hc.sha256 ha u hu hr h0⟩)
      (by
        have := hs.hash
        rw [this]
        unfold usedFiles
        rw [List.map_map]
        rfl) hs.long (by rw [hnum]; exact hs.order) noCheck (fun _ _ _ _ _ _ => rfl)
    refine ⟨_, hexp, ?_⟩
    rw [hnum] at hdec
    have hnf := namedFiles_used hc.listed
    have hdisk := usedArchive_disk hc
    have hinst : Installed disk get (namedFiles files (used.map (·.number))) := by
      rw [hnf]
      intro x hx hr
      obtain ⟨u, hu, rfl⟩ := mem x hx
      obtain ⟨a, b, c⟩ := hc.regular u hu hr
      exact ⟨u.data, b, a, c⟩
    have hord : InOrder files (used.map (·.number)) := by
      intro i hi g hg ho
      rw [List.mem_map] at hi
      obtain ⟨u, h1, rfl⟩ := hi
      rw [hc.listed u h1] at hg
      cases hg
      unfold needsOpen at ho
      rw [Bool.and_eq_true] at ho
      obtain ⟨k, hk⟩ := List.getElem?_of_mem h1
      have := hsv.order k u hk ho.1 (by simpa using ho.2)
      rw [← this, List.getElem?_map, hk, this]
      rfl
    have hm : cfg.maxCore = maxCoreBlocks := by
      unfold blocksCreate at hb
      split at hb
      · cases hb
      · rw [Out.bind_eq_ok] at hb
        obtain ⟨mx, _, hb⟩ := hb
        cases hb
        rfl
    have htab : tablesFor (usedArchive used).length d.exts maxCoreBlocks = .ok cfg := by
      unfold tablesFor
      rw [hb, Out.bind_ok, ← hm]
    unfold applyLoop
    simp only
    rcases hsv.served with ⟨hfew, hsafe⟩ | ⟨hnp, hshort, hsoon⟩
    · have hsrc := C40_prelinked_partial env.H files algo noCheck sequence _ _ disk get hexp hdec hc.fit hinst
        (by rw [hnf]; exact hsafe) (by rw [hnf, hdisk]; omega) hord
        (by
          rw [hnf]
          unfold usedFiles
          rw [List.filter_map, List.length_map]
          exact hfew)
      rw [hnf, hdisk] at hsrc
      exact hsrc d.exts d.ints hi he maxCoreBlocks (by decide) cleanup cfg htab add.isSome d.intBytes (add.getD [])
    · have hsrc := C40_cache_soon_partial env.H files algo noCheck sequence _ _ disk get hexp hdec hc.fit hinst
        (by rw [hnf]; exact hnp) (by rw [hnf, hdisk]; omega) hord
      rw [hnf, hdisk] at hsrc
      exact hsrc d.exts d.ints hi he maxCoreBlocks hshort (by rw [hx]; exact hsoon) cleanup cfg htab add.isSome d.intBytes (add.getD [])

/-- C93, making. The files that this library takes are such a choice, and the sequence it makes stands for it. -/
theorem C93_made (H : Bytes → Bytes) (hH : ∀ b, (H b).length = 16) (m : MakeIn) (ents : List (Bytes × Bytes)) (used : List Used)
    (h : Payload true m.colors m.unpatched m.algo m.files m.archive ents used) (hl : m.archive.length < 2^34) (hn : m.files.length < 2^32) :
    Choice m.algo m.files m.archive ents used ∧
      ∃ r, makeCpio H m = .ok r ∧ r.cpio = usedArchive used ∧ SequenceOf H m.algo used r.sequence := by
  obtain ⟨r, r1, r2, r3, r4⟩ := C91_archive H hH true m ents used h hl hn
  refine ⟨⟨h.newc, h.names, h.unique, ?_, ?_, h.md5, h.sha256⟩, r, r1, r2, r3, ?_, decode_orderIs r4⟩
  · intro u hu
    obtain ⟨_, _, _, _, h3⟩ := uses_mem h.uses u hu
    exact h.fit _ (List.mem_of_getElem? h3)
  · have key : ∀ {ents used}, Uses m.colors m.unpatched m.files ents used → (∀ u ∈ used, u.file.regular = false → u.file.link = false → u.data = []) →
        Chosen m.files ents used := by
      intro ents used hu
      induction hu with
      | done => intro _; exact .done
      | @take name data ents i f used h1 h2 _ ih =>
        intro hz
        refine .take h1.1 h1.2.1 (fun hr => ?_) (fun a b => hz _ List.mem_cons_self a b) (ih (fun u hu => hz u (List.mem_cons_of_mem _ hu)))
        exact (h2 (by simpa [FileInfo.regular, RegularMode] using hr)).1
      | leave _ _ ih => intro hz; exact .leave (ih hz)
    exact key h.uses h.nodata
  · have h1 := congrArg List.length r3
    rw [hH, List.length_take] at h1
    omega

/-! ## A concrete case

The choice is one that this library would not make: a configuration file and the last of the files. The
order is written differently, too. -/

def pickList : List FileInfo :=
  [demoFile [47, 97] 0o100644 5 [], { demoFile [47, 120, 121] 0o100644 6 [] with flags := 1 }, demoFile [47, 98] 0o120777 1 [97],
   demoFile [47, 100] 0o100755 3 []]

def pickUsed : List Used :=
  [⟨1, { demoFile [47, 120, 121] 0o100644 6 [] with flags := 1 }, [120, 121], [1, 2, 3, 4, 5, 6]⟩,
   ⟨3, demoFile [47, 100] 0o100755 3 [], [100], [7, 7, 7]⟩]

def pickOld : Rpm := { demoOldPkg with files := .ok pickList }

def pickSequence : Bytes := demoH ((pickUsed.map fun u => fileRecord 0 u.file).flatten) ++ [0x01, 0x10, 0x31]

theorem pick_choice : Choice 0 pickList pickOld.archive demoEnts pickUsed where
  newc := demo_payload.newc
  names := demo_payload.names
  unique := demo_payload.unique
  fit := fun u hu => by
    have : ∀ u ∈ pickUsed, u.file.mode < 2^16 ∧ u.file.rdev < 2^16 ∧ u.file.size + 3 < 2^32 ∧ u.file.linkto.length + 3 < 2^32 ∧
      u.file.name.length + 3 < 2^16 := by decide +kernel
    obtain ⟨a, b, c, d, e⟩ := this u hu
    exact ⟨a, b, c, d, e⟩
  chosen := .leave (.take (i := 1) rfl (Or.inl rfl) (fun _ => rfl) (fun a => by revert a; decide) (.leave (.leave
    (.take (i := 3) rfl (Or.inl rfl) (fun _ => rfl) (fun a => by revert a; decide) .done))))
  md5 := fun _ u hu _ _ => by
    have : ∀ u ∈ pickUsed, u.file.md5 = List.replicate 32 97 := by decide +kernel
    rw [this u hu]
    exact ⟨List.replicate 16 0xAA, by decide +kernel, by decide⟩
  sha256 := nofun

theorem pick_sequence : SequenceOf demoApply.H 0 pickUsed pickSequence where
  hash := by decide +kernel
  long := by decide +kernel
  order := by
    have : pickSequence.drop 16 = [0x01, 0x10, 0x31] := by decide +kernel
    rw [this]
    refine ⟨⟨?_, ?_⟩, ?_, ?_⟩ <;> decide +kernel

/-- The order is not written as this library would. -/
example : encodeSeq [1, 3] = .ok [0x01, 0x11, 0x10] ∧ pickSequence.drop 16 = [0x01, 0x10, 0x31] := by decide +kernel

def pickDelta : DeltaInfo :=
  { version := 2, source := [97, 45, 49], sequence := pickSequence, md5 := zeros 16, size := 77, comp := .gzip, level := 9, params := [],
    headerLen := 0, adjust := [], leadsig := demoNewPkg.leadsig, fmtOff := 5,
    ints := [(1, demoNewPkg.archive.length - 6)], exts := [(0, 6)],
    oldLen := (usedArchive pickUsed).length, add := [], data := demoNewPkg.archive.drop 6 }

theorem pickDelta_turns : pickDelta.Turns demoApply.dec .standard (usedArchive pickUsed) demoNewPkg.archive := by
  refine ⟨?_, rfl, none, .absent, ?_⟩
  · constructor
    · exact Or.inr ⟨rfl, by decide⟩
    · exact ⟨by decide, by unfold NoNul; decide⟩
    · decide +kernel
    · decide +kernel
    · decide
    · decide
    · decide
    · decide
    · decide
    · decide +kernel
    · decide
    · decide +kernel
    · decide +kernel
    · exact ⟨by decide +kernel, 0, rfl, by decide +kernel, by decide +kernel, trivial⟩
    · decide +kernel
    · decide +kernel
    · intro _; decide +kernel
    · intro h; cases h
    · intro _; rfl
  · have h1 : Rebuilds (usedArchive pickUsed) 6 none [] [(0, (demoNewPkg.archive.drop 6).length)] (demoNewPkg.archive.drop 6 ++ []) (demoNewPkg.archive.drop 6 ++ []) :=
      .own (demoNewPkg.archive.drop 6) .done
    have h2 := Rebuilds.copy (old := usedArchive pickUsed) (p := 0) 0 6 0 rfl (by decide +kernel) h1
    rw [List.append_nil] at h2
    have h3 : slice (usedArchive pickUsed) 0 6 ++ demoNewPkg.archive.drop 6 = demoNewPkg.archive := by decide +kernel
    rw [h3, List.length_drop] at h2
    exact h2

/-- Non-vacuity of C93. -/
theorem C93_demo (z : Bytes) (hz : z = demoPack (pickDelta.text .standard)) :
    ∀ cleanup, drpmApply demoApply ⟨some (.ok ([0xED, 0xAB, 0xEE, 0xDB] ++ demoHeader ++ z)), true, true, .rpm (.ok pickOld)⟩ cleanup =
      (.ok (), .written demoNewPkg.file) := by
  subst hz
  refine C93_standard demoApply pickOld demoNewPkg 0 pickList demoEnts pickUsed ⟨rfl, rfl⟩ pick_choice (by decide +kernel) (by decide +kernel)
    pickDelta _ [97, 45, 49] pickSequence pick_sequence rfl ?_ (demo_pair true true 3 (by omega)).signature (by decide) ?_ (demo_reproduces _)
  · refine ⟨⟨[0xED, 0xAB, 0xEE, 0xDB] ++ demoHeader, 1, .gzip, _, rfl, ⟨_, rfl⟩, ?_, .packed .gzip (by simp) (by simp [demoPack]) ⟨_, rfl⟩, fun _ => rfl⟩,
      rfl, pickDelta_turns, rfl, rfl, rfl, Or.inr rfl, fun _ => ⟨rfl, rfl⟩⟩
    show Out.ok _ = Out.ok _
    simp
  · exact Or.inl (by decide)

/-! On the disk: two files of the package are chosen, and the one that prelink has changed is left out. -/

def diskUsed : List Used :=
  [⟨0, demoFile [47, 97] 0o100644 5 [], [97], [104, 101, 108, 108, 111]⟩, ⟨1, demoFile [47, 98] 0o120777 1 [97], [98], [97]⟩]

def diskSequence : Bytes := demoH ((diskUsed.map fun u => fileRecord 0 u.file).flatten) ++ [0x00, 0x10, 0x11]

theorem disk_choice : DiskChoice 0 inOrderIn.files inOrderDisk inOrderGet diskUsed where
  listed := by decide +kernel
  path := by
    intro u hu
    rcases List.mem_cons.mp hu with rfl | hu
    · exact Or.inl rfl
    · rcases List.mem_cons.mp hu with rfl | hu
      · exact Or.inl rfl
      · cases hu
  once := by decide
  fit := fun f hf => by
    have : ∀ f ∈ inOrderIn.files, f.mode < 2^16 ∧ f.rdev < 2^16 ∧ f.size + 3 < 2^32 ∧ f.linkto.length + 3 < 2^32 ∧
      f.name.length + 3 < 2^16 := by decide +kernel
    obtain ⟨a, b, c, d, e⟩ := this f hf
    exact ⟨a, b, c, d, e⟩
  regular := by
    intro u hu hr
    rcases List.mem_cons.mp hu with rfl | hu
    · exact ⟨rfl, rfl, Or.inr (Or.inl ⟨_, rfl, List.prefix_rfl, Or.inl rfl⟩)⟩
    · rcases List.mem_cons.mp hu with rfl | hu
      · exact absurd hr (by decide)
      · cases hu
  nodata := by decide +kernel
  md5 := fun _ u hu _ _ => by
    have : ∀ u ∈ diskUsed, u.file.md5 = List.replicate 32 97 := by decide +kernel
    rw [this u hu]
    exact ⟨List.replicate 16 0xAA, by decide +kernel, by decide⟩
  sha256 := nofun

theorem disk_serves (ext : List (Nat × Nat)) : DiskServes inOrderDisk inOrderGet diskUsed ext where
  order := by
    intro k u hk _ _
    match k with
    | 0 => cases hk; rfl
    | 1 => cases hk; rfl
    | k + 2 => cases hk
  served := by
    refine Or.inl ⟨by decide +kernel, ?_⟩
    rintro ⟨y, hy, hr, d, h1, e, e1, e2, _⟩
    rcases List.mem_cons.mp hy with rfl | hy
    · have e1 : some [104, 101, 108, 108, 111] = some e := e1
      cases e1
      exact absurd rfl e2
    · rcases List.mem_cons.mp hy with rfl | hy
      · exact absurd hr (by decide)
      · cases hy

theorem disk_sequence : SequenceOf demoApply.H 0 diskUsed diskSequence where
  hash := by decide +kernel
  long := by decide +kernel
  order := by
    have : diskSequence.drop 16 = [0x00, 0x10, 0x11] := by decide +kernel
    rw [this]
    refine ⟨⟨?_, ?_⟩, ?_, ?_⟩ <;> decide +kernel

def diskDelta : DeltaInfo :=
  { version := 2, source := [97, 45, 49, 45, 49], sequence := diskSequence, md5 := zeros 16, size := 77, comp := .gzip, level := 9, params := [],
    headerLen := 0, adjust := [], leadsig := demoNewPkg.leadsig, fmtOff := 5,
    ints := [(1, demoNewPkg.archive.length - 6)], exts := [(0, 6)],
    oldLen := (usedArchive diskUsed).length, add := [], data := demoNewPkg.archive.drop 6 }

theorem diskDelta_turns : diskDelta.Turns demoApply.dec .standard (usedArchive diskUsed) demoNewPkg.archive := by
  refine ⟨?_, rfl, none, .absent, ?_⟩
  · constructor
    · exact Or.inr ⟨rfl, by decide⟩
    · exact ⟨by decide, by unfold NoNul; decide⟩
    · decide +kernel
    · decide +kernel
    · decide
    · decide
    · decide
    · decide
    · decide
    · decide +kernel
    · decide
    · decide +kernel
    · decide +kernel
    · exact ⟨by decide +kernel, 0, rfl, by decide +kernel, by decide +kernel, trivial⟩
    · decide +kernel
    · decide +kernel
    · intro _; decide +kernel
    · intro h; cases h
    · intro _; rfl
  · have h1 : Rebuilds (usedArchive diskUsed) 6 none [] [(0, (demoNewPkg.archive.drop 6).length)] (demoNewPkg.archive.drop 6 ++ []) (demoNewPkg.archive.drop 6 ++ []) :=
      .own (demoNewPkg.archive.drop 6) .done
    have h2 := Rebuilds.copy (old := usedArchive diskUsed) (p := 0) 0 6 0 rfl (by decide +kernel) h1
    rw [List.append_nil] at h2
    have h3 : slice (usedArchive diskUsed) 0 6 ++ demoNewPkg.archive.drop 6 = demoNewPkg.archive := by decide +kernel
    rw [h3, List.length_drop] at h2
    exact h2

/-- Non-vacuity of C93 for installed files. -/
theorem C93_demo_installed (z : Bytes) (hz : z = demoPack (diskDelta.text .standard)) :
    ∀ cleanup, drpmApply demoApply ⟨some (.ok ([0xED, 0xAB, 0xEE, 0xDB] ++ demoHeader ++ z)), true, true, .installed inOrderDb inOrderDisk⟩ cleanup =
      (.ok (), .written demoNewPkg.file) := by
  subst hz
  have hdb : readInstalled inOrderDb [97, 45, 49, 45, 49] = .ok { inOrderPkg.toPkg with nevr := .ok [97, 45, 49, 45, 49] } := by
    have : splitNevr [97, 45, 49, 45, 49] = .ok ([97], none, [49], [49]) := by rfl
    unfold readInstalled
    rw [this, Out.bind_ok]
    rfl
  refine C93_installed demoApply demoNewPkg 0 inOrderIn.files inOrderIn.files inOrderDisk inOrderGet diskUsed disk_choice (by decide +kernel)
    diskDelta _ [97, 45, 49, 45, 49] diskSequence disk_sequence inOrderDb _ hdb rfl ⟨rfl, rfl, rfl⟩ rfl (disk_serves _) ?_
    (demo_pair true true 3 (by omega)).signature (by decide) ?_ (demo_reproduces _)
  · refine ⟨⟨[0xED, 0xAB, 0xEE, 0xDB] ++ demoHeader, 1, .gzip, _, rfl, ⟨_, rfl⟩, ?_, .packed .gzip (by simp) (by simp [demoPack]) ⟨_, rfl⟩, fun _ => rfl⟩,
      rfl, diskDelta_turns, rfl, rfl, rfl, Or.inr rfl, fun _ => ⟨rfl, rfl⟩⟩
    show Out.ok _ = Out.ok _
    simp
  · exact Or.inl (by decide)

end Drpm
