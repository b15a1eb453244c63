import Verif.Props.Pick
/-!
# C106: the old package as a file or installed

A standard delta can be applied to the file of the old package or to the files of the installed one. C93 says
of deltas that are right that both give the new package. Here the delta is any file at all, damaged or made to
deceive: both calls return the same and leave the same file behind.
-/

namespace Drpm

theorem blocksCreate_maxCore {n : Nat} {exts : List (Nat × Nat)} {cfg : CacheCfg} (hb : blocksCreate n exts = .ok cfg) :
    cfg.maxCore = maxCoreBlocks := by
  unfold blocksCreate at hb
  split at hb
  · cases hb
  · rw [Out.bind_eq_ok] at hb
    obtain ⟨mx, _, hb⟩ := hb
    cases hb
    rfl

/-- The old data come from the package file. -/
theorem applyLoop_choice {algo : Nat} {files : List FileInfo} {old : Rpm} {ents : List (Bytes × Bytes)} {used : List Used}
    (H : Bytes → Bytes) (hc : Choice algo files old.archive ents used) (hl : old.archive.length < 2^63)
    (hlim : (usedArchive used).length ≤ 2^44) {sequence : Bytes} (hs : SequenceOf H algo used sequence) :
    ∃ places, expandSeq H files algo noCheck sequence = .ok places ∧
      ∀ (d : Delta) (cfg : CacheCfg) (cleanup : Nat) (add : Option Bytes), d.type = .standard →
        CopiesInside (usedArchive used).length 0 d.exts → EndsPositive 0 d.exts →
        blocksCreate (usedArchive used).length d.exts = .ok cfg →
        applyLoop d (.rpm old) files places cfg cleanup add =
          reconWrites (flatNext (usedArchive used)) () add.isSome d.exts d.ints d.intBytes (add.getD []) := by
  obtain ⟨places, p1, p2⟩ := C93_reads H hc hl hs noCheck (fun _ _ _ _ _ _ => rfl)
  refine ⟨places, p1, fun d cfg cleanup add ht hi he hb => ?_⟩
  unfold applyLoop
  simp only [ht]
  refine C23_cache_exact_rpm _ _ _ p2 (usedArchive_pos used) (by omega) d.exts d.ints hi he maxCoreBlocks (by decide) cleanup cfg ?_ add.isSome d.intBytes (add.getD [])
  unfold tablesFor
  rw [hb, Out.bind_ok, ← blocksCreate_maxCore hb]

/-- The old data come from the disk. -/
theorem applyLoop_disk {algo : Nat} {files : List FileInfo} {disk : Disk} {get : Bytes → Option Bytes} {used : List Used}
    (H : Bytes → Bytes) (hc : DiskChoice algo files disk get used)
    (hlim : (usedArchive used).length ≤ 2^44) {sequence : Bytes} (hs : SequenceOf H algo used sequence) :
    ∃ places, expandSeq H files algo noCheck sequence = .ok places ∧
      ∀ (d : Delta) (cfg : CacheCfg) (cleanup : Nat) (add : Option Bytes), DiskServes disk get used d.exts →
        CopiesInside (usedArchive used).length 0 d.exts → EndsPositive 0 d.exts →
        blocksCreate (usedArchive used).length d.exts = .ok cfg →
        applyLoop d (.files disk) files places cfg cleanup add =
          reconWrites (flatNext (usedArchive used)) () add.isSome d.exts d.ints d.intBytes (add.getD []) := by
  have hnum : (usedFiles used).map (fun k => k.1) = used.map (·.number) := by unfold usedFiles; rw [List.map_map]; rfl
  have mem : ∀ k ∈ usedFiles used, ∃ u ∈ used, k = (u.number, u.file) := by
    intro k hk
    unfold usedFiles at hk
    rw [List.mem_map] at hk
    obtain ⟨u, h1, rfl⟩ := hk
    exact ⟨u, h1, rfl⟩
  obtain ⟨hdec, hexp⟩ := expand_named (H := H) (algo := algo) (files := files) (ks := usedFiles used) (sequence := sequence)
    (fun k hk => by obtain ⟨u, hu, rfl⟩ := mem k hk; exact hc.listed u hu) (by rw [hnum]; exact hc.once)
    (fun k hk hr h0 => by
      obtain ⟨u, hu, rfl⟩ := mem k hk
      exact ⟨fun ha => hc.md5 ha u hu hr h0, fun ha => hc.sha256 ha u hu hr h0⟩)
    (by
      have := hs.hash
      rw [this]
      unfold usedFiles
      rw [List.map_map]
      rfl) hs.long (by rw [hnum]; exact hs.order) noCheck (fun _ _ _ _ _ _ => rfl)
  refine ⟨_, hexp, fun d cfg cleanup add hsv hi he hb => ?_⟩
  rw [hnum] at hdec
  have hnf := namedFiles_used hc.listed
  have hdisk := usedArchive_disk hc
  have hinst : Installed disk get (namedFiles files (used.map (·.number))) := by
    rw [hnf]
    intro x hx hr
    obtain ⟨u, hu, rfl⟩ := mem x hx
    obtain ⟨a, b, c⟩ := hc.regular u hu hr
    exact ⟨u.data, b, a, c⟩
  have hord : InOrder files (used.map (·.number)) := by
    intro i hi g hg ho
    rw [List.mem_map] at hi
    obtain ⟨u, h1, rfl⟩ := hi
    rw [hc.listed u h1] at hg
    cases hg
    unfold needsOpen at ho
    rw [Bool.and_eq_true] at ho
    obtain ⟨k, hk⟩ := List.getElem?_of_mem h1
    have := hsv.order k u hk ho.1 (by simpa using ho.2)
    rw [← this, List.getElem?_map, hk, this]
    rfl
  have htab : tablesFor (usedArchive used).length d.exts maxCoreBlocks = .ok cfg := by
    unfold tablesFor
    rw [hb, Out.bind_ok, ← blocksCreate_maxCore hb]
  unfold applyLoop
  simp only
  rcases hsv.served with ⟨hfew, hsafe⟩ | ⟨hnp, hshort, hsoon⟩
  · have hsrc := C40_prelinked_partial H files algo noCheck sequence _ _ disk get hexp hdec hc.fit hinst
      (by rw [hnf]; exact hsafe) (by rw [hnf, hdisk]; omega) hord
      (by
        rw [hnf]
        unfold usedFiles
        rw [List.filter_map, List.length_map]
        exact hfew)
    rw [hnf, hdisk] at hsrc
    exact hsrc d.exts d.ints hi he maxCoreBlocks (by decide) cleanup cfg htab add.isSome d.intBytes (add.getD [])
  · have hsrc := C40_cache_soon_partial H files algo noCheck sequence _ _ disk get hexp hdec hc.fit hinst
      (by rw [hnf]; exact hnp) (by rw [hnf, hdisk]; omega) hord
    rw [hnf, hdisk] at hsrc
    exact hsrc d.exts d.ints hi he maxCoreBlocks hshort hsoon cleanup cfg htab add.isSome d.intBytes (add.getD [])

/-- What an accepted delta says of its copies. -/
theorem accepted_copies {dec : Decoder} {rpmR : Bytes → Out (Nat × Nat)} {file : Bytes} {d : Delta}
    (h : readDelta dec rpmR file = .ok d) (he : d.extDataLen < 2^64 - 2^32) :
    CopiesInside d.extDataLen 0 d.exts ∧ EndsPositive 0 d.exts := by
  obtain ⟨d0, s, r, h1, _, _⟩ := readDelta_inv dec rpmR file d h
  obtain ⟨_, _, _, _, _, w2, _, _, _, _, _, _, _, c2⟩ := rdRest_post d0 s d r h1
  exact (extCheck_inside _ 0 d.exts he (by omega) (fun c hc => (w2 c hc).2)).1 c2

/-- C106, as far as it holds. The old package is there as a file and is installed, under the same name and with
    the same file list (but for colours), and `used` are the files of it that the delta relies on: they are in
    the payload as they are on the disk (or prelink changed them). Then, for every delta file: either it
    is refused when it is read, or it is a standard delta for a binary package; and if its sequence stands for
    these files and it gives their length, both calls of `drpm_apply` return the same and leave the same behind, whatever
    earlier calls did. Nothing is assumed of the copies, the data, the digest, the signature and the header in the
    delta. `DiskServes` keeps the defects of C40 out, see `C106_violated`. -/
theorem C106_partial {σ : Type} (env : ApplyEnv σ)
    (old : Rpm) (db : Db) (disk : Disk) (p : Pkg) (hname : old.nevr = p.nevr)
    (fs fs' files : List FileInfo) (algo : Nat) (hr : old.files = .ok fs ∧ old.algo = .ok algo ∧ SameButColors fs files)
    (hi : p.files = .ok fs' ∧ p.algo = .ok algo ∧ SameButColors fs' files)
    (ents : List (Bytes × Bytes)) (used : List Used) (get : Bytes → Option Bytes)
    (hc : Choice algo files old.archive ents used) (hl : old.archive.length < 2^63)
    (hc' : DiskChoice algo files disk get used) (hlim : (usedArchive used).length ≤ 2^44)
    (file : Bytes) (hbin : env.tgtSource file = false)
    (hd : ∀ d, readDelta env.dec env.rpmHead file = .ok d → d.type = .standard ∧ SequenceOf env.H algo used d.sequence ∧
      d.extDataLen = (usedArchive used).length ∧ readInstalled db d.srcNevr = .ok p ∧ DiskServes disk get used d.exts)
    (named creatable : Bool) (cleanup cleanup' : Nat) :
    drpmApply env ⟨some (.ok file), named, creatable, .rpm (.ok old)⟩ cleanup =
      drpmApply env ⟨some (.ok file), named, creatable, .installed db disk⟩ cleanup' := by
  have key : planApply env file (.rpm (.ok old)) cleanup = planApply env file (.installed db disk) cleanup' := by
    unfold planApply
    cases hrd : readDelta env.dec env.rpmHead file with
    | err e => simp only [Out.bind_err]
    | ub => simp only [Out.bind_ub]
    | loop => simp only [Out.bind_loop]
    | ok d =>
      obtain ⟨ht, hs, hn, hdb, hsv⟩ := hd d hrd
      simp only [Out.bind_ok]
      have e1 : applyOld env file d (.rpm (.ok old)) = .ok (old.toPkg, .rpm old) := by
        simp only [applyOld, sameSource]
        rw [Out.bind_ok, ht]
        simp
      have e2 : applyOld env file d (.installed db disk) = .ok (p, .files disk) := by
        simp only [applyOld]
        rw [if_neg (by rw [ht]; simp), if_neg (by rw [hbin]; simp), hdb, Out.bind_ok]
      rw [e1, e2]
      simp only [Out.bind_ok]
      have e3 : sameNevr d.srcNevr old.toPkg = sameNevr d.srcNevr p := by
        unfold sameNevr
        rw [show old.toPkg.nevr = p.nevr from hname]
      rw [e3]
      obtain ⟨pl, x1, x2⟩ := applyLoop_choice env.H hc hl hlim hs
      obtain ⟨pl', y1, y2⟩ := applyLoop_disk env.H hc' hlim hs
      have hpl : pl = pl' := by rw [x1] at y1; exact Out.ok.inj y1
      subst hpl
      have a1 : applyPlaces env d old.toPkg = .ok (fs, pl) := by
        unfold applyPlaces
        rw [if_neg (by rw [ht]; simp), hr.1, Out.bind_ok, hr.2.1, Out.bind_ok, expandSeq_colors _ hr.2.2, x1, Out.bind_ok]
      have a2 : applyPlaces env d p = .ok (fs', pl) := by
        unfold applyPlaces
        rw [if_neg (by rw [ht]; simp), hi.1, Out.bind_ok, hi.2.1, Out.bind_ok, expandSeq_colors _ hi.2.2, x1, Out.bind_ok]
      rw [a1, a2]
      simp only [Out.bind_ok]
      have hnd : isNoDiff d = false := by
        unfold isNoDiff
        rw [ht]
        rfl
      have hb : planBody env file d (.rpm old) fs pl cleanup = planBody env file d (.files disk) fs' pl cleanup' := by
        unfold planBody
        rw [hnd]
        simp only
        unfold planDiff
        obtain ⟨i1, i2⟩ := accepted_copies hrd (by omega)
        rw [hn] at i1 ⊢
        cases hcf : countsFit d with
        | err e => simp only [Out.bind_err]
        | ub => simp only [Out.bind_ub]
        | loop => simp only [Out.bind_loop]
        | ok u =>
          cases hcb : blocksCreate (usedArchive used).length d.exts with
          | err e => simp only [Out.bind_err, Out.bind_ok]
          | ub => simp only [Out.bind_ub, Out.bind_ok]
          | loop => simp only [Out.bind_loop, Out.bind_ok]
          | ok cfg =>
            simp only [Out.bind_ok]
            cases openAdd env.dec d.addData with
            | err e => simp only [Out.bind_err]
            | ub => simp only [Out.bind_ub]
            | loop => simp only [Out.bind_loop]
            | ok add =>
              simp only [Out.bind_ok]
              rw [applyLoop_colors _ _ hr.2.2, applyLoop_colors _ _ hi.2.2, x2 d cfg cleanup add ht i1 i2 hcb,
                y2 d cfg cleanup' add hsv i1 i2 hcb]
      rw [hb]
  unfold drpmApply applyTo
  cases named <;> simp only [Out.bind_ok, key]

/-! ## A concrete case: a damaged delta -/

/-- The delta of C93 for installed files, with other data. -/
def damagedDelta : DeltaInfo := { diskDelta with data := zeros diskDelta.data.length }

theorem damaged_formed : damagedDelta.WellFormed .standard := by
  constructor
  · exact Or.inr ⟨rfl, by decide⟩
  · exact ⟨by decide, by unfold NoNul; decide⟩
  · decide +kernel
  · decide +kernel
  · decide
  · decide
  · decide
  · decide
  · decide
  · decide +kernel
  · decide
  · decide +kernel
  · decide +kernel
  · exact ⟨by decide +kernel, 0, rfl, by decide +kernel, by decide +kernel, trivial⟩
  · decide +kernel
  · decide +kernel
  · intro _; decide +kernel
  · intro h; cases h
  · intro _; rfl

theorem disk_choice_rpm : Choice 0 inOrderIn.files inOrderOld.archive demoEnts diskUsed where
  newc := demo_payload.newc
  names := demo_payload.names
  unique := demo_payload.unique
  fit := fun u hu => by
    have : ∀ u ∈ diskUsed, u.file.mode < 2^16 ∧ u.file.rdev < 2^16 ∧ u.file.size + 3 < 2^32 ∧ u.file.linkto.length + 3 < 2^32 ∧
      u.file.name.length + 3 < 2^16 := by decide +kernel
    obtain ⟨a, b, c, d, e⟩ := this u hu
    exact ⟨a, b, c, d, e⟩
  chosen := .take (i := 0) rfl (Or.inl rfl) (fun _ => rfl) (fun a => by revert a; decide) (.leave
    (.take (i := 1) rfl (Or.inl rfl) (fun a => by revert a; decide) (fun _ b => by revert b; decide) (.leave (.leave .done))))
  md5 := disk_choice.md5
  sha256 := nofun

def damagedFile : Bytes := [0xED, 0xAB, 0xEE, 0xDB] ++ demoHeader ++ demoPack (damagedDelta.text .standard)

/-- Non-vacuity of `C106_partial`. -/
example (cleanup cleanup' : Nat) :
    drpmApply demoApply ⟨some (.ok damagedFile), true, true, .rpm (.ok inOrderOld)⟩ cleanup =
      drpmApply demoApply ⟨some (.ok damagedFile), true, true, .installed inOrderDb inOrderDisk⟩ cleanup' := by
  have hdb : readInstalled inOrderDb [97, 45, 49, 45, 49] = .ok { inOrderPkg.toPkg with nevr := .ok [97, 45, 49, 45, 49] } := by
    have : splitNevr [97, 45, 49, 45, 49] = .ok ([97], none, [49], [49]) := by rfl
    unfold readInstalled
    rw [this, Out.bind_ok]
    rfl
  obtain ⟨r, w2, w3, _⟩ := read_standard damaged_formed (dec := demoApply.dec) (rpmR := demoApply.rpmHead)
    (z := demoPack (damagedDelta.text .standard)) (head := [0xED, 0xAB, 0xEE, 0xDB] ++ demoHeader) (c := .gzip) (hc := 1)
    (.packed .gzip (by simp) (by simp [demoPack]) ⟨_, rfl⟩) ⟨_, rfl⟩ (by show Out.ok _ = Out.ok _; simp)
  refine C106_partial demoApply inOrderOld inOrderDb inOrderDisk _ rfl inOrderIn.files inOrderIn.files inOrderIn.files 0
    ⟨rfl, rfl, rfl⟩ ⟨rfl, rfl, rfl⟩ demoEnts diskUsed inOrderGet disk_choice_rpm (by show demoArchive.length < 2^63; decide +kernel) disk_choice
    (by decide +kernel) damagedFile rfl (fun d hd => ?_) true true cleanup cleanup'
  have : d = r := by
    have := w2.symm.trans hd
    exact (Out.ok.inj this).symm
  subst this
  refine ⟨w3.type, ?_, ?_, ?_, disk_serves _⟩
  · rw [w3.sequence]
    exact disk_sequence
  · rw [w3.extLen]
    rfl
  · rw [w3.srcNevr]
    exact hdb

/-! ## The violation

The choice of C93 with package files, with its files installed. -/

/-- All files of the package; the link is followed. -/
def pickDisk : Disk :=
  { get := fun n => [([47, 97], [104, 101, 108, 108, 111]), ([47, 98], [104, 101, 108, 108, 111]), ([47, 120, 121], [1, 2, 3, 4, 5, 6]),
      ([47, 100], [7, 7, 7])].lookup n
    undo := fun _ => .err .prog }

def pickNamed : Rpm := { pickOld with nevr := .ok [97, 45, 49, 45, 49] }

def pickDb : Db := fun n _ v r => if n = [97] ∧ v = [49] ∧ r = [49] then some pickNamed.toPkg else none

def pickedDelta : DeltaInfo := { pickDelta with source := [97, 45, 49, 45, 49] }

def pickedFile : Bytes := [0xED, 0xAB, 0xEE, 0xDB] ++ demoHeader ++ demoPack (pickedDelta.text .standard)

theorem picked_formed : pickedDelta.WellFormed .standard := by
  constructor
  · exact Or.inr ⟨rfl, by decide⟩
  · exact ⟨by decide, by unfold NoNul; decide⟩
  · decide +kernel
  · decide +kernel
  · decide
  · decide
  · decide
  · decide
  · decide
  · decide +kernel
  · decide
  · decide +kernel
  · decide +kernel
  · exact ⟨by decide +kernel, 0, rfl, by decide +kernel, by decide +kernel, trivial⟩
  · decide +kernel
  · decide +kernel
  · intro _; decide +kernel
  · intro h; cases h
  · intro _; rfl

theorem pick_disk_choice : DiskChoice 0 pickList pickDisk pickDisk.get pickUsed where
  listed := by decide +kernel
  path := by
    intro u hu
    rcases List.mem_cons.mp hu with rfl | hu
    · exact Or.inl rfl
    · rcases List.mem_cons.mp hu with rfl | hu
      · exact Or.inl rfl
      · cases hu
  once := by decide
  fit := fun f hf => by
    have : ∀ f ∈ pickList, f.mode < 2^16 ∧ f.rdev < 2^16 ∧ f.size + 3 < 2^32 ∧ f.linkto.length + 3 < 2^32 ∧
      f.name.length + 3 < 2^16 := by decide +kernel
    obtain ⟨a, b, c, d, e⟩ := this f hf
    exact ⟨a, b, c, d, e⟩
  regular := by
    intro u hu hr
    rcases List.mem_cons.mp hu with rfl | hu
    · exact ⟨rfl, rfl, Or.inr (Or.inl ⟨_, rfl, List.prefix_rfl, Or.inl rfl⟩)⟩
    · rcases List.mem_cons.mp hu with rfl | hu
      · exact ⟨rfl, rfl, Or.inr (Or.inl ⟨_, rfl, List.prefix_rfl, Or.inl rfl⟩)⟩
      · cases hu
  nodata := by decide +kernel
  md5 := pick_choice.md5
  sha256 := nofun

/-- C106 does not hold in general. The files of the package are installed as they are in its payload, and the delta, which relies on
    the second and the fourth, turns the package file into the new package. With the installed files the call
    fails after it has begun to write (first defect of C40). -/
theorem C106_violated : ∃ d, readDelta demoApply.dec demoApply.rpmHead pickedFile = .ok d ∧ d.type = .standard ∧
    SequenceOf demoApply.H 0 pickUsed d.sequence ∧ d.extDataLen = (usedArchive pickUsed).length ∧
    readInstalled pickDb d.srcNevr = .ok pickNamed.toPkg ∧
    Choice 0 pickList pickNamed.archive demoEnts pickUsed ∧ DiskChoice 0 pickList pickDisk pickDisk.get pickUsed ∧
    drpmApply demoApply ⟨some (.ok pickedFile), true, true, .rpm (.ok pickNamed)⟩ 0 = (.ok (), .written demoNewPkg.file) ∧
    drpmApply demoApply ⟨some (.ok pickedFile), true, true, .installed pickDb pickDisk⟩ 0 = (.err .format, .partly) := by
  obtain ⟨r, w2, w3, _⟩ := read_standard picked_formed (dec := demoApply.dec) (rpmR := demoApply.rpmHead)
    (z := demoPack (pickedDelta.text .standard)) (head := [0xED, 0xAB, 0xEE, 0xDB] ++ demoHeader) (c := .gzip) (hc := 1)
    (.packed .gzip (by simp) (by simp [demoPack]) ⟨_, rfl⟩) ⟨_, rfl⟩ (by show Out.ok _ = Out.ok _; simp)
  refine ⟨r, w2, w3.type, ?_, ?_, ?_, pick_choice, pick_disk_choice, by decide +kernel, by decide +kernel⟩
  · rw [w3.sequence]
    exact pick_sequence
  · rw [w3.extLen]
    rfl
  · rw [w3.srcNevr]
    have : splitNevr [97, 45, 49, 45, 49] = .ok ([97], none, [49], [49]) := by rfl
    unfold readInstalled
    show (splitNevr [97, 45, 49, 45, 49] >>= _) = _
    rw [this, Out.bind_ok]
    rfl

end Drpm
