import Verif.RebuildLemmas
import Verif.Props.Apply
/-!
# The delta format, independent of this library (C92)

C07 and C48 say that what this library writes, this library reads. Here both sides are held against
the format itself (`Verif/DeltaSpec.lean`): what `drpm_make` writes is a delta from the old package to the
new one in the sense of the format, and `drpm_apply` turns the old package into the new one with every
file that is such a delta, whoever made it and however it cuts the new data into copies.
-/

namespace Drpm

/-- The contents `f` of a delta turn `old` into `new`, to the limits of the format for deltas of
    type `t`. -/
structure DeltaInfo.Turns (f : DeltaInfo) (dec : Decoder) (t : DType) (old new : Bytes) : Prop where
  wellFormed : f.WellFormed t
  oldLen : f.oldLen = old.length
  rebuilds : ∃ add, AddIs dec f.add add ∧ Rebuilds old 0 add f.exts f.ints f.data new

/-- The MD5 of the new package in a delta is right, or left out (all zero). -/
def Md5Ok (H : Bytes → Bytes) (md5 file : Bytes) : Prop := md5 = H file ∨ md5 = zeros 16

/-- The file is an rpm-only delta from `old` to `new` with the contents `f`: the head with the name of the
    new package, then the contents, stored by any method. An rpm-only delta goes by header and archive;
    its sequence is the MD5 in the signature of the old package. -/
structure RpmonlyDelta (H : Bytes → Bytes) (dec : Decoder) (old new : Rpm) (f : DeltaInfo) (file : Bytes) : Prop where
  stored : ∃ target c z, file = f.rpmonlyHead target ++ z ∧ target.length + 1 < 2^31 - 2^12 ∧ NoNul target ∧
    StoredAs dec z c (f.text .rpmonly)
  turns : f.Turns dec .rpmonly (old.header ++ old.archive) (new.header ++ new.archive)
  source : old.nevr = .ok f.source
  sequence : old.sigMd5 = .ok (some f.sequence)
  headerLen : f.headerLen = new.header.length
  leadsig : f.leadsig = new.leadsig
  md5 : Md5Ok H f.md5 new.file
  comp : new.comp = f.comp.code ∧ new.level = .ok f.level

/-- The file is a standard delta with the contents `f` from a package called `source` whose data in
    terms of `sequence` are `old`, to the package `new`. In front of the contents are lead, signature and
    header of the new package, marked as a delta; that rpmlib finds their end (`rpmHead`) and restores the
    header (`tgtHeader`) is a demand on the file. Version 1 does not say how the payload is
    compressed: the method is the one in the header (`hc`). -/
structure StandardDelta (rpmHead : Bytes → Out (Nat × Nat)) (tgtHeader : Bytes → Out Bytes) (H : Bytes → Bytes) (dec : Decoder)
    (source sequence old : Bytes) (new : Rpm) (f : DeltaInfo) (file : Bytes) : Prop where
  stored : ∃ head hc c z, file = head ++ z ∧ [0xED, 0xAB, 0xEE, 0xDB] <+: head ∧ rpmHead file = .ok (head.length, hc) ∧
    StoredAs dec z c (f.text .standard) ∧ (f.version = 1 → new.comp = hc)
  header : tgtHeader file = .ok new.header
  turns : f.Turns dec .standard old new.archive
  source : f.source = source
  sequence : f.sequence = sequence
  leadsig : f.leadsig = new.leadsig
  md5 : Md5Ok H f.md5 new.file
  comp : f.version ≠ 1 → new.comp = f.comp.code ∧ new.level = .ok f.level

/-! ## Applying -/

theorem applyTo_md5 {σ : Type} {env : ApplyEnv σ} {file : Bytes} {d : Delta} {src : OldSrc} {cleanup : Nat}
    {p : Pkg} {old : OldData} {files : List FileInfo} {places : List CpioFile} {m : Option Bytes} {ls rest : Bytes}
    (h1 : readDelta env.dec env.rpmHead file = .ok d) (h2 : applyOld env file d src = .ok (p, old))
    (h3 : p.nevr = .ok d.srcNevr) (h4 : applyPlaces env d p = .ok (files, places))
    (h5 : replaceSig env d.tgtLeadsig = .ok (.ok m))
    (h6 : planBody env file d old files places cleanup =
      .ok (.ok (ls ++ rest, (if noFullMd5 d then [] else ls) ++ rest)))
    (h7 : Md5Ok env.H d.tgtMd5 (ls ++ rest)) (h8 : m = none ∨ m = some (env.H rest)) :
    applyTo env (.ok file) src cleanup = (.ok (), .written (ls ++ rest)) := by
  rcases h7 with h7 | h7
  · exact applyTo_ok h1 h2 h3 h4 h5 h6 h7 h8
  · have hn : noFullMd5 d = true := by unfold noFullMd5; rw [h7]; simp
    unfold applyTo planApply
    rw [Out.bind_ok, h1, Out.bind_ok, h2, Out.bind_ok]
    simp only [sameNevr]
    rw [h3, Out.bind_ok, if_neg (by simp), Out.bind_ok, h4, Out.bind_ok]
    simp only
    rw [h5, Out.bind_ok, h6, Out.bind_ok]
    simp only [finishApply, finalCheck]
    rw [hn]
    simp only [if_true, List.nil_append, Out.bind_ok]
    rcases h8 with rfl | rfl
    · rfl
    · simp

theorem Rebuilds.nonempty {old : Bytes} {p : Nat} {add : Option Bytes} {exts : List (Int × Nat)} {ints : List (Nat × Nat)}
    {data out : Bytes} (h : Rebuilds old p add exts ints data out) (ho : out ≠ []) : ints ≠ [] := by
  cases h with
  | done => exact absurd rfl ho
  | own => simp
  | copy => simp
  | copyAdd => simp

/-- C92, applying rpm-only deltas: every file that is an rpm-only delta from `old` to `new` makes
    `drpm_apply` succeed and write the new package, whatever earlier calls left behind. -/
theorem C92_rpmonly {σ : Type} (env : ApplyEnv σ) (old new : Rpm) (f : DeltaInfo) (file : Bytes)
    (hd : RpmonlyDelta env.H env.dec old new f file)
    (hold : old.header.length + old.archive.length ≤ 2^44) (hold0 : 0 < old.header.length + old.archive.length)
    (hsig : GoodSignature env new) (hlevel : UsableLevel new.comp f.level)
    (hcomp : Reproduces env new.comp f.level new.archive new.payload) :
    ∀ cleanup, drpmApply env ⟨some (.ok file), true, true, .rpm (.ok old)⟩ cleanup =
      (.ok (), .written new.file) := by
  intro cleanup
  obtain ⟨⟨target, c, z, rfl, t1, t2, hz⟩, ⟨hf, hl, add, ha, hr⟩, hsrc, hseq, hh, hls, hmd5, hc⟩ := hd
  obtain ⟨s1, s2, s3, s4, ms, s5, s6⟩ := hsig
  rw [List.length_append] at hl
  obtain ⟨r, w2, w3⟩ := read_rpmonly hf ⟨t1, t2⟩ hz env.rpmHead
  have hd := toDelta_made hf (target := target) (fun _ => ⟨t1, t2⟩)
  have hcut := (cutBy_ok (f.ints.map (·.2)) f.data hf.data.1).2
  have hx : ∀ c ∈ f.exts, -2^31 < c.1 ∧ c.1 < 2^31 := fun c hc => ⟨(hf.exts.2 c hc).1, (hf.exts.2 c hc).2.1⟩
  obtain ⟨i1, i2⟩ : CopiesInside f.oldLen 0 (wordsOf f.exts) ∧ EndsPositive 0 (wordsOf f.exts) :=
    copiesFit_words f.exts 0 hx hf.fit.2
  obtain ⟨ws, r1, r2⟩ := reconWrites_rebuilds (by rw [List.length_append]; omega) hr hx
  have v2 := w3.v2 (by show 2 ≤ f.version; have := (hd.rpmonly rfl).1; have : f.version = 3 := this; omega)
  have e1 : r.tgtComp = new.comp := by rw [hc.1]; exact v2.2.1
  have e2 : r.tgtCompLevel = f.level := v2.2.2.1
  have e3 : r.type = .rpmonly := w3.type
  have e4 : r.tgtLeadsig = new.leadsig := by rw [w3.leadsig, ← hls]; rfl
  have e5 : r.extDataLen = old.header.length + old.archive.length := by rw [w3.extLen, ← hl]; rfl
  have e6 : r.exts = wordsOf f.exts := w3.exts.1
  have hcc : new.comp ≤ 6 := by rw [hc.1]; exact code_le _
  have hnd : isNoDiff r = false := by
    unfold isNoDiff
    rw [w3.ints.2, show (toDelta .rpmonly target f).intCount = f.ints.length from rfl]
    have hne := hr.nonempty (by
      intro h
      have h := congrArg List.length h
      rw [List.length_append, ← hh, List.length_nil] at h
      have := (hf.rpmonly rfl).2
      omega)
    cases hi : f.ints with
    | nil => exact absurd hi hne
    | cons a as => simp
  rw [hl] at i1
  have htab : ∃ cfg, blocksCreate r.extDataLen r.exts = .ok cfg := by
    rw [e5, e6]
    rcases C25_tables _ (wordsOf f.exts) hold0 (by omega) i1 i2 with ⟨_, h⟩ | ⟨cfg, h, _⟩
    · omega
    · exact ⟨cfg, h⟩
  obtain ⟨cfg, htab⟩ := htab
  show applyTo env (.ok _) (.rpm (.ok old)) cleanup = _
  have hf' : new.file = new.leadsig ++ (new.header ++ new.payload) := by
    unfold Rpm.file; rw [List.append_assoc]
  rw [hf']
  refine applyTo_md5 (p := old.toPkg) (old := .rpm old) (files := []) (places := []) (m := ms) w2 ?_
    (by rw [w3.srcNevr, hsrc]; rfl) ?_ ?_ ?_ ?_ s6
  · have h16 := (hf.rpmonly rfl).1
    simp only [applyOld, sameSource]
    rw [Out.bind_ok, e3, w3.sequence, hseq, show (toDelta .rpmonly target f).sequence = f.sequence from rfl]
    simp only [if_true, Out.bind_ok]
    rw [rdBlk_ok (by omega), Out.bind_ok]
    have : slice f.sequence 0 16 = f.sequence := by
      unfold slice
      rw [List.drop_zero, List.take_of_length_le (by omega)]
    rw [this, if_neg (by simp), Out.bind_ok]
  · unfold applyPlaces
    rw [if_pos e3]
  · rw [e4]
    exact replaceSig_of s1.1 s2 s4 s3 s5
  · rw [planBody_diff hnd]
    have hlp : applyLoop r (.rpm old) [] [] cfg cleanup add = .ok ws := by
      unfold applyLoop
      simp only [e3]
      rw [e5, e6] at htab
      rw [e5, e6, w3.ints.1, w3.intData.2, hcut, show (toDelta .rpmonly target f).ints = f.ints from rfl,
        C22_applied old.header old.archive (by omega) _ hold0 (Nat.le_refl _) _ _ i1 i2 cleanup cfg htab,
        List.take_of_length_le (by rw [List.length_append]; omega)]
      exact r1
    rw [planDiff_ok (cfg := cfg) (add := add) (ws := ws) (pre := new.header) (archive := new.archive)
      (payload := new.payload) (hdr := [])
      (by rw [w3.ints.2, w3.ints.1, w3.exts.2, w3.exts.1, hd.ints.1, hd.exts.1]; exact ⟨rfl, rfl⟩)
      htab (by rw [w3.add]; exact openAdd_stored ha) hlp r2 (by rw [w3.header, ← hh]; rfl)
      (by rw [e1, e2]; exact strmOpen_of hcc hlevel)
      (by unfold applyHeader; rw [if_pos e3]) (by rw [e1, e2]; exact hcomp)]
    rw [e4]
    rfl
  · rw [w3.md5, ← hf']
    exact hmd5

/-- Applying a standard delta to whatever yields the data its sequence stands for. -/
theorem standard_turns {σ : Type} (env : ApplyEnv σ) (new : Rpm) (f : DeltaInfo) (file source sequence old : Bytes)
    (hd : StandardDelta env.rpmHead env.tgtHeader env.H env.dec source sequence old new f file)
    (hold : 0 < old.length ∧ old.length ≤ 2^44) (hsig : GoodSignature env new)
    (hm : new.comp ≤ 6) (hlevel : UsableLevel new.comp (if f.version = 1 then 0 else f.level))
    (hcomp : Reproduces env new.comp (if f.version = 1 then 0 else f.level) new.archive new.payload)
    (src : OldSrc) (p : Pkg) (od : OldData)
    (hsrc : ∀ d, d.type = .standard → d.srcNevr = source → applyOld env file d src = .ok (p, od))
    (fs files : List FileInfo) (algo : Nat)
    (hp : p.nevr = .ok source ∧ p.files = .ok fs ∧ p.algo = .ok algo) (hfs : SameButColors fs files)
    (hloop : ∀ d cfg cleanup add, d.type = .standard → d.exts = wordsOf f.exts →
      CopiesInside old.length 0 d.exts → EndsPositive 0 d.exts → blocksCreate old.length d.exts = .ok cfg →
      ∃ places, expandSeq env.H files algo noCheck sequence = .ok places ∧
        applyLoop d od files places cfg cleanup add =
          reconWrites (flatNext old) () add.isSome d.exts d.ints d.intBytes (add.getD [])) :
    ∀ cleanup, drpmApply env ⟨some (.ok file), true, true, src⟩ cleanup = (.ok (), .written new.file) := by
  intro cleanup
  obtain ⟨⟨head, hc, c, z, hfile, hmag, hrd, hz, hv1⟩, hback, ⟨hf, hl, add, ha, hr⟩, hso, hseq, hls, hmd5, hc2⟩ := hd
  obtain ⟨s1, s2, s3, s4, ms, s5, s6⟩ := hsig
  obtain ⟨r, w2, w3, w5⟩ := read_standard hf hz hmag (hfile ▸ hrd)
  rw [← hfile] at w2
  have hd := toDelta_made hf (target := []) (fun h => by cases h)
  have hcut := (cutBy_ok (f.ints.map (·.2)) f.data hf.data.1).2
  have hx : ∀ c ∈ f.exts, -2^31 < c.1 ∧ c.1 < 2^31 := fun c hc => ⟨(hf.exts.2 c hc).1, (hf.exts.2 c hc).2.1⟩
  obtain ⟨i1, i2⟩ : CopiesInside f.oldLen 0 (wordsOf f.exts) ∧ EndsPositive 0 (wordsOf f.exts) :=
    copiesFit_words f.exts 0 hx hf.fit.2
  obtain ⟨ws, r1, r2⟩ := reconWrites_rebuilds (by omega) hr hx
  have e1 : r.tgtComp = new.comp ∧ r.tgtCompLevel = (if f.version = 1 then 0 else f.level) := by
    by_cases h1 : f.version = 1
    · rw [if_pos h1, hv1 h1]
      exact w5 h1
    · have v2 := w3.v2 (by show 2 ≤ f.version; have := hf.version; omega)
      rw [if_neg h1, (hc2 h1).1]
      exact ⟨v2.2.1, v2.2.2.1⟩
  have e3 : r.type = .standard := w3.type
  have e4 : r.tgtLeadsig = new.leadsig := by rw [w3.leadsig, ← hls]; rfl
  have e5 : r.extDataLen = old.length := by rw [w3.extLen, ← hl]; rfl
  have e6 : r.exts = wordsOf f.exts := w3.exts.1
  have hnd : isNoDiff r = false := by
    unfold isNoDiff
    rw [e3]
    rfl
  rw [hl] at i1
  have htab : ∃ cfg, blocksCreate old.length (wordsOf f.exts) = .ok cfg := by
    rcases C25_tables _ (wordsOf f.exts) hold.1 (by omega) i1 i2 with ⟨_, h⟩ | ⟨cfg, h, _⟩
    · omega
    · exact ⟨cfg, h⟩
  obtain ⟨cfg, htab⟩ := htab
  obtain ⟨places, p1, p2⟩ := hloop r cfg cleanup add e3 e6 (by rw [e6]; exact i1) (by rw [e6]; exact i2) (by rw [e6]; exact htab)
  show applyTo env (.ok file) src cleanup = _
  have hf' : new.file = new.leadsig ++ (new.header ++ new.payload) := by
    unfold Rpm.file; rw [List.append_assoc]
  rw [hf']
  have hsrc' : r.srcNevr = source := by rw [w3.srcNevr, ← hso]; rfl
  refine applyTo_md5 (p := p) (old := od) (files := fs) (places := places) (m := ms) w2 (hsrc r e3 hsrc')
    (by rw [hsrc', hp.1]) ?_ ?_ ?_ ?_ s6
  · unfold applyPlaces
    rw [if_neg (by rw [e3]; simp), hp.2.1, Out.bind_ok, hp.2.2, Out.bind_ok, w3.sequence,
      show (toDelta .standard [] f).sequence = f.sequence from rfl, hseq, expandSeq_colors _ hfs, p1, Out.bind_ok]
  · rw [e4]
    exact replaceSig_of s1.1 s2 s4 s3 s5
  · rw [planBody_diff hnd]
    have hlp : applyLoop r od fs places cfg cleanup add = .ok ws := by
      rw [applyLoop_colors _ _ hfs, p2, e6, w3.ints.1, w3.intData.2, hcut, show (toDelta .standard [] f).ints = f.ints from rfl]
      exact r1
    rw [planDiff_ok (cfg := cfg) (add := add) (ws := ws) (pre := []) (archive := new.archive)
      (payload := new.payload) (hdr := new.header)
      (by rw [w3.ints.2, w3.ints.1, w3.exts.2, w3.exts.1, hd.ints.1, hd.exts.1]; exact ⟨rfl, rfl⟩)
      (by rw [e5, e6]; exact htab) (by rw [w3.add]; exact openAdd_stored ha) hlp r2
      (by rw [w3.header]; exact (hf.standard rfl).symm)
      (by rw [e1.1, e1.2]; exact strmOpen_of hm hlevel)
      (by unfold applyHeader; rw [if_neg (by rw [e3]; simp)]; exact hback) (by rw [e1.1, e1.2]; exact hcomp)]
    rw [e4, List.append_nil]
  · rw [w3.md5, ← hf']
    exact hmd5

/-- C92, applying standard deltas to package files: every file that is a standard delta to `new` from a
    package with the name of `old'`, made of the data that `c` says the sequence stands for (`makeCpio`; C91
    says what these are in terms of the archive), makes `drpm_apply` succeed and write the new package. -/
theorem C92_standard {σ : Type} (env : ApplyEnv σ) (h16 : ∀ b, (env.H b).length = 16) (old' new : Rpm) (m : MakeIn) (c : Made)
    (hm : makeCpio env.H m = .ok c) (hsize : m.archive.length < 2^63 ∧ m.files.length < 2^32) (hfit : FilesFit m)
    (hplain : ∀ es, Entries m.archive 0 es → Plain m es) (hlim : c.cpio.length ≤ 2^44)
    (f : DeltaInfo) (file source : Bytes)
    (hd : StandardDelta env.rpmHead env.tgtHeader env.H env.dec source c.sequence c.cpio new f file)
    (hsig : GoodSignature env new) (hcc : new.comp ≤ 6)
    (hlevel : UsableLevel new.comp (if f.version = 1 then 0 else f.level))
    (hcomp : Reproduces env new.comp (if f.version = 1 then 0 else f.level) new.archive new.payload)
    (fs : List FileInfo)
    (hp : old'.nevr = .ok source ∧ old'.files = .ok fs ∧ old'.algo = .ok m.algo ∧ old'.archive = m.archive)
    (hfs : SameButColors fs m.files) :
    ∀ cleanup, drpmApply env ⟨some (.ok file), true, true, .rpm (.ok old')⟩ cleanup =
      (.ok (), .written new.file) := by
  obtain ⟨_, _, _, _, x5⟩ := makeCpio_facts h16 hsize.1 hfit hm
  refine standard_turns env new f file source c.sequence c.cpio hd ⟨x5, hlim⟩ hsig hcc hlevel hcomp
    (.rpm (.ok old')) old'.toPkg (.rpm old') ?_ fs m.files m.algo ⟨hp.1, hp.2.1, hp.2.2.1⟩ hfs ?_
  · intro d ht _
    simp only [applyOld, sameSource]
    rw [Out.bind_ok, ht]
    simp
  · intro d cfg cleanup add ht hx hi he hb
    obtain ⟨places, p1, p2⟩ := C21_applied env.H h16 m c hsize.1 hsize.2 hfit hm hplain (by omega) d.exts
      d.ints hi he cleanup cfg hb add.isSome d.intBytes (add.getD [])
    refine ⟨places, p1, ?_⟩
    unfold applyLoop
    simp only [ht]
    rw [hp.2.2.2]
    exact p2

/-- C92, applying standard deltas to installed files. `Servable` stands in for the defects of C40. -/
theorem C92_installed {σ : Type} (env : ApplyEnv σ) (h16 : ∀ b, (env.H b).length = 16) (new : Rpm) (m : MakeIn) (c : Made)
    (hm : makeCpio env.H m = .ok c) (hsize : m.archive.length < 2^63 ∧ m.files.length < 2^32) (hfit : FilesFit m)
    (hlim : c.cpio.length ≤ 2^44)
    (f : DeltaInfo) (file source : Bytes)
    (hd : StandardDelta env.rpmHead env.tgtHeader env.H env.dec source c.sequence c.cpio new f file)
    (hsig : GoodSignature env new) (hcc : new.comp ≤ 6)
    (hlevel : UsableLevel new.comp (if f.version = 1 then 0 else f.level))
    (hcomp : Reproduces env new.comp (if f.version = 1 then 0 else f.level) new.archive new.payload)
    (db : Db) (disk : Disk) (p : Pkg) (hdb : readInstalled db source = .ok p)
    (fs : List FileInfo) (hp : p.nevr = .ok source ∧ p.files = .ok fs ∧ p.algo = .ok m.algo)
    (hfs : SameButColors fs m.files) (hbin : env.tgtSource file = false)
    (hdisk : ∀ es, Entries m.archive 0 es → Plain m es ∧
      ∃ get, OldInstalled m disk get es ∧ Servable m disk get es (wordsOf f.exts)) :
    ∀ cleanup, drpmApply env ⟨some (.ok file), true, true, .installed db disk⟩ cleanup =
      (.ok (), .written new.file) := by
  obtain ⟨_, _, _, _, x5⟩ := makeCpio_facts h16 hsize.1 hfit hm
  refine standard_turns env new f file source c.sequence c.cpio hd ⟨x5, hlim⟩ hsig hcc hlevel hcomp
    (.installed db disk) p (.files disk) ?_ fs m.files m.algo hp hfs ?_
  · intro d ht hn
    simp only [applyOld]
    rw [if_neg (by rw [ht]; simp), if_neg (by rw [hbin]; simp), hn, hdb, Out.bind_ok]
  · intro d cfg cleanup add ht hx hi he hb
    obtain ⟨places, p1, p2⟩ := C21_installed env.H h16 m c disk hsize.1 hsize.2 hfit hm d.exts d.ints
      (by rw [hx]; exact hdisk) (by omega) hi he cleanup cfg hb add.isSome d.intBytes (add.getD [])
    refine ⟨places, p1, ?_⟩
    unfold applyLoop
    simp only
    exact p2

/-! ## Making -/

theorem copiesFit_of {limit : Nat} : ∀ (ext : List (Nat × Nat)) (p : Nat), CopiesInside limit p ext → EndsPositive p ext →
    CopiesFit limit p (ext.map fun c => (s32 c.1, c.2)) := by
  intro ext
  induction ext with
  | nil => intro p _ _; trivial
  | cons x ext ih =>
    intro p h h'
    obtain ⟨w, n⟩ := x
    obtain ⟨q, h1, h2, h3⟩ := h
    obtain ⟨k1, k2⟩ := h'
    have hq : ((p : Int) + s32 w).toNat = q := by rw [← h1]; rfl
    rw [hq] at k1 k2
    exact ⟨q, h1, h2, by omega, ih _ h3 k2⟩

theorem s32_range {x : Nat} (h : x < 2^32) (hx : x ≠ 2^31) : -2^31 < s32 x ∧ s32 x < 2^31 := by
  unfold s32
  split <;> omega

/-- What the writer is given is within the limits of the format. -/
theorem infoOf_wellFormed {d : Delta} {ptrs : List Bytes} (hd : d.Made ptrs) {c : Comp} (hl : c ≠ .lzip)
    (ha : d.addData.length < 2^31 - 2^12) (hh : d.type = .standard → d.tgtHeaderLen = 0) :
    (infoOf d ptrs c).WellFormed d.type := by
  have hv := hd.version
  have hptr : (infoOf d ptrs c).data.length = ((infoOf d ptrs c).ints.map (·.2)).sum := by
    show ptrs.flatten.length = (d.ints.map (·.2)).sum
    rw [← hd.data.2.1, sum_map_length]
  have hdl : d.intDataLen = (infoOf d ptrs c).data.length := hd.data.2.2.1
  constructor
  · show d.version = 3 ∨ _
    cases ht : d.type with
    | rpmonly => exact Or.inl (hd.rpmonly ht).1
    | standard =>
      by_cases h3 : d.version = 3
      · exact Or.inl h3
      · exact Or.inr ⟨rfl, by show d.version = 1 ∨ d.version = 2; omega⟩
  · exact hd.srcNevr
  · exact hd.sequence
  · exact hd.md5
  · exact hd.size
  · exact ⟨hl, hd.comp.2⟩
  · exact hd.param
  · exact hd.header
  · refine ⟨by show (List.map _ _).length < _; rw [List.length_map]; exact hd.offadj.2.1, ?_⟩
    intro a ha
    obtain ⟨p, hp, rfl⟩ := List.mem_map.1 ha
    exact ⟨(hd.offadj.2.2.1 p hp).1, s32_range (hd.offadj.2.2.1 p hp).2 (hd.offadj.2.2.2 p hp)⟩
  · exact hd.leadsig
  · exact hd.fmt
  · exact hd.ints.2
  · refine ⟨by show (List.map _ _).length < _; rw [List.length_map]; exact hd.exts.2.1, ?_⟩
    intro a ha
    obtain ⟨p, hp, rfl⟩ := List.mem_map.1 ha
    obtain ⟨r1, r2⟩ := s32_range (hd.exts.2.2.1 p hp).1 (hd.exts.2.2.2 p hp)
    exact ⟨r1, r2, (hd.exts.2.2.1 p hp).2⟩
  · exact ⟨hd.ext.1, copiesFit_of _ _ hd.ext.2.1 hd.ext.2.2⟩
  · exact ⟨hptr, by rw [← hdl]; exact hd.data.2.2.2⟩
  · exact ha
  · intro h
    have h : d.version ≠ 3 := h
    obtain ⟨_, o2, o3, o4⟩ := hd.old (by omega)
    exact ⟨by show List.map _ d.offadj = []; rw [o2]; rfl, o3, by rw [← hdl]; exact o4⟩
  · exact fun ht => ⟨(hd.rpmonly ht).2.1, (hd.rpmonly ht).2.2.1⟩
  · exact hh

theorem comp_of_code {n : Nat} (h : n ∈ [0, 1, 2, 3, 4, 6]) : ∃ c : Comp, n = c.code ∧ c ≠ .lzip := by
  simp only [List.mem_cons, List.not_mem_nil, or_false] at h
  rcases h with rfl | rfl | rfl | rfl | rfl | rfl
  · exact ⟨.none, rfl, by simp⟩
  · exact ⟨.gzip, rfl, by simp⟩
  · exact ⟨.bzip2, rfl, by simp⟩
  · exact ⟨.lzma, rfl, by simp⟩
  · exact ⟨.xz, rfl, by simp⟩
  · exact ⟨.zstd, rfl, by simp⟩

/-- The text of a delta is stored by a lossless codec. -/
theorem lossless_stored {c : Comp} {compress : Bytes → Out Bytes} {dec : Decoder} (hl : Lossless c compress dec)
    {s : Bytes} (h8 : 8 ≤ s.length) {v : Nat} (hs : s.take 4 = versionBytes v) :
    ∃ z, compress s = .ok z ∧ StoredAs dec z c s := by
  by_cases hn : c = .none
  · subst hn
    exact ⟨s, hl.plain rfl s, .plain h8 (plain_not_magic s v hs)⟩
  · obtain ⟨z, z1, z2, z3, z4⟩ := hl.packed hn s
    exact ⟨z, z1, z4 ▸ .packed c hn z2 z3⟩

theorem GoodAdd.storedAs {σ : Type} {menv : MakeEnv} {env : ApplyEnv σ} {o : Opts Bytes} {n : Nat}
    (h : GoodAdd menv env o n) (ws : List Bytes) (hw : ws.flatten.length ≤ n) :
    ∃ z, addBlock menv o ws = .ok z ∧ z.length < 2^31 - 2^12 ∧
      AddIs env.dec z (if o.addblk then some ws.flatten else none) := by
  unfold addBlock
  cases ha : o.addblk with
  | false => exact ⟨[], rfl, by simp, .absent⟩
  | true =>
    obtain ⟨c, h1, h2, h3, h4⟩ := h ha
    obtain ⟨z, z1, z2, z3, z4, z5⟩ := h4 ws hw
    refine ⟨z, ?_, z3, ?_⟩
    · rw [if_neg (by simp), h2, strmOpen_of (code_le c) h3, Out.bind_ok, addData, h2,
        if_neg (by revert h1; cases c <;> simp [Comp.code]), z1, Out.bind_ok, Nat.mod_eq_of_lt (by omega),
        List.take_length]
    · rw [if_pos rfl, ← z5]
      exact .present (.packed c h1 z2 z4)

/-- The delta made, and that its copies and data are those of the computed difference. -/
theorem makes_rpmonly {σ : Type} (menv : MakeEnv) (env : ApplyEnv σ) (o : Opts Bytes) (old new : Rpm)
    (hg : GoodPair menv env o old new) (ho : o.rpmOnly = true) (hv : o.version = 3)
    (hnevr : GoodNevr new.nevr) (hmd5 : old.sigMd5 = .ok (some (menv.H (old.header ++ old.payload))))
    (hhdr : 0 < new.header.length ∧ new.header.length < 2^32) (hoff : ∃ off, fmtOffset new.header = .ok off)
    (hold : old.header.length + old.archive.length < 2^63)
    (hnew : 16 ≤ new.header.length + new.archive.length ∧ new.header.length + new.archive.length < 2^63)
    (hsmall : old.header.length + old.archive.length < 2^31 ∨ new.header.length + new.archive.length < 2^31)
    (hcnt : FewCopies (old.header ++ old.archive) (new.header ++ new.archive) o.addblk)
    (hadd : GoodAdd menv env o (new.header.length + new.archive.length)) :
    ∃ file f, drpmMake menv o (some (.ok old)) (some (.ok new)) = .ok file ∧
      RpmonlyDelta env.H env.dec old new f file ∧ f.version = o.version ∧ f.size = new.file.length % 2^32 ∧ f.adjust = [] ∧
      f.md5 = env.H new.file ∧
      ∃ df, makeDiff (old.header ++ old.archive) (new.header ++ new.archive) o.addblk = .ok df ∧ f.ints = df.int ∧ f.exts = df.ext.map (fun c => (s32 c.1, c.2)) ∧
        f.data = df.intData.flatten ∧ f.params = [] := by
  obtain ⟨hH, h16⟩ := hg.md5
  obtain ⟨on, n1, n2, n3⟩ := hg.nevr
  obtain ⟨nn, m1, m2, m3⟩ := hnevr
  obtain ⟨l, l1, l2⟩ := hg.level
  have l3 := l2.le
  obtain ⟨off, f1⟩ := hoff
  obtain ⟨c, k1, k2⟩ := hg.codec l l1
  obtain ⟨df, ws, d1, d2, d3, d4, d5, d6, d7, d8, d9, d10, d11, d12⟩ :=
    diff_facts (old.header ++ old.archive) (new.header ++ new.archive) o.addblk
      (by rw [List.length_append]; omega) (by rw [List.length_append]; omega) (by rw [List.length_append]; omega)
      (by simp only [List.length_append]; exact hsmall)
  simp only [List.length_append] at d8 d9
  obtain ⟨c1, c2⟩ := hcnt df d1
  obtain ⟨z, z1, z2, z3⟩ := hadd.storedAs df.addWrites d9
  have s1 := hg.signature.length
  -- the delta
  let i : DiffIn := ⟨old.header ++ old.archive, new.header ++ new.archive, menv.H (old.header ++ old.payload), [],
      new.header, new.header.length⟩
  have hi : diffInputs menv o old new = .ok i := by
    unfold diffInputs
    rw [if_pos ho, Nat.mod_eq_of_lt hhdr.2]
  let d := fillDelta menv o new l on nn i off df z
  have e1 : makePair menv o old new = .ok (d, new.header, (deltaComp o new l).2) :=
    makePair_eq hg.cpio l1 n1 (by unfold targetNevr; rw [if_pos ho]; exact m1) hi f1 d1 z1
  have e4 : d.type = .rpmonly := by show (if o.rpmOnly then _ else _) = _; rw [if_pos ho]
  have e2 : d.Made df.intData := by
    constructor
    · exact hg.version
    · exact fun _ => ⟨hv, h16 _, hhdr.1, m2, m3, z2⟩
    · exact ⟨by show on.length + 2 < 2^32; omega, n3⟩
    · show 16 ≤ (menv.H _).length ∧ (menv.H _).length < 2^32
      rw [h16]; omega
    · exact h16 _
    · exact Nat.mod_lt _ (by omega)
    · exact ⟨hg.comp, by show l < 256; omega⟩
    · show 0 < 2^32; omega
    · exact hhdr.2
    · exact ⟨rfl, by show 0 < 2^29; omega, fun _ h => (by cases h), fun _ h => (by cases h)⟩
    · intro h; have : o.version < 3 := h; omega
    · exact s1
    · exact fmtOffset_lt f1
    · exact ⟨rfl, c2, d6 (by omega)⟩
    · exact ⟨rfl, c1, d4, d5⟩
    · refine ⟨?_, d2, d3⟩
      show (old.header ++ old.archive).length < 2^63
      rw [List.length_append]; omega
    · exact Nat.lt_trans z2 (by omega)
    · refine ⟨rfl, d7, rfl, ?_⟩
      show df.intData.flatten.length < 2^64
      omega
  have e3 : d.comp = c.code := k1
  obtain ⟨tc, t1, t2⟩ := comp_of_code hg.comp
  obtain ⟨s, _, g1, _, _, _, _, _, g2, g3⟩ := rdRest_write
    { Delta.zero with type := .rpmonly, tgtNevr := d.tgtNevr, addData := d.addData } d df.intData e2 e4.symm ⟨rfl, rfl⟩
    (fun _ => rfl) (by rw [if_pos e4]) []
  have g4 := writeStream_text e2 (c := tc) t1 t2
  rw [g1] at g4
  cases g4
  obtain ⟨y, y1, y2⟩ := lossless_stored k2.toLossless g2 g3
  refine ⟨writeHead d [] ++ y, infoOf d df.intData tc, ?_, ?_, rfl, rfl, rfl, by rw [hH]; rfl, df, d1, rfl, rfl, rfl, rfl⟩
  · unfold drpmMake
    rw [if_neg (by simp), if_neg (by omega)]
    simp only [makeAny, Out.bind_ok, e1, e3]
    unfold writeDelta standardPart
    rw [g1, Out.bind_ok, y1, Out.bind_ok, e4, Out.bind_ok]
  · have hfl : ∀ x : DType, x = .rpmonly → (infoOf d df.intData tc).text x = (infoOf d df.intData tc).text .rpmonly := by
      rintro _ rfl; rfl
    rw [hfl _ e4] at y2
    refine ⟨⟨nn, c, y, ?_, m2, m3, y2⟩, ⟨?_, rfl, _, z3, ?_⟩, n1, hmd5, rfl, rfl, Or.inl (by rw [hH]; rfl), t1, l1⟩
    · congr 1
      unfold writeHead DeltaInfo.rpmonlyHead
      rw [e4]
      simp only
      rw [show d.tgtNevr = nn from rfl, show (infoOf d df.intData tc).add = d.addData from rfl,
        writeCStr_eq _ (show nn.length + 1 < 2^32 by omega), sized_eq, sized_eq, show d.version = 3 from hv]
      unfold DeltaInfo.mark versionBytes writeBuf
      simp only [List.length_append, List.length_cons, List.length_nil, Nat.zero_add, List.append_assoc]
    · have := infoOf_wellFormed e2 t2 z2 (by rw [e4]; intro h; cases h)
      rw [e4] at this
      exact this
    · have := rebuilds_of_writes (by rw [List.length_append]; omega) d2 (by rw [← sum_map_length, d7]) d11
      rw [d12] at this
      exact this

/-- C92, making rpm-only deltas: what `drpm_make` writes is an rpm-only delta from the old package to the
    new one. -/
theorem C92_makes_rpmonly {σ : Type} (menv : MakeEnv) (env : ApplyEnv σ) (o : Opts Bytes) (old new : Rpm)
    (hg : GoodPair menv env o old new) (ho : o.rpmOnly = true) (hv : o.version = 3)
    (hnevr : GoodNevr new.nevr) (hmd5 : old.sigMd5 = .ok (some (menv.H (old.header ++ old.payload))))
    (hhdr : 0 < new.header.length ∧ new.header.length < 2^32) (hoff : ∃ off, fmtOffset new.header = .ok off)
    (hold : old.header.length + old.archive.length < 2^63)
    (hnew : 16 ≤ new.header.length + new.archive.length ∧ new.header.length + new.archive.length < 2^63)
    (hsmall : old.header.length + old.archive.length < 2^31 ∨ new.header.length + new.archive.length < 2^31)
    (hcnt : FewCopies (old.header ++ old.archive) (new.header ++ new.archive) o.addblk)
    (hadd : GoodAdd menv env o (new.header.length + new.archive.length)) :
    ∃ file f, drpmMake menv o (some (.ok old)) (some (.ok new)) = .ok file ∧
      RpmonlyDelta env.H env.dec old new f file ∧ f.version = o.version ∧ f.size = new.file.length % 2^32 ∧ f.adjust = [] ∧
      f.md5 = env.H new.file := by
  obtain ⟨file, f, h1, h2, h3, h4, h5, h6, _⟩ := makes_rpmonly menv env o old new hg ho hv hnevr hmd5 hhdr hoff hold hnew hsmall hcnt hadd
  exact ⟨file, f, h1, h2, h3, h4, h5, h6⟩

/-- The delta made, and that its copies and data are those of the computed difference. -/
theorem makes_standard {σ : Type} (menv : MakeEnv) (env : ApplyEnv σ) (o : Opts Bytes) (old new : Rpm)
    (hg : GoodPair menv env o old new) (ho : o.rpmOnly = false)
    (m : MakeIn) (c : Made) (hm : GoodOld menv o old m c)
    (marked : Bytes) (head : Bytes → Bytes) (hc : Nat) (hh : GoodHeader menv env new marked head hc)
    (hv1 : o.version = 1 → hc = new.comp)
    (hnew : 16 ≤ new.archive.length ∧ new.archive.length < 2^63 ∧ (o.version < 3 → new.archive.length < 2^32))
    (hsmall : c.cpio.length < 2^31 ∨ new.archive.length < 2^31)
    (hcnt : FewCopies c.cpio new.archive o.addblk)
    (hadd : GoodAdd menv env o new.archive.length) :
    ∃ file f source, drpmMake menv o (some (.ok old)) (some (.ok new)) = .ok file ∧ old.nevr = .ok source ∧
      StandardDelta env.rpmHead env.tgtHeader env.H env.dec source c.sequence c.cpio new f file ∧
      f.version = o.version ∧ f.size = new.file.length % 2^32 ∧ f.md5 = env.H new.file ∧
      f.adjust = c.offadjs.map (fun a => (a.1, s32 a.2)) ∧
      ∃ df, makeDiff c.cpio new.archive o.addblk = .ok df ∧ f.ints = df.int ∧ f.exts = df.ext.map (fun c => (s32 c.1, c.2)) ∧
        f.data = df.intData.flatten ∧ f.params = [] := by
  obtain ⟨hH, h16⟩ := hg.md5
  obtain ⟨on, n1, n2, n3⟩ := hg.nevr
  obtain ⟨l, l1, l2⟩ := hg.level
  have l3 := l2.le
  obtain ⟨off, f1⟩ := hh.offset
  obtain ⟨cd, k1, k2⟩ := hg.codec l l1
  obtain ⟨q1, q2, ⟨q3, q4, q5, q6⟩, q7, q8, q9, q10, q11⟩ := hm
  obtain ⟨x1, x2, x3, x4, x5⟩ := makeCpio_facts h16 q7.1 q8 q10
  obtain ⟨df, ws, d1, d2, d3, d4, d5, d6, d7, d8, d9, d10, d11, d12⟩ :=
    diff_facts c.cpio new.archive o.addblk hnew.1 (by omega) hnew.2.1 hsmall
  obtain ⟨c1, c2⟩ := hcnt df d1
  obtain ⟨z, z1, z2, z3⟩ := hadd.storedAs df.addWrites d9
  have s1 := hg.signature.length
  -- the delta
  let i : DiffIn := ⟨c.cpio, new.archive, c.sequence, c.offadjs, marked, 0⟩
  have hi : diffInputs menv o old new = .ok i := by
    unfold diffInputs
    rw [if_neg (by rw [ho]; simp), q1, Out.bind_ok, q2, Out.bind_ok]
    have : (⟨old.archive, m.files, old.colors, m.algo, decide (o.version ≥ 3), menv.unpatched⟩ : MakeIn) = m := by
      rw [← q3, ← q4, ← q5, ← q6]
    rw [this, q10, Out.bind_ok, hh.mark, Out.bind_ok]
  let d := fillDelta menv o new l on [] i off df z
  have e1 : makePair menv o old new = .ok (d, marked, (deltaComp o new l).2) :=
    makePair_eq hg.cpio l1 n1 (by unfold targetNevr; rw [if_neg (by rw [ho]; simp)]) hi f1 d1 z1
  have e4 : d.type = .standard := by show (if o.rpmOnly then _ else _) = _; rw [if_neg (by rw [ho]; simp)]
  have e2 : d.Made df.intData := by
    constructor
    · exact hg.version
    · intro h; rw [e4] at h; cases h
    · exact ⟨by show on.length + 2 < 2^32; omega, n3⟩
    · exact ⟨x3, x4⟩
    · exact h16 _
    · exact Nat.mod_lt _ (by omega)
    · exact ⟨hg.comp, by show l < 256; omega⟩
    · show 0 < 2^32; omega
    · show 0 < 2^32; omega
    · exact ⟨rfl, q11.2.1, x1.1, x1.2⟩
    · intro h
      have h : o.version < 3 := h
      refine ⟨rfl, x2 (by rw [q5]; simp; omega), q11.2.2 h, ?_⟩
      show df.intData.flatten.length < 2^32
      have := hnew.2.2 h
      omega
    · exact s1
    · exact fmtOffset_lt f1
    · exact ⟨rfl, c2, d6 (by omega)⟩
    · exact ⟨rfl, c1, d4, d5⟩
    · refine ⟨?_, d2, d3⟩
      show c.cpio.length < 2^63
      omega
    · exact Nat.lt_trans z2 (by omega)
    · refine ⟨rfl, d7, rfl, ?_⟩
      show df.intData.flatten.length < 2^64
      omega
  have e3 : d.comp = cd.code := k1
  obtain ⟨tc, t1, t2⟩ := comp_of_code hg.comp
  obtain ⟨s, _, g1, _, _, _, _, _, g2, g3⟩ := rdRest_write
    { Delta.zero with type := .standard } d df.intData e2 e4.symm ⟨rfl, rfl⟩
    (fun h => by rw [e4] at h; cases h) (by rw [if_neg (by rw [e4]; simp)]; rfl) []
  have g4 := writeStream_text e2 (c := tc) t1 t2
  rw [g1] at g4
  cases g4
  obtain ⟨y, y1, y2⟩ := lossless_stored k2.toLossless g2 g3
  refine ⟨head y ++ y, infoOf d df.intData tc, on, ?_, n1, ?_, rfl, rfl, by rw [hH]; rfl, rfl, df, d1, rfl, rfl, rfl, rfl⟩
  · unfold drpmMake
    rw [if_neg (by simp), if_neg (by rw [ho]; simp)]
    simp only [makeAny, Out.bind_ok, e1, e3, hh.fn]
    unfold writeDelta standardPart
    rw [g1, Out.bind_ok, y1, Out.bind_ok, e4]
    simp only [Out.bind_ok]
    unfold writeHead
    rw [e4]
  · have hfl : ∀ x : DType, x = .standard → (infoOf d df.intData tc).text x = (infoOf d df.intData tc).text .standard := by
      rintro _ rfl; rfl
    rw [hfl _ e4] at y2
    obtain ⟨t, ht⟩ := hh.magic y
    refine ⟨⟨head y, hc, cd, y, rfl, ⟨t, ht.symm⟩, hh.found y, y2, fun h => (hv1 h).symm⟩, hh.back y, ⟨?_, rfl, _, z3, ?_⟩, rfl, rfl,
      rfl, Or.inl (by rw [hH]; rfl), fun _ => ⟨t1, l1⟩⟩
    · have := infoOf_wellFormed e2 t2 z2 (fun _ => rfl)
      rw [e4] at this
      exact this
    · have := rebuilds_of_writes (by omega) d2 (by rw [← sum_map_length, d7]) d11
      rw [d12] at this
      exact this

/-- C92, making standard deltas: what `drpm_make` writes is a standard delta to the new package from a
    package with the name of the old one, made of the altered archive. -/
theorem C92_makes_standard {σ : Type} (menv : MakeEnv) (env : ApplyEnv σ) (o : Opts Bytes) (old new : Rpm)
    (hg : GoodPair menv env o old new) (ho : o.rpmOnly = false)
    (m : MakeIn) (c : Made) (hm : GoodOld menv o old m c)
    (marked : Bytes) (head : Bytes → Bytes) (hc : Nat) (hh : GoodHeader menv env new marked head hc)
    (hv1 : o.version = 1 → hc = new.comp)
    (hnew : 16 ≤ new.archive.length ∧ new.archive.length < 2^63 ∧ (o.version < 3 → new.archive.length < 2^32))
    (hsmall : c.cpio.length < 2^31 ∨ new.archive.length < 2^31)
    (hcnt : FewCopies c.cpio new.archive o.addblk)
    (hadd : GoodAdd menv env o new.archive.length) :
    ∃ file f source, drpmMake menv o (some (.ok old)) (some (.ok new)) = .ok file ∧ old.nevr = .ok source ∧
      StandardDelta env.rpmHead env.tgtHeader env.H env.dec source c.sequence c.cpio new f file ∧
      f.version = o.version ∧ f.size = new.file.length % 2^32 ∧ f.md5 = env.H new.file ∧
      f.adjust = c.offadjs.map fun a => (a.1, s32 a.2) := by
  obtain ⟨file, f, source, h1, h2, h3, h4, h5, h6, h7, _⟩ :=
    makes_standard menv env o old new hg ho m c hm marked head hc hh hv1 hnew hsmall hcnt hadd
  exact ⟨file, f, source, h1, h2, h3, h4, h5, h6, h7⟩

/-! ## A concrete case

A delta nobody but a person would write: one copy of the old header, with an add block of zeros, and
the whole new archive as own data. -/

def handDelta : DeltaInfo :=
  { version := 3, source := [97, 45, 49], sequence := demoH (demoHeader ++ demoOldPkg.payload),
    md5 := demoH demoNewPkg.file, size := 77, comp := .gzip, level := 9, params := [1, 2, 3],
    headerLen := demoNewPkg.header.length, adjust := [(3, -2)], leadsig := demoNewPkg.leadsig, fmtOff := 5,
    ints := [(1, demoNewPkg.archive.length)], exts := [(0, demoHeader.length)],
    oldLen := (demoOldPkg.header ++ demoOldPkg.archive).length, add := demoPack (zeros demoHeader.length),
    data := demoNewPkg.archive }

theorem handDelta_turns : handDelta.Turns demoApply.dec .rpmonly (demoOldPkg.header ++ demoOldPkg.archive)
    (demoNewPkg.header ++ demoNewPkg.archive) := by
  refine ⟨?_, rfl, some (zeros demoHeader.length), ?_, ?_⟩
  · constructor
    · exact Or.inl rfl
    · exact ⟨by decide, by unfold NoNul; decide⟩
    · decide +kernel
    · decide +kernel
    · decide
    · decide
    · decide
    · decide
    · decide
    · decide +kernel
    · decide
    · decide +kernel
    · decide +kernel
    · exact ⟨by decide +kernel, 0, rfl, by decide +kernel, by decide +kernel, trivial⟩
    · decide +kernel
    · decide +kernel
    · intro h; exact absurd rfl h
    · intro _; decide +kernel
    · intro h; cases h
  · exact .present (c := .gzip) (.packed .gzip (by simp) (by simp [demoPack, handDelta]) ⟨_, rfl⟩)
  · have h1 : Rebuilds (demoOldPkg.header ++ demoOldPkg.archive) demoHeader.length (some []) []
        [(0, demoNewPkg.archive.length)] (demoNewPkg.archive ++ []) (demoNewPkg.archive ++ []) :=
      .own demoNewPkg.archive .done
    have h2 := Rebuilds.copyAdd (old := demoOldPkg.header ++ demoOldPkg.archive) (p := 0) 0 0 (zeros demoHeader.length) rfl
      (by decide +kernel) (by rw [zeros_length, Nat.zero_add]; exact h1)
    rw [List.append_nil, List.append_nil, zeros_length] at h2
    have h3 : List.zipWith (fun b d => b + d) (slice (demoOldPkg.header ++ demoOldPkg.archive) 0 demoHeader.length)
        (zeros demoHeader.length) = demoNewPkg.header := by decide +kernel
    rw [h3] at h2
    exact h2

/-- Non-vacuity of C92: the hand-made delta, compressed or not, is an rpm-only delta from the old package to
    the new one, and `drpm_apply` makes the new package with it. -/
theorem C92_demo (z : Bytes) (hz : z = handDelta.text .rpmonly ∨ z = demoPack (handDelta.text .rpmonly)) :
    RpmonlyDelta demoApply.H demoApply.dec demoOldPkg demoNewPkg handDelta (handDelta.rpmonlyHead [97, 45, 50] ++ z) ∧
    ∀ cleanup, drpmApply demoApply ⟨some (.ok (handDelta.rpmonlyHead [97, 45, 50] ++ z)), true, true, .rpm (.ok demoOldPkg)⟩
      cleanup = (.ok (), .written demoNewPkg.file) := by
  have hst : ∃ c, StoredAs demoApply.dec z c (handDelta.text .rpmonly) := by
    rcases hz with rfl | rfl
    · exact ⟨.none, .plain (by decide +kernel) (plain_not_magic _ 3 (by decide +kernel))⟩
    · refine ⟨.gzip, ?_⟩
      exact .packed .gzip (by simp) (by simp [demoPack]) ⟨_, rfl⟩
  obtain ⟨c, hst⟩ := hst
  have hd : RpmonlyDelta demoApply.H demoApply.dec demoOldPkg demoNewPkg handDelta (handDelta.rpmonlyHead [97, 45, 50] ++ z) :=
    ⟨⟨[97, 45, 50], c, z, rfl, by decide, by unfold NoNul; decide, hst⟩, handDelta_turns, rfl, rfl, rfl, rfl, Or.inl rfl, rfl, rfl⟩
  refine ⟨hd, C92_rpmonly demoApply demoOldPkg demoNewPkg handDelta _ hd (by decide +kernel) (by decide +kernel)
    (demo_pair true true 3 (by omega)).signature (Or.inl (by decide)) (demo_reproduces _)⟩

/-- Non-vacuity of C92 for making rpm-only deltas. -/
example (addblk : Bool) : ∃ file f, drpmMake demoMake (demoOpts true 3 addblk) (some (.ok demoOldPkg)) (some (.ok demoNewPkg)) = .ok file ∧
    RpmonlyDelta demoApply.H demoApply.dec demoOldPkg demoNewPkg f file := by
  have h1 : 16 ≤ (demoOldPkg.header ++ demoOldPkg.archive).length ∧
    (demoOldPkg.header ++ demoOldPkg.archive).length < 1000 := by decide +kernel
  have h2 : 16 ≤ (demoNewPkg.header ++ demoNewPkg.archive).length ∧
    (demoNewPkg.header ++ demoNewPkg.archive).length < 1000 := by decide +kernel
  have h1' := h1
  have h2' := h2
  rw [List.length_append] at h1' h2'
  obtain ⟨file, f, h3, h4, _⟩ := C92_makes_rpmonly _ demoApply _ _ _ (demo_pair true addblk 3 (by omega)) rfl rfl ⟨_, rfl, by decide, by decide⟩ rfl
    (by decide) ⟨5, by decide +kernel⟩ (by omega) (by omega) (by omega)
    (FewCopies.of_size _ _ _ (by omega) (by omega) (by omega)) (demo_add _ _ _ _ (by omega))
  exact ⟨file, f, h3, h4⟩

/-- Non-vacuity of C92 for standard deltas of all versions: making one gives a standard delta, and applying it,
    like any other standard delta, gives the new package. -/
example (addblk : Bool) (version : Nat) (hv : 1 ≤ version ∧ version ≤ 3) :
    ∃ m c file f source,
      drpmMake demoMake (demoOpts false version addblk) (some (.ok demoOldPkg)) (some (.ok demoNewPkg)) = .ok file ∧
      makeCpio demoH m = .ok c ∧
      StandardDelta demoApply.rpmHead demoApply.tgtHeader demoApply.H demoApply.dec source c.sequence c.cpio demoNewPkg f file ∧
      ∀ cleanup, drpmApply demoApply ⟨some (.ok file), true, true, .rpm (.ok demoOldPkg)⟩ cleanup =
        (.ok (), .written demoNewPkg.file) := by
  have h2 : 16 ≤ demoNewPkg.archive.length ∧ demoNewPkg.archive.length < 1000 := by decide +kernel
  have hc : ∀ v, 1 ≤ v → v ≤ 3 → ∃ c, makeCpio demoH { demoIn with offadj := decide (v ≥ 3) } = .ok c ∧
      c.cpio.length < 500 ∧ c.offadjs.length < 10 := by
    intro v v1 v2
    have : Out.okAnd (makeCpio demoH { demoIn with offadj := decide (v ≥ 3) })
        (fun c => c.cpio.length < 500 ∧ c.offadjs.length < 10) = true := by
      match v, v1, v2 with
      | 1, _, _ => decide +kernel
      | 2, _, _ => decide +kernel
      | 3, _, _ => decide +kernel
    rcases hm : makeCpio demoH { demoIn with offadj := decide (v ≥ 3) } with c | _ | _ | _
    · rw [hm] at this
      exact ⟨c, rfl, by simpa [Out.okAnd] using this⟩
    all_goals rw [hm] at this; cases this
  obtain ⟨c, c1, c2, c3⟩ := hc version hv.1 hv.2
  have hplain : ∀ es, Entries demoIn.archive 0 es → Plain { demoIn with offadj := decide (version ≥ 3) } es := by
    intro es he
    obtain ⟨p1, p2, p3⟩ := demo_plain es he
    exact ⟨p1, p2, p3⟩
  have hfit : FilesFit { demoIn with offadj := decide (version ≥ 3) } := demo_fits
  have hold : GoodOld demoMake (demoOpts false version addblk) demoOldPkg { demoIn with offadj := decide (version ≥ 3) } c :=
    ⟨rfl, rfl, ⟨rfl, rfl, rfl, rfl⟩, demo_size, hfit, hplain, c1, by omega, by omega, fun _ => by omega⟩
  obtain ⟨file, f, source, g1, g2, g3, g4, _⟩ := C92_makes_standard demoMake demoApply _ demoOldPkg demoNewPkg
    (demo_pair false addblk version hv) rfl { demoIn with offadj := decide (version ≥ 3) } c hold demoHeader
    (fun _ => [0xED, 0xAB, 0xEE, 0xDB] ++ demoHeader) 1 ⟨rfl, ⟨5, by decide +kernel⟩, fun _ => rfl,
      fun z => by show Out.ok _ = Out.ok _; simp, fun z => ⟨_, rfl⟩, fun z => rfl⟩ (fun _ => rfl)
    (by omega) (by omega) (FewCopies.of_size _ _ _ (by omega) (by omega) (by omega)) (demo_add _ _ _ _ (by omega))
  refine ⟨_, c, file, f, source, g1, c1, g3, ?_⟩
  have hl : UsableLevel demoNewPkg.comp (if f.version = 1 then 0 else f.level) := by
    split
    · exact Or.inl (Nat.zero_le _)
    · rename_i h
      have : (Out.ok 9 : Out Nat) = .ok f.level := (g3.comp h).2
      rw [← (Out.ok.inj this)]
      exact Or.inl (Nat.le_refl _)
  exact C92_standard demoApply (fun b => by simp [demoApply, demoH, zeros]) demoOldPkg demoNewPkg _ c c1 demo_size hfit hplain (by omega)
    f file source g3 (demo_pair true true 3 (by omega)).signature (by decide) hl (demo_reproduces _) _ ⟨g2, rfl, rfl, rfl⟩ rfl

end Drpm
