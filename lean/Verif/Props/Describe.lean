import Verif.Props.Api
import Verif.Props.RpmMake
import Verif.Props.WriteFault
/-!
# What a delta that was made says about itself: C81
-/

namespace Drpm

/-! ## C81 -/

/-- `drpm_read` on a delta file. -/
def readFiles {η σ τ : Type} (w : World η σ τ) (filename delta : Bytes) : Out Info :=
  drpmRead w.dec (readdeltaStandard w.lib w.U) (deltaNevr w.lib w.U) filename delta

/-- What the accessors say about a delta: the values that concern the user, whatever was in the variables
    before. Sequence, MD5 and lead with signature are given in hexadecimal. The numbers are the tags of
    src/drpm.h:121-139. -/
structure Describes (i : Info) (version type comp : Nat) (srcNevr sequence tgtNevr : Bytes) (tgtSize tgtComp : Nat) (tgtMd5 tgtLeadsig : Bytes) :
    Prop where
  version : ∀ r, getUint (some i) 1 (some r) = (none, some version)
  type : ∀ r, getUint (some i) 2 (some r) = (none, some type)
  comp : ∀ r, getUint (some i) 3 (some r) = (none, some comp)
  sequence : ∀ r, getString (some i) 4 true (some r) = (none, some (some (dumpHex sequence)))
  srcNevr : ∀ r, getString (some i) 5 true (some r) = (none, some (some srcNevr))
  tgtNevr : ∀ r, getString (some i) 6 true (some r) = (none, some (some tgtNevr))
  tgtSize : ∀ r, getUint (some i) 7 (some r) = (none, some tgtSize)
  tgtMd5 : ∀ r, getString (some i) 8 true (some r) = (none, some (some (dumpHex tgtMd5)))
  tgtComp : ∀ r, getUint (some i) 9 (some r) = (none, some tgtComp)
  tgtLeadsig : ∀ r, getString (some i) 13 true (some r) = (none, some (some (dumpHex tgtLeadsig)))

/-- The answers of C36 in particular. -/
theorem Answers.describes {i : Info} {d : Delta} {headComp : Nat} {filename nevr : Bytes} (h : Answers i d headComp filename nevr) :
    Describes i d.version (match d.type with | .standard => 0 | .rpmonly => 1) d.comp d.srcNevr d.sequence nevr
      (if 2 ≤ d.version then d.tgtSize else 0) (if 2 ≤ d.version then d.tgtComp else headComp) d.tgtMd5 d.tgtLeadsig := by
  refine ⟨fun r => ?_, fun r => ?_, fun r => ?_, fun r => ?_, fun r => ?_, fun r => ?_, fun r => ?_, fun r => ?_, fun r => ?_, fun r => ?_⟩
  · rw [h.uint]; rfl
  · rw [h.uint]; rfl
  · rw [h.uint]; rfl
  · rw [h.string]; rfl
  · rw [h.string]; rfl
  · rw [h.string]; rfl
  · rw [h.uint]; rfl
  · rw [h.string]; rfl
  · rw [h.uint]; rfl
  · rw [h.string]; rfl

/-- A delta between two packages is written and read. -/
theorem made_described (menv : MakeEnv) (o : Opts Bytes) (old new : Rpm) (d : Delta) (header : Bytes) (lvl : Nat)
    (hp : makePair menv o old new = .ok (d, header, lvl)) (ptrs : List Bytes) (hd : d.Made ptrs) (hver : ¬ (o.rpmOnly = true ∧ o.version < 3))
    (c : Comp) (hc : d.comp = c.code) (dec : Decoder) (hl : Lossless c (compressDelta menv c.code lvl) dec)
    (rpmR : Bytes → Out (Nat × Nat)) (headComp : Nat) (hh : headComp < 2^16)
    (head : Bytes → Bytes) (hwrote : d.type = .standard → ∀ z, menv.rpmW header z = .ok (head z))
    (hrpm : d.type = .standard → ∀ z, rpmR (head z ++ z) = .ok ((head z).length, headComp) ∧
      ∃ t, head z = [0xED, 0xAB, 0xEE, 0xDB] ++ t)
    (rpmNevr : Bytes → Out Bytes) (nevr : Bytes)
    (hnevr : match d.type with | .standard => ∀ z, rpmNevr (head z ++ z) = .ok nevr | .rpmonly => d.tgtNevr = nevr)
    (hsmall : d.sequence.length < 2^31 ∧ d.tgtLeadsig.length < 2^31 ∧ d.tgtCompParam.length < 2^31) (filename : Bytes) :
    ∃ file i, drpmMake menv o (some (.ok old)) (some (.ok new)) = .ok file ∧ drpmRead dec rpmR rpmNevr filename file = .ok i ∧
      makeSeqFile menv o (some (.ok old)) (some (.ok new)) = .ok (d.srcNevr ++ [45] ++ dumpHex d.sequence ++ [10]) ∧
      Answers i d headComp filename nevr := by
  have hany : makeAny menv o (some (.ok old)) (some (.ok new)) = .ok (d, header, lvl) := by
    simp only [makeAny, Out.bind_ok, hp]
  have hfile : ∀ file, writeDelta (compressDelta menv c.code lvl) (menv.rpmW header) d = .ok file →
      drpmMake menv o (some (.ok old)) (some (.ok new)) = .ok file ∧
      makeSeqFile menv o (some (.ok old)) (some (.ok new)) = .ok (d.srcNevr ++ [45] ++ dumpHex d.sequence ++ [10]) := by
    intro file h
    have hm : drpmMake menv o (some (.ok old)) (some (.ok new)) = .ok file := by
      unfold drpmMake
      rw [if_neg (by simp), if_neg hver, hany, Out.bind_ok]
      simp only
      rw [hc, h]
    refine ⟨hm, ?_⟩
    unfold writeDelta at h
    obtain ⟨s, hs, h⟩ := Out.bind_eq_ok.mp h
    obtain ⟨z, hz, h⟩ := Out.bind_eq_ok.mp h
    obtain ⟨hd, hh, _⟩ := Out.bind_eq_ok.mp h
    unfold makeSeqFile makeParts
    rw [if_neg (by simp), if_neg hver, hany, Out.bind_ok]
    simp only
    rw [hs, Out.bind_ok, hc, hz, Out.bind_ok, hh, Out.bind_ok, Out.bind_ok]
    unfold seqLine
    rw [hexString_ok _ hsmall.1, Out.bind_ok]
  cases ht : d.type with
  | standard =>
    obtain ⟨file, i, h1, h2, h3⟩ := C36_accessors d ptrs hd c hc _ dec hl head rpmR headComp hh (hrpm ht) rpmNevr nevr hnevr hsmall
      filename
    rw [← show menv.rpmW header = fun z => .ok (head z) from funext (hwrote ht)] at h1
    exact ⟨file, i, (hfile file h1).1, h2, (hfile file h1).2, h3⟩
  | rpmonly =>
    rw [ht] at hnevr
    simp only at hnevr
    obtain ⟨file, r, hw, hr, _⟩ := rpmonly_roundtrip hd ht hc hl
    obtain ⟨file', i, h1, h2, h3⟩ := C36_accessors d ptrs hd c hc _ dec hl (fun _ => [0xED, 0xAB, 0xEE, 0xDB]) (fun _ => .ok (4, headComp)) headComp hh
      (fun z => ⟨rfl, [], rfl⟩) (fun _ => .ok []) nevr (by rw [ht]; exact hnevr) hsmall filename
    rw [hw] at h1
    cases h1
    refine ⟨file, i, (hfile file (hw _)).1, ?_, (hfile file (hw _)).2, h3⟩
    rw [← h2]
    unfold drpmRead
    rw [hr, hr, Out.bind_ok, Out.bind_ok]
    have hrt : r.type = .rpmonly := by
      rename_i sd
      rw [sd.type, ht]
    unfold toDrpm tgtNevrOf
    rw [hrt]

/-- The rpm-only delta between two packages and what is in it. -/
theorem rpmonly_pair {σ : Type} (menv : MakeEnv) (env : ApplyEnv σ) (o : Opts Bytes) (old new : Rpm)
    (hg : GoodPair menv env o old new) (ho : o.rpmOnly = true) (hv : o.version = 3)
    (hnevr : GoodNevr new.nevr)
    (hhdr : 0 < new.header.length ∧ new.header.length < 2^32) (hoff : ∃ off, fmtOffset new.header = .ok off)
    (hold : 0 < old.header.length + old.archive.length ∧ old.header.length + old.archive.length ≤ 2^44)
    (hnew : 16 ≤ new.header.length + new.archive.length ∧ new.header.length + new.archive.length < 2^63)
    (hsmall : old.header.length + old.archive.length < 2^31 ∨ new.header.length + new.archive.length < 2^31)
    (hcnt : FewCopies (old.header ++ old.archive) (new.header ++ new.archive) o.addblk)
    (hadd : GoodAdd menv env o (new.header.length + new.archive.length)) :
    ∃ l on nn off df z, makeDiff (old.header ++ old.archive) (new.header ++ new.archive) o.addblk = .ok df ∧
      new.level = .ok l ∧ old.nevr = .ok on ∧ new.nevr = .ok nn ∧
      makePair menv o old new = .ok (fillDelta menv o new l on nn ⟨old.header ++ old.archive, new.header ++ new.archive,
        menv.H (old.header ++ old.payload), [], new.header, new.header.length⟩ off df z, new.header, (deltaComp o new l).2) ∧
      (fillDelta menv o new l on nn ⟨old.header ++ old.archive, new.header ++ new.archive,
        menv.H (old.header ++ old.payload), [], new.header, new.header.length⟩ off df z).Made df.intData := by
  obtain ⟨hH, h16⟩ := hg.md5
  obtain ⟨on, n1, n2, n3⟩ := hg.nevr
  obtain ⟨nn, m1, m2, m3⟩ := hnevr
  obtain ⟨l, l1, l2⟩ := hg.level
  have l3 := l2.le
  obtain ⟨off, f1⟩ := hoff
  obtain ⟨df, ws, d1, d2, d3, d4, d5, d6, d7, d8, d9, d10, d11, d12⟩ :=
    diff_facts (old.header ++ old.archive) (new.header ++ new.archive) o.addblk
      (by rw [List.length_append]; omega) (by rw [List.length_append]; omega) (by rw [List.length_append]; omega)
      (by simp only [List.length_append]; exact hsmall)
  simp only [List.length_append] at d8 d9
  obtain ⟨c1, c2⟩ := hcnt df d1
  obtain ⟨z, z1, z2, z3⟩ := hadd.stored df.addWrites d9
  obtain ⟨s1, s2, s3, s4, ms, s5, s6⟩ := hg.signature
  let i : DiffIn := ⟨old.header ++ old.archive, new.header ++ new.archive, menv.H (old.header ++ old.payload), [],
      new.header, new.header.length⟩
  have hi : diffInputs menv o old new = .ok i := by
    unfold diffInputs
    rw [if_pos ho, Nat.mod_eq_of_lt hhdr.2]
  refine ⟨l, on, nn, off, df, z, d1, l1, n1, m1,
    makePair_eq hg.cpio l1 n1 (by unfold targetNevr; rw [if_pos ho]; exact m1) hi f1 d1 z1, ?_⟩
  constructor
  · exact hg.version
  · exact fun _ => ⟨hv, h16 _, hhdr.1, m2, m3, z2⟩
  · exact ⟨by show on.length + 2 < 2^32; omega, n3⟩
  · show 16 ≤ (menv.H _).length ∧ (menv.H _).length < 2^32
    rw [h16]; omega
  · exact h16 _
  · exact Nat.mod_lt _ (by omega)
  · exact ⟨hg.comp, by show l < 256; omega⟩
  · show 0 < 2^32; omega
  · exact hhdr.2
  · exact ⟨rfl, by show 0 < 2^29; omega, fun _ h => (by cases h), fun _ h => (by cases h)⟩
  · intro h; have : o.version < 3 := h; omega
  · exact s1
  · exact fmtOffset_lt f1
  · exact ⟨rfl, c2, d6 (by omega)⟩
  · exact ⟨rfl, c1, d4, d5⟩
  · refine ⟨?_, d2, d3⟩
    show (old.header ++ old.archive).length < 2^63
    rw [List.length_append]; omega
  · exact Nat.lt_trans z2 (by omega)
  · refine ⟨rfl, d7, rfl, ?_⟩
    show df.intData.flatten.length < 2^64
    omega

/-- The standard delta between two packages and what is in it. -/
theorem standard_pair {σ : Type} (menv : MakeEnv) (env : ApplyEnv σ) (o : Opts Bytes) (old new : Rpm)
    (hg : GoodPair menv env o old new) (ho : o.rpmOnly = false)
    (m : MakeIn) (c : Made) (hm : GoodOld menv o old m c)
    (marked : Bytes) (head : Bytes → Bytes) (hc : Nat) (hh : GoodHeader menv env new marked head hc)
    (hnew : 16 ≤ new.archive.length ∧ new.archive.length < 2^63 ∧ (o.version < 3 → new.archive.length < 2^32))
    (hsmall : c.cpio.length < 2^31 ∨ new.archive.length < 2^31)
    (hcnt : FewCopies c.cpio new.archive o.addblk)
    (hadd : GoodAdd menv env o new.archive.length) :
    ∃ l on off df z, makeDiff c.cpio new.archive o.addblk = .ok df ∧ new.level = .ok l ∧ old.nevr = .ok on ∧
      makePair menv o old new = .ok (fillDelta menv o new l on [] ⟨c.cpio, new.archive, c.sequence, c.offadjs, marked, 0⟩ off df z, marked,
        (deltaComp o new l).2) ∧
      (fillDelta menv o new l on [] ⟨c.cpio, new.archive, c.sequence, c.offadjs, marked, 0⟩ off df z).Made df.intData := by
  obtain ⟨hH, h16⟩ := hg.md5
  obtain ⟨on, n1, n2, n3⟩ := hg.nevr
  obtain ⟨l, l1, l2⟩ := hg.level
  have l3 := l2.le
  obtain ⟨off, f1⟩ := hh.offset
  obtain ⟨q1, q2, ⟨q3, q4, q5, q6⟩, q7, q8, q9, q10, q11⟩ := hm
  obtain ⟨x1, x2, x3, x4, x5⟩ := makeCpio_facts h16 q7.1 q8 q10
  obtain ⟨df, ws, d1, d2, d3, d4, d5, d6, d7, d8, d9, d10, d11, d12⟩ :=
    diff_facts c.cpio new.archive o.addblk hnew.1 (by omega) hnew.2.1 hsmall
  obtain ⟨c1, c2⟩ := hcnt df d1
  obtain ⟨z, z1, z2, z3⟩ := hadd.stored df.addWrites d9
  obtain ⟨s1, s2, s3, s4, ms, s5, s6⟩ := hg.signature
  let i : DiffIn := ⟨c.cpio, new.archive, c.sequence, c.offadjs, marked, 0⟩
  have hi : diffInputs menv o old new = .ok i := by
    unfold diffInputs
    rw [if_neg (by rw [ho]; simp), q1, Out.bind_ok, q2, Out.bind_ok]
    have : (⟨old.archive, m.files, old.colors, m.algo, decide (o.version ≥ 3), menv.unpatched⟩ : MakeIn) = m := by
      rw [← q3, ← q4, ← q5, ← q6]
    rw [this, q10, Out.bind_ok, hh.mark, Out.bind_ok]
  have e4 : (fillDelta menv o new l on [] i off df z).type = .standard := by
    show (if o.rpmOnly then _ else _) = _; rw [if_neg (by rw [ho]; simp)]
  refine ⟨l, on, off, df, z, d1, l1, n1,
    makePair_eq hg.cpio l1 n1 (by unfold targetNevr; rw [if_neg (by rw [ho]; simp)]) hi f1 d1 z1, ?_⟩
  constructor
  · exact hg.version
  · intro h; rw [e4] at h; cases h
  · exact ⟨by show on.length + 2 < 2^32; omega, n3⟩
  · exact ⟨x3, x4⟩
  · exact h16 _
  · exact Nat.mod_lt _ (by omega)
  · exact ⟨hg.comp, by show l < 256; omega⟩
  · show 0 < 2^32; omega
  · show 0 < 2^32; omega
  · exact ⟨rfl, q11.2.1, x1.1, x1.2⟩
  · intro h
    have h : o.version < 3 := h
    refine ⟨rfl, x2 (by rw [q5]; simp; omega), q11.2.2 h, ?_⟩
    show df.intData.flatten.length < 2^32
    have := hnew.2.2 h
    omega
  · exact s1
  · exact fmtOffset_lt f1
  · exact ⟨rfl, c2, d6 (by omega)⟩
  · exact ⟨rfl, c1, d4, d5⟩
  · refine ⟨?_, d2, d3⟩
    show c.cpio.length < 2^63
    omega
  · exact Nat.lt_trans z2 (by omega)
  · refine ⟨rfl, d7, rfl, ?_⟩
    show df.intData.flatten.length < 2^64
    omega

/-- `headerGetAsString(h, RPMTAG_NEVR)` looks at name, version, release and epoch only. -/
def NevrLaw {η : Type} (lib : Rpmlib η) : Prop :=
  ∀ h g, (∀ t ∈ [1000, 1001, 1002, 1003], lib.get h t = lib.get g t) → lib.nevr h = lib.nevr g

/-- The NEVR of a header. -/
def HasNevr {η : Type} (lib : Rpmlib η) (h : η) (nevr : Bytes) : Prop :=
  lib.nevr h = some nevr ∧ nevr.length + 1 < 2^31 - 2^12 ∧ ∀ c ∈ nevr, c ≠ 0

theorem HasNevr.good {η : Type} {lib : Rpmlib η} {h : η} {nevr : Bytes} (hn : HasNevr lib h nevr) : GoodNevr (getNevr lib h) := by
  refine ⟨nevr, ?_, hn.2.1, hn.2.2⟩
  unfold getNevr
  rw [hn.1]

theorem HasNevr.get {η : Type} {lib : Rpmlib η} {h : η} {nevr : Bytes} (hn : HasNevr lib h nevr) : getNevr lib h = .ok nevr := by
  unfold getNevr
  rw [hn.1]

theorem leadsig_small {η : Type} {lib : Rpmlib η} (p : PkgFile lib) : p.leadsig.length < 2^31 := by
  have l1 := p.leadsig_length
  have l3 := p.sigOk.small
  have l5 := p.aligned.1
  omega

/-- What is in the rpm-only delta between two package files, and what the accessors answer. -/
theorem rpmonly_answers {η σ τ : Type} (w : World η σ τ) (Ok : TagData → Prop) (hl : HeaderLaws w.lib Ok) (h16 : ∀ b, (w.H b).length = 16)
    (o : Opts Bytes) (ho : o.rpmOnly = true) (hv : o.version = 3)
    (old new : PkgFile w.lib) (oa na : Bytes) (oc nc : Comp) (level : Nat)
    (hold : Unpacks w.U old oa oc) (hnew : GoodNew w new na nc level)
    (on nn : Bytes) (hn : HasNevr w.lib old.hdr on) (hn' : HasNevr w.lib new.hdr nn)
    (hd : GoodDeltaComp w o new.lead nc level)
    (hsize : oa.length ≤ 2^43 ∧ na.length < 2^62)
    (hsmall : old.header.length + oa.length < 2^31 ∨ new.header.length + na.length < 2^31)
    (hcnt : FewCopies (old.header ++ oa) (new.header ++ na) o.addblk)
    (hadd : GoodAdd (w.makeEnv new.lead) w.applyEnv o (new.header.length + na.length)) (filename : Bytes) :
    ∃ delta i l off df z, makeFiles w o old.file new.file = .ok delta ∧ readFiles w filename delta = .ok i ∧
      makeSeqFile (w.makeEnv new.lead) o (some (rpmOf w.lib w.U true old.file)) (some (rpmOf w.lib w.U true new.file)) =
        .ok (on ++ ascii "-" ++ dumpHex (w.H (old.header ++ old.payload)) ++ ascii "\n") ∧
      makeDiff (old.header ++ oa) (new.header ++ na) o.addblk = .ok df ∧
      Answers i (fillDelta (w.makeEnv new.lead) o (new.toRpm true na nc) l on nn ⟨old.header ++ oa, new.header ++ na,
        w.H (old.header ++ old.payload), [], new.header, new.header.length⟩ off df z) 0 filename nn := by
  have lo := old.header_length
  have ln := new.header_length
  have so := old.hdrOk.small
  have sn := new.hdrOk.small
  have co := old.hdrOk.counts
  have cn := new.hdrOk.counts
  have hoff := fmtOffset_of new.hdrOk (sealed_index hl hnew.sealed new.hdrOk hnew.cpio (not_region (by omega)))
  have hg := goodPair_of hl h16 (oa := oa) (oc := oc) (by omega) hn.good hnew hd true
  obtain ⟨l, on', nn', off, df, z, d1, l1, e1, e2, hp, hmade⟩ := rpmonly_pair (w.makeEnv new.lead) w.applyEnv o (old.toRpm true oa oc) (new.toRpm true na nc)
    hg ho hv hn'.good (by show 0 < new.header.length ∧ new.header.length < 2^32; omega) hoff
    (by show 0 < old.header.length + oa.length ∧ old.header.length + oa.length ≤ 2^44; omega)
    (by show 16 ≤ new.header.length + na.length ∧ new.header.length + na.length < 2^63; omega) hsmall hcnt hadd
  obtain ⟨c, k1, k2⟩ := hg.codec l l1
  have e1 : getNevr w.lib old.hdr = .ok on' := e1
  have e2 : getNevr w.lib new.hdr = .ok nn' := e2
  rw [hn.get] at e1
  rw [hn'.get] at e2
  cases e1
  cases e2
  have hty : ∀ (a : MakeEnv) (b : Rpm) x1 x2 x3 x4 x5 x6 x7, (fillDelta a o b x1 x2 x3 x4 x5 x6 x7).type = .rpmonly := by
    intro a b x1 x2 x3 x4 x5 x6 x7
    show (if o.rpmOnly then _ else _) = _
    rw [if_pos ho]
  obtain ⟨file, i, h1, h2, h3, h4⟩ := made_described _ o _ _ _ _ _ hp _ hmade (by omega) c k1 w.applyEnv.dec k2.toLossless
    (readdeltaStandard w.lib w.U) 0 (by omega) (fun _ => []) (fun h => by rw [hty] at h; cases h) (fun h => by rw [hty] at h; cases h) (deltaNevr w.lib w.U) nn
    (by rw [hty]; rfl) ⟨by show (w.H _).length < 2^31; rw [h16]; omega, leadsig_small new, by show 0 < 2^31; omega⟩ filename
  refine ⟨file, i, l, off, df, z, ?_, h2, ?_, d1, h4⟩
  · unfold makeFiles
    rw [file_take, rpmOf_file hold, rpmOf_file hnew.unpacks]
    exact h1
  · rw [rpmOf_file hold, rpmOf_file hnew.unpacks]
    exact h3

/-- **C81** for rpm-only deltas: `drpm_read` can read the delta that `drpm_make` made of two package files, and
    its accessors name version, type, method, the NEVRs of the two packages, the MD5 of header and payload of the
    old one, and size, MD5, method, lead and signature of the new one. The sequence file (if asked for) is the line
    of source NEVR, dash and sequence that the accessors give. -/
theorem C81_rpmonly {η σ τ : Type} (w : World η σ τ) (Ok : TagData → Prop) (hl : HeaderLaws w.lib Ok) (h16 : ∀ b, (w.H b).length = 16)
    (o : Opts Bytes) (ho : o.rpmOnly = true) (hv : o.version = 3)
    (old new : PkgFile w.lib) (oa na : Bytes) (oc nc : Comp) (level : Nat)
    (hold : Unpacks w.U old oa oc) (hnew : GoodNew w new na nc level)
    (on nn : Bytes) (hn : HasNevr w.lib old.hdr on) (hn' : HasNevr w.lib new.hdr nn)
    (hd : GoodDeltaComp w o new.lead nc level)
    (hsize : oa.length ≤ 2^43 ∧ na.length < 2^62)
    (hsmall : old.header.length + oa.length < 2^31 ∨ new.header.length + na.length < 2^31)
    (hcnt : FewCopies (old.header ++ oa) (new.header ++ na) o.addblk)
    (hadd : GoodAdd (w.makeEnv new.lead) w.applyEnv o (new.header.length + na.length)) (filename : Bytes) :
    ∃ delta i, makeFiles w o old.file new.file = .ok delta ∧ readFiles w filename delta = .ok i ∧
      makeSeqFile (w.makeEnv new.lead) o (some (rpmOf w.lib w.U true old.file)) (some (rpmOf w.lib w.U true new.file)) =
        .ok (on ++ ascii "-" ++ dumpHex (w.H (old.header ++ old.payload)) ++ ascii "\n") ∧
      Describes i 3 1 (if o.compFromRpm then nc.code else o.comp) on (w.H (old.header ++ old.payload)) nn
        (new.file.length % 2^32) nc.code (w.H new.file) new.leadsig := by
  obtain ⟨delta, i, l, off, df, z, h1, h2, h3, _, h4⟩ := rpmonly_answers w Ok hl h16 o ho hv old new oa na oc nc level hold hnew on nn hn hn' hd hsize hsmall
    hcnt hadd filename
  refine ⟨delta, i, h1, h2, h3, ?_⟩
  have := h4.describes
  have hty : ∀ (a : MakeEnv) (b : Rpm) x1 x2 x3 x4 x5 x6 x7, (fillDelta a o b x1 x2 x3 x4 x5 x6 x7).type = .rpmonly := by
    intro a b x1 x2 x3 x4 x5 x6 x7
    show (if o.rpmOnly then _ else _) = _
    rw [if_pos ho]
  rw [hty] at this
  rw [if_pos (by show 2 ≤ o.version; omega), if_pos (by show 2 ≤ o.version; omega)] at this
  simp only [fillDelta] at this
  rw [hv] at this
  have hcomp : (deltaComp o (new.toRpm true na nc) l).1 = if o.compFromRpm then nc.code else o.comp := by
    unfold deltaComp
    split <;> rfl
  rw [hcomp] at this
  exact this

/-- **C81** for standard deltas of every version. Version 1 does not record the size of the new package, and its
    method is the one that the header names (`hc`). The target NEVR is not in the delta: it is the one of the
    header, which the mark does not change. -/
theorem C81_standard {η σ τ : Type} (w : World η σ τ) (Ok : TagData → Prop) (hl : HeaderLaws w.lib Ok) (hnl : NevrLaw w.lib)
    (h16 : ∀ b, (w.H b).length = 16)
    (o : Opts Bytes) (ho : o.rpmOnly = false) (hv : 1 ≤ o.version ∧ o.version ≤ 3)
    (old new : PkgFile w.lib) (oa na : Bytes) (oc nc : Comp) (level : Nat)
    (hold : Unpacks w.U old oa oc) (fs : List FileInfo) (colors : Bool) (algo : Nat) (c : Made) (hb : GoodBase w o old oa fs colors algo c)
    (hnew : GoodNew w new na nc level) (on nn : Bytes) (hn : HasNevr w.lib old.hdr on) (hn' : HasNevr w.lib new.hdr nn)
    (hc : Comp) (hname : ∃ s, (s, hc) ∈ payloadNames ∧ w.lib.get new.hdr 1125 = some (.str (ascii s)))
    (hd : GoodDeltaComp w o new.lead nc level)
    (hsize : 16 ≤ na.length ∧ na.length < 2^63 ∧ (o.version < 3 → na.length < 2^32))
    (hsmall : c.cpio.length < 2^31 ∨ na.length < 2^31) (hseq : c.sequence.length < 2^31)
    (hcnt : FewCopies c.cpio na o.addblk)
    (hadd : GoodAdd (w.makeEnv new.lead) w.applyEnv o na.length) (filename : Bytes) :
    ∃ delta i, makeFiles w o old.file new.file = .ok delta ∧ readFiles w filename delta = .ok i ∧
      makeSeqFile (w.makeEnv new.lead) o (some (rpmOf w.lib w.U true old.file)) (some (rpmOf w.lib w.U true new.file)) =
        .ok (on ++ ascii "-" ++ dumpHex c.sequence ++ ascii "\n") ∧
      Describes i o.version 0 (if o.compFromRpm then nc.code else o.comp) on c.sequence nn
        (if o.version = 1 then 0 else new.file.length % 2^32) (if o.version = 1 then hc.code else nc.code) (w.H new.file) new.leadsig := by
  obtain ⟨marked, head, hh, _, hmk⟩ := goodHeader_of hl h16 hnew hc hname
  have hg := goodPair_of hl h16 (oa := oa) (oc := oc) hv hn.good hnew hd true
  obtain ⟨l, on', off, df, z, _, l1, e1, hp, hmade⟩ := standard_pair (w.makeEnv new.lead) w.applyEnv o (old.toRpm true oa oc) (new.toRpm true na nc)
    hg ho (oldInput w o oa fs colors algo) c (goodOld_of hb new.lead oc) marked head hc.code hh hsize hsmall hcnt hadd
  obtain ⟨cd, k1, k2⟩ := hg.codec l l1
  have e1 : getNevr w.lib old.hdr = .ok on' := e1
  rw [hn.get] at e1
  cases e1
  have hty : ∀ (a : MakeEnv) (b : Rpm) x1 x2 x3 x4 x5 x6 x7, (fillDelta a o b x1 x2 x3 x4 x5 x6 x7).type = .standard := by
    intro a b x1 x2 x3 x4 x5 x6 x7
    show (if o.rpmOnly then _ else _) = _
    rw [if_neg (by rw [ho]; simp)]
  have hnevr : ∀ z, deltaNevr w.lib w.U (head z ++ z) = .ok nn := by
    intro z
    obtain ⟨m, m1, m2⟩ := hmk z
    rw [m1, ← hn'.get]
    unfold getNevr
    rw [hnl m new.hdr]
    intro t ht
    simp only [List.mem_cons, List.not_mem_nil, or_false] at ht
    rw [m2 t (not_region (by omega)), if_neg (by omega)]
  obtain ⟨file, i, h1, h2, h3, h4⟩ := made_described _ o _ _ _ _ _ hp _ hmade (by rw [ho]; simp) cd k1 w.applyEnv.dec k2.toLossless
    (readdeltaStandard w.lib w.U) hc.code (by cases hc <;> decide) head (fun _ => hh.wrote) (fun _ z => ⟨hh.found z, hh.magic z⟩) (deltaNevr w.lib w.U) nn
    (by rw [hty]; exact hnevr) ⟨hseq, leadsig_small new, by show 0 < 2^31; omega⟩ filename
  refine ⟨file, i, ?_, h2, ?_, ?_⟩
  · unfold makeFiles
    rw [file_take, rpmOf_file hold, rpmOf_file hnew.unpacks]
    exact h1
  · rw [rpmOf_file hold, rpmOf_file hnew.unpacks]
    exact h3
  · have := h4.describes
    rw [hty] at this
    have hcomp : (deltaComp o (new.toRpm true na nc) l).1 = if o.compFromRpm then nc.code else o.comp := by
      unfold deltaComp
      split <;> rfl
    by_cases h1 : o.version = 1
    · rw [if_pos h1, if_pos h1]
      rw [if_neg (by show ¬ 2 ≤ o.version; omega), if_neg (by show ¬ 2 ≤ o.version; omega)] at this
      simp only [fillDelta] at this
      rw [hcomp] at this
      exact this
    · rw [if_neg h1, if_neg h1]
      rw [if_pos (by show 2 ≤ o.version; omega), if_pos (by show 2 ≤ o.version; omega)] at this
      simp only [fillDelta] at this
      rw [hcomp] at this
      exact this

namespace Toy

theorem nevrLaw : NevrLaw lib := by
  intro h g hg
  have := hg 1000 (by simp)
  rw [lib_get _ _ (not_region (by omega)), lib_get _ _ (not_region (by omega))] at this
  show (match lookup 1000 h.tags with | some (.str s) => some s | _ => none) = _
  rw [this]
  rfl

theorem hasNevrs : HasNevr lib oldFile.hdr (ascii "a-1-1") ∧ HasNevr lib newFile.hdr (ascii "a-2-1") :=
  ⟨⟨rfl, by decide, by decide⟩, ⟨rfl, by decide, by decide⟩⟩

end Toy

open Toy in
/-- Non-vacuity of C81 for rpm-only deltas: the delta between the two packages says that it is one, from "a-1-1"
    to "a-2-1". -/
example (addblk : Bool) : ∃ delta i, makeFiles world (demoOpts true 3 addblk) oldFile.file newFile.file = .ok delta ∧
    readFiles world (ascii "a.drpm") delta = .ok i ∧
    getUint (some i) 2 (some 7) = (none, some 1) ∧
    getString (some i) 5 true (some none) = (none, some (some (ascii "a-1-1"))) ∧
    getString (some i) 6 true (some none) = (none, some (some (ascii "a-2-1"))) := by
  obtain ⟨s1, s2, s3, s4, s5⟩ := demoSizes
  have l1 := oldFile.header_length
  have l2 := newFile.header_length
  have c1 := oldFile.hdrOk.counts
  have c2 := newFile.hdrOk.counts
  obtain ⟨delta, i, h1, h2, _, h3⟩ := C81_rpmonly world Ok laws md5_16 (demoOpts true 3 addblk) rfl rfl oldFile newFile demoArchive demoNewPkg.archive .gzip .gzip 9
    (unpacks _ _ rfl) goodNew _ _ hasNevrs.1 hasNevrs.2 (goodComp _ rfl) (by omega) (by omega)
    (FewCopies.of_size _ _ _ (by simp only [List.length_append]; omega) (by simp only [List.length_append]; omega)
      (by simp only [List.length_append]; omega)) (goodAdd _ _ _ _ (by omega)) (ascii "a.drpm")
  exact ⟨delta, i, h1, h2, h3.type _, h3.srcNevr _, h3.tgtNevr _⟩

open Toy in
/-- Non-vacuity of C81 for standard deltas. -/
example (addblk : Bool) : ∃ delta i, makeFiles world (demoOpts false 3 addblk) oldFile.file newFile.file = .ok delta ∧
    readFiles world (ascii "a.drpm") delta = .ok i ∧
    getUint (some i) 2 (some 7) = (none, some 0) ∧
    getString (some i) 5 true (some none) = (none, some (some (ascii "a-1-1"))) ∧
    getString (some i) 6 true (some none) = (none, some (some (ascii "a-2-1"))) := by
  obtain ⟨_, _, s3, s4, s5⟩ := demoSizes
  obtain ⟨c, hb, hc, hq⟩ := goodBase addblk
  obtain ⟨delta, i, h1, h2, _, h3⟩ := C81_standard world Ok laws nevrLaw md5_16 (demoOpts false 3 addblk) rfl (by show 1 ≤ 3 ∧ 3 ≤ 3; omega) oldFile newFile demoArchive demoNewPkg.archive
    .gzip .gzip 9 (unpacks _ _ rfl) demoFiles false 0 c hb goodNew _ _ hasNevrs.1 hasNevrs.2 .gzip
    ⟨"gzip", by decide +kernel, by decide +kernel⟩ (goodComp _ rfl) ⟨by omega, by omega, fun _ => by omega⟩ (by omega) (by omega)
    (FewCopies.of_size _ _ _ (by omega) (by omega) (by omega)) (goodAdd _ _ _ _ (by omega)) (ascii "a.drpm")
  exact ⟨delta, i, h1, h2, h3.type _, h3.srcNevr _, h3.tgtNevr _⟩

end Drpm
