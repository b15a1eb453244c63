import Verif.ApplySafe
import Verif.Props.Make
import Verif.Props.Check
import Verif.Props.Codec
import Verif.Props.Sequence
/-!
# Property C71: applying a delta is memory-safe, whatever the delta and the old package contain

The full statement `∀ env file r cleanup, (applied env file (.rpm r) cleanup).Defined` is false; the
conditions below name every way in which it fails (each with its own counterexample under the
property named).
-/

namespace Drpm

variable {σ : Type}

/-- Outside the library: rpmlib's own functions are defined, and decompressed data are shorter than
    2^63 bytes. -/
structure SoundEnv (env : ApplyEnv σ) : Prop where
  dec : ∀ c z, (env.dec c z).length < 2^63
  rpmHead : ∀ f, (env.rpmHead f).Defined
  tgtHeader : ∀ f, (env.tgtHeader f).Defined
  importSig : ∀ b m, env.importSig b = some m → m.Defined
  exportSig : ∀ b, (env.exportSig b).Defined

/-- An old package that does not trigger the known defects: rpmlib's answers are defined, no entry of
    its archive has a name of length zero (`C53`), no digest in its header is longer than 65
    characters (`C58_violated`), and names are shorter than 2^16 - 3 bytes. -/
structure CarefulPkg (r : Rpm) : Prop where
  nevr : r.nevr.Defined
  files : r.files.Defined
  algo : r.algo.Defined
  sigMd5 : r.sigMd5.Defined
  small : r.archive.length < 2^63
  names : NoEmptyName r.archive
  listed : ∀ fs, r.files = .ok fs → ∀ f ∈ fs, f.md5.length ≤ 65 ∧ f.name.length + 3 < 2^16

/-- A delta that does not trigger the known defects, whatever it is applied to: fewer than 2^31 copies
    (`C51_violated`), a level its payload compressor has (`C61_violated`), a signature that ends where
    it says (over-read of `headerImport`), a header that is not longer than what the copies produce
    (`C27_too_short`). -/
structure CarefulParts (env : ApplyEnv σ) (d : Delta) : Prop where
  counts : d.intCount < 2^31 ∧ d.extCount < 2^31
  level : d.tgtCompLevel ≤ 9 ∨
    (d.tgtComp ≠ Comp.gzip.code ∧ d.tgtComp ≠ Comp.bzip2.code ∧ d.tgtComp ≠ Comp.lzma.code)
  signature : env.blobOk (word d.tgtLeadsig 104) (word d.tgtLeadsig 108) = true →
    112 + 16 * word d.tgtLeadsig 104 + word d.tgtLeadsig 108 ≤ d.tgtLeadsig.length
  header : d.tgtHeaderLen ≤ producedBytes d.ints d.exts

/-- A delta that does not trigger the known defects when applied to the package: also, a file order
    that neither overruns the tables nor shifts too far (`C17_violated_*`). -/
structure CarefulDelta (env : ApplyEnv σ) (r : Rpm) (d : Delta) : Prop extends CarefulParts env d where
  order : ∀ fs, r.files = .ok fs → d.type = .standard →
    OrderTame fs.length (d.sequence.drop 16)

/-- A delta file whose declared lengths do not wrap when it is read (`C10_violated_*`,
    `C54_violated`). -/
structure CarefulFile (dec : Decoder) (rpmHead : Bytes → Out (Nat × Nat)) (file : Bytes) : Prop where
  small : file.length < 2^63
  name : word file 0 = 0x6472706D → word file 8 < 2^32 - 1
  counts : ∀ k c s, StreamAt rpmHead file k → openStream dec (file.drop k) = .ok (c, s) → CountsSmall s

theorem seqLoop_good {files : List FileInfo} {algo : Nat} (hd : ∀ f ∈ files, f.md5.length ≤ 65) :
    ∀ (ps : List Nat) (md : Bytes) (out : List CpioFile) (off : Nat), (∀ p ∈ ps, p < files.length) →
      (seqLoop files algo noCheck ps md out off).Good (fun x => ∃ l, x.2.1 = out ++ l ∧
        ∀ q ∈ l, ∃ i f o, files[i]? = some f ∧ q = seqPlace i f o) := by
  intro ps
  induction ps with
  | nil => intro md out off _; exact ⟨[], by simp, by simp⟩
  | cons p ps ih =>
    intro md out off h
    unfold seqLoop
    have hp : p < files.length := h p (by simp)
    rw [rd_ok hp, Out.bind_ok]
    have hf : files[p] ∈ files := List.getElem_mem hp
    generalize hg : files[p] = f at hf
    have hm : (seqMd5 algo noCheck f).Good (fun _ => True) := by
      unfold seqMd5 seqBody
      refine Out.Good.bind (P := fun _ => True) (Out.Good.ite (fun _ => trivial) (fun _ => Out.Good.ite (fun _ => ?_)
        (fun _ => trivial))) (fun _ _ => trivial)
      unfold seqDigest noCheck
      exact (C58_partial algo f (hd f hf)).good.bind (fun _ _ => trivial)
    refine hm.bind ?_
    intro b _
    refine (ih _ _ _ (fun q hq => h q (by simp [hq]))).mono ?_
    rintro x ⟨l, h1, h2⟩
    refine ⟨seqPlace p f off :: l, by rw [h1]; simp, fun q hq => ?_⟩
    rcases List.mem_cons.1 hq with rfl | hq
    · exact ⟨p, f, off, by rw [← hg]; exact List.getElem?_eq_getElem hp, rfl⟩
    · exact h2 q hq

theorem fillHeader_length {f : FileInfo} (h : f.name.length + 3 < 2^16) :
    (fillHeader (some f)).length = 110 + (relName f).length + 3 + cpioPadding (110 + (relName f).length + 3) := by
  have hr : (relName f).length ≤ f.name.length := by
    unfold relName
    split
    · rename_i h; rw [h]; simp
    · exact Nat.le_refl _
  unfold fillHeader
  have hn : (entryHdr f ((relName f).length + 1)).namesize = (relName f).length + 3 := by
    unfold entryHdr
    simp only
    omega
  simp only [hn]
  have e : (cpioHeaderWrite (entryHdr f ((relName f).length + 1)) ++ [46, 47] ++ (relName f ++ [0])).length =
      110 + ((relName f).length + 3) := by
    simp only [List.length_append, cpioHeaderWrite_length, List.length_cons, List.length_nil]
    omega
  unfold overwrite
  simp only [List.length_append, List.length_take, List.length_drop, zeros_length] at e ⊢
  rw [e]
  have : 110 + ((relName f).length + 3) = 110 + (relName f).length + 3 := by omega
  rw [this]
  omega

theorem expandSeq_good {H : Bytes → Bytes} {files : List FileInfo} {algo : Nat} {seq : Bytes} (archive : Bytes)
    (hd : ∀ f ∈ files, f.md5.length ≤ 65 ∧ f.name.length + 3 < 2^16)
    (ho : (decodeSeq files.length (seq.drop 16)).Good (fun ps => ∀ p ∈ ps, p < files.length)) :
    (expandSeq H files algo noCheck seq).Good (fun places => PlacesOk ⟨archive, files, places⟩) := by
  unfold expandSeq
  refine Out.Good.ite (fun _ => trivial) (fun _ => ho.bind ?_)
  intro ps hps
  refine (seqLoop_good (fun f hf => (hd f hf).1) ps [] [] 0 hps).bind ?_
  rintro ⟨md, out, off⟩ ⟨l, h1, h2⟩
  simp only [List.nil_append] at h1 ⊢
  subst h1
  refine Out.Good.ite (fun _ => trivial) (fun _ => ⟨by simp, fun k p hk => ?_⟩)
  simp only at hk ⊢
  by_cases hlt : k < out.length
  · rw [List.getElem?_append_left hlt] at hk
    have hm : p ∈ out := List.mem_of_getElem? hk
    obtain ⟨i, f, o, hf, rfl⟩ := h2 p hm
    have := fillHeader_length (hd f (List.mem_of_getElem? hf)).2
    refine ⟨by simp only [seqPlace]; omega, ?_⟩
    simp only [seqPlace]
    exact ⟨by simp; omega, f, hf, by rw [this]; exact Nat.le_refl _⟩
  · rw [List.getElem?_append_right (by omega)] at hk
    have : k - out.length = 0 := by
      rcases Nat.eq_zero_or_pos (k - out.length) with h | h
      · exact h
      · rw [List.getElem?_eq_none (by simp; omega)] at hk; cases hk
    rw [this] at hk
    cases hk
    exact ⟨by simp only [trailerPlace]; omega, rfl, by rw [fillHeader_none, trailerBytes_length]; exact Nat.le_refl _⟩

theorem replaceSig_good {env : ApplyEnv σ} (he : SoundEnv env) {ls : Bytes} (h112 : 112 ≤ ls.length)
    (hs : env.blobOk (word ls 104) (word ls 108) = true → 112 + 16 * word ls 104 + word ls 108 ≤ ls.length) :
    (replaceSig env ls).Good (fun m => m.Defined) := by
  unfold replaceSig
  refine Out.Good.ite (fun _ => trivial) (fun _ => ?_)
  refine (rdBlk_good (by omega)).bind ?_
  intro magic _
  refine Out.Good.ite (fun _ => trivial) (fun _ => ?_)
  have hw : ∀ p, p + 4 ≤ ls.length → be32At (ls.drop p) = .ok (word ls p) := by
    intro p hp
    have hl : (slice ls p 4).length = 4 := slice_length hp
    have e : ls.drop p = slice ls p 4 ++ (ls.drop p).drop 4 := by
      unfold slice
      exact (List.take_append_drop 4 _).symm
    have h0 := be32At_word (slice ls p 4) hl
    unfold word
    match hq : slice ls p 4, hl with
    | [a, b, c, d], _ =>
      rw [hq] at e h0
      rw [e]
      simp only [List.cons_append, List.nil_append]
      simp only [be32At] at h0 ⊢
      exact h0.1
  rw [hw 104 (by omega), Out.bind_ok, hw 108 (by omega), Out.bind_ok]
  refine Out.Good.ite (fun _ => trivial) (fun hb => ?_)
  have := hs (by simpa using hb)
  refine (rdBlk_good (by omega)).bind ?_
  intro blob _
  cases hi : env.importSig blob with
  | none => trivial
  | some m => exact he.importSig blob m hi

theorem openAdd_good (dec : Decoder) (add : Bytes) : (openAdd dec add).Good (fun _ => True) := by
  unfold openAdd
  refine Out.Good.ite (fun _ => trivial) (fun _ => Out.Good.ite (fun _ => trivial) (fun h => ?_))
  obtain ⟨_, _, _, _, _, _, _, _, _, _, hm⟩ := be64At_ok add (by omega)
  rw [hm, Out.bind_ok]
  split <;> trivial

theorem strmOpen_good {comp : Nat} {level : Int} (h : level ≤ 9 ∨
    (comp ≠ Comp.gzip.code ∧ comp ≠ Comp.bzip2.code ∧ comp ≠ Comp.lzma.code)) : (strmOpen comp level).Good (fun _ => True) := by
  have : compOpen comp level ≠ .lost := by
    unfold compOpen
    split
    · simp
    · split
      · simp
      · split
        · omega
        · split <;> simp
  unfold strmOpen
  split
  · trivial
  · trivial
  · exact absurd ‹_› this

theorem wrAll_good {τ : Type} (E : Enc τ) (ulen : Nat) (f0 : Bytes) (bs : List Bytes) (hl : ulen ≤ bs.flatten.length) :
    (wrAll E ulen f0 bs).Good (fun _ => True) := by
  unfold wrAll
  have h1 : ∀ (bs : List Bytes) (w : Wrap τ), (wrWrites E w bs).Good (fun w' => wrWrites E w bs = .ok w') := by
    intro bs
    induction bs with
    | nil => intro w; rfl
    | cons b bs ih =>
      intro w
      unfold wrWrites
      split
      · trivial
      · exact ih _
  refine (h1 bs _).bind ?_
  intro w hw
  obtain ⟨ps, hi⟩ := WInv.writes bs (WInv.init E ulen f0) hw
  have hlt : ¬ w.udata.length < w.ulen := by
    rw [hi.hulen, hi.udata, List.nil_append, List.length_take]; omega
  unfold wrFinish
  rcases csFinish E w.strm with ⟨e | d, s⟩
  · trivial
  · simp only
    rw [if_neg hlt]
    trivial

/-- Applying is defined if finding the old data is, and reading from them. -/
theorem applied_good (env : ApplyEnv σ) (file : Bytes) (src : OldSrc) (cleanup : Nat) (he : SoundEnv env)
    (hf : CarefulFile env.dec env.rpmHead file) (P : Delta → Pkg → OldData → Prop)
    (hold : ∀ d, readDelta env.dec env.rpmHead file = .ok d → 16 ≤ d.sequence.length →
      (applyOld env file d src).Good (fun x => P d x.1 x.2))
    (hrest : ∀ d p old, readDelta env.dec env.rpmHead file = .ok d → P d p old → p.nevr.Defined ∧ CarefulParts env d ∧
      (applyPlaces env d p).Good (fun x => ∀ cfg add, blocksCreate d.extDataLen d.exts = .ok cfg → d.extDataLen < 2^64 →
        CopiesInside d.extDataLen 0 d.exts → EndsPositive 0 d.exts → (d.ints.map (·.2)).sum ≤ d.intBytes.length →
        (applyLoop d old x.1 x.2 cfg cleanup add).Good (fun ws => ws.flatten.length = producedBytes d.ints d.exts))) :
    (applied env file src cleanup).Defined := by
  have hplan : (planApply env file src cleanup).Good (fun pl => pl.sig.Defined ∧ pl.body.Good (fun _ => True)) := by
    unfold planApply
    refine (C10_partial env.dec env.rpmHead file (he.rpmHead _) hf.name hf.counts).good.bind ?_
    intro d hd1
    have hacc : d.extDataLen < 2^64 ∧ ((d.extDataLen < 2^64 - 2^32) → CopiesInside d.extDataLen 0 d.exts ∧ EndsPositive 0 d.exts) ∧
        (d.ints.map (·.2)).sum ≤ d.intBytes.length := by
      obtain ⟨d0, s, rr, g1, _, g3⟩ := readDelta_inv _ _ _ _ hd1
      obtain ⟨_, _, _, _, w1, w2, _, _, _, h4, h5, k2, c1, c2⟩ := rdRest_post d0 s d rr g1
      have hs : s.length < 2^63 := by
        rcases g3 with ⟨k, rfl⟩ | ⟨c, z, rfl⟩
        · rw [List.length_drop]; have := hf.small; omega
        · exact he.dec c z
      have := intCheck_true _ 0 d.ints (by omega) (by omega) (fun c hc => (w1 c hc).2) c1
      exact ⟨k2, fun h => (extCheck_inside _ 0 d.exts h (by omega) (fun c hc => (w2 c hc).2)).1 c2, by omega⟩
    obtain ⟨hext, hins, hint⟩ := hacc
    obtain ⟨h16, h16', h112, _⟩ := readDelta_shape hd1
    refine (hold d hd1 (by omega)).bind ?_
    rintro ⟨p, old⟩ hP
    simp only at hP ⊢
    obtain ⟨hnevr, hdl, hpl⟩ := hrest d p old hd1 hP
    refine Out.Good.bind (P := fun _ => True) ?_ (fun _ _ => ?_)
    · unfold sameNevr
      exact hnevr.good.bind (fun _ _ => Out.Good.ite (fun _ => trivial) (fun _ => trivial))
    refine hpl.bind ?_
    rintro ⟨files, places⟩ hplc
    simp only at hplc ⊢
    refine (replaceSig_good he h112 hdl.signature).bind ?_
    intro sig hsig
    refine Out.Good.bind (P := fun b => b.Good (fun _ => True)) ?_ (fun b hb => ⟨hsig, hb⟩)
    have hdiff : (planDiff env file d old files places cleanup).Good (fun b => b.Good (fun _ => True)) := by
      unfold planDiff
      have hcf : countsFit d = .ok () := by
        obtain ⟨i1, i2⟩ := C51_partial _ _ _ _ hd1
        unfold countsFit
        rw [if_pos ⟨(i1 hdl.counts.1).symm, (i2 hdl.counts.2).symm⟩]
      rw [hcf, Out.bind_ok]
      have hcr : (blocksCreate d.extDataLen d.exts).Good (fun cfg => blocksCreate d.extDataLen d.exts = .ok cfg ∧
          CopiesInside d.extDataLen 0 d.exts ∧ EndsPositive 0 d.exts) := by
        unfold blocksCreate
        refine Out.Good.ite (fun _ => trivial) (fun hno => ?_)
        have hbs : blockSize = 8192 := rfl
        have hpos : 0 < d.extDataLen := by
          rcases Nat.eq_zero_or_pos d.extDataLen with h | h
          · rw [h] at hno; exact absurd (by decide) hno
          · exact h
        have hnb : blocksOf d.extDataLen = (d.extDataLen - 1) / blockSize + 1 := blocksOf_pos hpos hext
        rw [hbs] at hnb
        obtain ⟨hc, hen⟩ := hins (by omega)
        obtain ⟨mx, hm1, _⟩ := markCopies_spec d.extDataLen (by omega) hpos d.exts 0 0 (fun _ => 0) hc hen (fun _ => Nat.le_refl _)
        rw [hm1]
        simp only [Out.bind_ok]
        refine ⟨?_, hc, hen⟩
        rw [if_neg hno]
      refine hcr.bind ?_
      rintro cfg ⟨hcfg, hc, hen⟩
      refine (openAdd_good env.dec d.addData).bind ?_
      intro add _
      show (applyWrite env file d _).Good _
      have hws := hplc cfg add hcfg hext hc hen hint
      unfold applyWrite
      refine Out.Good.bind (P := fun _ => True) ?_ (fun _ _ => ?_)
      · unfold applyHeader
        exact Out.Good.ite (fun _ => trivial) (fun _ => (he.tgtHeader file).good.mono (fun _ _ => trivial))
      refine (strmOpen_good (by have := hdl.level; omega)).bind ?_
      intro _ _
      refine hws.bind ?_
      intro ws hlen
      refine Out.Good.bind (P := fun _ => True) ?_ (fun _ _ => trivial)
      have hh := hdl.header
      unfold compressNew
      exact Out.Good.ite (fun _ => wrAll_good _ _ _ _ (by omega)) (fun _ => wrAll_good _ _ _ _ (by omega))
    unfold planBody
    split
    · show (writeOld env d _).Good _
      unfold writeOld
      exact (he.exportSig _).good.bind (fun _ _ => trivial)
    · exact hdiff
  unfold applied drpmApply applyTo
  simp only [Out.bind_ok]
  rw [if_neg (by simp)]
  cases hx : planApply env file src cleanup with
  | ok pl =>
    rw [hx] at hplan
    obtain ⟨h1, h2⟩ := hplan
    simp only
    cases hb : pl.body with
    | ok x =>
      unfold finishApply finalCheck
      simp only
      have : (if noFullMd5 pl.d = true then pl.sig >>= fun m => match m with
            | none => Out.ok ()
            | some m => if env.H x.2 ≠ m then .err .mismatch else .ok ()
          else if env.H x.2 ≠ pl.d.tgtMd5 then .err .mismatch else .ok ()).Good (fun _ => True) := by
        refine Out.Good.ite (fun _ => h1.good.bind ?_) (fun _ => Out.Good.ite (fun _ => trivial) (fun _ => trivial))
        intro m _
        cases m with
        | none => trivial
        | some m => exact Out.Good.ite (fun _ => trivial) (fun _ => trivial)
      exact this.defined
    | err e => exact Out.defined_err e
    | ub => rw [hb] at h2; exact absurd h2 id
    | loop => rw [hb] at h2; exact absurd h2 id
  | err e => exact Out.defined_err e
  | ub => rw [hx] at hplan; exact absurd hplan id
  | loop => rw [hx] at hplan; exact absurd hplan id

/-- C71 (partial): applying a delta to a package file never reads or writes outside a buffer and never
    hangs, whatever the delta file (truncated, inconsistent, hostile) and whatever the old package
    contain, as long as they avoid the defects named in the conditions. Missing: those conditions,
    each of which is violated by some input (see the theorems named there). -/
theorem C71_partial (env : ApplyEnv σ) (file : Bytes) (r : Out Rpm) (cleanup : Nat) (he : SoundEnv env)
    (hf : CarefulFile env.dec env.rpmHead file) (hr : r.Defined) (hp : ∀ p, r = .ok p → CarefulPkg p)
    (hd : ∀ d p, readDelta env.dec env.rpmHead file = .ok d → r = .ok p → CarefulDelta env p d) :
    (applied env file (.rpm r) cleanup).Defined := by
  refine applied_good env file (.rpm r) cleanup he hf (fun _ pk old => ∃ p, r = .ok p ∧ pk = p.toPkg ∧ old = .rpm p) ?_ ?_
  · intro d hd1 h16
    unfold applyOld
    refine hr.good.bind ?_
    intro p hpr
    have hpk := hp p hpr
    refine Out.Good.bind (P := fun _ => True) ?_ (fun _ _ => ⟨p, hpr, rfl, rfl⟩)
    unfold sameSource
    refine Out.Good.ite (fun ht => hpk.sigMd5.good.bind ?_) (fun _ => trivial)
    intro m _
    cases m with
    | none => trivial
    | some m => exact (rdBlk_good (by omega)).bind (fun _ _ => Out.Good.ite (fun _ => trivial) (fun _ => trivial))
  · rintro d _ _ hd1 ⟨p, hpr, rfl, rfl⟩
    have hpk := hp p hpr
    have hdl := hd d p hd1 hpr
    refine ⟨hpk.nevr, hdl.toCarefulParts, ?_⟩
    have hpl : (applyPlaces env d p.toPkg).Good (fun x => d.type = .standard → PlacesOk ⟨p.archive, x.1, x.2⟩) := by
      unfold applyPlaces
      refine Out.Good.ite (fun ht => fun h => by rw [ht] at h; cases h) (fun ht => ?_)
      have hty : d.type = .standard := by
        cases h : d.type with
        | standard => rfl
        | rpmonly => exact absurd h ht
      refine hpk.files.good.bind ?_
      intro fs hfs
      refine hpk.algo.good.bind ?_
      intro algo _
      refine (expandSeq_good p.archive (hpk.listed fs hfs) ((hdl.order fs hfs hty).good.mono (fun _ h => h.1))).bind ?_
      intro places hplc
      exact fun _ => hplc
    refine hpl.mono ?_
    rintro ⟨files, places⟩ hplc cfg add hcfg hext hc hen hint
    unfold applyLoop
    simp only
    split
    · exact reconWrites_good (I := RoInv p.header p.archive) (fun s hs => rpmonlyStep_good hpk.small hs)
        ⟨Nat.zero_le _, Nat.zero_le _⟩ hcfg hext hc hen cleanup _ _ _ _ hint
    · rename_i ht
      exact reconWrites_good (I := StdInv ⟨p.archive, files, places⟩)
        (fun s hs => stdStep_good hpk.small hpk.names (hplc ht) hs)
        (StdInv.init _) hcfg hext hc hen cleanup _ _ _ _ hint

/-! ### Examples and counterexamples -/

/-- An rpm-only delta in full: the header length, the lead and signature, the copies (a list of words:
    first the parts of the internal, then of the external copies), the length of the external data and
    the internal data. -/
def safeStream (headerLen : Nat) (leadsig : Bytes) (intCount extCount : Nat) (copies : List Nat) (extLen : Nat) (data : Bytes) : Bytes :=
  [68, 76, 84, 51] ++ (createBe32 0 ++ createBe32 16 ++ List.replicate 16 0 ++ List.replicate 16 0 ++
  createBe32 100 ++ createBe32 0 ++ createBe32 0 ++ createBe32 headerLen ++ createBe32 0 ++
  createBe32 leadsig.length ++ leadsig ++ createBe32 0 ++ createBe32 intCount ++
  createBe32 extCount ++ copies.flatMap createBe32 ++ createBe64 extLen ++ createBe32 0 ++ createBe64 data.length ++ data)

/-- Lead, and a signature that declares `dl` bytes of data but has only `n`. -/
def safeLeadsig (dl n : Nat) : Bytes :=
  zeros 96 ++ [0x8E, 0xAD, 0xE8, 0x01, 0, 0, 0, 0] ++ createBe32 0 ++ createBe32 dl ++ zeros n

/-- A package with an empty name and a signature MD5 of zeros. -/
def safePkg : Rpm := { demoOldPkg with nevr := .ok [], sigMd5 := .ok (some (zeros 16)) }

/-- Outside the library, for the examples. -/
def safeEnv : ApplyEnv Bytes :=
  { demoApply with dec := fun _ z => z.take 1000, importSig := fun _ => some (.ok none), rpmHead := fun _ => .err .format }

/-- The delta of the example: three bytes of the header of the old package (its external copies are
    "seek 5, 2 bytes", "seek -3, 1 byte") and two bytes of its own. -/
def safeFile : Bytes := sampleFile (safeStream 4 (safeLeadsig 4 4) 1 2 [2, 2, 5, 2^31 + 3, 2, 1] 20 [7, 8])

theorem noEmptyName_of {archive : Bytes} (h : ∀ off, off < archive.length →
    (match cpioHeaderRead (slice archive off 110) with | .ok h => h.namesize ≠ 0 | _ => True)) : NoEmptyName archive := by
  intro off hd he
  by_cases hlt : off < archive.length
  · have := h off hlt
    rw [he] at this
    exact this
  · unfold slice at he
    rw [List.drop_eq_nil_of_le (by omega)] at he
    cases he

instance decNamed (x : Out CpioHdr) : Decidable (match x with | .ok h => h.namesize ≠ 0 | _ => True) := by
  cases x <;> simp only <;> infer_instance

/-- Non-vacuity of C71: a delta that meets all the conditions and that is applied. -/
theorem C71_example : SoundEnv safeEnv ∧ CarefulFile safeEnv.dec safeEnv.rpmHead safeFile ∧ CarefulPkg safePkg ∧
    (∀ d p, readDelta safeEnv.dec safeEnv.rpmHead safeFile = .ok d → (.ok safePkg : Out Rpm) = .ok p → CarefulDelta safeEnv p d) ∧
    applied safeEnv safeFile (.rpm (.ok safePkg)) 0 = .ok () := by
  refine ⟨⟨fun c z => ?_, fun f => Out.defined_err _, fun f => Out.defined_ok _, fun b m h => ?_, fun b => Out.defined_ok _⟩,
    ⟨by decide +kernel, fun _ => by decide +kernel, fun k c s hk h => ?_⟩,
    ⟨Out.defined_ok _, Out.defined_ok _, Out.defined_ok _, Out.defined_ok _, by decide +kernel,
      noEmptyName_of (by decide +kernel), fun fs h => ?_⟩, fun d p hd hp => ?_, by decide +kernel⟩
  · show (z.take 1000).length < 2^63
    rw [List.length_take]
    omega
  · have h : some (.ok none) = some m := h
    cases h
    exact Out.defined_ok _
  · rcases hk with ⟨_, hk⟩ | ⟨_, hk⟩
    · have e : 16 + word safeFile 8 + word safeFile (12 + word safeFile 8) = 16 := by decide +kernel
      rw [e] at hk
      subst hk
      have : Out.okAnd (openStream safeEnv.dec (safeFile.drop 16)) (fun x => decide (CountsSmall x.2)) = true := by decide +kernel
      rw [h] at this
      simpa [Out.okAnd] using this
    · cases hk
  · have : ∀ f ∈ demoIn.files, f.md5.length ≤ 65 ∧ f.name.length + 3 < 2^16 := by decide +kernel
    have h : (.ok demoIn.files : Out (List FileInfo)) = .ok fs := h
    cases h
    exact this
  · cases hp
    have : Out.okAnd (readDelta safeEnv.dec safeEnv.rpmHead safeFile) (fun d => decide (d.type = .rpmonly ∧
        (d.intCount < 2^31 ∧ d.extCount < 2^31) ∧ d.tgtCompLevel ≤ 9 ∧
        112 + 16 * word d.tgtLeadsig 104 + word d.tgtLeadsig 108 ≤ d.tgtLeadsig.length ∧
        d.tgtHeaderLen ≤ producedBytes d.ints d.exts)) = true := by decide +kernel
    rw [hd] at this
    simp only [Out.okAnd, decide_eq_true_eq] at this
    obtain ⟨h1, h2, h3, h4, h5⟩ := this
    exact ⟨⟨h2, Or.inl h3, fun _ => h4, h5⟩, fun fs _ ht => by rw [h1] at ht; cases ht⟩

example : (applied safeEnv safeFile (.rpm (.ok safePkg)) 0).Defined :=
  C71_partial safeEnv safeFile _ 0 C71_example.1 C71_example.2.1 (Out.defined_ok _)
    (fun p h => by cases h; exact C71_example.2.2.1) C71_example.2.2.2.1

/-- C71 is violated: the same delta with a header longer than what the copies produce is accepted, and
    memory that was never written goes into the digest of the new package. -/
theorem C71_violated_header :
    applied safeEnv (sampleFile (safeStream 6 (safeLeadsig 4 4) 1 2 [2, 2, 5, 2^31 + 3, 2, 1] 20 [7, 8])) (.rpm (.ok safePkg)) 0 = .ub := by
  decide +kernel

/-- C71 is violated: the same delta with a signature one byte shorter than it declares itself is
    accepted, and the signature is read beyond its end. -/
theorem C71_violated_signature :
    applied safeEnv (sampleFile (safeStream 4 (safeLeadsig 4 3) 1 2 [2, 2, 5, 2^31 + 3, 2, 1] 20 [7, 8])) (.rpm (.ok safePkg)) 0 = .ub := by
  decide +kernel

/-- C71 is violated: the same delta with more copies declared than fit in memory. -/
theorem C71_violated_counts :
    applied safeEnv (sampleFile (safeStream 4 (safeLeadsig 4 4) (2^31) 0 [] 20 [])) (.rpm (.ok safePkg)) 0 = .ub := by
  decide +kernel

end Drpm
