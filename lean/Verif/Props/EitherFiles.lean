import Verif.Props.Either
import Verif.Props.Checked
/-!
# C106 for the bytes of the package and the headers in the database
-/

namespace Drpm

/-- C106 for files, as far as it holds. `old` is the file of the old package, `h` the header of the same package in the database; both
    have the same name, digest algorithm and file list. `used` are the files that the delta relies on: they are in the payload as they are on
    the disk (or prelink changed them). For every file `delta`: if it is refused when it is read, or is a standard delta for a binary package whose sequence
    stands for these files and which gives their length, both calls return the same and leave the same behind. -/
theorem C106_files_partial {η σ τ : Type} (w : World η σ τ) (old : PkgFile w.lib) (oa : Bytes) (oc : Comp) (hold : Unpacks w.U old oa oc)
    (fs : List FileInfo) (colors : Bool) (algo : Nat) (hf : HasFiles w.lib old.hdr fs colors ∧ getAlgo w.lib old.hdr = .ok algo)
    (db : Bytes → Option Bytes → Bytes → Bytes → Option η) (h : η) (colors' : Bool)
    (hh : HasFiles w.lib h fs colors' ∧ getNevr w.lib h = getNevr w.lib old.hdr ∧ getAlgo w.lib h = .ok algo)
    (ents : List (Bytes × Bytes)) (used : List Used) (disk : Disk) (get : Bytes → Option Bytes)
    (hc : Choice algo fs oa ents used) (hl : oa.length < 2^63)
    (hc' : DiskChoice algo fs disk get used) (hlim : (usedArchive used).length ≤ 2^44)
    (delta : Bytes) (hbin : deltaIsSource w.lib w.U delta = false)
    (hd : ∀ d, readDelta w.dec (readdeltaStandard w.lib w.U) delta = .ok d → d.type = .standard ∧ SequenceOf w.H algo used d.sequence ∧
      d.extDataLen = (usedArchive used).length ∧
      (∃ n e v r, splitNevr d.srcNevr = .ok (n, e, v, r) ∧ db n e v r = some h) ∧ DiskServes disk get used d.exts)
    (cleanup cleanup' : Nat) :
    applyFiles w old.file delta cleanup = applyInstalled w db disk delta cleanup' := by
  have hsame : SameButColors (fs.map (·.noColor)) fs := sameButColors_of fs true
  unfold applyFiles applyInstalled
  rw [rpmOf_file hold]
  refine C106_partial w.applyEnv (old.toRpm false oa oc) _ disk (pkgOf w.lib w.lib.new h false) hh.2.1.symm (fs.map (·.noColor)) (fs.map (·.noColor)) fs algo
    ⟨?_, hf.2, hsame⟩ ⟨?_, hh.2.2, hsame⟩ ents used get hc hl hc' hlim delta hbin (fun d hd' => ?_) true true cleanup cleanup'
  · show (pkgOf w.lib old.sig old.hdr false).files = _
    rw [files_of hf.1]
    simp
  · rw [files_of hh.1]
    simp
  · obtain ⟨h1, h2, h3, ⟨n, e, v, r, h4, h5⟩, h6⟩ := hd d hd'
    refine ⟨h1, h2, h3, ?_, h6⟩
    unfold readInstalled
    rw [h4, Out.bind_ok]
    simp only
    rw [h5]
    rfl

/-- What a made standard delta is when it is read: `standard_reads`, with the length of the old data and what its own header says. -/
theorem standard_reads_more {η σ τ : Type} (w : World η σ τ) (Ok : TagData → Prop) (hl : HeaderLaws w.lib Ok)
    (h16 : ∀ b, (w.H b).length = 16)
    (o : Opts Bytes) (ho : o.rpmOnly = false) (hv : 1 ≤ o.version ∧ o.version ≤ 3)
    (old new : PkgFile w.lib) (oa na : Bytes) (oc nc : Comp) (level : Nat)
    (hold : Unpacks w.U old oa oc) (fs : List FileInfo) (colors : Bool) (algo : Nat) (c : Made) (hb : GoodBase w o old oa fs colors algo c)
    (hnew : GoodNew w new na nc level)
    (hc : Comp) (hname : ∃ s, (s, hc) ∈ payloadNames ∧ w.lib.get new.hdr 1125 = some (.str (ascii s)))
    (hd : GoodDeltaComp w o new.lead nc level)
    (hsize : 16 ≤ na.length ∧ na.length < 2^63 ∧ (o.version < 3 → na.length < 2^32))
    (hsmall : c.cpio.length < 2^31 ∨ na.length < 2^31)
    (hcnt : FewCopies c.cpio na o.addblk)
    (hadd : GoodAdd (w.makeEnv new.lead) w.applyEnv o na.length) (hbin : ∃ s, w.lib.get new.hdr 1044 = some (.str s)) :
    ∃ delta d, makeFiles w o old.file new.file = .ok delta ∧ readDelta w.dec (readdeltaStandard w.lib w.U) delta = .ok d ∧
      d.type = .standard ∧ d.sequence = c.sequence ∧ getNevr w.lib old.hdr = .ok d.srcNevr ∧ d.extDataLen = c.cpio.length ∧
      deltaIsSource w.lib w.U delta = false := by
  obtain ⟨marked, head, hh, hsrc, hmk⟩ := goodHeader_of hl h16 hnew hc hname
  have hg := goodPair_of hl h16 (oa := oa) (oc := oc) hv hb.nevr hnew hd true
  obtain ⟨l, on, off, df, z, _, l1, e1, hp, hmade⟩ := standard_pair (w.makeEnv new.lead) w.applyEnv o (old.toRpm true oa oc) (new.toRpm true na nc)
    hg ho (oldInput w o oa fs colors algo) c (goodOld_of hb new.lead oc) marked head hc.code hh hsize hsmall hcnt hadd
  obtain ⟨cd, k1, k2⟩ := hg.codec l l1
  obtain ⟨file, r, w1, w2, w3, _⟩ := C07_roundtrip _ _ hmade cd k1 _ w.applyEnv.dec k2.toLossless head
    (readdeltaStandard w.lib w.U) hc.code (fun z => ⟨hh.found z, hh.magic z⟩)
  have ht : r.type = .standard := by
    rw [w3.type]
    show (if o.rpmOnly then _ else _) = _
    rw [if_neg (by rw [ho]; simp)]
  refine ⟨file, r, ?_, w2, ht, w3.sequence, ?_, ?_, ?_⟩
  · unfold makeFiles
    rw [file_take, rpmOf_file hold, rpmOf_file hnew.unpacks]
    unfold drpmMake
    rw [if_neg (by simp), if_neg (by rw [ho]; simp)]
    simp only [makeAny, Out.bind_ok, hp]
    have k1' : (fillDelta (w.makeEnv new.lead) o (new.toRpm true na nc) l on []
        { old := c.cpio, new := (new.toRpm true na nc).archive, sequence := c.sequence, offadj := c.offadjs,
          header := marked, headerLen := 0 } off df z).comp = cd.code := k1
    rw [k1', ← w1, show (w.makeEnv new.lead).rpmW marked = fun z => .ok (head z) from funext hh.wrote]
  · rw [w3.srcNevr]
    exact e1
  · rw [w3.extLen]
    rfl
  · rw [writeDelta_total] at w1
    obtain ⟨s, _, w1⟩ := Out.bind_eq_ok.mp w1
    obtain ⟨y, _, w1⟩ := Out.bind_eq_ok.mp w1
    have w1 := Out.ok.inj w1
    rw [← w1]
    have ht' := ht
    rw [w3.type] at ht'
    unfold writeHead
    rw [ht']
    obtain ⟨t, ht⟩ := hbin
    exact hsrc t ht y

namespace Toy

/-- All files of the old package, as they were installed. -/
def wholeDisk : Disk := { get := inOrderGet, undo := fun _ => .err .other }

theorem whole_choice : DiskChoice 0 inOrderIn.files wholeDisk inOrderGet demoUsed where
  listed := by decide +kernel
  path := by
    intro u hu
    have : ∀ u ∈ demoUsed, u.file.name = 47 :: u.path := by decide +kernel
    exact Or.inl (this u hu)
  once := by decide
  fit := disk_choice.fit
  regular := by
    intro u hu hr
    rcases List.mem_cons.mp hu with rfl | hu
    · exact ⟨rfl, rfl, Or.inr (Or.inl ⟨_, rfl, List.prefix_rfl, Or.inl rfl⟩)⟩
    · rcases List.mem_cons.mp hu with rfl | hu
      · exact absurd hr (by decide)
      · rcases List.mem_cons.mp hu with rfl | hu
        · exact ⟨rfl, rfl, Or.inr (Or.inl ⟨_, rfl, List.prefix_rfl, Or.inl rfl⟩)⟩
        · cases hu
  nodata := by decide +kernel
  md5 := fun _ u hu _ _ => by
    have : ∀ u ∈ demoUsed, u.file.md5 = List.replicate 32 97 := by decide +kernel
    rw [this u hu]
    exact ⟨List.replicate 16 0xAA, by decide +kernel, by decide⟩
  sha256 := nofun

theorem whole_serves (ext : List (Nat × Nat)) : DiskServes wholeDisk inOrderGet demoUsed ext where
  order := by
    intro k u hk _ _
    match k with
    | 0 => cases hk; rfl
    | 1 => cases hk; rfl
    | 2 => cases hk; rfl
    | k + 3 => cases hk
  served := by
    refine Or.inl ⟨by decide +kernel, ?_⟩
    rintro ⟨y, hy, hr, d, h1, e, e1, e2, _⟩
    rcases List.mem_cons.mp hy with rfl | hy
    · have e1 : some [104, 101, 108, 108, 111] = some e := e1
      cases e1
      exact absurd rfl e2
    · rcases List.mem_cons.mp hy with rfl | hy
      · exact absurd hr (by decide)
      · rcases List.mem_cons.mp hy with rfl | hy
        · have e1 : some [7, 7, 7] = some e := e1
          cases e1
          exact absurd rfl e2
        · cases hy

/-- Non-vacuity of C106 for files: the delta that `drpm_make` makes of the two packages. -/
theorem C106_demo (addblk : Bool) : ∃ delta, makeFiles world (demoOpts false 3 addblk) oldFile.file newFile.file = .ok delta ∧
    ∀ cleanup cleanup', applyFiles world oldFile.file delta cleanup = applyInstalled world db wholeDisk delta cleanup' := by
  obtain ⟨_, _, s3, s4, s5⟩ := demoSizes
  obtain ⟨c, hb, _⟩ := goodBase addblk
  have hsplit : splitNevr (ascii "a-1-1") = .ok (ascii "a", none, ascii "1", ascii "1") := by decide +kernel
  obtain ⟨delta, d, d1, d2, d3, d4, d5, d6, d7⟩ := standard_reads_more world Ok laws md5_16 (demoOpts false 3 addblk) rfl (by show 1 ≤ 3 ∧ 3 ≤ 3; omega)
    oldFile newFile demoArchive demoNewPkg.archive .gzip .gzip 9 (unpacks _ _ rfl)
    demoFiles false 0 c hb goodNew .gzip ⟨"gzip", by decide +kernel, by decide +kernel⟩ (goodComp _ rfl)
    ⟨by omega, by omega, fun _ => by omega⟩ (by omega) (FewCopies.of_size _ _ _ (by omega) (by omega) (by omega))
    (goodAdd _ _ _ _ (by omega)) ⟨ascii "a.src.rpm", by decide +kernel⟩
  obtain ⟨hch, r, r1, r2, r3⟩ := C93_made demoH md5_16 inOrderIn demoEnts demoUsed demo_payload (by decide +kernel) (by decide +kernel)
  have hin : makeCpio demoH inOrderIn = .ok c := hb.made
  rw [hin] at r1
  cases r1
  have d5 : getNevr lib oldFile.hdr = .ok d.srcNevr := d5
  rw [nevrs.1] at d5
  have d5 : d.srcNevr = ascii "a-1-1" := (Out.ok.inj d5).symm
  refine ⟨delta, d1, fun cleanup cleanup' => C106_files_partial world oldFile demoArchive .gzip (unpacks _ _ rfl) demoFiles false 0 ⟨demoHasFiles, demoAlgo⟩
    db oldFile.hdr false ⟨demoHasFiles, rfl, demoAlgo⟩ demoEnts demoUsed wholeDisk inOrderGet hch (by decide +kernel) whole_choice (by decide +kernel)
    delta d7 (fun d' hd' => ?_) cleanup cleanup'⟩
  rw [d2] at hd'
  cases hd'
  refine ⟨d3, ?_, ?_, ⟨_, _, _, _, by rw [d5]; exact hsplit, rfl⟩, whole_serves _⟩
  · rw [d4]
    exact r3
  · rw [d6, r2]

end Toy

end Drpm
