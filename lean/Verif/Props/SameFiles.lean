import Verif.Props.Check

/-!
# C52: what a sequence accepts

The sequence of a delta is accepted for a package only if that package has, at the places the sequence
names, the files the delta was made from. What "the same file" means is in `SeqSpec.lean` (`SameFile`); the
hash is any function that does not happen to give the same value for the two records in question.
-/

namespace Drpm

/-- The hash tells the files of two lists apart that a sequence names: the records of these files do not
    differ and have the same hash all the same. -/
def TellsApart (H : Bytes → Bytes) (algo : Nat) (fs gs : List FileInfo) (sequence : Bytes) : Prop :=
  ∀ order, decodeSeq fs.length (sequence.drop 16) = .ok order →
    H (orderRecords algo fs order) = H (orderRecords algo gs order) →
    orderRecords algo fs order = orderRecords algo gs order

theorem digestOk_of_fileDigest {algo : Nat} {f : FileInfo}
    (h : isReg f = true → 0 < f.size → ∃ d, fileDigest algo f = .ok d) : DigestOk algo f := by
  intro a b
  obtain ⟨d, hd⟩ := h a b
  rcases fileDigest_eq hd with ⟨h0, h1, h2⟩ | ⟨h0, h1, h2⟩ | ⟨h0, _⟩
  · exact ⟨fun _ => ⟨d, h1, h2⟩, fun e => absurd (h0.symm.trans e) (by decide)⟩
  · exact ⟨fun e => absurd (h0.symm.trans e) (by decide), fun _ => ⟨d, h1, h2⟩⟩
  · exact ⟨fun e => absurd (Or.inl e) h0, fun e => absurd (Or.inr e) h0⟩

/-- C52, lists. If a sequence is accepted for two file lists, whatever is checked about the files on disk,
    then it names the same places in both, and at each of them both lists have the same file. -/
theorem C52_lists (H : Bytes → Bytes) (algo : Nat) (fs gs : List FileInfo) (hf : ∀ f ∈ fs, f.Proper)
    (hg : ∀ g ∈ gs, g.Proper) (check check' : Bytes → Bytes → Nat → Out Unit) (sequence : Bytes)
    (places places' : List CpioFile) (h1 : expandSeq H fs algo check sequence = .ok places)
    (h2 : expandSeq H gs algo check' sequence = .ok places') (hH : TellsApart H algo fs gs sequence) :
    ∃ order, decodeSeq fs.length (sequence.drop 16) = .ok order ∧ decodeSeq gs.length (sequence.drop 16) = .ok order ∧
      ∀ i ∈ order, ∃ f g, fs[i]? = some f ∧ gs[i]? = some g ∧ SameFile algo f g := by
  obtain ⟨_, o1, a1, a2, a3⟩ := expandSeq_records h1
  obtain ⟨_, o2, b1, b2, b3⟩ := expandSeq_records h2
  have ho := decodeSeq_count a1 b1
  subst ho
  exact ⟨o1, a1, b1, orderRecords_inj hf hg o1 a2 b2 (hH o1 a1 (a3.symm.trans b3))⟩

/-- The files a sequence was made from are at the same places of every package it has been checked against. -/
theorem made_same (H : Bytes → Bytes) (hH : ∀ b, (H b).length = 16)
    (m : MakeIn) (r : Made) (hl : m.archive.length < 2^63) (hn : m.files.length < 2^32) (hf : FilesFit m)
    (hm : ∀ f ∈ m.files, f.Proper)
    (h : makeCpio H m = .ok r) (hu : ∀ es, Entries m.archive 0 es → (es.map AEnt.name).Nodup)
    (p : Pkg) (files : List FileInfo) (hp1 : p.files = .ok files) (hp2 : p.algo = .ok m.algo)
    (hp3 : ∀ f ∈ files, f.Proper) (passed : Nat → Bytes → Bytes → Nat → Prop)
    (hc : FilesChecked H p r.sequence passed) (ht : TellsApart H m.algo m.files files r.sequence) :
    ∀ es, Entries m.archive 0 es → ∀ e ∈ es, ∀ i f, keepFile m e.name e.size = some (i, f) →
      ∃ g, files[i]? = some g ∧ SameFile m.algo f g := by
  obtain ⟨places, hx⟩ := C18_verifies H hH m r hl hn hf h hu noCheck (fun _ _ _ _ _ _ => rfl)
  obtain ⟨_, o1, a1, a2, a3⟩ := expandSeq_records hx
  obtain ⟨files', algo', o2, b1, b2, b3, b4, b5, b6⟩ := hc.ok
  rw [hp1] at b1
  rw [hp2] at b2
  cases b1
  cases b2
  have ho := decodeSeq_count a1 b4
  subst ho
  have hnb : Named m.algo files o1 := by
    intro i hi
    obtain ⟨g, g1, g2⟩ := b6 i hi
    exact ⟨g, g1, digestOk_of_fileDigest (fun x y => let ⟨d, q, _⟩ := g2 x y; ⟨d, q⟩)⟩
  have key := orderRecords_inj hm hp3 o1 a2 hnb (ht o1 a1 (a3.symm.trans b5))
  intro es hes e he i f hk
  obtain ⟨es', md, s, c1, _, c3, c4, c5, _⟩ := makeCpio_spec hl hf h
  have hee : es' = es := entries_unique c1 es hes
  subst hee
  have hlt : ∀ i ∈ (kept m es').map (fun x => x.1), i < m.files.length := by
    intro i hi
    rw [List.mem_map] at hi
    obtain ⟨⟨j, g, e⟩, h1, rfl⟩ := hi
    exact (List.getElem?_eq_some_iff.mp (keepFile_spec (kept_mem h1).2).1).1
  obtain ⟨bs, d1, d2⟩ := encode_decode m.files.length hn _ hlt (nodup_length_le _ _ (kept_nodup (m := m) (hu es' c1)) hlt)
  rw [c4] at d1
  cases d1
  have hdrop : r.sequence.drop 16 = s := by
    rw [c5, List.drop_append, hH, List.drop_eq_nil_of_le (by rw [hH]; omega)]; simp
  rw [hdrop, d2] at a1
  have ho := (Out.ok.inj a1)
  have hi : i ∈ o1 := by
    rw [← ho, List.mem_map]
    refine ⟨(i, f, e), ?_, rfl⟩
    unfold kept
    rw [List.mem_filterMap]
    exact ⟨e, he, by rw [hk]; rfl⟩
  obtain ⟨f', g, k1, k2, k3⟩ := key i hi
  rw [(keepFile_spec hk).1] at k1
  cases k1
  exact ⟨g, k2, k3⟩

/-- C52, delta. If `drpm_check` succeeds for a standard delta made from a package, then a package of the
    recorded name and version is installed that has the same file at the same place for every file of the
    old archive the delta relies on. -/
theorem C52_check (sys : Sys) (H : Bytes → Bytes) (hH : ∀ b, (H b).length = 16)
    (m : MakeIn) (r : Made) (hl : m.archive.length < 2^63) (hn : m.files.length < 2^32) (hf : FilesFit m)
    (hm : ∀ f ∈ m.files, f.Proper)
    (h : makeCpio H m = .ok r) (hu : ∀ es, Entries m.archive 0 es → (es.map AEnt.name).Nodup)
    (db : Db) (dec : Decoder) (rpmHead : Bytes → Out (Nat × Nat)) (file : Bytes) (mode : Int)
    (hok : drpmCheck sys H db dec rpmHead file mode = .ok ())
    (d : Delta) (hd : readDelta dec rpmHead file = .ok d) (ht : d.type = .standard) (hds : d.sequence = r.sequence) :
    ∃ n e v rel p, splitNevr d.srcNevr = .ok (n, e, v, rel) ∧ db n e v rel = some p ∧ p.nevr = .ok d.srcNevr ∧
      ∀ files, p.files = .ok files → p.algo = .ok m.algo → (∀ f ∈ files, f.Proper) →
        TellsApart H m.algo m.files files r.sequence →
        ∀ es, Entries m.archive 0 es → ∀ e ∈ es, ∀ i f, keepFile m e.name e.size = some (i, f) →
          ∃ g, files[i]? = some g ∧ SameFile m.algo f g := by
  obtain ⟨_, d', p, e1, ⟨n, e, v, rel, s1, s2⟩, e3, e4⟩ := C55_check sys H db dec rpmHead file mode hok
  rw [hd] at e1
  cases e1
  have hc := e4 ht
  rw [hds] at hc
  exact ⟨n, e, v, rel, p, s1, s2, e3, fun files p1 p2 p3 p4 =>
    made_same H hH m r hl hn hf hm h hu p files p1 p2 p3 _ hc p4⟩

/-- C52, sequence ID. The same for `drpm_check_sequence` with the sequence ID of such a delta: against the
    installed packages, and against a package file unless the 16 bytes are the MD5 in its signature. -/
theorem C52_sequence (sys : Sys) (H : Bytes → Bytes) (hH : ∀ b, (H b).length = 16)
    (m : MakeIn) (r : Made) (hl : m.archive.length < 2^63) (hn : m.files.length < 2^32) (hf : FilesFit m)
    (hm : ∀ f ∈ m.files, f.Proper)
    (h : makeCpio H m = .ok r) (hu : ∀ es, Entries m.archive 0 es → (es.map AEnt.name).Nodup)
    (hr : r.sequence.length < 2^31) (nevr : Bytes) (hne : nevr ≠ []) (line : Bytes)
    (hline : seqLine nevr r.sequence = .ok (line ++ [10]))
    (db : Db) (oldRpm : Option (Out Pkg)) (mode : Int)
    (hok : drpmCheckSequence sys H db oldRpm line mode = .ok ()) :
    ∃ p, p.nevr = .ok nevr ∧
      (oldRpm = none → ∃ n e v rel, splitNevr nevr = .ok (n, e, v, rel) ∧ db n e v rel = some p) ∧
      (∀ q, oldRpm = some q → q = .ok p) ∧
      ((oldRpm ≠ none ∧ p.sigMd5 = .ok (some r.sequence)) ∨
        ∀ files, p.files = .ok files → p.algo = .ok m.algo → (∀ f ∈ files, f.Proper) →
          TellsApart H m.algo m.files files r.sequence →
          ∀ es, Entries m.archive 0 es → ∀ e ∈ es, ∀ i f, keepFile m e.name e.size = some (i, f) →
            ∃ g, files[i]? = some g ∧ SameFile m.algo f g) := by
  have hseq : 16 ≤ r.sequence.length := by
    obtain ⟨es, md, s, _, _, _, _, e5, _⟩ := makeCpio_spec hl hf h
    rw [e5, List.length_append, hH]
    omega
  obtain ⟨line', l1, l2, l3⟩ := C19_roundtrip nevr r.sequence hne ⟨hseq, hr⟩
  rw [hline] at l1
  have hll := List.append_cancel_right (Out.ok.inj l1)
  subst hll
  obtain ⟨_, nevr', seq', p, s1, s2, s3, s4⟩ := C55_sequence sys H db oldRpm line mode hok
  rw [l3] at s1
  cases s1
  have key : ∀ passed, FilesChecked H p r.sequence passed → _ := fun passed hc files p1 p2 p3 p4 =>
    made_same H hH m r hl hn hf hm h hu p files p1 p2 p3 passed hc p4
  refine ⟨p, s2, fun e => (s3 e).1, fun q e => (s4 q e).2.1, ?_⟩
  cases oldRpm with
  | none => exact Or.inr (key _ (s3 rfl).2)
  | some q =>
    rcases (s4 q rfl).2.2 with ⟨_, hs⟩ | hc
    · exact Or.inl ⟨by simp, hs⟩
    · exact Or.inr (key _ hc)

/-! ## A concrete case -/

/-- A hash of sixteen bytes that depends on every byte. -/
def sumH : Bytes → Bytes := fun b =>
  let v := b.foldl (fun a x => (a * 257 + x.toNat + 1) % 2^61) 7
  createBe32 (v / 2^32) ++ createBe32 (v % 2^32) ++ zeros 8

theorem sumH_length (b : Bytes) : (sumH b).length = 16 := by
  simp [sumH, createBe32, zeros]

/-- The file list of the demonstration package with another mode for the last file. -/
def otherFiles : List FileInfo :=
  [demoFile [47, 97] 0o100644 5 [], demoFile [47, 98] 0o120777 1 [97], demoFile [47, 99] 0o100644 2 [],
    demoFile [47, 100] 0o100644 3 []]

/-- The file list of the demonstration package with another size for the file that the archive has with a
    size of its own, so that the delta does not rely on it. -/
def looseFiles : List FileInfo :=
  [demoFile [47, 97] 0o100644 5 [], demoFile [47, 98] 0o120777 1 [97], demoFile [47, 99] 0o100644 9 [],
    demoFile [47, 100] 0o100755 3 []]

theorem demo_proper : ∀ f ∈ demoIn.files ++ otherFiles ++ looseFiles, f.Proper := by
  intro f hf
  have : ∀ f ∈ demoIn.files ++ otherFiles ++ looseFiles, 0 ∉ f.name ∧ 0 ∉ f.linkto ∧ f.linkto.length < 2^32 ∧
      f.mode < 2^16 ∧ f.rdev < 2^16 ∧ f.size < 2^32 := by decide +kernel
  obtain ⟨a, b, c, d, e, g⟩ := this f hf
  exact ⟨a, b, c, d, e, g⟩

/-- The sequence of the demonstration package is accepted for its own file list and for one that differs
    only in a file the delta does not rely on; a list with another mode is refused, and the hash tells the
    records apart, as the theorems ask. -/
example : Out.okAnd (makeCpio sumH demoIn) (fun r =>
    Out.okAnd (expandSeq sumH demoIn.files 0 noCheck r.sequence) (fun _ => true) &&
    Out.okAnd (expandSeq sumH looseFiles 0 noCheck r.sequence) (fun _ => true) &&
    (match expandSeq sumH otherFiles 0 noCheck r.sequence with | .err .mismatch => true | _ => false) &&
    Out.okAnd (decodeSeq 4 (r.sequence.drop 16)) (fun order => order == [0, 1, 3] &&
      orderRecords 0 demoIn.files order != orderRecords 0 otherFiles order &&
      sumH (orderRecords 0 demoIn.files order) != sumH (orderRecords 0 otherFiles order) &&
      orderRecords 0 demoIn.files order == orderRecords 0 looseFiles order)) = true := by decide +kernel

/-- The hypotheses of C52_check and C52_sequence hold for the demonstration package and this hash. -/
example : (∀ f ∈ demoIn.files, f.Proper) ∧ FilesFit demoIn ∧ (∀ b, (sumH b).length = 16) ∧
    (∀ es, Entries demoIn.archive 0 es → (es.map AEnt.name).Nodup) ∧
    Out.okAnd (makeCpio sumH demoIn) (fun r => Out.okAnd (seqLine [97, 45, 49, 45, 50] r.sequence) (fun line =>
      drpmCheckSequence demoInstalled sumH demoDb none line.dropLast 1 = .ok ())) = true :=
  ⟨fun f hf => demo_proper f (List.mem_append_left _ (List.mem_append_left _ hf)), demo_fits, sumH_length,
    fun es he => (demo_plain es he).unique, by decide +kernel⟩

end Drpm
