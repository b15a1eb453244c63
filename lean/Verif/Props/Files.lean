import Verif.CacheOnce
import Verif.PrelinkFillLemmas
import Verif.Props.Cpio
import Verif.Props.Prelink
/-!
# Reading installed files when a delta is applied (C40)
-/

namespace Drpm

/-- What a block is if no prelinked file is met. (Prelinked files: see `C40_prelinked_partial`.) -/
def FsRes.plain : FsRes → Out Bytes
  | .block b => .ok b
  | .prelink _ => .err .prog

/-- Asking for blocks one after the other. -/
def readBlocks (r : FsIn) : FsSt → List Nat → Out (List Bytes)
  | _, [] => .ok []
  | s, id :: ids => do
    let (o, s) ← fsBlock r s id
    let b ← o.plain
    let bs ← readBlocks r s ids
    .ok (b :: bs)

theorem seqLoop_inv {files : List FileInfo} {algo : Nat} {check : Bytes → Bytes → Nat → Out Unit} :
    ∀ (pos : List Nat) (md : Bytes) (out : List CpioFile) (off : Nat) (md' : Bytes) (out' : List CpioFile) (off' : Nat),
      seqLoop files algo check pos md out off = .ok (md', out', off') →
      (∀ i ∈ pos, ∃ f, files[i]? = some f) ∧ out' = out ++ seqPlaces (namedFiles files pos) off ∧
      off' = seqEnd (namedFiles files pos) off := by
  intro pos
  induction pos with
  | nil =>
    intro md out off md' out' off' h
    cases h
    exact ⟨fun i hi => by (cases hi), by simp [namedFiles, seqPlaces], rfl⟩
  | cons i pos ih =>
    intro md out off md' out' off' h
    rw [seqLoop, Out.bind_eq_ok] at h
    obtain ⟨f, hf, h⟩ := h
    have hf := rd_eq_ok.mp hf
    rw [Out.bind_eq_ok] at h
    obtain ⟨b, _, h⟩ := h
    obtain ⟨h1, h2, h3⟩ := ih _ _ _ _ _ _ h
    have e : namedFiles files (i :: pos) = (i, f) :: namedFiles files pos := by
      simp [namedFiles, hf]
    refine ⟨?_, ?_, ?_⟩
    · intro j hj
      rcases List.mem_cons.mp hj with rfl | hj
      · exact ⟨f, hf⟩
      · exact h1 j hj
    · rw [h2, e, seqPlaces]; simp
    · rw [h3, e, seqEnd]

theorem expandSeq_inv {H : Bytes → Bytes} {files : List FileInfo} {algo : Nat} {check : Bytes → Bytes → Nat → Out Unit}
    {sequence : Bytes} {places : List CpioFile} (h : expandSeq H files algo check sequence = .ok places) :
    ∃ pos, decodeSeq files.length (sequence.drop 16) = .ok pos ∧ (∀ i ∈ pos, ∃ f, files[i]? = some f) ∧
      places = seqPlaces (namedFiles files pos) 0 ++ [trailerPlace (seqEnd (namedFiles files pos) 0)] := by
  unfold expandSeq at h
  split at h
  · cases h
  · rw [Out.bind_eq_ok] at h
    obtain ⟨pos, hp, h⟩ := h
    rw [Out.bind_eq_ok] at h
    obtain ⟨⟨md, out, off⟩, hs, h⟩ := h
    simp only at h
    split at h
    · cases h
    · obtain ⟨h1, h2, h3⟩ := seqLoop_inv _ _ _ _ _ _ _ hs
      refine ⟨pos, hp, h1, ?_⟩
      cases h
      rw [h2, h3, List.nil_append]

/-- File `i` is entry `i` of the archive, for every file whose contents are needed. -/
def InOrder (files : List FileInfo) (pos : List Nat) : Prop :=
  ∀ i ∈ pos, ∀ f, files[i]? = some f → needsOpen (i, f) = true → pos[i]? = some i

theorem namedFiles_get {files : List FileInfo} : ∀ {pos : List Nat}, (∀ i ∈ pos, ∃ f, files[i]? = some f) →
    ∀ (k i : Nat), pos[k]? = some i → ∃ f, (namedFiles files pos)[k]? = some (i, f) ∧ files[i]? = some f := by
  intro pos
  induction pos with
  | nil => intro _ k i h; simp at h
  | cons j pos ih =>
    intro hall k i h
    obtain ⟨g, hg⟩ := hall j (by simp)
    have e : namedFiles files (j :: pos) = (j, g) :: namedFiles files pos := by simp [namedFiles, hg]
    rw [e]
    cases k with
    | zero =>
      simp only [List.getElem?_cons_zero, Option.some.injEq] at h
      subst h
      exact ⟨g, rfl, hg⟩
    | succ k =>
      rw [List.getElem?_cons_succ] at h ⊢
      exact ih (fun x hx => hall x (by simp [hx])) k i h

theorem namedFiles_mem {files : List FileInfo} {pos : List Nat} {x : Nat × FileInfo} (h : x ∈ namedFiles files pos) :
    x.1 ∈ pos ∧ files[x.1]? = some x.2 := by
  unfold namedFiles at h
  rw [List.mem_filterMap] at h
  obtain ⟨i, hi, h⟩ := h
  cases hf : files[i]? with
  | none => rw [hf] at h; cases h
  | some f => rw [hf] at h; cases h; exact ⟨hi, hf⟩

theorem padTake_dataBlock (data : Bytes) (id : Nat) : padTake data (8192 * id) 8192 = dataBlock data id := by
  unfold padTake dataBlock slice zeros
  congr 1
  rw [List.length_take, List.length_drop]
  congr 1
  omega

theorem fsBase_of {H : Bytes → Bytes} {files : List FileInfo} {algo : Nat} {check : Bytes → Bytes → Nat → Out Unit}
    {sequence : Bytes} {places : List CpioFile} {pos : List Nat} {disk : Disk} {get : Bytes → Option Bytes}
    (hx : expandSeq H files algo check sequence = .ok places)
    (hpos : decodeSeq files.length (sequence.drop 16) = .ok pos)
    (hfit : ∀ f ∈ files, f.Fits) (hinst : Installed disk get (namedFiles files pos))
    (hsmall : (diskArchive get (namedFiles files pos)).length < 2^63) (hord : InOrder files pos) :
    FsBase ⟨disk, files, places⟩ get (namedFiles files pos) := by
  have hpres : Present get (namedFiles files pos) := fun x hx hr => by
    obtain ⟨d, d1, d2, _⟩ := hinst x hx hr
    exact ⟨d, d1, d2⟩
  obtain ⟨pos', p1, p2, p3⟩ := expandSeq_inv hx
  rw [hpos] at p1
  cases p1
  have hks : ∀ k x, (namedFiles files pos)[k]? = some x → (seqPlaces (namedFiles files pos) 0)[k]? =
      some (seqPlace x.1 x.2 (diskEntries get ((namedFiles files pos).take k)).length) := by
    intro k x hk
    have := (seqPlaces_spec (namedFiles files pos) 0 hpres
      (fun x hx => hfit x.2 (List.mem_of_getElem? (namedFiles_mem hx).2)) (by
        unfold diskArchive at hsmall; rw [List.length_append] at hsmall; omega)).2.2 k x hk
    rw [Nat.zero_add] at this
    exact this
  refine
    { places := p3
      small := by unfold diskArchive at hsmall; rw [List.length_append] at hsmall; omega
      fits := fun x hx => hfit x.2 (List.mem_of_getElem? (namedFiles_mem hx).2)
      files := fun x hx => (namedFiles_mem hx).2
      installed := hinst
      straight := ?_ }
  intro x hx ho
  obtain ⟨h1, h2⟩ := namedFiles_mem hx
  obtain ⟨f, g1, g2⟩ := namedFiles_get p2 x.1 x.1 (hord x.1 h1 x.2 h2 ho)
  have := hks x.1 (x.1, f) g1
  refine ⟨seqPlace x.1 f (diskEntries get ((namedFiles files pos).take x.1)).length, ?_, rfl⟩
  simp only
  rw [p3, List.getElem?_append_left (List.getElem?_eq_some_iff.mp this).1, this]

theorem fsOk_of {H : Bytes → Bytes} {files : List FileInfo} {algo : Nat} {check : Bytes → Bytes → Nat → Out Unit}
    {sequence : Bytes} {places : List CpioFile} {pos : List Nat} {disk : Disk} {get : Bytes → Option Bytes}
    (hx : expandSeq H files algo check sequence = .ok places)
    (hpos : decodeSeq files.length (sequence.drop 16) = .ok pos)
    (hfit : ∀ f ∈ files, f.Fits) (hinst : Installed disk get (namedFiles files pos))
    (hsmall : (diskArchive get (namedFiles files pos)).length < 2^63) (hord : InOrder files pos)
    (hfew : ((namedFiles files pos).filter needsOpen).length ≤ 50) :
    FsOk ⟨disk, files, places⟩ get (namedFiles files pos) :=
  { fsBase_of hx hpos hfit hinst hsmall hord with few := hfew }

/-- C40, as far as it holds. For every file list and every accepted sequence: if file `i` is entry
    `i` of the archive wherever contents are needed, the named regular files are installed with the
    expected size, and whenever the contents of a file are needed again fewer than 50 other files
    were needed since, then each block asked for is the block of the archive in which every entry
    has the contents of the file it names. The two conditions on order and number are needed only
    because of defects, see `C40_violated_order`, `C40_violated_skipped` and `C40_violated_many`. -/
theorem C40_soon_partial (H : Bytes → Bytes) (files : List FileInfo) (algo : Nat) (check : Bytes → Bytes → Nat → Out Unit)
    (sequence : Bytes) (places : List CpioFile) (pos : List Nat) (disk : Disk)
    (hx : expandSeq H files algo check sequence = .ok places)
    (hpos : decodeSeq files.length (sequence.drop 16) = .ok pos)
    (hfit : ∀ f ∈ files, f.Fits) (hpres : Present disk.get (namedFiles files pos))
    (hsmall : (diskArchive disk.get (namedFiles files pos)).length < 2^63) (hord : InOrder files pos)
    (ids : List Nat) (hids : ∀ id ∈ ids, 8192 * id < (diskArchive disk.get (namedFiles files pos)).length)
    (hsoon : SoonAgain (ids.flatMap (blockFiles disk.get (namedFiles files pos)))) :
    readBlocks ⟨disk, files, places⟩ FsSt.init ids =
      .ok (ids.map (dataBlock (diskArchive disk.get (namedFiles files pos)))) := by
  have hinst : Installed disk disk.get (namedFiles files pos) := fun x hx hr => by
    obtain ⟨d, d1, d2⟩ := hpres x hx hr
    exact ⟨d, d1, d2, Or.inr (Or.inl ⟨d, d1, List.prefix_rfl, Or.inl d2⟩)⟩
  have hok := fsBase_of hx hpos hfit hinst hsmall hord
  have : ∀ (ids u : List Nat) (s : FsSt), FsAfter ⟨disk, files, places⟩ disk.get (namedFiles files pos) u s →
      (∀ id ∈ ids, 8192 * id < (diskArchive disk.get (namedFiles files pos)).length) →
      SoonAgain (u ++ ids.flatMap (blockFiles disk.get (namedFiles files pos))) →
      readBlocks ⟨disk, files, places⟩ s ids =
        .ok (ids.map (dataBlock (diskArchive disk.get (namedFiles files pos)))) := by
    intro ids
    induction ids with
    | nil => intro u s _ _ _; rfl
    | cons id ids ih =>
      intro u s hs hids hsoon
      rw [List.flatMap_cons, ← List.append_assoc] at hsoon
      rcases fsBlock_uses hok hs (hids id (by simp)) hsoon.init with ⟨s', e1, e2⟩ | ⟨_, k, _, _, _, _, _, _, _, x, d, x1, x2, x3, ⟨e, e1, e2, _⟩, _⟩
      · rw [readBlocks, e1, Out.bind_ok]
        simp only [FsRes.plain]
        rw [Out.bind_ok, ih _ s' e2 (fun x hx => hids x (by simp [hx])) hsoon, Out.bind_ok, padTake_dataBlock]
        rfl
      · exfalso
        obtain ⟨d', d1, d2⟩ := hpres x (List.mem_of_getElem? x1) x2
        simp only at e1
        rw [e1] at d1
        cases d1
        exact e2 d2
  exact this ids [] FsSt.init (FsAfter.init _ _ _) hids hsoon

/-- C40 for packages with at most 50 files that are not empty: blocks may be asked for in whatever
    order and however often. -/
theorem C40_partial (H : Bytes → Bytes) (files : List FileInfo) (algo : Nat) (check : Bytes → Bytes → Nat → Out Unit)
    (sequence : Bytes) (places : List CpioFile) (pos : List Nat) (disk : Disk)
    (hx : expandSeq H files algo check sequence = .ok places)
    (hpos : decodeSeq files.length (sequence.drop 16) = .ok pos)
    (hfit : ∀ f ∈ files, f.Fits) (hpres : Present disk.get (namedFiles files pos))
    (hsmall : (diskArchive disk.get (namedFiles files pos)).length < 2^63) (hord : InOrder files pos)
    (hfew : ((namedFiles files pos).filter needsOpen).length ≤ 50)
    (ids : List Nat) (hids : ∀ id ∈ ids, 8192 * id < (diskArchive disk.get (namedFiles files pos)).length) :
    readBlocks ⟨disk, files, places⟩ FsSt.init ids =
      .ok (ids.map (dataBlock (diskArchive disk.get (namedFiles files pos)))) := by
  refine C40_soon_partial H files algo check sequence places pos disk hx hpos hfit hpres hsmall hord ids hids
    (soonAgain_few (m := ((namedFiles files pos).filter needsOpen).map (fun x => x.1)) (by rw [List.length_map]; exact hfew) ?_)
  intro i hi
  rw [List.mem_flatMap] at hi
  obtain ⟨id, _, hi⟩ := hi
  exact filesBetween_mem hi

/-- If no file is named twice, the files are in the order of the file list. -/
theorem inOrder_straight {H : Bytes → Bytes} {files : List FileInfo} {algo : Nat} {check : Bytes → Bytes → Nat → Out Unit}
    {sequence : Bytes} {places : List CpioFile} {pos : List Nat} (hx : expandSeq H files algo check sequence = .ok places)
    (hpos : decodeSeq files.length (sequence.drop 16) = .ok pos) (hnd : pos.Nodup) (hord : InOrder files pos) :
    ∀ (k : Nat) (x : Nat × FileInfo), (namedFiles files pos)[k]? = some x → needsOpen x = true → x.1 = k := by
  intro k x hk hn
  obtain ⟨pos', p1, p2, p3⟩ := expandSeq_inv hx
  rw [hpos] at p1
  cases p1
  have hlen : ∀ (l : List Nat), (∀ i ∈ l, ∃ f, files[i]? = some f) → (namedFiles files l).map (fun x => x.1) = l := by
    intro l
    induction l with
    | nil => intro _; rfl
    | cons i l ih =>
      intro h
      obtain ⟨f, hf⟩ := h i (by simp)
      have e : namedFiles files (i :: l) = (i, f) :: namedFiles files l := by simp [namedFiles, hf]
      rw [e, List.map_cons, ih (fun j hj => h j (by simp [hj]))]
  have hpk : pos[k]? = some x.1 := by
    rw [← hlen pos p2, List.getElem?_map, hk]; rfl
  obtain ⟨h1, h2⟩ := namedFiles_mem (List.mem_of_getElem? hk)
  have hpi := hord x.1 h1 x.2 h2 hn
  have hlt := (List.getElem?_eq_some_iff.mp hpk).1
  exact ((List.getElem?_inj hlt hnd).mp (hpk.trans hpi.symm)).symm

/-- C40 for packages with any number of files, if no file is named twice and the blocks are asked for
    in the order of the archive (blocks may be left out). -/
theorem C40_forward_partial (H : Bytes → Bytes) (files : List FileInfo) (algo : Nat) (check : Bytes → Bytes → Nat → Out Unit)
    (sequence : Bytes) (places : List CpioFile) (pos : List Nat) (disk : Disk)
    (hx : expandSeq H files algo check sequence = .ok places)
    (hpos : decodeSeq files.length (sequence.drop 16) = .ok pos) (hnd : pos.Nodup)
    (hfit : ∀ f ∈ files, f.Fits) (hpres : Present disk.get (namedFiles files pos))
    (hsmall : (diskArchive disk.get (namedFiles files pos)).length < 2^63) (hord : InOrder files pos)
    (ids : List Nat) (hinc : ids.Pairwise (fun a b => a < b))
    (hids : ∀ id ∈ ids, 8192 * id < (diskArchive disk.get (namedFiles files pos)).length) :
    readBlocks ⟨disk, files, places⟩ FsSt.init ids =
      .ok (ids.map (dataBlock (diskArchive disk.get (namedFiles files pos)))) := by
  refine C40_soon_partial H files algo check sequence places pos disk hx hpos hfit hpres hsmall hord ids hids
    (soonAgain_sorted (blockFiles_sorted hpres (inOrder_straight hx hpos hnd hord) ids hinc))

/-- C40 for packages with any number of files, none of which prelink has changed: if the blocks of the
    archive fit into the cache (`limit` blocks; 5000 in the library), reconstruction from the
    installed files does the same as reconstruction from the archive, provided that whenever the
    contents of a file are needed again fewer than 50 other files were needed since, blocks being
    read where the copies need them first. -/
theorem C40_cache_soon_partial (H : Bytes → Bytes) (files : List FileInfo) (algo : Nat)
    (check : Bytes → Bytes → Nat → Out Unit) (sequence : Bytes) (places : List CpioFile) (pos : List Nat) (disk : Disk)
    (get : Bytes → Option Bytes)
    (hx : expandSeq H files algo check sequence = .ok places)
    (hpos : decodeSeq files.length (sequence.drop 16) = .ok pos)
    (hfit : ∀ f ∈ files, f.Fits) (hinst : Installed disk get (namedFiles files pos))
    (hnp : ∀ x ∈ namedFiles files pos, ¬ Changed disk get x)
    (hl : (diskArchive get (namedFiles files pos)).length < 2^63) (hord : InOrder files pos)
    (ext ints : List (Nat × Nat)) (hi : CopiesInside (diskArchive get (namedFiles files pos)).length 0 ext)
    (he : EndsPositive 0 ext) (limit : Nat) (hlim : (diskArchive get (namedFiles files pos)).length ≤ 8192 * limit)
    (hsoon : SoonAgain ((firstUses (blocksAsked 0 ext)).flatMap (blockFiles get (namedFiles files pos))))
    (cleanup : Nat) (cfg : CacheCfg)
    (hc : tablesFor (diskArchive get (namedFiles files pos)).length ext limit = .ok cfg) (useAdd : Bool)
    (intData add : Bytes) :
    reconWrites (blocksNext cfg (diskFiller cfg ⟨disk, files, places⟩)) (emptyCache FsSt.init cleanup) useAdd ext ints
      intData add =
    reconWrites (flatNext (diskArchive get (namedFiles files pos))) () useAdd ext ints intData add := by
  have hok := fsBase_of hx hpos hfit hinst hl hord
  have h0 : 0 < (diskArchive get (namedFiles files pos)).length := by
    unfold diskArchive
    rw [List.length_append, trailerBytes_length]
    omega
  obtain ⟨hr, hm, hn⟩ := ready_of_create h0 hl hi he hc
  have hfill : FillsOnce cfg (dataBlock (diskArchive get (namedFiles files pos)))
      (fun L s => FsAfter ⟨disk, files, places⟩ get (namedFiles files pos) (L.flatMap (blockFiles get (namedFiles files pos))) s)
      (firstUses (blocksAsked 0 ext)) (diskFiller cfg ⟨disk, files, places⟩) := by
    rintro c a id cnt L hid ⟨rest, hF⟩ hs
    have hlt : 8192 * id < (diskArchive get (namedFiles files pos)).length := by rw [hn] at hid; omega
    rw [← hF, List.append_assoc, List.flatMap_append, List.flatMap_append, ← List.append_assoc, List.flatMap_singleton] at hsoon
    unfold diskFiller
    rcases fsBlock_uses hok hs hlt hsoon.init with ⟨s', e1, e2⟩ | ⟨_, k, _, _, _, _, _, _, _, x, d, x1, x2, x3, hch, _⟩
    · rw [e1, Out.bind_ok]
      simp only
      refine ⟨s', by rw [padTake_dataBlock], ?_⟩
      rw [List.flatMap_append, List.flatMap_singleton]
      exact e2
    · exact absurd ⟨x2, d, x3, hch⟩ (hnp x (List.mem_of_getElem? x1))
  rw [← requests_blocks ext 0 0] at hfill
  exact reconLoop_feed (feeds_roomy hfill (by rw [hn, hm]; omega) (fun k _ => dataBlock_length _ k))
    (fun k _ => dataBlock_length _ k) (fun k _ => dataBlock_prefix _ k) hl useAdd ints ext intData
    ⟨emptyCache FsSt.init cleanup, 0, 0, add, []⟩ hi
    (roomy_init (I := fun L s => FsAfter ⟨disk, files, places⟩ get (namedFiles files pos)
      (L.flatMap (blockFiles get (namedFiles files pos))) s) (FsAfter.init _ _ _) (requests_sorted ext 0 0) (requests_ready ext 0 0 hr))

/-- C40 for packages with any number of files, none of which prelink has changed, and copies that never go back in the old payload. -/
theorem C40_cache_forward_partial (H : Bytes → Bytes) (files : List FileInfo) (algo : Nat)
    (check : Bytes → Bytes → Nat → Out Unit) (sequence : Bytes) (places : List CpioFile) (pos : List Nat) (disk : Disk)
    (get : Bytes → Option Bytes)
    (hx : expandSeq H files algo check sequence = .ok places)
    (hpos : decodeSeq files.length (sequence.drop 16) = .ok pos) (hnd : pos.Nodup)
    (hfit : ∀ f ∈ files, f.Fits) (hinst : Installed disk get (namedFiles files pos))
    (hnp : ∀ x ∈ namedFiles files pos, ¬ Changed disk get x)
    (hl : (diskArchive get (namedFiles files pos)).length < 2^63) (hord : InOrder files pos)
    (ext ints : List (Nat × Nat)) (hi : CopiesInside (diskArchive get (namedFiles files pos)).length 0 ext)
    (he : EndsPositive 0 ext) (limit : Nat) (hlim : (diskArchive get (namedFiles files pos)).length ≤ 8192 * limit)
    (hfw : Forward ext) (cleanup : Nat) (cfg : CacheCfg)
    (hc : tablesFor (diskArchive get (namedFiles files pos)).length ext limit = .ok cfg) (useAdd : Bool)
    (intData add : Bytes) :
    reconWrites (blocksNext cfg (diskFiller cfg ⟨disk, files, places⟩)) (emptyCache FsSt.init cleanup) useAdd ext ints
      intData add =
    reconWrites (flatNext (diskArchive get (namedFiles files pos))) () useAdd ext ints intData add :=
  C40_cache_soon_partial H files algo check sequence places pos disk get hx hpos hfit hinst hnp hl hord ext ints hi he limit hlim
    (soonAgain_sorted (blockFiles_sorted (fsBase_of hx hpos hfit hinst hl hord).present (inOrder_straight hx hpos hnd hord) _
      (firstUses_sorted _ (blocksAsked_sorted ext 0 hfw)))) cleanup cfg hc useAdd intData add

/-- The installed files serve the block cache, prelinked or not. -/
theorem files_serve {r : FsIn} {get : Bytes → Option Bytes} {ks : List (Nat × FileInfo)} (hok : FsOk r get ks)
    (hsafe : PrelinkSafe r.disk get ks) {ext : List (Nat × Nat)} {limit : Nat} {cfg : CacheCfg}
    (hl : (diskArchive get ks).length < 2^63) (hi : CopiesInside (diskArchive get ks).length 0 ext)
    (he : EndsPositive 0 ext) (hlim : 0 < limit) (hc : tablesFor (diskArchive get ks).length ext limit = .ok cfg) :
    Serves cfg (dataBlock (diskArchive get ks)) (diskFiller cfg r)
      (CacheAny cfg (dataBlock (diskArchive get ks)) (FsInv r get ks)) ∧
    Ready cfg (diskArchive get ks).length 0 0 ext ∧ cfg.maxCore = limit := by
  have h0 : 0 < (diskArchive get ks).length := by
    unfold diskArchive
    rw [List.length_append, trailerBytes_length]
    omega
  obtain ⟨hr, hm, hn⟩ := ready_of_create h0 hl hi he hc
  refine ⟨serves_any (diskFiller_fills hok hsafe (fun id => ?_) (fun id => (padTake_dataBlock _ id).symm)) (by omega)
    (fun k _ => dataBlock_length _ k), hr, hm⟩
  rw [hn]
  omega

/-- C40 and C23 with prelinked files, as far as they hold. For every file list and every accepted
    sequence, under the two conditions of `C40_partial`: if the regular files named are installed
    with the contents `get`, as they are or changed by prelink in a way that `prelink -u` undoes, and
    no block begins inside the target of a link (`PrelinkSafe`; see `C40_violated_link`), then reconstruction from the installed files
    does the same as from the archive in which every entry has its original contents: for all
    copies, add blocks, limits on the number of blocks in memory and initial cleanup counters. -/
theorem C40_prelinked_partial (H : Bytes → Bytes) (files : List FileInfo) (algo : Nat)
    (check : Bytes → Bytes → Nat → Out Unit) (sequence : Bytes) (places : List CpioFile) (pos : List Nat) (disk : Disk)
    (get : Bytes → Option Bytes) (hx : expandSeq H files algo check sequence = .ok places)
    (hpos : decodeSeq files.length (sequence.drop 16) = .ok pos)
    (hfit : ∀ f ∈ files, f.Fits) (hinst : Installed disk get (namedFiles files pos))
    (hsafe : PrelinkSafe disk get (namedFiles files pos))
    (hl : (diskArchive get (namedFiles files pos)).length < 2^63) (hord : InOrder files pos)
    (hfew : ((namedFiles files pos).filter needsOpen).length ≤ 50)
    (ext ints : List (Nat × Nat)) (hi : CopiesInside (diskArchive get (namedFiles files pos)).length 0 ext)
    (he : EndsPositive 0 ext) (limit : Nat) (hlim : 0 < limit) (cleanup : Nat) (cfg : CacheCfg)
    (hc : tablesFor (diskArchive get (namedFiles files pos)).length ext limit = .ok cfg) (useAdd : Bool)
    (intData add : Bytes) :
    reconWrites (blocksNext cfg (diskFiller cfg ⟨disk, files, places⟩)) (emptyCache FsSt.init cleanup) useAdd ext ints
      intData add =
    reconWrites (flatNext (diskArchive get (namedFiles files pos))) () useAdd ext ints intData add := by
  have hok := fsOk_of hx hpos hfit hinst hl hord hfew
  obtain ⟨h1, h2, h3⟩ := files_serve hok hsafe hl hi he hlim hc
  exact reconWrites_refine h1 (fun k _ => dataBlock_length _ k) (fun k _ => dataBlock_prefix _ k) hl useAdd ints ext
    intData add (fun _ => emptyCache_any (FsInv.init _ _ _)) h2

/-- C57, installed files, prelinked or not: the bound on the blocks in memory. -/
theorem C57_memory_disk (H : Bytes → Bytes) (files : List FileInfo) (algo : Nat)
    (check : Bytes → Bytes → Nat → Out Unit) (sequence : Bytes) (places : List CpioFile) (pos : List Nat) (disk : Disk)
    (get : Bytes → Option Bytes) (hx : expandSeq H files algo check sequence = .ok places)
    (hpos : decodeSeq files.length (sequence.drop 16) = .ok pos)
    (hfit : ∀ f ∈ files, f.Fits) (hinst : Installed disk get (namedFiles files pos))
    (hsafe : PrelinkSafe disk get (namedFiles files pos))
    (hl : (diskArchive get (namedFiles files pos)).length < 2^63) (hord : InOrder files pos)
    (hfew : ((namedFiles files pos).filter needsOpen).length ≤ 50)
    (ext ints : List (Nat × Nat)) (hi : CopiesInside (diskArchive get (namedFiles files pos)).length 0 ext)
    (he : EndsPositive 0 ext) (limit : Nat) (hlim : 0 < limit) (cleanup : Nat) (cfg : CacheCfg)
    (hc : tablesFor (diskArchive get (namedFiles files pos)).length ext limit = .ok cfg) (useAdd : Bool)
    (intData add : Bytes) (s : ReconSt (Cache FsSt))
    (hs : reconLoop (blocksNext cfg (diskFiller cfg ⟨disk, files, places⟩)) useAdd ints ext intData
      ⟨emptyCache FsSt.init cleanup, 0, 0, add, []⟩ = .ok s) :
    s.blk.core.length + s.blk.free.length ≤ limit := by
  have hok := fsOk_of hx hpos hfit hinst hl hord hfew
  obtain ⟨h1, h2, h3⟩ := files_serve hok hsafe hl hi he hlim hc
  have := reconLoop_ok h1 (fun k _ => dataBlock_length _ k) (fun k _ => dataBlock_prefix _ k) hl useAdd ints ext intData
    ⟨emptyCache FsSt.init cleanup, 0, 0, add, []⟩ s h2 (fun _ => emptyCache_any (FsInv.init _ _ _)) hs 0
  rw [← h3, ← this.inv.count]
  exact this.inv.small

/-- The installed files are those of the old package: each kept regular file that is not empty has, as
    it is (but for what may follow) or after undoing prelink, the contents that its archive entry has
    (`get` are these contents). -/
def OldInstalled (m : MakeIn) (disk : Disk) (get : Bytes → Option Bytes) (es : List AEnt) : Prop :=
  ∀ i f e, (i, f, e) ∈ kept m es → isReg f = true → get f.name = some (slice m.archive e.data e.size) ∧
    (f.size = 0 ∨ Unchanged disk f (slice m.archive e.data e.size) ∨ Prelinked disk f (slice m.archive e.data e.size))

/-- The copies `ext` that the defects of C40 do not touch: the archive has the kept files at the places they
    have in the file list; and either no more than 50 of them have contents and the block boundaries
    suit `fillblock_prelink`, or prelink has changed none, the old payload fits into the cache and the
    copies come back to a file before they have used 50 others. -/
structure Servable (m : MakeIn) (disk : Disk) (get : Bytes → Option Bytes) (es : List AEnt) (ext : List (Nat × Nat)) : Prop where
  order : ∀ (k i : Nat) (f : FileInfo) (e : AEnt), (kept m es)[k]? = some (i, f, e) → isReg f = true → 0 < f.size → k = i
  served : (((kept m es).filter (fun x => isReg x.2.1 && decide (0 < x.2.1.size))).length ≤ 50 ∧
      PrelinkSafe disk get (keptFiles m es)) ∨
    ((∀ x ∈ keptFiles m es, ¬ Changed disk get x) ∧ (altered m es).length ≤ 8192 * 5000 ∧
      SoonAgain ((firstUses (blocksAsked 0 ext)).flatMap (blockFiles get (keptFiles m es))))

theorem namedFiles_kept (m : MakeIn) (es : List AEnt) :
    namedFiles m.files ((kept m es).map (fun x => x.1)) = keptFiles m es := by
  have hm : ∀ x ∈ kept m es, m.files[x.1]? = some x.2.1 := fun x hx => (keepFile_spec (kept_mem (i := x.1) (f := x.2.1) (e := x.2.2) hx).2).1
  unfold namedFiles keptFiles
  generalize kept m es = l at hm
  induction l with
  | nil => rfl
  | cons x l ih =>
    rw [List.map_cons, List.filterMap_cons, hm x (by simp), List.map_cons, ih (fun y hy => hm y (by simp [hy]))]
    rfl

theorem entries_bound {archive : Bytes} {off : Nat} {es : List AEnt} (h : Entries archive off es) :
    ∀ e ∈ es, e.data + e.size ≤ archive.length := by
  induction h with
  | trailer _ => intro e he; cases he
  | entry h1 h2 h3 h4 h5 ih =>
    intro x hx
    rcases List.mem_cons.mp hx with rfl | hx
    · unfold AEnt.stop at h4; omega
    · exact ih x hx

theorem diskArchive_altered {m : MakeIn} {disk : Disk} {get : Bytes → Option Bytes} {es : List AEnt} (hp : Plain m es)
    (hi : OldInstalled m disk get es) : diskArchive get (keptFiles m es) = altered m es := by
  unfold diskArchive altered diskEntries alteredEntries keptFiles
  rw [List.map_map]
  refine congrArg (fun l => List.flatten l ++ trailerBytes) ?_
  apply List.map_congr_left
  rintro ⟨i, f, e⟩ hx
  obtain ⟨h1, h2⟩ := kept_mem hx
  show alteredHeader f ++ _ = alteredHeader f ++ _
  refine congrArg (fun l => alteredHeader f ++ l) ?_
  show diskContent get f = alteredContent m.archive f e
  unfold diskContent alteredContent
  by_cases hl : isLnk f = true
  · rw [if_pos hl, if_pos hl]
  · rw [if_neg hl, if_neg hl]
    by_cases hr : isReg f = true
    · rw [if_pos hr, (hi i f e hx hr).1, (keepFile_spec h2).2.2 hr]
      rfl
    · rw [if_neg hr, hp.nodata e h1 i f h2 (by simpa using hr) (by simpa using hl)]
      rfl

/-- C21 with C23 and C40: reconstruction from the installed files does what reconstruction from the
    altered archive held in memory does. -/
theorem C21_installed (H : Bytes → Bytes) (hH : ∀ b, (H b).length = 16) (m : MakeIn) (r : Made) (disk : Disk)
    (hl : m.archive.length < 2^63) (hn : m.files.length < 2^32) (hf : FilesFit m)
    (h : makeCpio H m = .ok r)
    (ext ints : List (Nat × Nat))
    (hp : ∀ es, Entries m.archive 0 es → Plain m es ∧ ∃ get, OldInstalled m disk get es ∧ Servable m disk get es ext)
    (hcl : r.cpio.length < 2^63) (hi : CopiesInside r.cpio.length 0 ext) (he : EndsPositive 0 ext)
    (cleanup : Nat) (cfg : CacheCfg) (hc : blocksCreate r.cpio.length ext = .ok cfg) (useAdd : Bool)
    (intData add : Bytes) :
    ∃ places, expandSeq H m.files m.algo noCheck r.sequence = .ok places ∧
      reconWrites (blocksNext cfg (diskFiller cfg ⟨disk, m.files, places⟩))
        (emptyCache FsSt.init cleanup) useAdd ext ints intData add =
      reconWrites (flatNext r.cpio) () useAdd ext ints intData add := by
  obtain ⟨es, md, s, e1, e2, e3, e4, e5, _⟩ := makeCpio_spec hl hf h
  obtain ⟨hpl, get, hin, hsv⟩ := hp es e1
  have q := expand_made hH hn e3 e4 e5 hpl.unique noCheck (fun _ _ _ _ _ _ => rfl)
  refine ⟨_, q, ?_⟩
  have hlt : ∀ i ∈ (kept m es).map (fun x => x.1), i < m.files.length := by
    intro i hi
    rw [List.mem_map] at hi
    obtain ⟨⟨j, g, e⟩, h1, rfl⟩ := hi
    have := (keepFile_spec (kept_mem h1).2).1
    exact (List.getElem?_eq_some_iff.mp this).1
  have hle := nodup_length_le _ _ (kept_nodup (m := m) hpl.unique) hlt
  obtain ⟨bs, d1, d2⟩ := encode_decode m.files.length hn _ hlt hle
  rw [e4] at d1
  cases d1
  have hpos : decodeSeq m.files.length (r.sequence.drop 16) = .ok ((kept m es).map (fun x => x.1)) := by
    rw [e5, List.drop_append, hH, List.drop_eq_nil_of_le (by rw [hH]; omega)]
    simpa using d2
  have hdisk := diskArchive_altered hpl hin
  have hinst : Installed disk get (namedFiles m.files ((kept m es).map (fun x => x.1))) := by
    rw [namedFiles_kept]
    intro x hx hr
    unfold keptFiles at hx
    rw [List.mem_map] at hx
    obtain ⟨⟨i, f, e⟩, h1, rfl⟩ := hx
    obtain ⟨c1, c2⟩ := hin i f e h1 hr
    refine ⟨_, c1, ?_, ?_⟩
    · have hb := entries_bound e1 e (kept_mem h1).1
      rw [slice_length, (keepFile_spec (kept_mem h1).2).2.2 hr]
      have := (keepFile_spec (kept_mem h1).2).2.2 hr
      omega
    · exact c2
  have hord : InOrder m.files ((kept m es).map (fun x => x.1)) := by
    intro i hi f hf ho
    rw [List.mem_map] at hi
    obtain ⟨⟨j, g, e⟩, h1, rfl⟩ := hi
    have hg := (keepFile_spec (kept_mem h1).2).1
    simp only at hf hg
    rw [hg] at hf
    cases hf
    unfold needsOpen at ho
    rw [Bool.and_eq_true] at ho
    obtain ⟨k, hk⟩ := List.getElem?_of_mem h1
    have := hsv.order k j _ e hk ho.1 (by simpa using ho.2)
    subst this
    rw [List.getElem?_map, hk]
    rfl
  have hm : cfg.maxCore = maxCoreBlocks := by
    unfold blocksCreate at hc
    split at hc
    · cases hc
    · rw [Out.bind_eq_ok] at hc
      obtain ⟨mx, _, hc⟩ := hc
      cases hc
      rfl
  have htab : tablesFor r.cpio.length ext maxCoreBlocks = .ok cfg := by
    unfold tablesFor
    rw [hc, Out.bind_ok, ← hm]
  rcases hsv.served with ⟨hfew, hsafe⟩ | ⟨hnp, hshort, hsoon⟩
  · have hsrc := C40_prelinked_partial H m.files m.algo noCheck r.sequence _ _ disk get q hpos hf hinst
      (by rw [namedFiles_kept]; exact hsafe)
      (by rw [namedFiles_kept, hdisk, ← e2]; exact hcl) hord
      (by
        rw [namedFiles_kept]
        unfold keptFiles
        rw [List.filter_map, List.length_map]
        exact hfew)
    rw [namedFiles_kept, hdisk, ← e2] at hsrc
    exact hsrc ext ints hi he maxCoreBlocks (by decide) cleanup cfg htab useAdd intData add
  · have hsrc := C40_cache_soon_partial H m.files m.algo noCheck r.sequence _ _ disk get q hpos hf hinst
      (by rw [namedFiles_kept]; exact hnp)
      (by rw [namedFiles_kept, hdisk, ← e2]; exact hcl) hord
    rw [namedFiles_kept, hdisk, ← e2] at hsrc
    exact hsrc ext ints hi he maxCoreBlocks (by rw [e2]; exact hshort) hsoon cleanup cfg htab useAdd intData add

/-- Copies that never go back in an old payload of at most 5000 blocks are served, whatever the number of
    files, if the archive has the files in the order of the file list and prelink has changed none. -/
theorem C40_forward_servable {m : MakeIn} {disk : Disk} {get : Bytes → Option Bytes} {es : List AEnt} {ext : List (Nat × Nat)}
    (he : Entries m.archive 0 es) (hin : OldInstalled m disk get es)
    (hord : ∀ (k i : Nat) (f : FileInfo) (e : AEnt), (kept m es)[k]? = some (i, f, e) → isReg f = true → 0 < f.size → k = i)
    (hnp : ∀ x ∈ keptFiles m es, ¬ Changed disk get x) (hshort : (altered m es).length ≤ 8192 * 5000) (hfw : Forward ext) :
    Servable m disk get es ext := by
  refine ⟨hord, Or.inr ⟨hnp, hshort, soonAgain_sorted (blockFiles_sorted ?_ ?_ _ (firstUses_sorted _ (blocksAsked_sorted ext 0 hfw)))⟩⟩
  · intro x hx hr
    unfold keptFiles at hx
    rw [List.mem_map] at hx
    obtain ⟨⟨i, f, e⟩, h1, rfl⟩ := hx
    have hb := entries_bound he e (kept_mem h1).1
    have := (keepFile_spec (kept_mem h1).2).2.2 hr
    exact ⟨_, (hin i f e h1 hr).1, by rw [slice_length (by omega), this]⟩
  · intro k x hk hn
    unfold keptFiles at hk
    rw [List.getElem?_map, Option.map_eq_some_iff] at hk
    obtain ⟨⟨i, f, e⟩, h1, rfl⟩ := hk
    unfold needsOpen at hn
    rw [Bool.and_eq_true] at hn
    exact (hord k i f e h1 hn.1 (by simpa using hn.2)).symm

/-! ## Concrete cases -/

/-- A disk with these files, none of them prelinked. -/
def diskOf (l : List (Bytes × Bytes)) : Disk :=
  { get := fun n => l.lookup n, undo := fun _ => .err .other }

/-- `Present`, computed. -/
def presentB (get : Bytes → Option Bytes) (ks : List (Nat × FileInfo)) : Bool :=
  ks.all (fun x => !isReg x.2 || (match get x.2.name with | some d => d.length == x.2.size | none => false))

theorem present_of {get : Bytes → Option Bytes} {ks : List (Nat × FileInfo)} (h : presentB get ks = true) : Present get ks := by
  intro x hx hr
  unfold presentB at h
  rw [List.all_eq_true] at h
  have := h x hx
  rw [hr] at this
  simp only [Bool.not_true, Bool.false_or] at this
  cases hg : get x.2.name with
  | none => rw [hg] at this; cases this
  | some d => rw [hg] at this; exact ⟨d, rfl, by simpa using this⟩

/-- `InOrder`, computed. -/
def inOrderB (files : List FileInfo) (pos : List Nat) : Bool :=
  pos.all (fun i => match files[i]? with | some f => !needsOpen (i, f) || pos[i]? == some i | none => true)

theorem inOrder_of {files : List FileInfo} {pos : List Nat} (h : inOrderB files pos = true) : InOrder files pos := by
  intro i hi f hf ho
  unfold inOrderB at h
  rw [List.all_eq_true] at h
  have := h i hi
  rw [hf] at this
  simp only [ho, Bool.not_true, Bool.false_or] at this
  exact eq_of_beq this

/-- An MD5 that is always zero. -/
def zeroH : Bytes → Bytes := fun _ => zeros 16

/-- A regular file, a link, a directory. -/
def threeFiles : List FileInfo :=
  [demoFile [47, 97] 0o100644 5 [], demoFile [47, 98] 0o120777 1 [97], demoFile [47, 99] 0o40755 4096 []]

def threeDisk : Disk := diskOf [([47, 97], [104, 101, 108, 108, 111])]

/-- A case of `C40_partial`. -/
example : ∃ sequence places pos, expandSeq zeroH threeFiles 0 noCheck sequence = .ok places ∧
    decodeSeq threeFiles.length (sequence.drop 16) = .ok pos ∧ pos = [0, 1, 2] ∧ (∀ f ∈ threeFiles, f.Fits) ∧
    Present threeDisk.get (namedFiles threeFiles pos) ∧
    (diskArchive threeDisk.get (namedFiles threeFiles pos)).length = 484 ∧ InOrder threeFiles pos ∧
    ((namedFiles threeFiles pos).filter needsOpen).length = 1 := by
  have : Out.okAnd (encodeSeq [0, 1, 2]) (fun s => Out.okAnd (expandSeq zeroH threeFiles 0 noCheck (zeros 16 ++ s)) (fun _ =>
      Out.okAnd (decodeSeq threeFiles.length s) (fun pos => pos == [0, 1, 2]))) = true := by decide +kernel
  obtain ⟨s, h1, h2⟩ := okAnd_ok this
  obtain ⟨places, h3, h4⟩ := okAnd_ok h2
  obtain ⟨pos, h5, h6⟩ := okAnd_ok h4
  have h6 : pos = [0, 1, 2] := eq_of_beq h6
  subst h6
  refine ⟨zeros 16 ++ s, places, [0, 1, 2], h3, h5, rfl, ?_, present_of (by decide +kernel), by decide +kernel,
    inOrder_of (by decide +kernel), by decide +kernel⟩
  intro f hf
  simp only [threeFiles, List.mem_cons, List.not_mem_nil, or_false] at hf
  rcases hf with rfl | rfl | rfl <;> exact ⟨by decide, by decide, by decide, by decide, by decide⟩

/-- Two regular files of the same size. -/
def twoFiles : List FileInfo := [demoFile [47, 97] 0o100644 1 [], demoFile [47, 98] 0o100644 1 []]

def twoDisk : Disk := diskOf [([47, 97], [65]), ([47, 98], [66])]

/-- C40 does not hold in general, first defect: the number of a file in the file list is used as
    the number of an archive entry. With the files in another order in the archive than in the file
    list, each entry silently gets the contents of the other file. -/
theorem C40_violated_order : ∃ sequence places pos b, expandSeq zeroH twoFiles 0 noCheck sequence = .ok places ∧
    decodeSeq twoFiles.length (sequence.drop 16) = .ok pos ∧ Present twoDisk.get (namedFiles twoFiles pos) ∧
    readBlocks ⟨twoDisk, twoFiles, places⟩ FsSt.init [0] = .ok [b] ∧
    slice b 116 1 = [65] ∧ slice (dataBlock (diskArchive twoDisk.get (namedFiles twoFiles pos)) 0) 116 1 = [66] := by
  have : Out.okAnd (encodeSeq [1, 0]) (fun s => Out.okAnd (expandSeq zeroH twoFiles 0 noCheck (zeros 16 ++ s)) (fun places =>
      Out.okAnd (decodeSeq twoFiles.length s) (fun pos => pos == [1, 0] &&
        Out.okAnd (fsBlock ⟨twoDisk, twoFiles, places⟩ FsSt.init 0) (fun x => Out.okAnd x.1.plain (fun b => slice b 116 1 == [65]))))) = true := by
    decide +kernel
  obtain ⟨s, h1, h2⟩ := okAnd_ok this
  obtain ⟨places, h3, h4⟩ := okAnd_ok h2
  obtain ⟨pos, h5, h6⟩ := okAnd_ok h4
  rw [Bool.and_eq_true] at h6
  obtain ⟨h6, h7⟩ := h6
  obtain ⟨x, h8, h9⟩ := okAnd_ok h7
  obtain ⟨b, h9, h10⟩ := okAnd_ok h9
  have h6 : pos = [1, 0] := eq_of_beq h6
  subst h6
  refine ⟨zeros 16 ++ s, places, [1, 0], b, h3, h5, present_of (by decide +kernel), ?_, eq_of_beq h10, by decide +kernel⟩
  rw [readBlocks, h8, Out.bind_ok]
  simp only [h9, Out.bind_ok]
  rfl

/-- The same defect: when the first file of the list is left out of the archive (say, a
    configuration file), the table of archive entries is read out of bounds or, as here, the
    trailer's index -1 is used to read before the file list. -/
theorem C40_violated_skipped : ∃ sequence places pos, expandSeq zeroH twoFiles 0 noCheck sequence = .ok places ∧
    decodeSeq twoFiles.length (sequence.drop 16) = .ok pos ∧ pos = [1] ∧ Present twoDisk.get (namedFiles twoFiles pos) ∧
    readBlocks ⟨twoDisk, twoFiles, places⟩ FsSt.init [0] = .ub := by
  have : Out.okAnd (encodeSeq [1]) (fun s => Out.okAnd (expandSeq zeroH twoFiles 0 noCheck (zeros 16 ++ s)) (fun places =>
      Out.okAnd (decodeSeq twoFiles.length s) (fun pos => pos == [1] &&
        (match fsBlock ⟨twoDisk, twoFiles, places⟩ FsSt.init 0 with | .ub => true | _ => false)))) = true := by
    decide +kernel
  obtain ⟨s, h1, h2⟩ := okAnd_ok this
  obtain ⟨places, h3, h4⟩ := okAnd_ok h2
  obtain ⟨pos, h5, h6⟩ := okAnd_ok h4
  rw [Bool.and_eq_true] at h6
  obtain ⟨h6, h7⟩ := h6
  have h6 : pos = [1] := eq_of_beq h6
  subst h6
  refine ⟨zeros 16 ++ s, places, [1], h3, h5, rfl, present_of (by decide +kernel), ?_⟩
  rw [readBlocks]
  generalize fsBlock ⟨twoDisk, twoFiles, places⟩ FsSt.init 0 = o at h7 ⊢
  cases o <;> simp at h7 ⊢

/-- A large file and fifty small ones. -/
def manyFiles : List FileInfo :=
  demoFile [47, 97] 0o100644 16300 [] :: (List.range 50).map (fun i => demoFile [47, UInt8.ofNat (100 + i)] 0o100644 1 [])

def manyDisk : Disk :=
  diskOf (([47, 97], List.replicate 16300 1) :: (List.range 50).map (fun i => ([47, UInt8.ofNat (100 + i)], [2])))

/-- C40 does not hold in general, second defect: when more than 50 files have been opened, the
    object of the file opened first is used again for another file, but the first file still
    points to it. Here the files are in order; after the blocks 0 and 2, block 1 cannot be read,
    because the descriptor is that of another file. -/
theorem C40_violated_many : ∃ sequence places pos, expandSeq zeroH manyFiles 0 noCheck sequence = .ok places ∧
    decodeSeq manyFiles.length (sequence.drop 16) = .ok pos ∧ InOrder manyFiles pos ∧
    Present manyDisk.get (namedFiles manyFiles pos) ∧
    Out.okAnd (readBlocks ⟨manyDisk, manyFiles, places⟩ FsSt.init [0, 1, 2]) (fun _ => true) = true ∧
    readBlocks ⟨manyDisk, manyFiles, places⟩ FsSt.init [0, 2, 1] = .err .format := by
  have : Out.okAnd (encodeSeq (List.range 51)) (fun s => Out.okAnd (expandSeq zeroH manyFiles 0 noCheck (zeros 16 ++ s)) (fun places =>
      Out.okAnd (decodeSeq manyFiles.length s) (fun pos => pos == List.range 51 &&
        (Out.okAnd (readBlocks ⟨manyDisk, manyFiles, places⟩ FsSt.init [0, 1, 2]) (fun _ => true) &&
        (match readBlocks ⟨manyDisk, manyFiles, places⟩ FsSt.init [0, 2, 1] with | .err .format => true | _ => false))))) = true := by
    decide +kernel
  obtain ⟨s, h1, h2⟩ := okAnd_ok this
  obtain ⟨places, h3, h4⟩ := okAnd_ok h2
  obtain ⟨pos, h5, h6⟩ := okAnd_ok h4
  rw [Bool.and_eq_true, Bool.and_eq_true] at h6
  obtain ⟨h6, h7, h8⟩ := h6
  have h6 : pos = List.range 51 := eq_of_beq h6
  subst h6
  refine ⟨zeros 16 ++ s, places, List.range 51, h3, h5, inOrder_of (by decide +kernel), present_of (by decide +kernel), h7, ?_⟩
  generalize readBlocks ⟨manyDisk, manyFiles, places⟩ FsSt.init [0, 2, 1] = o at h8 ⊢
  cases o with
  | err e => cases e <;> first | rfl | cases h8
  | _ => cases h8

/-- A case of `C40_forward_partial` and of `C40_soon_partial`: 51 files; the blocks in
    order, or with blocks asked for again. -/
example : ∃ sequence places, expandSeq zeroH manyFiles 0 noCheck sequence = .ok places ∧
    decodeSeq manyFiles.length (sequence.drop 16) = .ok (List.range 51) ∧ (List.range 51).Nodup ∧ (∀ f ∈ manyFiles, f.Fits) ∧
    Present manyDisk.get (namedFiles manyFiles (List.range 51)) ∧ InOrder manyFiles (List.range 51) ∧
    ((namedFiles manyFiles (List.range 51)).filter needsOpen).length = 51 ∧
    (diskArchive manyDisk.get (namedFiles manyFiles (List.range 51))).length = 22540 ∧
    ([0, 1, 2] : List Nat).Pairwise (fun a b => a < b) ∧
    SoonAgain (([1, 0, 0, 1, 2] : List Nat).flatMap (blockFiles manyDisk.get (namedFiles manyFiles (List.range 51)))) := by
  have : Out.okAnd (encodeSeq (List.range 51)) (fun s => Out.okAnd (expandSeq zeroH manyFiles 0 noCheck (zeros 16 ++ s)) (fun _ =>
      Out.okAnd (decodeSeq manyFiles.length s) (fun pos => pos == List.range 51))) = true := by
    decide +kernel
  obtain ⟨s, h1, h2⟩ := okAnd_ok this
  obtain ⟨places, h3, h4⟩ := okAnd_ok h2
  obtain ⟨pos, h5, h6⟩ := okAnd_ok h4
  have h6 : pos = List.range 51 := eq_of_beq h6
  subst h6
  refine ⟨zeros 16 ++ s, places, h3, h5, List.nodup_range, ?_, present_of (by decide +kernel), inOrder_of (by decide +kernel),
    by decide +kernel, by decide +kernel, by decide, ?_⟩
  · intro f hf
    have : manyFiles.all (fun f => decide (f.mode < 2^16 ∧ f.rdev < 2^16 ∧ f.size + 3 < 2^32 ∧ f.linkto.length + 3 < 2^32 ∧
      f.name.length + 3 < 2^16)) = true := by decide +kernel
    obtain ⟨h1, h2, h3, h4, h5⟩ := of_decide_eq_true (List.all_eq_true.mp this f hf)
    exact ⟨h1, h2, h3, h4, h5⟩
  · have e : ([1, 0, 0, 1, 2] : List Nat).flatMap (blockFiles manyDisk.get (namedFiles manyFiles (List.range 51))) =
        [0, 0, 0, 0] ++ List.range 51 := by decide +kernel
    rw [e]
    exact soonAgain_sorted (by decide +kernel)

/-- Copies that meet the conditions of `C40_cache_soon_partial` and `C40_cache_forward_partial` for the
    same files: going back in the first case, not in the second. -/
example : CopiesInside 22540 0 [(8200, 100), (2^32 - 8300, 16300), (0, 6000)] ∧
    EndsPositive 0 [(8200, 100), (2^32 - 8300, 16300), (0, 6000)] ∧ 22540 ≤ 8192 * maxCoreBlocks ∧
    firstUses (blocksAsked 0 [(8200, 100), (2^32 - 8300, 16300), (0, 6000)]) = [1, 0, 2] ∧
    SoonAgain ((firstUses (blocksAsked 0 [(8200, 100), (2^32 - 8300, 16300), (0, 6000)])).flatMap
      (blockFiles manyDisk.get (namedFiles manyFiles (List.range 51)))) ∧
    Out.okAnd (tablesFor 22540 [(8200, 100), (2^32 - 8300, 16300), (0, 6000)] maxCoreBlocks) (fun _ => true) = true ∧
    CopiesInside 22540 0 [(8200, 100), (0, 10000), (500, 50)] ∧ EndsPositive 0 [(8200, 100), (0, 10000), (500, 50)] ∧
    Forward [(8200, 100), (0, 10000), (500, 50)] := by
  refine ⟨⟨8200, by decide, by decide, 0, by decide, by decide, 16300, by decide, by decide, trivial⟩,
    ⟨by decide, by decide, by decide, trivial⟩, by decide, by decide +kernel, ?_, by decide +kernel,
    ⟨8200, by decide, by decide, 8300, by decide, by decide, 18800, by decide, by decide, trivial⟩,
    ⟨by decide, by decide, by decide, trivial⟩, ?_⟩
  · have e : (firstUses (blocksAsked 0 [(8200, 100), (2^32 - 8300, 16300), (0, 6000)])).flatMap
        (blockFiles manyDisk.get (namedFiles manyFiles (List.range 51))) = [0, 0] ++ List.range 51 := by decide +kernel
    rw [e]
    exact soonAgain_sorted (by decide +kernel)
  · intro x hx
    simp only [List.mem_cons, List.not_mem_nil, or_false] at hx
    rcases hx with rfl | rfl | rfl <;> decide

/-! ### Prelinked files -/

/-- `Installed`, computed. -/
def installedB (disk : Disk) (get : Bytes → Option Bytes) (ks : List (Nat × FileInfo)) : Bool :=
  ks.all (fun x => !isReg x.2 || (match get x.2.name, disk.get x.2.name with
    | some d, some e => d.length == x.2.size && (
        (d.isPrefixOf e && (e.length == x.2.size || Out.okAnd (isPrelinked e (e.take 128)) (!·))) ||
        (e.length != x.2.size && Out.okAnd (isPrelinked e (e.take 128)) id &&
          Out.okAnd (disk.undo x.2.name) (fun u => d.isPrefixOf u)))
    | some d, none => d.length == x.2.size && x.2.size == 0
    | _, _ => false))

theorem installed_of {disk : Disk} {get : Bytes → Option Bytes} {ks : List (Nat × FileInfo)}
    (h : installedB disk get ks = true) : Installed disk get ks := by
  intro x hx hr
  unfold installedB at h
  rw [List.all_eq_true] at h
  have := h x hx
  rw [hr] at this
  simp only [Bool.not_true, Bool.false_or] at this
  cases hg : get x.2.name with
  | none => rw [hg] at this; cases this
  | some d =>
    cases he : disk.get x.2.name with
    | none =>
      rw [hg, he] at this
      simp only [Bool.and_eq_true] at this
      exact ⟨d, rfl, eq_of_beq this.1, Or.inl (eq_of_beq this.2)⟩
    | some e =>
      rw [hg, he] at this
      simp only [Bool.and_eq_true, Bool.or_eq_true] at this
      obtain ⟨h1, h2⟩ := this
      refine ⟨d, rfl, eq_of_beq h1, ?_⟩
      rcases h2 with ⟨h2, h3⟩ | ⟨⟨h2, h3⟩, h4⟩
      · right; left
        refine ⟨e, he, List.isPrefixOf_iff_prefix.mp h2, ?_⟩
        rcases h3 with h3 | h3
        · exact Or.inl (eq_of_beq h3)
        · obtain ⟨b, b1, b2⟩ := okAnd_ok h3
          right
          rw [b1]
          simpa using b2
      · right; right
        obtain ⟨b, b1, b2⟩ := okAnd_ok h3
        obtain ⟨u, u1, u2⟩ := okAnd_ok h4
        have hb : b = true := b2
        rw [hb] at b1
        exact ⟨e, he, by simpa using h2, b1, u, u1, List.isPrefixOf_iff_prefix.mp u2⟩

/-- `PrelinkSafe`, computed. -/
def prelinkSafeB (get : Bytes → Option Bytes) (ks : List (Nat × FileInfo)) : Bool :=
  (List.range ks.length).all (fun k => match ks[k]? with
    | some x => !isLnk x.2 || contentStart get ks k x / 8192 == (contentStart get ks k x + x.2.linkto.length - 1) / 8192
    | none => true)

theorem prelinkSafe_of {disk : Disk} {get : Bytes → Option Bytes} {ks : List (Nat × FileInfo)}
    (h : prelinkSafeB get ks = true) : PrelinkSafe disk get ks := by
  intro _ k x hx hl j hj
  unfold prelinkSafeB at h
  rw [List.all_eq_true] at h
  have := h k (List.mem_range.mpr (List.getElem?_eq_some_iff.mp hx).1)
  rw [hx] at this
  simp only [hl, Bool.not_true, Bool.false_or] at this
  have := eq_of_beq this
  omega

/-- A link, a prelinked program of more than one block, another file, another prelinked program. -/
def plFiles : List FileInfo :=
  [demoFile [47, 97] 0o120777 1 [97], demoFile [47, 98] 0o100755 9001 [], demoFile [47, 99] 0o100644 2 [],
   demoFile [47, 100] 0o100755 3 []]

/-- What the package has. -/
def plGet : Bytes → Option Bytes := fun n =>
  [([47, 98], List.replicate 9001 5), ([47, 99], [1, 2]), ([47, 100], [7, 8, 9])].lookup n

/-- What is on the disk, and what `prelink -u` makes of it: one file has grown. -/
def plDisk : Disk :=
  { get := fun n => [([47, 98], undoElf true), ([47, 99], [1, 2, 3]), ([47, 100], undoElf false)].lookup n
    undo := fun n => match plGet n with | some d => .ok d | none => .err .other }

/-- A case of `C40_prelinked_partial`, with copies that go back and forth. -/
example : ∃ sequence places pos cfg, expandSeq zeroH plFiles 0 noCheck sequence = .ok places ∧
    decodeSeq plFiles.length (sequence.drop 16) = .ok pos ∧ pos = [0, 1, 2, 3] ∧ (∀ f ∈ plFiles, f.Fits) ∧
    Installed plDisk plGet (namedFiles plFiles pos) ∧ (∃ y ∈ namedFiles plFiles pos, Changed plDisk plGet y) ∧
    PrelinkSafe plDisk plGet (namedFiles plFiles pos) ∧
    (diskArchive plGet (namedFiles plFiles pos)).length = 9604 ∧ InOrder plFiles pos ∧
    ((namedFiles plFiles pos).filter needsOpen).length = 3 ∧
    CopiesInside 9604 0 [(8190, 5), (2^32 - 100, 1200)] ∧ EndsPositive 0 [(8190, 5), (2^32 - 100, 1200)] ∧
    tablesFor 9604 [(8190, 5), (2^32 - 100, 1200)] 1 = .ok cfg ∧
    Out.okAnd (reconWrites (blocksNext cfg (diskFiller cfg ⟨plDisk, plFiles, places⟩)) (emptyCache FsSt.init 0) false
      [(8190, 5), (2^32 - 100, 1200)] [(2, 0)] [] []) (fun w => w.flatten.take 5 == [5, 5, 5, 5, 5]) = true := by
  have : Out.okAnd (encodeSeq [0, 1, 2, 3]) (fun s => Out.okAnd (expandSeq zeroH plFiles 0 noCheck (zeros 16 ++ s)) (fun places =>
      Out.okAnd (decodeSeq plFiles.length s) (fun pos => pos == [0, 1, 2, 3] &&
        Out.okAnd (tablesFor 9604 [(8190, 5), (2^32 - 100, 1200)] 1) (fun cfg =>
        Out.okAnd (reconWrites (blocksNext cfg (diskFiller cfg ⟨plDisk, plFiles, places⟩)) (emptyCache FsSt.init 0) false
          [(8190, 5), (2^32 - 100, 1200)] [(2, 0)] [] []) (fun w => w.flatten.take 5 == [5, 5, 5, 5, 5]))))) = true := by
    decide +kernel
  obtain ⟨s, h1, h2⟩ := okAnd_ok this
  obtain ⟨places, h3, h4⟩ := okAnd_ok h2
  obtain ⟨pos, h5, h6⟩ := okAnd_ok h4
  rw [Bool.and_eq_true] at h6
  obtain ⟨h6, h7⟩ := h6
  have h6 : pos = [0, 1, 2, 3] := eq_of_beq h6
  subst h6
  obtain ⟨cfg, h8, h9⟩ := okAnd_ok h7
  have hi : Installed plDisk plGet (namedFiles plFiles [0, 1, 2, 3]) := installed_of (by decide +kernel)
  refine ⟨zeros 16 ++ s, places, [0, 1, 2, 3], cfg, h3, h5, rfl, ?_, hi, ?_,
    prelinkSafe_of (by decide +kernel), by decide +kernel, inOrder_of (by decide +kernel), by decide +kernel, ?_, ?_, h8, h9⟩
  · intro f hf
    simp only [plFiles, List.mem_cons, List.not_mem_nil, or_false] at hf
    rcases hf with rfl | rfl | rfl | rfl <;> exact ⟨by decide, by decide, by decide, by decide, by decide⟩
  · refine ⟨(3, demoFile [47, 100] 0o100755 3 []), by simp [namedFiles, plFiles], rfl, ?_⟩
    obtain ⟨d, d1, d2, d3⟩ := hi (3, demoFile [47, 100] 0o100755 3 []) (by simp [namedFiles, plFiles]) rfl
    refine ⟨d, d1, ?_⟩
    rcases d3 with d3 | ⟨e, d3, d4, _⟩ | d3
    · cases d3
    · exfalso
      have e1 : plGet [47, 100] = some d := d1
      have e2 : plDisk.get [47, 100] = some e := d3
      have : (do some ((← plGet [47, 100]).isPrefixOf (← plDisk.get [47, 100]))) = some false := by decide +kernel
      rw [e1, e2] at this
      have e3 : d.isPrefixOf e = false := by simpa using this
      rw [List.isPrefixOf_iff_prefix.mpr d4] at e3
      cases e3
    · exact d3
  · exact ⟨8190, by decide, by decide, 8095, by decide, by decide, trivial⟩
  · exact ⟨by decide, by decide, trivial⟩

/-- Empty files need not be there. -/
example : Installed plDisk (fun n => if n = [47, 101] then some [] else plGet n)
    (namedFiles (plFiles ++ [demoFile [47, 101] 0o100644 0 []]) [0, 1, 2, 3, 4]) := installed_of (by decide +kernel)

/-- A file, a link whose target lies across the boundary between two blocks, a prelinked program. -/
def linkFiles : List FileInfo :=
  [demoFile [47, 97] 0o100644 7900 [], demoFile [47, 98] 0o120777 100 (List.replicate 100 97),
   demoFile [47, 99] 0o100755 3 []]

def linkGet : Bytes → Option Bytes := fun n => [([47, 97], List.replicate 7900 5), ([47, 99], [7, 8, 9])].lookup n

def linkDisk : Disk :=
  { get := fun n => [([47, 97], List.replicate 7900 5), ([47, 99], undoElf true)].lookup n
    undo := fun n => match linkGet n with | some d => .ok d | none => .err .other }

/-- C40 does not hold in general, third defect: when a block begins inside the target of a link and
    a prelinked file is read in the same block, `fillblock_prelink` copies as many bytes as the whole
    target has from the middle of the target, which is undefined. Everything else that
    `C40_prelinked_partial` asks for holds. -/
theorem C40_violated_link : ∃ sequence places pos cfg, expandSeq zeroH linkFiles 0 noCheck sequence = .ok places ∧
    decodeSeq linkFiles.length (sequence.drop 16) = .ok pos ∧ pos = [0, 1, 2] ∧
    Installed linkDisk linkGet (namedFiles linkFiles pos) ∧
    (diskArchive linkGet (namedFiles linkFiles pos)).length = 8476 ∧ InOrder linkFiles pos ∧
    tablesFor 8476 [(8300, 5)] 5000 = .ok cfg ∧
    reconWrites (blocksNext cfg (diskFiller cfg ⟨linkDisk, linkFiles, places⟩)) (emptyCache FsSt.init 0) false
      [(8300, 5)] [(1, 0)] [] [] = .ub := by
  have : Out.okAnd (encodeSeq [0, 1, 2]) (fun s => Out.okAnd (expandSeq zeroH linkFiles 0 noCheck (zeros 16 ++ s)) (fun places =>
      Out.okAnd (decodeSeq linkFiles.length s) (fun pos => pos == [0, 1, 2] &&
        Out.okAnd (tablesFor 8476 [(8300, 5)] 5000) (fun cfg =>
        (match reconWrites (blocksNext cfg (diskFiller cfg ⟨linkDisk, linkFiles, places⟩)) (emptyCache FsSt.init 0) false
          [(8300, 5)] [(1, 0)] [] [] with | .ub => true | _ => false))))) = true := by
    decide +kernel
  obtain ⟨s, h1, h2⟩ := okAnd_ok this
  obtain ⟨places, h3, h4⟩ := okAnd_ok h2
  obtain ⟨pos, h5, h6⟩ := okAnd_ok h4
  rw [Bool.and_eq_true] at h6
  obtain ⟨h6, h7⟩ := h6
  have h6 : pos = [0, 1, 2] := eq_of_beq h6
  subst h6
  obtain ⟨cfg, h8, h9⟩ := okAnd_ok h7
  refine ⟨zeros 16 ++ s, places, [0, 1, 2], cfg, h3, h5, rfl, installed_of (by decide +kernel), by decide +kernel,
    inOrder_of (by decide +kernel), h8, ?_⟩
  generalize reconWrites _ _ _ _ _ _ _ = o at h9 ⊢
  cases o <;> simp at h9 ⊢

end Drpm
