import Verif.NewcLemmas
import Verif.Props.Keep
/-!
# C91: what a standard delta is made from

`NewcSpec.lean` says what a "newc" archive is, which of its files are used and what the archive made from
them looks like, without reference to the program.
-/

namespace Drpm

/-- C91. Every payload that is a "newc" archive, with whatever files and whatever padding, is taken apart
    and put together again without error: the result is the archive of the files that are used, with
    header fields and data as specified, and the sequence names these files, after the hash of their
    records. -/
theorem C91_archive (H : Bytes → Bytes) (hH : ∀ b, (H b).length = 16) (nul : Bool) (m : MakeIn) (ents : List (Bytes × Bytes)) (used : List Used)
    (h : Payload nul m.colors m.unpatched m.algo m.files m.archive ents used) (hl : m.archive.length < 2^34) (hn : m.files.length < 2^32) :
    ∃ r, makeCpio H m = .ok r ∧ r.cpio = usedArchive used ∧
      r.sequence.take 16 = H ((used.map (fun u => fileRecord m.algo u.file)).flatten) ∧
      decodeSeq m.files.length (r.sequence.drop 16) = .ok (used.map (·.number)) := by
  obtain ⟨es, e1, e2, e3, e4, e5, e6, e7⟩ := payload_plain h (by omega)
  obtain ⟨r, hr⟩ := makeCpio_sure H hl (Nat.le_of_lt hn) e1 (fun e he i f hk => e5 _ (kept_has he hk))
  obtain ⟨es', md, s, f1, f2, f3, f4, f5, _⟩ := makeCpio_spec (by omega) h.fit hr
  have := entries_unique e1 es' f1
  subst this
  refine ⟨r, hr, ?_, ?_, ?_⟩
  · rw [f2, e3]
    exact (usedArchive_eq h.fit e6 e7).symm
  · rw [f5, List.take_append_of_le_length (by rw [hH]; exact Nat.le_refl _), List.take_of_length_le (by rw [hH]; exact Nat.le_refl _), md5Files_records _ _ f3, e3,
      List.map_map, List.map_map]
    rfl
  · rw [decode_made hH hn f4 f5 e4, e3, List.map_map]
    rfl

/-- C91. What a delta is made from is itself a "newc" archive, padded with zeros, that holds the used files:
    the name of each is its path after "./", and the data of a link is its target. -/
theorem C91_newc {nul colors : Bool} {unpatched : Bytes → Bytes → Bool} {algo : Nat} {files : List FileInfo} {archive : Bytes}
    {ents : List (Bytes × Bytes)} {used : List Used} (h : Payload nul colors unpatched algo files archive ents used) :
    NewcArchive true (usedArchive used) (usedEntries used) := by
  refine usedArchive_newc (fun u hu => ?_) (fun u hu => ?_) (fun u hu => ?_)
  all_goals obtain ⟨x, hx, h1, h2, h3⟩ := uses_mem h.uses u hu
  all_goals have hf := h.fit _ (List.mem_of_getElem? h3)
  · exact ⟨by have := hf.mode; omega, by have := hf.rdev; omega⟩
  · have hs := pathOf_sublist x.1
    rw [h1]
    refine ⟨fun hm => (newcArchive_mem h.newc x hx).1 (hs.subset hm), ?_⟩
    have := hs.length_le
    have := h.names x hx
    omega
  · rw [h2]
    exact ⟨(newcArchive_mem h.newc x hx).2, by have := hf.linkto; omega⟩

/-- A package whose payload is such an archive can be the old package of a standard delta. -/
theorem goodBase_of {η σ τ : Type} {w : World η σ τ} (h16 : ∀ b, (w.H b).length = 16) {o : Opts Bytes} {old : PkgFile w.lib} {archive : Bytes}
    {fs : List FileInfo} {colors : Bool} {algo : Nat} {ents : List (Bytes × Bytes)} {used : List Used}
    (hf : HasFiles w.lib old.hdr fs colors) (ha : getAlgo w.lib old.hdr = .ok algo) (hn : GoodNevr (getNevr w.lib old.hdr))
    (hp : Payload true colors w.unpatched algo (if colors then fs else fs.map (·.noColor)) archive ents used)
    (hfs : fs.length < 2^32) (hl : archive.length < 2^31) (hu : (usedArchive used).length < 2^31) :
    ∃ c, GoodBase w o old archive fs colors algo c ∧ c.cpio = usedArchive used := by
  have hlen : (oldInput w o archive fs colors algo).files.length = fs.length := by
    show (if colors then fs else fs.map (·.noColor)).length = _
    split
    · rfl
    · rw [List.length_map]
  have hp' : Payload true (oldInput w o archive fs colors algo).colors (oldInput w o archive fs colors algo).unpatched
      (oldInput w o archive fs colors algo).algo (oldInput w o archive fs colors algo).files (oldInput w o archive fs colors algo).archive ents used := hp
  have hl' : (oldInput w o archive fs colors algo).archive.length < 2^31 := hl
  obtain ⟨c, c1, c2, _⟩ := C91_archive w.H h16 true (oldInput w o archive fs colors algo) ents used hp' (by omega) (by rw [hlen]; exact hfs)
  obtain ⟨es, e1, e2, e3, e4, e5, e6, e7⟩ := payload_plain hp' (by omega)
  obtain ⟨es', md, s, f1, f2, f3, f4, f5, st, f6, f7⟩ := makeCpio_spec (by omega) hp'.fit c1
  have := entries_unique e1 es' f1
  subst this
  have hst : st.cpio.data.length < 2^31 := by
    have h1 := (run_spec hp'.fit f6).1
    have h2 : st.cpio.data = alteredEntries (oldInput w o archive fs colors algo) es := by simpa using h1
    rw [h2]
    rw [← c2, f2, altered, List.length_append] at hu
    omega
  obtain ⟨g1, g2⟩ := run_few hp'.fit hl' f6 (by simp) (by simp) (by simp) hst
  simp only [List.length_nil, Nat.zero_add] at g1 g2
  refine ⟨c, ⟨hf, ha, hn, ⟨by omega, hfs⟩, hp.fit, ?_, c1, ?_⟩, c2⟩
  · intro es' he'
    have := entries_unique e1 es' he'
    subst this
    refine ⟨e4, fun e he i f _ _ => ?_, fun e he i f hk hr hlk => ?_⟩
    · obtain ⟨x, _, hx⟩ := seesAll_mem e2 e he
      exact hx.padding rfl
    · exact e7 _ (kept_has he hk) (by rw [regular_eq]; exact hr) (by rw [link_eq]; exact hlk)
  · rw [c2, f7]
    exact ⟨by omega, by omega, fun _ => by omega⟩

/-- C91 for files, with C68. For every old package whose payload is a "newc" archive, padded with zeros, and
    for every new package, the standard delta that is made from the two files turns the old file into the
    new one, byte for byte. -/
theorem C91_files {η σ τ : Type} (w : World η σ τ) (Ok : TagData → Prop) (hl : HeaderLaws w.lib Ok) (h16 : ∀ b, (w.H b).length = 16)
    (o : Opts Bytes) (ho : o.rpmOnly = false) (hv : 1 ≤ o.version ∧ o.version ≤ 3)
    (old new : PkgFile w.lib) (oa na : Bytes) (oc nc : Comp) (level : Nat)
    (hold : Unpacks w.U old oa oc) (fs : List FileInfo) (colors : Bool) (algo : Nat) (ents : List (Bytes × Bytes)) (used : List Used)
    (hf : HasFiles w.lib old.hdr fs colors) (ha : getAlgo w.lib old.hdr = .ok algo) (hn : GoodNevr (getNevr w.lib old.hdr))
    (hp : Payload true colors w.unpatched algo (if colors then fs else fs.map (·.noColor)) oa ents used)
    (hfs : fs.length < 2^32) (hoa : oa.length < 2^31) (hu : (usedArchive used).length < 2^31)
    (hnew : GoodNew w new na nc level)
    (hc : Comp) (hname : ∃ s, (s, hc) ∈ payloadNames ∧ w.lib.get new.hdr 1125 = some (.str (ascii s))) (hv1 : o.version = 1 → hc = nc)
    (hd : GoodDeltaComp w o new.lead nc level)
    (hsize : 16 ≤ na.length ∧ na.length < 2^63 ∧ (o.version < 3 → na.length < 2^32))
    (hcnt : FewCopies (usedArchive used) na o.addblk)
    (hadd : GoodAdd (w.makeEnv new.lead) w.applyEnv o na.length)
    (hcomp : Reproduces w.applyEnv nc.code (if o.version = 1 then 0 else level) na new.payload) :
    ∃ delta, makeFiles w o old.file new.file = .ok delta ∧
      ∀ cleanup, applyFiles w old.file delta cleanup = (.ok (), .written new.file) := by
  obtain ⟨c, hb, hcu⟩ := goodBase_of h16 hf ha hn hp hfs hoa hu
  exact C68_standard w Ok hl h16 o ho hv old new oa na oc nc level hold fs colors algo c hb hnew hc hname hv1 hd hsize (by rw [hcu]; exact Or.inl hu)
    (by rw [hcu]; exact hcnt) hadd hcomp

/-! ## A concrete package -/

theorem demoEntry_newc (ino mode : Nat) (name data : Bytes) (hi : ino < 2^32) (hm : mode < 2^32) (hn : 0 ∉ name) (hl : name.length < 100) (hd : data.length < 100) :
    NewcEntry true (demoEntry ino mode name data) ([46, 47] ++ name) data := by
  have e : demoEntry ino mode name data = newcMagic ++ ([ino, mode, 0, 0, 1, 1600000000, data.length, 8, 1, 0, 0, name.length + 3, 0].map hexText).flatten ++
      ([46, 47] ++ name) ++ [0] ++ newcZeros (110 + ([46, 47] ++ name).length + 1) ++ data ++ newcZeros data.length := by
    have hmap : ∀ l : List Nat, l.map hexText = l.map (hexPad 8) := fun l => List.map_congr_left (fun n _ => hexText_eq n)
    have e1 : 110 + ([46, 47] ++ name).length + 1 = 110 + (name.length + 3) := by simp; omega
    rw [e1, newcZeros_eq, newcZeros_eq, hmap]
    unfold demoEntry
    rw [cpioHeaderWrite_fields]
    simp only [hdrFields, List.append_assoc]
    rfl
  rw [e]
  refine newcEntry_of rfl (fun n h => ?_) rfl (by simp) ?_
  · simp only [List.mem_cons, List.not_mem_nil, or_false] at h
    omega
  · simpa using hn

/-- The entries of `demoArchive`. -/
def demoEnts : List (Bytes × Bytes) :=
  [([46, 47, 97], [104, 101, 108, 108, 111]), ([46, 47, 120, 121], [1, 2, 3, 4, 5, 6]), ([46, 47, 98], [97]), ([46, 47, 99], [9]), ([46, 47, 100], [7, 7, 7])]

/-- The files of `inOrderIn` that are used: two regular files and a link between them. -/
def demoUsed : List Used :=
  [⟨0, demoFile [47, 97] 0o100644 5 [], [97], [104, 101, 108, 108, 111]⟩, ⟨1, demoFile [47, 98] 0o120777 1 [97], [98], [97]⟩,
   ⟨2, demoFile [47, 100] 0o100755 3 [], [100], [7, 7, 7]⟩]

theorem demo_payload : Payload true false (fun _ _ => false) 0 inOrderIn.files demoArchive demoEnts demoUsed where
  newc := by
    have e : demoArchive = demoEntry 1 0o100644 [97] [104, 101, 108, 108, 111] ++ (demoEntry 2 0o100644 [120, 121] [1, 2, 3, 4, 5, 6] ++
        (demoEntry 3 0o120777 [98] [97] ++ (demoEntry 4 0o100644 [99] [9] ++ (demoEntry 5 0o100755 [100] [7, 7, 7] ++ (newcText 0 0 newcTrailerName [] ++ []))))) := by
      decide +kernel
    rw [e]
    refine .entry (demoEntry_newc _ _ _ _ (by decide) (by decide) (by decide) (by decide) (by decide)) (by decide) ?_
    refine .entry (demoEntry_newc _ _ _ _ (by decide) (by decide) (by decide) (by decide) (by decide)) (by decide) ?_
    refine .entry (demoEntry_newc _ _ _ _ (by decide) (by decide) (by decide) (by decide) (by decide)) (by decide) ?_
    refine .entry (demoEntry_newc _ _ _ _ (by decide) (by decide) (by decide) (by decide) (by decide)) (by decide) ?_
    refine .entry (demoEntry_newc _ _ _ _ (by decide) (by decide) (by decide) (by decide) (by decide)) (by decide) ?_
    exact .trailer (newcText_entry (by decide) (by decide) (by decide) (by decide) (by decide))
  names := by decide
  unique := by decide
  fit := fun f hf => by
    have : ∀ f ∈ inOrderIn.files, f.mode < 2^16 ∧ f.rdev < 2^16 ∧ f.size + 3 < 2^32 ∧ f.linkto.length + 3 < 2^32 ∧
      f.name.length + 3 < 2^16 := by decide +kernel
    obtain ⟨a, b, c, d, e⟩ := this f hf
    exact ⟨a, b, c, d, e⟩
  uses := by
    have yes : ∀ (path data : Bytes) (i : Nat) (f : FileInfo), keepFile inOrderIn path data.length = some (i, f) →
        FirstAt inOrderIn.files path i f ∧ Reliable false (fun _ _ => false) f path data.length := fun path data i f h => (keepFile_some inOrderIn _ _ _ _).mp h
    have no : ∀ (path data : Bytes), keepFile inOrderIn path data.length = none →
        ∀ i f, FirstAt inOrderIn.files path i f → ¬ Reliable false (fun _ _ => false) f path data.length := fun path data h i f h1 h2 => by
      have := (keepFile_some inOrderIn path data.length i f).mpr ⟨h1, h2⟩
      rw [h] at this
      cases this
    have y1 := yes [97] [104, 101, 108, 108, 111] 0 (demoFile [47, 97] 0o100644 5 []) (by decide +kernel)
    have y2 := yes [98] [97] 1 (demoFile [47, 98] 0o120777 1 [97]) (by decide +kernel)
    have y3 := yes [100] [7, 7, 7] 2 (demoFile [47, 100] 0o100755 3 []) (by decide +kernel)
    have n1 := no [120, 121] [1, 2, 3, 4, 5, 6] (by decide +kernel)
    have n2 := no [99] [9] (by decide +kernel)
    exact .take y1.1 y1.2 (.leave n1 (.take y2.1 y2.2 (.leave n2 (.take y3.1 y3.2 .done))))
  md5 := fun _ u hu _ _ => by
    have : ∀ u ∈ demoUsed, u.file.md5 = List.replicate 32 97 := by decide +kernel
    rw [this u hu]
    exact ⟨List.replicate 16 0xAA, by decide +kernel, by decide⟩
  sha256 := nofun
  nodata := by decide +kernel

/-- Non-vacuity of `C91_archive` and `C91_newc`: of the five entries, three are used. -/
example : (∃ r, makeCpio demoH inOrderIn = .ok r ∧ r.cpio = usedArchive demoUsed ∧ decodeSeq 3 (r.sequence.drop 16) = .ok [0, 1, 2]) ∧
    NewcArchive true (usedArchive demoUsed) [([46, 47, 97], [104, 101, 108, 108, 111]), ([46, 47, 98], [97]), ([46, 47, 100], [7, 7, 7])] := by
  have hH : ∀ b, (demoH b).length = 16 := fun b => by
    unfold demoH zeros
    rw [List.length_take, List.length_append, List.length_replicate]
    omega
  obtain ⟨r, h1, h2, _, h4⟩ := C91_archive demoH hH true inOrderIn demoEnts demoUsed demo_payload (by show demoArchive.length < 2^34; decide +kernel) (by decide)
  exact ⟨⟨r, h1, h2, h4⟩, C91_newc demo_payload⟩

open Toy in
/-- Non-vacuity of `C91_files`. -/
example (addblk : Bool) : ∃ delta, makeFiles world (demoOpts false 3 addblk) oldFile.file newFile.file = .ok delta ∧
    ∀ cleanup, applyFiles world oldFile.file delta cleanup = (.ok (), .written newFile.file) := by
  obtain ⟨_, _, s3, s4, s5⟩ := demoSizes
  have hu : (usedArchive demoUsed).length < 500 := by decide +kernel
  exact C91_files world Ok laws md5_16 (demoOpts false 3 addblk) rfl (by show 1 ≤ 3 ∧ 3 ≤ 3; omega) oldFile newFile demoArchive demoNewPkg.archive .gzip .gzip 9
    (unpacks _ _ rfl) demoFiles false 0 demoEnts demoUsed demoHasFiles demoAlgo ⟨_, nevrs.1, by decide, by decide⟩
    demo_payload (by decide) (by omega) (by omega) goodNew .gzip ⟨"gzip", by decide +kernel, by decide +kernel⟩ (fun _ => rfl) (goodComp _ rfl)
    ⟨by omega, by omega, fun _ => by omega⟩ (FewCopies.of_size _ _ _ (by omega) (by omega) (by omega))
    (goodAdd _ _ _ _ (by omega)) (reproduces _)

end Drpm
