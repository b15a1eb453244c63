import Verif.KeepLemmas
import Verif.Props.Only
import Verif.Props.Checked
/-!
# C90: a delta relies on no file that may differ where the package is installed
-/

namespace Drpm

theorem decode_made {H : Bytes → Bytes} (hH : ∀ b, (H b).length = 16) {m : MakeIn} {r : Made} {es : List AEnt}
    (hn : m.files.length < 2^32) {md s : Bytes} (hs : encodeSeq ((kept m es).map (fun x => x.1)) = .ok s) (hr : r.sequence = H md ++ s)
    (hu : (es.map AEnt.name).Nodup) :
    decodeSeq m.files.length (r.sequence.drop 16) = .ok ((kept m es).map (fun x => x.1)) := by
  have hlt : ∀ i ∈ (kept m es).map (fun x => x.1), i < m.files.length := by
    intro i hi
    rw [List.mem_map] at hi
    obtain ⟨⟨j, g, e⟩, h1, rfl⟩ := hi
    have := (keepFile_spec (kept_mem h1).2).1
    exact (List.getElem?_eq_some_iff.mp this).1
  have hle := nodup_length_le _ _ (kept_nodup (m := m) hu) hlt
  obtain ⟨bs, d1, d2⟩ := encode_decode m.files.length hn _ hlt hle
  rw [hs] at d1
  cases d1
  have e1 : (H md ++ s).drop 16 = s := by
    rw [List.drop_append, hH, List.drop_eq_nil_of_le (by rw [hH]; omega)]; simp
  rw [hr, e1]
  exact d2

/-- C90. The sequence that is made from an archive and a file list names the reliable files, in the order
    of the archive, and no others. -/
theorem C90_names (H : Bytes → Bytes) (hH : ∀ b, (H b).length = 16) (m : MakeIn) (r : Made)
    (hl : m.archive.length < 2^63) (hn : m.files.length < 2^32) (hf : FilesFit m) (h : makeCpio H m = .ok r)
    (hu : ∀ es, Entries m.archive 0 es → (es.map AEnt.name).Nodup) :
    ∃ es order, Entries m.archive 0 es ∧ decodeSeq m.files.length (r.sequence.drop 16) = .ok order ∧
      Picks m.colors m.unpatched m.files es order := by
  obtain ⟨es, md, s, e1, e2, e3, e4, e5, _⟩ := makeCpio_spec hl hf h
  exact ⟨es, _, e1, decode_made hH hn e4 e5 (hu es e1), picks_kept m es⟩

/-- What the specification says of a file that is named. -/
theorem Picks.mem {colors : Bool} {unpatched : Bytes → Bytes → Bool} {files : List FileInfo} {es : List AEnt} {order : List Nat}
    (h : Picks colors unpatched files es order) : ∀ i ∈ order, ∃ e ∈ es, ∃ f, FirstAt files e.name i f ∧ Reliable colors unpatched f e.name e.size := by
  induction h with
  | done => intro i hi; cases hi
  | @take e es i f order h1 h2 _ ih =>
    intro j hj
    rcases List.mem_cons.mp hj with rfl | hj
    · exact ⟨e, by simp, f, h1, h2⟩
    · obtain ⟨e', m1, m2⟩ := ih j hj
      exact ⟨e', by simp [m1], m2⟩
  | leave _ _ ih =>
    intro j hj
    obtain ⟨e', m1, m2⟩ := ih j hj
    exact ⟨e', by simp [m1], m2⟩

/-- The files named by a made delta, in the file list of the package in the database. -/
theorem made_names {η σ τ : Type} (w : World η σ τ) (h16 : ∀ b, (w.H b).length = 16) (o : Opts Bytes) (old : PkgFile w.lib) (oa : Bytes)
    (fs : List FileInfo) (colors : Bool) (algo : Nat) (c : Made) (hb : GoodBase w o old oa fs colors algo c) (f : FileInfo)
    (hf : Names (fs.map (·.noColor)) c.sequence f) :
    ∃ g path, g ∈ fs ∧ g.name = f.name ∧ g.mode = f.mode ∧ g.size = f.size ∧ SamePath g path ∧
      (RegularMode g → Steady colors w.unpatched g path) := by
  have hlen : (oldInput w o oa fs colors algo).files.length = fs.length := by
    show (if colors then fs else fs.map (·.noColor)).length = _
    split
    · rfl
    · rw [List.length_map]
  obtain ⟨es, ord, e1, e2, e3⟩ := C90_names w.H h16 (oldInput w o oa fs colors algo) c hb.size.1 (by rw [hlen]; exact hb.size.2) hb.fit hb.made
    (fun es he => (hb.plain es he).unique)
  obtain ⟨ord', i, n1, n2, n3⟩ := hf
  rw [List.length_map, ← hlen, e2] at n1
  cases n1
  obtain ⟨e, _, f0, ⟨p1, p2, p3⟩, p4⟩ := e3.mem i n2
  rw [List.getElem?_map, Option.map_eq_some_iff] at n3
  obtain ⟨g, g1, rfl⟩ := n3
  have p1 : (if colors then fs else fs.map (·.noColor))[i]? = some f0 := p1
  have p4 : Reliable colors w.unpatched f0 e.name e.size := p4
  refine ⟨g, e.name, List.mem_of_getElem? g1, rfl, rfl, rfl, ?_, fun hr => ?_⟩
  · split at p1
    · rw [g1] at p1; cases p1; exact p2
    · rw [List.getElem?_map, g1] at p1
      cases p1
      exact p2
  · cases colors with
    | true =>
      simp only [if_true] at p1
      rw [g1] at p1
      cases p1
      exact (p4 hr).2
    | false =>
      simp only [Bool.false_eq_true, if_false] at p1
      rw [List.getElem?_map, g1] at p1
      cases p1
      have := (p4 hr).2
      exact ⟨this.config, this.missingok, this.ghost, this.digest, this.length, fun h => (by cases h), this.patches⟩

/-- C90 for files. The verdict of `drpm_check` on a standard delta that drpm_make has made does not depend
    on files that are no regular ones, are empty or are not steady: two systems that agree about the
    others give the same verdict. The same goes for `drpm_check_sequence` on an ID with the sequence of
    the delta. -/
theorem C90_files {η σ τ : Type} (w : World η σ τ) (Ok : TagData → Prop) (hl : HeaderLaws w.lib Ok) (h16 : ∀ b, (w.H b).length = 16)
    (o : Opts Bytes) (ho : o.rpmOnly = false) (hv : 1 ≤ o.version ∧ o.version ≤ 3)
    (old new : PkgFile w.lib) (oa na : Bytes) (oc nc : Comp) (level : Nat)
    (hold : Unpacks w.U old oa oc) (fs : List FileInfo) (colors : Bool) (algo : Nat) (c : Made) (hb : GoodBase w o old oa fs colors algo c)
    (hnew : GoodNew w new na nc level)
    (hc : Comp) (hname : ∃ s, (s, hc) ∈ payloadNames ∧ w.lib.get new.hdr 1125 = some (.str (ascii s)))
    (hd : GoodDeltaComp w o new.lead nc level)
    (hsize : 16 ≤ na.length ∧ na.length < 2^63 ∧ (o.version < 3 → na.length < 2^32))
    (hsmall : c.cpio.length < 2^31 ∨ na.length < 2^31)
    (hcnt : FewCopies c.cpio na o.addblk)
    (hadd : GoodAdd (w.makeEnv new.lead) w.applyEnv o na.length)
    (db : Bytes → Option Bytes → Bytes → Bytes → Option η) (h : η)
    (hdb : ∀ nevr n e v r h', getNevr w.lib old.hdr = .ok nevr → splitNevr nevr = .ok (n, e, v, r) → db n e v r = some h' → h' = h)
    (colors' : Bool) (hh : HasFiles w.lib h fs colors')
    (sys sys' : Sys) (hdig : sys.digest = sys'.digest)
    (hsame : ∀ f ∈ fs, ∀ path, SamePath f path → Regular f → Steady colors w.unpatched f path → SeesSame sys sys' f.name) :
    ∃ delta, makeFiles w o old.file new.file = .ok delta ∧
      (∀ mode, checkDeltaFile w db sys delta mode = checkDeltaFile w db sys' delta mode) ∧
      ∀ id nevr mode, getNevr w.lib old.hdr = .ok nevr → splitSeqId id = .ok (nevr, c.sequence) →
        checkSeqFile w db sys none id mode = checkSeqFile w db sys' none id mode := by
  obtain ⟨delta, d, d1, d2, d3, d4, d5⟩ := standard_reads w Ok hl h16 o ho hv old new oa na oc nc level hold fs colors algo c hb hnew hc
    hname hd hsize hsmall hcnt hadd
  have hf : (pkgOf w.lib w.lib.new h false).files = .ok (fs.map (·.noColor)) := by rw [files_of hh]; simp
  have hpk : ∀ nevr p files, getNevr w.lib old.hdr = .ok nevr →
      readInstalled (fun n e v r => (db n e v r).map (fun h => pkgOf w.lib w.lib.new h false)) nevr = .ok p → p.files = .ok files →
      files = fs.map (·.noColor) := by
    intro nevr p files h0 h1 h2
    unfold readInstalled at h1
    obtain ⟨⟨n, e, v, r⟩, h3, h4⟩ := Out.bind_eq_ok.mp h1
    simp only at h4
    cases h5 : db n e v r with
    | none => rw [h5] at h4; cases h4
    | some h' =>
      rw [h5] at h4
      have := hdb nevr n e v r h' h0 h3 h5
      subst this
      cases h4
      rw [hf] at h2
      cases h2
      rfl
  have hnm : ∀ f, Names (fs.map (·.noColor)) c.sequence f → Regular f → SeesSame sys sys' f.name := by
    intro f hfn hr
    obtain ⟨g, path, g1, g2, g3, g4, g5, g6⟩ := made_names w h16 o old oa fs colors algo c hb f hfn
    have hrg : Regular g := by unfold Regular; rw [g3, g4]; exact hr
    rw [← g2]
    exact hsame g g1 path g5 hrg (g6 hrg.1)
  refine ⟨delta, d1, fun mode => ?_, fun id nevr mode hnv hid => ?_⟩
  · refine C89_check hdig w.H _ w.dec _ delta mode ?_
    rintro f ⟨d', p, files, q1, q2, q3, q4⟩ hr
    rw [d2] at q1
    cases q1
    cases hpk _ p files d5 q2 q3
    rw [d4] at q4
    exact hnm f q4 hr
  · refine C89_sequence hdig w.H _ id mode ?_
    intro nevr' seq p files f q1 q2 q3 q4 hr
    rw [hid] at q1
    cases q1
    cases hpk _ p files hnv q2 q3
    exact hnm f q4 hr

/-! ### Concrete cases -/

/-- The package of the examples, with its first file a configuration file and the last one a 64-bit program
    outside the library directories; between them a link, and a file of another size in the archive. -/
def keepIn (flags color : Nat) : MakeIn :=
  { demoIn with
    colors := true
    files := [{ demoFile [47, 97] 0o100644 5 [] with flags := flags }, demoFile [47, 98] 0o120777 1 [97], demoFile [47, 99] 0o100644 2 [],
      { demoFile [47, 100] 0o100755 3 [] with color := color }] }

theorem keepIn_fit (flags color : Nat) : FilesFit (keepIn flags color) := by
  intro f hf
  have hf : f ∈ [{ demoFile [47, 97] 0o100644 5 [] with flags := flags }, demoFile [47, 98] 0o120777 1 [97], demoFile [47, 99] 0o100644 2 [],
      { demoFile [47, 100] 0o100755 3 [] with color := color }] := hf
  simp only [List.mem_cons, List.not_mem_nil, or_false] at hf
  rcases hf with rfl | rfl | rfl | rfl <;> exact ⟨by simp [demoFile], by simp [demoFile], by simp [demoFile], by simp [demoFile], by simp [demoFile]⟩

/-- Non-vacuity of `C90_names`: only the link is relied on; without the flag and the colour, both regular
    files of the right size are. -/
example : (∃ r order, makeCpio demoH (keepIn 1 2) = .ok r ∧ decodeSeq 4 (r.sequence.drop 16) = .ok order ∧ order = [1] ∧
      ∃ es, Picks true (fun _ _ => false) (keepIn 1 2).files es order) ∧
    (∃ r order, makeCpio demoH (keepIn 16 4) = .ok r ∧ decodeSeq 4 (r.sequence.drop 16) = .ok order ∧ order = [0, 1, 3] ∧
      ∃ es, Picks true (fun _ _ => false) (keepIn 16 4).files es order) := by
  have hH : ∀ b, (demoH b).length = 16 := fun b => by
    unfold demoH zeros
    rw [List.length_take, List.length_append, List.length_replicate]
    omega
  have hu : ∀ es, Entries demoIn.archive 0 es → (es.map AEnt.name).Nodup := by
    intro es he
    have : demoEntries = es := entries_unique demo_entries es he
    subst this
    decide +kernel
  have key : ∀ flags color (want : List Nat), Out.okAnd (makeCpio demoH (keepIn flags color)) (fun r =>
      decide (decodeSeq 4 (r.sequence.drop 16) = .ok want)) = true →
      ∃ r order, makeCpio demoH (keepIn flags color) = .ok r ∧ decodeSeq 4 (r.sequence.drop 16) = .ok order ∧ order = want ∧
        ∃ es, Picks true (fun _ _ => false) (keepIn flags color).files es order := by
    intro flags color want h
    obtain ⟨r, h1, h2⟩ := okAnd_ok h
    obtain ⟨es, order, _, e2, e3⟩ := C90_names demoH hH (keepIn flags color) r (by show demoArchive.length < 2^63; decide +kernel)
      (by show 4 < 2^32; decide) (keepIn_fit _ _) h1 hu
    have e2 : decodeSeq 4 (r.sequence.drop 16) = .ok order := e2
    have h2 := of_decide_eq_true h2
    rw [e2] at h2
    exact ⟨r, order, h1, e2, Out.ok.inj h2, es, e3⟩
  exact ⟨key 1 2 [1] (by decide +kernel), key 16 4 [0, 1, 3] (by decide +kernel)⟩

open Toy in
/-- Non-vacuity of `C90_files`: what is at the path of the link of the package, and at other paths, does not
    matter for the checks. -/
example (addblk : Bool) (x : Bytes) : ∃ delta, makeFiles world (demoOpts false 3 addblk) oldFile.file newFile.file = .ok delta ∧
    ∀ mode, checkDeltaFile world db Toy.checkSys delta mode =
      checkDeltaFile world db { Toy.checkSys with content := fun n => if n = [47, 97] ∨ n = [47, 100] then Toy.checkSys.content n else some x } delta mode := by
  obtain ⟨_, _, s3, s4, s5⟩ := demoSizes
  obtain ⟨c, hb, hc⟩ := goodBase addblk
  have hsplit : splitNevr (ascii "a-1-1") = .ok (ascii "a", none, ascii "1", ascii "1") := by decide +kernel
  obtain ⟨delta, q1, q2, _⟩ := C90_files world Ok laws md5_16 (demoOpts false 3 addblk) rfl (by show 1 ≤ 3 ∧ 3 ≤ 3; omega) oldFile newFile demoArchive demoNewPkg.archive .gzip .gzip 9 (unpacks _ _ rfl)
    demoFiles false 0 c hb goodNew .gzip ⟨"gzip", by decide +kernel, by decide +kernel⟩ (goodComp _ rfl)
    ⟨by omega, by omega, fun _ => by omega⟩ (by omega) (FewCopies.of_size _ _ _ (by omega) (by omega) (by omega))
    (goodAdd _ _ _ _ (by omega)) db oldFile.hdr
    (fun nevr n e v r h' h1 h2 h3 => by
      have h1 : getNevr lib oldFile.hdr = .ok nevr := h1
      rw [nevrs.1] at h1
      cases h1
      rw [hsplit] at h2
      cases h2
      exact (Option.some.inj h3).symm)
    false demoHasFiles Toy.checkSys { Toy.checkSys with content := fun n => if n = [47, 97] ∨ n = [47, 100] then Toy.checkSys.content n else some x }
    rfl (fun f hf path _ hr _ => by
      have : ∀ f ∈ demoFiles, isReg f = true → f.name = [47, 97] ∨ f.name = [47, 100] := by decide +kernel
      have hn := this f hf (by unfold isReg; rw [beq_iff_eq]; exact hr.1)
      refine ⟨?_, rfl, rfl, rfl⟩
      show Toy.checkSys.content f.name = if f.name = [47, 97] ∨ f.name = [47, 100] then Toy.checkSys.content f.name else some x
      rw [if_pos hn])
  exact ⟨delta, q1, q2⟩

end Drpm
