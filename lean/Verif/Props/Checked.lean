import Verif.Props.Check
import Verif.Props.Describe
/-!
# C87: what passes a full check can be applied
-/

namespace Drpm

/-! ## What a full check has seen -/

theorem rd_take {c : Bytes} {n m i : Nat} (hn : i < n) (hm : i < m) : rd (c.take n) i = rd (c.take m) i := by
  unfold rd
  rw [List.getElem?_take_of_lt hn, List.getElem?_take_of_lt hm]

theorem undoHeader_take {c : Bytes} {n m : Nat} (hn : 64 ≤ n) (hm : 64 ≤ m) (le is64 : Bool) :
    undoHeader c (c.take n) le is64 = undoHeader c (c.take m) le is64 := by
  have h : ∀ i, i < 64 → rd (c.take n) i = rd (c.take m) i := fun i hi => rd_take (by omega) (by omega)
  have h16 : ∀ i, i + 1 < 64 → elf16 (c.take n) i le = elf16 (c.take m) i le := by
    intro i hi
    unfold elf16
    rw [h i (by omega), h (i + 1) hi]
  have h32 : ∀ i, i + 3 < 64 → elf32 (c.take n) i le = elf32 (c.take m) i le := by
    intro i hi
    unfold elf32
    rw [h i (by omega), h (i + 1) (by omega), h (i + 2) (by omega), h (i + 3) hi]
  have h64 : ∀ i, i + 7 < 64 → elf64 (c.take n) i le is64 = elf64 (c.take m) i le is64 := by
    intro i hi
    unfold elf64 elfLow
    rw [h32 (if le then i + 4 else i) (by split <;> omega), h32 (if le then i else i + 4) (by split <;> omega), h32 i (by omega)]
  unfold undoHeader
  rw [h64 _ (by split <;> omega), h16 _ (by split <;> omega), h16 _ (by split <;> omega), h16 _ (by split <;> omega)]

/-- The answer of `is_prelinked` does not depend on how much was read, if that was 64 bytes or more. -/
theorem isPrelinked_take {c : Bytes} {n m : Nat} (hn : 64 ≤ n) (hm : 64 ≤ m) :
    isPrelinked c (c.take n) = isPrelinked c (c.take m) := by
  unfold isPrelinked
  rw [rd_take (c := c) (n := n) (m := m) (by omega) (by omega), rd_take (c := c) (n := n) (m := m) (i := 5) (by omega) (by omega),
    List.take_take, List.take_take, Nat.min_eq_left (by omega), Nat.min_eq_left (by omega)]
  simp only [undoHeader_take hn hm, List.length_take]
  have e1 : (min n c.length < 0x34) = (min m c.length < 0x34) := by
    apply propext; omega
  have e2 : (min n c.length < 0x40) = (min m c.length < 0x40) := by
    apply propext; omega
  simp only [e1, e2]

/-- A file that passes the full check: if no `read` fails and the first one delivers at least 64 bytes, then
    its first bytes have the digest, and it is not a prelinked file unless it has the recorded size or less;
    or it is prelinked and what `prelink -u` makes of it begins with bytes that have the digest. -/
theorem checkFull_cases {sys : Sys} (hs : DigestLengths sys) {name : Bytes} {algo : Nat} {digest : Bytes}
    (hd : IsDigest algo digest) {size : Nat} (hr : ∀ k, sys.reads name k ≠ none) (hl : FirstReadLong sys name)
    (h : checkFull sys name algo digest size = .ok ()) :
    ∃ c, sys.content name = some c ∧ sys.readable name = true ∧
      ((sys.digest algo (c.take size) = digest ∧ (size < c.length → isPrelinked c (c.take 128) = .ok false)) ∨
       (size < c.length ∧ isPrelinked c (c.take 128) = .ok true ∧ ∃ u, sys.undo name = .ok u ∧
          sys.digest algo (u.take size) = digest)) := by
  have hcmp : ∀ data, compareDigest sys algo digest data digest.length = .ok () → sys.digest algo data = digest := by
    intro data hc
    rw [compareDigest_eq _ rfl (digest_length hs hd _)] at hc
    split at hc
    · assumption
    · cases hc
  unfold checkFull at h
  rcases hc : sys.content name with _ | c
  · rw [hc] at h; cases h
  rw [hc] at h
  simp only at h
  split at h
  rotate_left
  · cases h
  rename_i hrd
  rw [digestLen_ok hd, Out.bind_ok] at h
  refine ⟨c, rfl, hrd, ?_⟩
  split at h
  · rename_i hlen
    unfold fullFirst at h
    rcases hb : readStep c bufferSize (sys.reads name 0) with _ | b
    · unfold readStep at hb
      rw [Option.map_eq_none_iff] at hb
      exact absurd hb (hr 0)
    · rw [hb] at h
      simp only at h
      have hn : ∃ n, b = c.take n ∧ 64 ≤ n := by
        unfold readStep at hb
        rw [Option.map_eq_some_iff] at hb
        obtain ⟨k, hk, rfl⟩ := hb
        have := hl k hk
        exact ⟨_, rfl, by unfold bufferSize; omega⟩
      obtain ⟨n, hbn, hn⟩ := hn
      have hbl : b.length = min n c.length := by rw [hbn, List.length_take]
      generalize hm : (if b.length > size then size else b.length) = m at h
      have hme : m = min size b.length := by rw [← hm]; split <;> omega
      rw [Out.bind_eq_ok] at h
      obtain ⟨pr, h1, h⟩ := h
      rw [hbn, isPrelinked_take hn (show 64 ≤ 128 by omega)] at h1
      unfold afterPrelink at h
      split at h
      · rename_i hpr
        right
        unfold checkPrelink at h
        rw [Out.bind_eq_ok] at h
        obtain ⟨u, hu, h⟩ := h
        rw [digestLen_ok hd, Out.bind_ok] at h
        split at h
        · cases h
        · obtain ⟨p, failed, e1, e2, e3, e4⟩ := hashLoop_spec (sys.reads name) (size + 1) 0 u size [] (by omega)
          rw [e1, Out.bind_ok] at h
          simp only [List.nil_append] at h
          unfold prelinkResult at h
          split at h
          · cases h
          · rename_i hf
            rw [e3 (by simpa using hf)] at h
            exact ⟨hlen, by rw [h1, hpr], u, hu, hcmp _ h⟩
      · rename_i hpr
        left
        obtain ⟨p, e1, _, e3⟩ := fullRest_spec sys name algo digest digest.length 1 (c.drop b.length) (size - m) (b.take m)
        rw [e1, e3 hr] at h
        refine ⟨?_, fun _ => by rw [h1]; simpa using hpr⟩
        have hbt : b.take m = c.take m := by rw [hbn, List.take_take]; congr 1; omega
        have hsplit : c.take size = c.take m ++ (c.drop b.length).take (size - m) := by
          by_cases hc : b.length ≤ size
          · have : m = b.length := by omega
            rw [this, show size = b.length + (size - b.length) by omega, List.take_add]
            simp
          · have : m = size := by omega
            rw [this]; simp
        rw [hsplit, ← hbt]
        exact hcmp _ h
  · rename_i hlen
    left
    obtain ⟨p, e1, _, e3⟩ := fullRest_spec sys name algo digest digest.length 0 c size []
    rw [e1, e3 hr, List.nil_append] at h
    exact ⟨hcmp _ h, fun hlt => absurd hlt hlen⟩

/-! ## Specification -/

/-- `drpm_check` and `drpm_apply` see the same files: those that can be opened have the same contents, and
    `prelink -u` makes the same of them. No `read` fails, and the first one delivers 64 bytes or more. -/
structure SameFiles (sys : Sys) (disk : Disk) : Prop where
  files : ∀ name c, sys.content name = some c → sys.readable name = true → disk.get name = some c
  undone : ∀ name u, sys.undo name = .ok u → disk.undo name = .ok u
  reads : ∀ name, (∀ k, sys.reads name k ≠ none) ∧ FirstReadLong sys name

/-- The contents of the files in the archive of the old package, by name. -/
def packed (m : MakeIn) (es : List AEnt) : Bytes → Option Bytes := fun name =>
  ((kept m es).find? (fun x => x.2.1.name == name)).map (fun x => slice m.archive x.2.2.data x.2.2.size)

/-- The file list of the old package has the digests of the contents in the archive; and nothing else that is
    on the disk, or that `prelink -u` makes of it, begins with bytes that happen to have the same digest. -/
structure Recorded (sys : Sys) (disk : Disk) (m : MakeIn) (es : List AEnt) : Prop where
  digests : ∀ i f e, (i, f, e) ∈ kept m es → isReg f = true → 0 < f.size →
    parseHex f.md5 = some (sys.digest m.algo (slice m.archive e.data e.size))
  genuine : ∀ i f e, (i, f, e) ∈ kept m es → isReg f = true → 0 < f.size →
    ∀ data, disk.get f.name = some data ∨ disk.undo f.name = .ok data →
      sys.digest m.algo (data.take f.size) = sys.digest m.algo (slice m.archive e.data e.size) →
      data.take f.size = slice m.archive e.data e.size

/-! ## From the check to the files -/

theorem eq_of_nodup_name {es : List AEnt} (hu : (es.map AEnt.name).Nodup) {e e' : AEnt} (h : e ∈ es) (h' : e' ∈ es)
    (hn : e.name = e'.name) : e = e' := by
  induction es with
  | nil => cases h
  | cons x es ih =>
    rw [List.map_cons, List.nodup_cons] at hu
    rcases List.mem_cons.mp h with h1 | h1
    · rcases List.mem_cons.mp h' with h2 | h2
      · rw [h1, h2]
      · exact absurd (List.mem_map.mpr ⟨e', h2, by rw [← hn, h1]⟩) hu.1
    · rcases List.mem_cons.mp h' with h2 | h2
      · exact absurd (List.mem_map.mpr ⟨e, h1, by rw [hn, h2]⟩) hu.1
      · exact ih hu.2 h1 h2

theorem packed_kept {m : MakeIn} {es : List AEnt} (hu : (es.map AEnt.name).Nodup) {i : Nat} {f : FileInfo} {e : AEnt}
    (h : (i, f, e) ∈ kept m es) : packed m es f.name = some (slice m.archive e.data e.size) := by
  unfold packed
  cases hf : (kept m es).find? (fun x => x.2.1.name == f.name) with
  | none =>
    have := List.find?_eq_none.mp hf _ h
    simp at this
  | some x =>
    obtain ⟨i', f', e'⟩ := x
    have h1 := List.mem_of_find?_eq_some hf
    have h2 := List.find?_some hf
    simp only [beq_iff_eq] at h2
    have n1 := (keepFile_spec (kept_mem h).2).2.1
    have n2 := (keepFile_spec (kept_mem h1).2).2.1
    have : e' = e := eq_of_nodup_name hu (kept_mem h1).1 (kept_mem h).1 (by rw [n1, n2]; unfold relName; rw [h2])
    subst this
    rfl

theorem fileDigest_parsed {algo : Nat} {f : FileInfo} {d : Bytes} (ha : algo = 0 ∨ algo = 1) (h : fileDigest algo f = .ok d) :
    IsDigest algo d ∧ parseHex f.md5 = some d := by
  unfold fileDigest at h
  rcases ha with rfl | rfl
  · rw [if_pos rfl] at h
    split at h
    · cases h
    split at h
    · rename_i x hx
      cases h
      obtain ⟨a1, a2⟩ := (C14_md5 _ _).mp hx
      exact ⟨Or.inl ⟨rfl, a2⟩, a1⟩
    · cases h
  · rw [if_neg (by decide), if_pos rfl] at h
    split at h
    · cases h
    split at h
    · rename_i x hx
      cases h
      obtain ⟨a1, a2⟩ := (C14_sha256 _ _).mp hx
      exact ⟨Or.inr ⟨rfl, a2⟩, a1⟩
    · cases h

/-- A file of the old package that passed the full check is installed, unchanged or changed by prelink only. -/
theorem checked_installed {sys : Sys} {disk : Disk} (hs : DigestLengths sys) (hsame : SameFiles sys disk) {m : MakeIn} {es : List AEnt}
    (he : Entries m.archive 0 es) (hr : Recorded sys disk m es) (ha : m.algo = 0 ∨ m.algo = 1) {i : Nat} {f : FileInfo} {e : AEnt}
    (hk : (i, f, e) ∈ kept m es) (hreg : isReg f = true) (hpos : 0 < f.size) {dg : Bytes} (h1 : fileDigest m.algo f = .ok dg)
    (h2 : checkFull sys f.name m.algo dg f.size = .ok ()) :
    Unchanged disk f (slice m.archive e.data e.size) ∨ Prelinked disk f (slice m.archive e.data e.size) := by
  obtain ⟨hIs, hhex⟩ := fileDigest_parsed ha h1
  rw [hr.digests i f e hk hreg hpos] at hhex
  cases hhex
  have hlen : (slice m.archive e.data e.size).length = f.size := by
    have hb := entries_bound he e (kept_mem hk).1
    have := (keepFile_spec (kept_mem hk).2).2.2 hreg
    rw [slice_length (by omega), this]
  have hpre : ∀ data : Bytes, data.take f.size = slice m.archive e.data e.size → slice m.archive e.data e.size <+: data ∧ f.size ≤ data.length := by
    intro data hd
    refine ⟨by rw [← hd]; exact List.take_prefix _ _, ?_⟩
    have := congrArg List.length hd
    rw [List.length_take, hlen] at this
    omega
  obtain ⟨c, c1, c2, c3⟩ := checkFull_cases hs hIs (hsame.reads f.name).1 (hsame.reads f.name).2 h2
  have hc := hsame.files _ _ c1 c2
  rcases c3 with ⟨c3, c4⟩ | ⟨c3, c4, u, c5, c6⟩
  · left
    obtain ⟨p1, p2⟩ := hpre c (hr.genuine i f e hk hreg hpos c (Or.inl hc) c3)
    refine ⟨c, hc, p1, ?_⟩
    rcases Nat.lt_or_ge f.size c.length with hlt | hge
    · exact Or.inr (c4 hlt)
    · exact Or.inl (by omega)
  · right
    have hu := hsame.undone _ _ c5
    obtain ⟨p1, _⟩ := hpre u (hr.genuine i f e hk hreg hpos u (Or.inr hu) c6)
    exact ⟨c, hc, by omega, c4, u, hu, p1⟩

/-- The files of the old package are installed if a delta that carries its sequence passes the full check. -/
theorem checked_old {sys : Sys} {disk : Disk} (hs : DigestLengths sys) (hsame : SameFiles sys disk) {H : Bytes → Bytes}
    (hH : ∀ b, (H b).length = 16) {m : MakeIn} {r : Made} (hl : m.archive.length < 2^63) (hn : m.files.length < 2^32) (hf : FilesFit m)
    (h : makeCpio H m = .ok r) {es : List AEnt} (he : Entries m.archive 0 es) (hu : (es.map AEnt.name).Nodup)
    (hr : Recorded sys disk m es) (ha : m.algo = 0 ∨ m.algo = 1)
    {p : Pkg} {files : List FileInfo} (hp1 : p.files = .ok files) (hp2 : p.algo = .ok m.algo) (hp3 : SameButColors files m.files)
    (hc : FilesChecked H p r.sequence (fun algo name digest size => checkFull sys name algo digest size = .ok ())) :
    OldInstalled m disk (packed m es) es := by
  obtain ⟨es', md, s, e1, e2, e3, e4, e5, _⟩ := makeCpio_spec hl hf h
  have : es' = es := entries_unique e1 es he
  subst this
  obtain ⟨files', algo, order, f1, f2, _, f4, _, f6⟩ := hc.ok
  rw [hp1] at f1
  cases f1
  rw [hp2] at f2
  cases f2
  have hlen : files.length = m.files.length := by
    have := congrArg List.length hp3
    simpa using this
  have hlt : ∀ i ∈ (kept m es').map (fun x => x.1), i < m.files.length := by
    intro i hi
    rw [List.mem_map] at hi
    obtain ⟨⟨j, g, e⟩, h1, rfl⟩ := hi
    have := (keepFile_spec (kept_mem h1).2).1
    exact (List.getElem?_eq_some_iff.mp this).1
  have hle := nodup_length_le _ _ (kept_nodup (m := m) hu) hlt
  obtain ⟨bs, d1, d2⟩ := encode_decode m.files.length hn _ hlt hle
  rw [e4] at d1
  cases d1
  have hpos : decodeSeq m.files.length (r.sequence.drop 16) = .ok ((kept m es').map (fun x => x.1)) := by
    rw [e5, List.drop_append, hH, List.drop_eq_nil_of_le (by rw [hH]; omega)]
    simpa using d2
  rw [hlen, hpos] at f4
  cases f4
  intro i f e hk hreg
  refine ⟨packed_kept hu hk, ?_⟩
  rcases Nat.eq_zero_or_pos f.size with h0 | h0
  · exact Or.inl h0
  right
  obtain ⟨f', g1, g2⟩ := f6 i (List.mem_map.mpr ⟨_, hk, rfl⟩)
  have hfi := (keepFile_spec (kept_mem hk).2).1
  have hcol : f'.noColor = f.noColor := by
    have := congrArg (fun l => l[i]?) hp3
    simp only [List.getElem?_map, g1, hfi, Option.map_some] at this
    exact Option.some.inj this
  have t1 : isReg f'.noColor = isReg f.noColor := congrArg isReg hcol
  have t2 : f'.noColor.size = f.noColor.size := congrArg FileInfo.size hcol
  have t3 : f'.noColor.name = f.noColor.name := congrArg FileInfo.name hcol
  have t4 : fileDigest m.algo f'.noColor = fileDigest m.algo f.noColor := congrArg (fileDigest m.algo) hcol
  have t1 : isReg f' = isReg f := t1
  have t2 : f'.size = f.size := t2
  have t3 : f'.name = f.name := t3
  have t4 : fileDigest m.algo f' = fileDigest m.algo f := t4
  obtain ⟨dg, g3, g4⟩ := g2 (by rw [t1]; exact hreg) (by rw [t2]; exact h0)
  rw [t4] at g3
  rw [t2, t3] at g4
  exact checked_installed hs hsame he hr ha hk hreg h0 g3 g4

/-! ## C87 -/

/-- What is in the standard delta that is made. -/
theorem standard_reads {η σ τ : Type} (w : World η σ τ) (Ok : TagData → Prop) (hl : HeaderLaws w.lib Ok)
    (h16 : ∀ b, (w.H b).length = 16)
    (o : Opts Bytes) (ho : o.rpmOnly = false) (hv : 1 ≤ o.version ∧ o.version ≤ 3)
    (old new : PkgFile w.lib) (oa na : Bytes) (oc nc : Comp) (level : Nat)
    (hold : Unpacks w.U old oa oc) (fs : List FileInfo) (colors : Bool) (algo : Nat) (c : Made) (hb : GoodBase w o old oa fs colors algo c)
    (hnew : GoodNew w new na nc level)
    (hc : Comp) (hname : ∃ s, (s, hc) ∈ payloadNames ∧ w.lib.get new.hdr 1125 = some (.str (ascii s)))
    (hd : GoodDeltaComp w o new.lead nc level)
    (hsize : 16 ≤ na.length ∧ na.length < 2^63 ∧ (o.version < 3 → na.length < 2^32))
    (hsmall : c.cpio.length < 2^31 ∨ na.length < 2^31)
    (hcnt : FewCopies c.cpio na o.addblk)
    (hadd : GoodAdd (w.makeEnv new.lead) w.applyEnv o na.length) :
    ∃ delta d, makeFiles w o old.file new.file = .ok delta ∧ readDelta w.dec (readdeltaStandard w.lib w.U) delta = .ok d ∧
      d.type = .standard ∧ d.sequence = c.sequence ∧ getNevr w.lib old.hdr = .ok d.srcNevr := by
  obtain ⟨marked, head, hh, _, hmk⟩ := goodHeader_of hl h16 hnew hc hname
  have hg := goodPair_of hl h16 (oa := oa) (oc := oc) hv hb.nevr hnew hd true
  obtain ⟨l, on, off, df, z, _, l1, e1, hp, hmade⟩ := standard_pair (w.makeEnv new.lead) w.applyEnv o (old.toRpm true oa oc) (new.toRpm true na nc)
    hg ho (oldInput w o oa fs colors algo) c (goodOld_of hb new.lead oc) marked head hc.code hh hsize hsmall hcnt hadd
  obtain ⟨cd, k1, k2⟩ := hg.codec l l1
  obtain ⟨file, r, w1, w2, w3, _⟩ := C07_roundtrip _ _ hmade cd k1 _ w.applyEnv.dec k2.toLossless head
    (readdeltaStandard w.lib w.U) hc.code (fun z => ⟨hh.found z, hh.magic z⟩)
  refine ⟨file, r, ?_, w2, ?_, w3.sequence, ?_⟩
  · unfold makeFiles
    rw [file_take, rpmOf_file hold, rpmOf_file hnew.unpacks]
    unfold drpmMake
    rw [if_neg (by simp), if_neg (by rw [ho]; simp)]
    simp only [makeAny, Out.bind_ok, hp]
    have k1' : (fillDelta (w.makeEnv new.lead) o (new.toRpm true na nc) l on []
        { old := c.cpio, new := (new.toRpm true na nc).archive, sequence := c.sequence, offadj := c.offadjs,
          header := marked, headerLen := 0 } off df z).comp = cd.code := k1
    rw [k1', ← w1, show (w.makeEnv new.lead).rpmW marked = fun z => .ok (head z) from funext hh.wrote]
  · rw [w3.type]
    show (if o.rpmOnly then _ else _) = _
    rw [if_neg (by rw [ho]; simp)]
  · rw [w3.srcNevr]
    exact e1

/-- **C87** A delta that drpm_make has made and that passes the full check can be applied to the installed
    files: the result is the new package, byte for byte. The files of the old package need not be installed at
    all as far as the hypotheses go; that the check passes is enough. `Servable` is needed only because of
    the defects of C40; the other conditions on packages and sizes are those of C68. -/
theorem C87_partial {η σ τ : Type} (w : World η σ τ) (Ok : TagData → Prop) (hl : HeaderLaws w.lib Ok) (h16 : ∀ b, (w.H b).length = 16)
    (o : Opts Bytes) (ho : o.rpmOnly = false) (hv : 1 ≤ o.version ∧ o.version ≤ 3)
    (old new : PkgFile w.lib) (oa na : Bytes) (oc nc : Comp) (level : Nat)
    (hold : Unpacks w.U old oa oc) (fs : List FileInfo) (colors : Bool) (algo : Nat) (c : Made) (hb : GoodBase w o old oa fs colors algo c)
    (hnew : GoodNew w new na nc level)
    (hc : Comp) (hname : ∃ s, (s, hc) ∈ payloadNames ∧ w.lib.get new.hdr 1125 = some (.str (ascii s))) (hv1 : o.version = 1 → hc = nc)
    (hd : GoodDeltaComp w o new.lead nc level)
    (hsize : 16 ≤ na.length ∧ na.length < 2^63 ∧ (o.version < 3 → na.length < 2^32))
    (hsmall : c.cpio.length < 2^31 ∨ na.length < 2^31)
    (hcnt : FewCopies c.cpio na o.addblk)
    (hadd : GoodAdd (w.makeEnv new.lead) w.applyEnv o na.length)
    (hcomp : Reproduces w.applyEnv nc.code (if o.version = 1 then 0 else level) na new.payload)
    (hbin : ∃ s, w.lib.get new.hdr 1044 = some (.str s))
    (db : Bytes → Option Bytes → Bytes → Bytes → Option η) (h : η)
    (hdb : ∀ nevr n e v r, getNevr w.lib old.hdr = .ok nevr → splitNevr nevr = .ok (n, e, v, r) → db n e v r = some h)
    (colors' : Bool) (hh : HasFiles w.lib h fs colors' ∧ getAlgo w.lib h = .ok algo)
    (sys : Sys) (hs : DigestLengths sys) (disk : Disk) (hsame : SameFiles sys disk) (ha : algo = 0 ∨ algo = 1)
    (hfiles : ∀ es, Entries oa 0 es → Recorded sys disk (oldInput w o oa fs colors algo) es ∧
      ∀ df, makeDiff c.cpio na o.addblk = .ok df →
        Servable (oldInput w o oa fs colors algo) disk (packed (oldInput w o oa fs colors algo) es) es df.ext) :
    ∃ delta, makeFiles w o old.file new.file = .ok delta ∧
      (checkDeltaFile w db sys delta 1 = .ok () →
        ∀ cleanup, applyInstalled w db disk delta cleanup = (.ok (), .written new.file)) := by
  obtain ⟨delta, d, d1, d2, d3, d4, d5⟩ := standard_reads w Ok hl h16 o ho hv old new oa na oc nc level hold fs colors algo c hb hnew hc
    hname hd hsize hsmall hcnt hadd
  refine ⟨delta, d1, fun hchk => ?_⟩
  obtain ⟨_, d', p, e1, ⟨n, e, v, r, e2, e3⟩, e4, e5⟩ := C55_check _ _ _ _ _ _ _ hchk
  rw [d2] at e1
  cases e1
  rw [hdb _ n e v r d5 e2] at e3
  simp only [Option.map_some, Option.some.injEq] at e3
  subst e3
  have hck := e5 d3
  rw [d4] at hck
  simp only [if_pos] at hck
  have e4 : getNevr w.lib h = .ok d.srcNevr := e4
  have hlen : (if colors then fs else fs.map (·.noColor)).length < 2^32 := by
    have := hb.size.2
    split
    · exact this
    · rw [List.length_map]; exact this
  obtain ⟨delta', q1, q2⟩ := C68_installed w Ok hl h16 o ho hv old new oa na oc nc level hold fs colors algo c hb hnew hc hname hv1 hd hsize
    hsmall hcnt hadd hcomp hbin db disk h hdb
    (fun nevr hn => by
      rw [d5] at hn
      cases hn
      exact ⟨_, e2⟩)
    colors' ⟨hh.1, by rw [e4, d5], hh.2⟩
    (fun es he => by
      obtain ⟨hr, hsv⟩ := hfiles es he
      exact ⟨_, checked_old hs hsame h16 (m := oldInput w o oa fs colors algo) hb.size.1 hlen hb.fit hb.made he (hb.plain es he).unique hr ha
        (files := fs.map (·.noColor)) (by rw [files_of hh.1]; simp) hh.2 (sameButColors_of fs colors) hck, hsv⟩)
  rw [d1] at q1
  cases q1
  exact q2

/-- **C56** for files: a standard delta that drpm_make has made passes both checks where the old package is
    installed and its files are unchanged, and so does the sequence ID in it. -/
theorem C56_files {η σ τ : Type} (w : World η σ τ) (Ok : TagData → Prop) (hl : HeaderLaws w.lib Ok) (h16 : ∀ b, (w.H b).length = 16)
    (o : Opts Bytes) (ho : o.rpmOnly = false) (hv : 1 ≤ o.version ∧ o.version ≤ 3)
    (old new : PkgFile w.lib) (oa na : Bytes) (oc nc : Comp) (level : Nat)
    (hold : Unpacks w.U old oa oc) (fs : List FileInfo) (colors : Bool) (algo : Nat) (c : Made) (hb : GoodBase w o old oa fs colors algo c)
    (hnew : GoodNew w new na nc level)
    (hc : Comp) (hname : ∃ s, (s, hc) ∈ payloadNames ∧ w.lib.get new.hdr 1125 = some (.str (ascii s)))
    (hd : GoodDeltaComp w o new.lead nc level)
    (hsize : 16 ≤ na.length ∧ na.length < 2^63 ∧ (o.version < 3 → na.length < 2^32))
    (hsmall : c.cpio.length < 2^31 ∨ na.length < 2^31)
    (hcnt : FewCopies c.cpio na o.addblk)
    (hadd : GoodAdd (w.makeEnv new.lead) w.applyEnv o na.length)
    (db : Bytes → Option Bytes → Bytes → Bytes → Option η) (h : η)
    (hdb : ∀ nevr, getNevr w.lib old.hdr = .ok nevr → nevr ≠ [] ∧ ∃ n e v r, splitNevr nevr = .ok (n, e, v, r) ∧ db n e v r = some h)
    (colors' : Bool) (hh : HasFiles w.lib h fs colors' ∧ getNevr w.lib h = getNevr w.lib old.hdr ∧ getAlgo w.lib h = .ok algo)
    (hseq : c.sequence.length < 2^31)
    (sys : Sys) (hs : DigestLengths sys) (ha : algo = 0 ∨ algo = 1)
    (hint : Intact sys algo (if colors then fs else fs.map (·.noColor))) :
    ∃ delta d line, makeFiles w o old.file new.file = .ok delta ∧ readDelta w.dec (readdeltaStandard w.lib w.U) delta = .ok d ∧
      seqLine d.srcNevr d.sequence = .ok (line ++ [10]) ∧
      (∀ mode, mode = 1 ∨ mode = 2 → checkDeltaFile w db sys delta mode = .ok ()) ∧
      ∀ mode, mode = 0 ∨ mode = 1 ∨ mode = 2 → checkSeqFile w db sys none line mode = .ok () := by
  obtain ⟨delta, d, d1, d2, d3, d4, d5⟩ := standard_reads w Ok hl h16 o ho hv old new oa na oc nc level hold fs colors algo c hb hnew hc
    hname hd hsize hsmall hcnt hadd
  have hlen : (if colors then fs else fs.map (·.noColor)).length < 2^32 := by
    have := hb.size.2
    split
    · exact this
    · rw [List.length_map]; exact this
  obtain ⟨hne, n, e, v, r, e1, e2⟩ := hdb _ d5
  have hf : (pkgOf w.lib w.lib.new h false).files = .ok (fs.map (·.noColor)) := by rw [files_of hh.1]; simp
  have hu : ∀ es, Entries oa 0 es → (es.map AEnt.name).Nodup := fun es he => (hb.plain es he).unique
  have hdb' : (fun n e v r => (db n e v r).map (fun h => pkgOf w.lib w.lib.new h false)) n e v r = some (pkgOf w.lib w.lib.new h false) := by
    simp only [e2, Option.map_some]
  have hnv : (pkgOf w.lib w.lib.new h false).nevr = .ok d.srcNevr := by
    show getNevr w.lib h = _
    rw [hh.2.1, d5]
  obtain ⟨line, l1, _⟩ := C56_sequence sys hs w.H h16 (oldInput w o oa fs colors algo) c hb.size.1 hlen hb.fit hb.made hu hseq ha
    d.srcNevr n v r e e1 hne
      (fun n e v r => (db n e v r).map (fun h => pkgOf w.lib w.lib.new h false)) _ hdb' hnv _ hf (sameButColors_of fs colors) hh.2.2 1 (by omega) (fun _ => hint)
  refine ⟨delta, d, line, d1, d2, by rw [d4]; exact l1, fun mode hmode => ?_, fun mode hmode => ?_⟩
  · exact C56_delta sys hs w.H h16 (oldInput w o oa fs colors algo) c hb.size.1 hlen hb.fit hb.made hu ha w.dec (readdeltaStandard w.lib w.U)
      delta d d2 d3 d4 n v r e e1 (fun n e v r => (db n e v r).map (fun h => pkgOf w.lib w.lib.new h false)) _ hdb' hnv _ hf (sameButColors_of fs colors) hh.2.2 mode hmode hint
  · obtain ⟨line', k1, k2, _⟩ := C56_sequence sys hs w.H h16 (oldInput w o oa fs colors algo) c hb.size.1 hlen hb.fit hb.made hu hseq ha
      d.srcNevr n v r e e1 hne
      (fun n e v r => (db n e v r).map (fun h => pkgOf w.lib w.lib.new h false)) _ hdb' hnv _ hf (sameButColors_of fs colors) hh.2.2 mode hmode (fun _ => hint)
    rw [l1] at k1
    have : line = line' := by
      have := Out.ok.inj k1
      simpa using this
    subst this
    exact k2

/-! ### A concrete case -/

namespace Toy

/-- One file is as it was, the other was changed by prelink. -/
def checkDisk : Disk :=
  { get := inOrderDisk.get
    undo := fun n => if n = [47, 100] then .ok [7, 7, 7] else .err .other }

/-- The same, as the check sees it. The digests are those in the file list. -/
def checkSys : Sys :=
  { content := inOrderDisk.get
    readable := fun _ => true
    reads := fun _ k => some (k + 64)
    undo := checkDisk.undo
    digest := fun algo data => List.replicate (if algo = 0 then 16 else 32)
      (if data = [104, 101, 108, 108, 111] ∨ data = [7, 7, 7] then 0xAA else 0) }

theorem checkSame : SameFiles checkSys checkDisk :=
  ⟨fun _ _ h _ => h, fun _ _ h => h, fun _ => ⟨fun _ => by simp [checkSys], fun n h => by
    simp only [checkSys, Option.some.injEq] at h
    omega⟩⟩

theorem checkDigests : DigestLengths checkSys := by
  intro data
  simp [checkSys]

theorem checkFilesOk (es : List AEnt) (he : Entries inOrderIn.archive 0 es) :
    Recorded checkSys checkDisk inOrderIn es ∧ ∀ ext, Servable inOrderIn checkDisk (packed inOrderIn es) es ext := by
  have h1 := (inOrder_plain es he).2.2 []
  have : demoEntries = es := entries_unique demo_entries es he
  subst this
  refine ⟨⟨?_, ?_⟩, fun ext => ⟨h1.order, Or.inl ⟨by decide +kernel, prelinkSafe_of (by decide +kernel)⟩⟩⟩
  · intro i f e hk hr h0
    have : ∀ x ∈ kept inOrderIn demoEntries, isReg x.2.1 = true → 0 < x.2.1.size →
        parseHex x.2.1.md5 = some (checkSys.digest inOrderIn.algo (slice inOrderIn.archive x.2.2.data x.2.2.size)) := by decide +kernel
    exact this _ hk hr h0
  · intro i f e hk hr h0 data hdata hdig
    have : ∀ x ∈ kept inOrderIn demoEntries, isReg x.2.1 = true → 0 < x.2.1.size →
        (match checkDisk.get x.2.1.name with
          | some data => (checkSys.digest inOrderIn.algo (data.take x.2.1.size) !=
              checkSys.digest inOrderIn.algo (slice inOrderIn.archive x.2.2.data x.2.2.size)) ||
              data.take x.2.1.size == slice inOrderIn.archive x.2.2.data x.2.2.size
          | none => true) = true ∧
        (match checkDisk.undo x.2.1.name with
          | .ok data => (checkSys.digest inOrderIn.algo (data.take x.2.1.size) !=
              checkSys.digest inOrderIn.algo (slice inOrderIn.archive x.2.2.data x.2.2.size)) ||
              data.take x.2.1.size == slice inOrderIn.archive x.2.2.data x.2.2.size
          | _ => true) = true := by decide +kernel
    obtain ⟨t1, t2⟩ := this _ hk hr h0
    simp only at t1 t2
    rcases hdata with hdata | hdata
    · rw [hdata] at t1
      simpa [hdig] using t1
    · rw [hdata] at t2
      simpa [hdig] using t2

end Toy

open Toy in
/-- Non-vacuity of C87: the check passes, so the delta can be applied. -/
theorem C87_demo (addblk : Bool) : ∃ delta, makeFiles world (demoOpts false 3 addblk) oldFile.file newFile.file = .ok delta ∧
    checkDeltaFile world db checkSys delta 1 = .ok () ∧
    ∀ cleanup, applyInstalled world db checkDisk delta cleanup = (.ok (), .written newFile.file) := by
  obtain ⟨_, _, s3, s4, s5⟩ := demoSizes
  obtain ⟨c, hb, hc⟩ := goodBase addblk
  have hsplit : splitNevr (ascii "a-1-1") = .ok (ascii "a", none, ascii "1", ascii "1") := by decide +kernel
  obtain ⟨delta, q1, q2⟩ := C87_partial world Ok laws md5_16 (demoOpts false 3 addblk) rfl (by show 1 ≤ 3 ∧ 3 ≤ 3; omega) oldFile newFile demoArchive demoNewPkg.archive .gzip .gzip 9 (unpacks _ _ rfl)
    demoFiles false 0 c hb goodNew .gzip ⟨"gzip", by decide +kernel, by decide +kernel⟩ (fun _ => rfl) (goodComp _ rfl)
    ⟨by omega, by omega, fun _ => by omega⟩ (by omega) (FewCopies.of_size _ _ _ (by omega) (by omega) (by omega))
    (goodAdd _ _ _ _ (by omega)) (reproduces _) ⟨ascii "a.src.rpm", by decide +kernel⟩ db oldFile.hdr
    (fun nevr n e v r h1 h2 => by
      have h1 : getNevr lib oldFile.hdr = .ok nevr := h1
      rw [nevrs.1] at h1
      cases h1
      rw [hsplit] at h2
      cases h2
      rfl)
    false ⟨demoHasFiles, demoAlgo⟩ checkSys checkDigests checkDisk checkSame (Or.inl rfl) (fun es he => ⟨(checkFilesOk es he).1, fun df _ => (checkFilesOk es he).2 _⟩)
  have hchk : checkDeltaFile world db checkSys delta 1 = .ok () := by
    obtain ⟨delta', d, d1, d2, d3, d4, d5⟩ := standard_reads world Ok laws md5_16 (demoOpts false 3 addblk) rfl (by show 1 ≤ 3 ∧ 3 ≤ 3; omega) oldFile newFile demoArchive demoNewPkg.archive .gzip .gzip 9 (unpacks _ _ rfl)
      demoFiles false 0 c hb goodNew .gzip ⟨"gzip", by decide +kernel, by decide +kernel⟩ (goodComp _ rfl)
      ⟨by omega, by omega, fun _ => by omega⟩ (by omega) (FewCopies.of_size _ _ _ (by omega) (by omega) (by omega))
      (goodAdd _ _ _ _ (by omega))
    rw [q1] at d1
    cases d1
    have d5 : getNevr lib oldFile.hdr = .ok d.srcNevr := d5
    rw [nevrs.1] at d5
    have d5 : d.srcNevr = ascii "a-1-1" := (Out.ok.inj d5).symm
    have hin : makeCpio demoH inOrderIn = .ok c := hb.made
    have : Out.okAnd (makeCpio demoH inOrderIn) (fun c =>
        checkFiles checkSys demoH (pkgOf lib lib.new oldFile.hdr false) c.sequence 1 = .ok ()) = true := by decide +kernel
    rw [hin] at this
    have this : decide (checkFiles checkSys demoH (pkgOf lib lib.new oldFile.hdr false) c.sequence 1 = .ok ()) = true := this
    unfold checkDeltaFile drpmCheck
    rw [if_neg (by decide), d2, Out.bind_ok]
    unfold readInstalled
    rw [d5, hsplit, Out.bind_ok]
    have hdb : (db (ascii "a") none (ascii "1") (ascii "1")) = some oldFile.hdr := rfl
    simp only [hdb, Option.map_some, Out.bind_ok]
    show (sameNevr (ascii "a-1-1") (pkgOf lib lib.new oldFile.hdr false) >>= fun _ =>
      if d.type = .standard then checkFiles checkSys demoH (pkgOf lib lib.new oldFile.hdr false) d.sequence 1 else .ok ()) = .ok ()
    have hn : sameNevr (ascii "a-1-1") (pkgOf lib lib.new oldFile.hdr false) = .ok () := by decide +kernel
    rw [hn, Out.bind_ok, if_pos d3, d4]
    exact of_decide_eq_true this
  exact ⟨delta, q1, hchk, q2 hchk⟩

open Toy in
/-- Non-vacuity of C56 for files. -/
example (addblk : Bool) : ∃ delta d line, makeFiles world (demoOpts false 3 addblk) oldFile.file newFile.file = .ok delta ∧
    readDelta world.dec (readdeltaStandard world.lib world.U) delta = .ok d ∧
    seqLine d.srcNevr d.sequence = .ok (line ++ [10]) ∧
    (∀ mode, mode = 1 ∨ mode = 2 → checkDeltaFile world db demoInstalled delta mode = .ok ()) ∧
    ∀ mode, mode = 0 ∨ mode = 1 ∨ mode = 2 → checkSeqFile world db demoInstalled none line mode = .ok () := by
  obtain ⟨_, _, s3, s4, s5⟩ := demoSizes
  obtain ⟨c, hb, hc⟩ := goodBase addblk
  have hsplit : splitNevr (ascii "a-1-1") = .ok (ascii "a", none, ascii "1", ascii "1") := by decide +kernel
  refine C56_files world Ok laws md5_16 (demoOpts false 3 addblk) rfl (by show 1 ≤ 3 ∧ 3 ≤ 3; omega) oldFile newFile demoArchive demoNewPkg.archive .gzip .gzip 9 (unpacks _ _ rfl)
    demoFiles false 0 c hb goodNew .gzip ⟨"gzip", by decide +kernel, by decide +kernel⟩ (goodComp _ rfl)
    ⟨by omega, by omega, fun _ => by omega⟩ (by omega) (FewCopies.of_size _ _ _ (by omega) (by omega) (by omega))
    (goodAdd _ _ _ _ (by omega)) db oldFile.hdr ?_ false ⟨demoHasFiles, rfl, demoAlgo⟩ ?_ demoInstalled (fun data => by simp [demoInstalled]) (Or.inl rfl) ?_
  · intro nevr h1
    have h1 : getNevr lib oldFile.hdr = .ok nevr := h1
    rw [nevrs.1] at h1
    cases h1
    exact ⟨by decide, _, _, _, _, hsplit, rfl⟩
  · have hin : makeCpio demoH inOrderIn = .ok c := hb.made
    have : Out.okAnd (makeCpio demoH inOrderIn) (fun c => c.sequence.length < 100) = true := by decide +kernel
    rw [hin] at this
    have : decide (c.sequence.length < 100) = true := this
    have := of_decide_eq_true this
    omega
  · intro f hf hr
    have : ∀ f ∈ demoFiles.map (·.noColor), isReg f = true → ∃ x ∈ [zeros 5, zeros 2, zeros 3],
        demoInstalled.content f.name = some x ∧ x.length = f.size ∧ parseHex f.md5 = some (demoInstalled.digest 0 x) := by decide +kernel
    obtain ⟨x, _, x1, x2, x3⟩ := this f hf hr
    exact ⟨x, ⟨x1, rfl, fun k h => by cases h⟩, x2, x3⟩

end Drpm
