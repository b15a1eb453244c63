import Verif.Props.RpmFile
import Verif.Props.Apply
import Verif.Props.Codec
import Verif.RpmMarkLemmas
/-!
# Marked headers, standard deltas as packages, making and applying on files: C67, C68
-/

namespace Drpm

/-! ## C67 -/

/-- C67 (mark): the payload format in the header of a package can be changed to "drpm" and back. The
    marked header differs in nothing else, and taking away the mark gives back the header itself (not
    only one with the same data: the package is to be reproduced byte for byte). -/
theorem C67_mark {η : Type} (lib : Rpmlib η) (Ok : TagData → Prop) (hl : HeaderLaws lib Ok) (h : η) (hs : Sealed lib h)
    (hf : lib.get h 1124 = some (.str (ascii "cpio"))) :
    ∃ m, patchFormat lib h (ascii "drpm") = .ok m ∧ Sealed lib m ∧ WithTag lib h 1124 (some (.str (ascii "drpm"))) m ∧
      patchFormat lib m (ascii "cpio") = .ok h := by
  have e1 : ascii "drpm" = fmtDrpm := by decide +kernel
  have e2 : ascii "cpio" = fmtCpio := by decide +kernel
  rw [e1, e2]
  rw [e2] at hf
  obtain ⟨h0, h63, hr⟩ := hs
  have n1124 : ¬ IsRegion 1124 := not_region (by omega)
  have s0 := (hl.region h0 63 h (Or.inr rfl) hr).1
  obtain ⟨m, u, m1, m2, m3, m4⟩ := patchFormat_of hl hr fmtCpio fmtDrpm hf rfl hl.okFormat.1
  have s1 := (hl.region u 63 m (Or.inr rfl) m3).1
  have hm : WithTag lib h 1124 (some (.str fmtDrpm)) m := fun t ht => by rw [s1 t ht, m4 t ht]
  obtain ⟨m', u', k1, k2, k3, k4⟩ := patchFormat_of hl m3 fmtDrpm fmtCpio (by rw [hm _ n1124, if_pos rfl]) rfl hl.okFormat.2
  have hsame : SameTags lib h0 u' := by
    intro t ht
    rw [k4 t ht]
    by_cases e : t = 1124
    · subst e
      rw [if_pos rfl, ← s0 _ n1124, hf]
    · rw [if_neg e, hm t ht, if_neg e, s0 t ht]
  have := hl.canonical h0 u' 63 h63 k2 hsame
  rw [hr, k3] at this
  cases this
  exact ⟨m, m1, ⟨u, m2, m3⟩, hm, k1⟩

/-- C67 (delta): what is put in front of the data `z` of a standard delta makes a package file of it:
    with the lead and the marked header of the new package, a signature with the size and the MD5 of
    all that follows it, and the data as payload. -/
theorem C67_delta {η : Type} (lib : Rpmlib η) (Ok : TagData → Prop) (hl : HeaderLaws lib Ok) (H : Bytes → Bytes)
    (h16 : ∀ b, (H b).length = 16) (r : RpmSt η) (hdrBlob : Bytes) (hlead : r.lead.length = 96 ∧ leadMagic <+: r.lead)
    (hh : OnDisk lib r.header hdrBlob) (z : Bytes) :
    ∃ d : PkgFile lib, standardHead lib H r z = .ok (d.leadsig ++ d.header) ∧ d.lead = r.lead ∧ d.hdr = r.header ∧ d.payload = z ∧
      lib.get d.sig 1000 = some (.u32 [(d.header.length + d.payload.length) % 2^32]) ∧
      lib.get d.sig 1004 = some (.bin (H (d.header ++ d.payload))) := by
  have he : exportHeader lib r = .ok (headerMagic ++ hdrBlob) := by
    unfold exportHeader
    rw [hh.exp]
  obtain ⟨s, b, s1, s2, s3, s4⟩ := newSignature_of hl ((headerMagic ++ hdrBlob).length + z.length) (H (headerMagic ++ hdrBlob ++ z)) (h16 _)
  let d : PkgFile lib := RpmSt.toFile { r with signature := s } b hdrBlob z hlead s2 hh
  refine ⟨d, ?_, rfl, rfl, rfl, s3, s4⟩
  unfold standardHead
  rw [he, Out.bind_ok, s1, Out.bind_ok, rpmWrite_of { r with signature := s } d rfl rfl rfl false false, Out.bind_ok]
  simp

/-! ## C68 -/

/-- What `rpm_read` and the functions on headers make of a package file with the given archive and
    compression method. -/
def PkgFile.toRpm {η : Type} {lib : Rpmlib η} (p : PkgFile lib) (wantColors : Bool) (archive : Bytes) (c : Comp) : Rpm :=
  { toPkg := pkgOf lib p.sig p.hdr wantColors
    leadsig := p.leadsig
    header := p.header
    payload := p.payload
    archive := archive
    comp := c.code
    level := getLevel lib p.hdr
    isCpio := hasCpio lib p.hdr
    colors := colorsOf lib p.hdr
    source := isSourceRpm lib p.hdr }

theorem rpmOf_file {η σ : Type} {lib : Rpmlib η} {U : Unpack σ} {p : PkgFile lib} {archive : Bytes} {c : Comp}
    (hp : Unpacks U p archive c) (wantColors : Bool) :
    rpmOf lib U wantColors p.file = .ok (p.toRpm wantColors archive c) := by
  unfold rpmOf
  rw [p.readIntro_file, Out.bind_ok]
  simp only
  rw [p.drop_file]
  simp only [readPayload, readArchive, if_true]
  rw [unpackArchive_of U false _ _ c hp.length hp.method hp.whole, Out.bind_ok, p.fetchLeadsig_of _ rfl rfl, Out.bind_ok,
    p.exportHeader_of _ rfl, Out.bind_ok]
  rfl

theorem toRpm_file {η : Type} {lib : Rpmlib η} (p : PkgFile lib) (wantColors : Bool) (archive : Bytes) (c : Comp) :
    (p.toRpm wantColors archive c).file = p.file := rfl

/-- The new package: made by `rpmbuild` with a CPIO payload; a level the compression library has; not
    lzip, which deltas cannot name; if its signature has an MD5, it is that of header and payload. -/
structure GoodNew {η σ τ : Type} (w : World η σ τ) (p : PkgFile w.lib) (archive : Bytes) (c : Comp) (level : Nat) : Prop where
  unpacks : Unpacks w.U p archive c
  sealed : Sealed w.lib p.hdr
  cpio : w.lib.get p.hdr 1124 = some (.str (ascii "cpio"))
  level : getLevel w.lib p.hdr = .ok level ∧ UsableLevel c.code level
  comp : c ≠ .lzip
  counts : w.blobOk (word p.sigBlob 0) (word p.sigBlob 4) = true
  md5 : w.lib.get p.sig 1004 = none ∨ w.lib.get p.sig 1004 = some (.bin (w.H (p.header ++ p.payload)))

/-- The compression of the delta: the library for it undoes what it does. -/
def GoodDeltaComp {η σ τ : Type} (w : World η σ τ) (o : Opts Bytes) (lead : Bytes) (c : Comp) (level : Nat) : Prop :=
  ∃ dc dl, (if o.compFromRpm then dc = c ∧ dl = level else dc.code = o.comp ∧ dl = o.compLevel) ∧
    GoodCodec (w.makeEnv lead) w.applyEnv dc dl

theorem goodSignature_of {η σ τ : Type} {w : World η σ τ} {p : PkgFile w.lib} {archive : Bytes} {c : Comp} {level : Nat}
    (h16 : ∀ b, (w.H b).length = 16) (hp : GoodNew w p archive c level) :
    GoodSignature w.applyEnv (p.toRpm true archive c) := by
  have hl := p.leadsig_length
  have hc := p.sigOk.counts
  have hs := p.sigOk.small
  have hpad := p.aligned.1
  have e1 : p.leadsig = (p.lead ++ headerMagic) ++ (p.sigBlob ++ List.replicate p.pad 0) := by
    simp [PkgFile.leadsig, List.append_assoc]
  have e2 : (p.lead ++ headerMagic).length = 104 := by rw [List.length_append, p.isLead.1]; rfl
  have w1 : word p.leadsig 104 = word p.sigBlob 0 ∧ word p.leadsig 108 = word p.sigBlob 4 := by
    have key : ∀ i, i + 4 ≤ p.sigBlob.length → slice p.leadsig (104 + i) 4 = slice p.sigBlob i 4 := by
      intro i hi
      unfold slice
      rw [e1, ← e2, List.drop_append, List.drop_of_length_le (by omega), List.nil_append, Nat.add_sub_cancel_left,
        List.drop_append_of_le_length (by omega), List.take_append_of_le_length (by rw [List.length_drop]; omega)]
    unfold word
    constructor
    · have := key 0 (by omega); rw [Nat.add_zero] at this; rw [this]
    · rw [key 4 (by omega)]
  have hin : 8 + 16 * word p.leadsig 104 + word p.leadsig 108 = p.sigBlob.length := by rw [w1.1, w1.2]; omega
  refine ⟨?_, ?_, ?_, ?_, ?_⟩
  · show 112 ≤ p.leadsig.length ∧ p.leadsig.length < 2^32
    omega
  · show slice p.leadsig 96 4 = _
    unfold slice
    have : p.leadsig = p.lead ++ (headerMagic ++ (p.sigBlob ++ List.replicate p.pad 0)) := by
      simp [PkgFile.leadsig, List.append_assoc]
    rw [this, ← p.isLead.1, List.drop_left]
    rfl
  · show 112 + 16 * word p.leadsig 104 + word p.leadsig 108 ≤ p.leadsig.length
    omega
  · show w.blobOk (word p.leadsig 104) (word p.leadsig 108) = true
    rw [w1.1, w1.2]
    exact hp.counts
  · have hsl : slice p.leadsig 104 (8 + 16 * word p.leadsig 104 + word p.leadsig 108) = p.sigBlob := by
      rw [hin]
      unfold slice
      rw [e1, ← e2, List.drop_left, List.take_left]
    have himp : w.lib.imp p.sigBlob = some p.sig := by
      have := p.sigOk.imp []
      rwa [List.append_nil] at this
    have key : ∀ m, sigGetMd5 w.lib p.sig = .ok m → SigMd5 w.applyEnv p.leadsig m := by
      intro m hm
      unfold SigMd5
      rw [hsl]
      show (w.lib.imp p.sigBlob).map (sigGetMd5 w.lib) = _
      rw [himp, Option.map_some, hm]
    rcases hp.md5 with hn | hn
    · refine ⟨none, key _ ?_, Or.inl rfl⟩
      unfold sigGetMd5
      rw [hn]
    · refine ⟨some (w.H (p.header ++ p.payload)), key _ ?_, Or.inr rfl⟩
      unfold sigGetMd5
      rw [hn]
      simp only
      rw [if_neg (by rw [h16]; exact fun h => h rfl)]

theorem hasCpio_of {η : Type} {lib : Rpmlib η} {Ok : TagData → Prop} (hl : HeaderLaws lib Ok) {h : η}
    (hf : lib.get h 1124 = some (.str (ascii "cpio"))) : hasCpio lib h = .ok true := by
  unfold hasCpio
  rw [(C65_format lib h).2.1 ((hl.str h 1124 _).2 hf), Out.bind_ok]
  rfl

theorem goodPair_of {η σ τ : Type} {w : World η σ τ} {Ok : TagData → Prop} (hl : HeaderLaws w.lib Ok) {o : Opts Bytes}
    {old new : PkgFile w.lib} {oa na : Bytes} {oc nc : Comp} {level : Nat} (h16 : ∀ b, (w.H b).length = 16)
    (hv : 1 ≤ o.version ∧ o.version ≤ 3) (hnevr : GoodNevr (getNevr w.lib old.hdr)) (hnew : GoodNew w new na nc level)
    (hd : GoodDeltaComp w o new.lead nc level) (wc : Bool) :
    GoodPair (w.makeEnv new.lead) w.applyEnv o (old.toRpm wc oa oc) (new.toRpm true na nc) := by
  refine ⟨⟨rfl, h16⟩, hv, hnevr, hasCpio_of hl hnew.cpio, ⟨level, hnew.level.1, hnew.level.2⟩, ?_, goodSignature_of h16 hnew, ?_⟩
  · have := hnew.comp
    show nc.code ∈ _
    revert this
    cases nc <;> simp [Comp.code]
  · intro l hlv
    have hlv : getLevel w.lib new.hdr = .ok l := hlv
    rw [hnew.level.1] at hlv
    cases hlv
    obtain ⟨dc, dl, h1, h2⟩ := hd
    refine ⟨dc, ?_, ?_⟩
    · unfold deltaComp
      split
      · rename_i hc
        rw [if_pos hc] at h1
        rw [h1.1]
        rfl
      · rename_i hc
        rw [if_neg hc] at h1
        exact h1.1.symm
    · have : (deltaComp o (new.toRpm true na nc) level).2 = dl := by
        unfold deltaComp
        split
        · rename_i hc
          rw [if_pos hc] at h1
          exact h1.2.symm
        · rename_i hc
          rw [if_neg hc] at h1
          exact h1.2.symm
      rw [this]
      exact h2

theorem drpmMake_rpmonly (menv : MakeEnv) (o : Opts Bytes) (ho : o.rpmOnly = true) (old old' : Rpm) (new : Option (Out Rpm))
    (hn : ∃ n, new = some n) (h1 : old.nevr = old'.nevr) (h2 : old.header = old'.header) (h3 : old.archive = old'.archive)
    (h4 : old.payload = old'.payload) : drpmMake menv o (some (.ok old)) new = drpmMake menv o (some (.ok old')) new := by
  obtain ⟨n, rfl⟩ := hn
  have : ∀ r, makePair menv o old r = makePair menv o old' r := by
    intro r
    unfold makePair diffInputs
    rw [if_pos ho, if_pos ho, h1, h2, h3, h4]
  unfold drpmMake
  simp only [Option.isNone_some, Bool.false_eq_true, false_and, if_false, makeAny, Out.bind_ok, this]

/-- The file that is read gives the lead that is used. -/
theorem file_take {η : Type} {lib : Rpmlib η} (p : PkgFile lib) : p.file.take 96 = p.lead := by
  rw [p.file_lead, ← p.isLead.1, List.take_left]

/-- The marked header can be found in the header as it is stored. -/
theorem fmtOffset_of {η : Type} {lib : Rpmlib η} {h : η} {b : Bytes} (hd : OnDisk lib h b) (hi : HasIndex b 1124) :
    ∃ off, fmtOffset (headerMagic ++ b) = .ok off := by
  have hc := hd.counts
  have hs := hd.small
  obtain ⟨i, i1, i2⟩ := hi
  have hlen : (headerMagic ++ b).length = 8 + b.length := by rw [List.length_append]; rfl
  have hw : ∀ k, k + 4 ≤ b.length → word (headerMagic ++ b) (8 + k) = word b k := by
    intro k hk
    unfold word slice
    have : (headerMagic ++ b).drop (8 + k) = b.drop k := by
      rw [List.drop_append, List.drop_of_length_le (by simp [headerMagic]), List.nil_append]
      congr 1
      simp [headerMagic]
    rw [this]
  obtain ⟨_, c2⟩ := C45_first_tag (headerMagic ++ b) (by omega) (by omega)
  rcases c2 with c2 | c2
  · exact c2
  · exfalso
    have h0 : word (headerMagic ++ b) 8 = word b 0 := hw 0 (by omega)
    have key : ∀ n, ∃ j, (j ≤ n) ∧ (∀ k, k < j → word (headerMagic ++ b) (16 + 16 * k) ≠ 1124) ∧
        (j < n → word (headerMagic ++ b) (16 + 16 * j) = 1124) := by
      intro n
      induction n with
      | zero => exact ⟨0, by omega, fun k hk => by omega, fun h => by omega⟩
      | succ n ih =>
        obtain ⟨j, j1, j2, j3⟩ := ih
        by_cases hj : j < n
        · exact ⟨j, by omega, j2, fun _ => j3 hj⟩
        · obtain rfl : j = n := by omega
          by_cases e : word (headerMagic ++ b) (16 + 16 * j) = 1124
          · exact ⟨j, by omega, j2, fun _ => e⟩
          · refine ⟨j + 1, by omega, fun k hk => ?_, fun h => by omega⟩
            by_cases hk' : k < j
            · exact j2 k hk'
            · obtain rfl : k = j := by omega
              exact e
    obtain ⟨j, j1, j2, j3⟩ := key (i + 1)
    have hj : j < i + 1 := by
      by_cases h : j < i + 1
      · exact h
      · have := j2 i (by omega)
        rw [show 16 + 16 * i = 8 + (8 + 16 * i) by omega, hw _ (by omega)] at this
        exact absurd i2 this
    have := ((C45_first_tag (headerMagic ++ b) (by omega) (by omega)).1 _).2
      ⟨j, by omega, by omega, j3 hj, j2, rfl⟩
    rw [c2] at this
    cases this

/-- Two packages in memory with the same lead and header get the same head. -/
theorem standardHead_congr {η : Type} (lib : Rpmlib η) (H : Bytes → Bytes) (r r' : RpmSt η) (z : Bytes) (h1 : r.lead = r'.lead)
    (h2 : r.header = r'.header) : standardHead lib H r z = standardHead lib H r' z := by
  unfold standardHead exportHeader rpmWrite exportSignature exportHeader
  simp only [h1, h2]
  rfl

/-- What a standard delta needs of rpmlib follows from its laws. -/
theorem goodHeader_of {η σ τ : Type} {w : World η σ τ} {Ok : TagData → Prop} (hl : HeaderLaws w.lib Ok)
    {new : PkgFile w.lib} {na : Bytes} {nc : Comp} {level : Nat} (h16 : ∀ b, (w.H b).length = 16) (hnew : GoodNew w new na nc level)
    (hc : Comp) (hname : ∃ s, (s, hc) ∈ payloadNames ∧ w.lib.get new.hdr 1125 = some (.str (ascii s))) :
    ∃ marked head, GoodHeader (w.makeEnv new.lead) w.applyEnv (new.toRpm true na nc) marked head hc.code ∧
      (∀ s, w.lib.get new.hdr 1044 = some (.str s) → ∀ z, w.applyEnv.tgtSource (head z ++ z) = false) ∧
      ∀ z, ∃ m, deltaNevr w.lib w.U (head z ++ z) = getNevr w.lib m ∧
        WithTag w.lib new.hdr 1124 (some (.str fmtDrpm)) m := by
  have e1 : ascii "drpm" = fmtDrpm := by decide +kernel
  have e2 : ascii "cpio" = fmtCpio := by decide +kernel
  have n1125 : ¬ IsRegion 1125 := not_region (by omega)
  have n1044 : ¬ IsRegion 1044 := not_region (by omega)
  have n1124 : ¬ IsRegion 1124 := not_region (by omega)
  obtain ⟨m, m1, ⟨u, m2, m3⟩, m4, m5⟩ := C67_mark w.lib Ok hl new.hdr hnew.sealed hnew.cpio
  rw [e1] at m1 m4
  rw [e2] at m5
  obtain ⟨b, b1, b2⟩ := hl.disk u 63 m (Or.inr rfl) m3
  have s1 := (hl.region u 63 m (Or.inr rfl) m3).1
  have hidx : HasIndex b 1124 := b2 1124 (.str fmtDrpm) (by rw [← s1 _ n1124, m4 _ n1124, if_pos rfl]) n1124
  have himpN : w.lib.imp (new.header.drop 8) = some new.hdr := by
    have := new.hdrOk.imp []
    rw [List.append_nil] at this
    exact this
  have himpM : w.lib.imp ((headerMagic ++ b).drop 8) = some m := by
    have := b1.imp []
    rw [List.append_nil] at this
    exact this
  -- the delta as a package
  have hdelta : ∀ z, ∃ d : PkgFile w.lib, (w.makeEnv new.lead).rpmW (headerMagic ++ b) z = .ok (d.leadsig ++ d.header) ∧
      d.lead = new.lead ∧ d.hdr = m ∧ d.payload = z := by
    intro z
    obtain ⟨d, d1, d2, d3, d4, _⟩ := C67_delta w.lib Ok hl w.H h16 ⟨new.lead, w.lib.new, m, [], 0, 0⟩ b new.isLead b1 z
    refine ⟨d, ?_, d2, d3, d4⟩
    show deltaHead w.lib w.H new.lead (headerMagic ++ b) z = _
    unfold deltaHead
    rw [himpM]
    simp only
    rw [d1]
  obtain ⟨head, hwrote, hdelta⟩ : ∃ head : Bytes → Bytes, (∀ z, (w.makeEnv new.lead).rpmW (headerMagic ++ b) z = .ok (head z)) ∧
      ∀ z, ∃ d : PkgFile w.lib, head z = d.leadsig ++ d.header ∧ d.lead = new.lead ∧ d.hdr = m ∧ d.payload = z := by
    refine ⟨fun z => ((hdelta z).choose.leadsig ++ (hdelta z).choose.header), fun z => (hdelta z).choose_spec.1, fun z => ?_⟩
    exact ⟨(hdelta z).choose, rfl, (hdelta z).choose_spec.2⟩
  have hread : ∀ z, ∃ d : PkgFile w.lib, head z ++ z = d.file ∧
      head z = d.leadsig ++ d.header ∧ d.lead = new.lead ∧
      ∃ x, rpmRead w.lib (fun b => b) w.U .dontRead false false d.file = .ok x ∧ ReadsAs d [] 0 x.st ∧ x.st.header = m := by
    intro z
    obtain ⟨d, d1, d2, d3, d4⟩ := hdelta z
    obtain ⟨x, x1, x2⟩ := C62_head d (fun b => b) w.U
    refine ⟨d, ?_, d1, d2, x, x1, x2, by rw [x2.parts.2.2.1, d3]⟩
    rw [d1, ← d4]
    rfl
  refine ⟨headerMagic ++ b, head, ⟨?_, fmtOffset_of b1 hidx, hwrote, fun z => ?_, fun z => ?_, fun z => ?_⟩, fun s hs z => ?_, fun z => ?_⟩
  · show markedHeader w.lib new.header = _
    unfold markedHeader
    rw [himpN]
    simp only
    rw [m1, Out.bind_ok]
    unfold exportHeader
    simp only
    rw [b1.exp]
  · obtain ⟨d, d1, d2, d3, x, x1, x2, x3⟩ := hread z
    show readdeltaStandard w.lib w.U _ = _
    unfold readdeltaStandard
    rw [d1, x1, Out.bind_ok]
    obtain ⟨s, n1, n2⟩ := hname
    have hg : getComp w.lib x.st.header = .ok hc.code := by
      refine (C65_compressor w.lib x.st.header).1 (s, hc) n1 ?_
      rw [hl.str, x3, m4 _ n1125, if_neg (by omega)]
      exact n2
    rw [hg, Out.bind_ok, x2.size, d2, List.length_append, Nat.add_zero]
    have l1 := d.leadsig_length
    have l2 := d.header_length
    have l3 := d.sigOk.small
    have l4 := d.hdrOk.small
    have l5 := d.aligned.1
    rw [Nat.mod_eq_of_lt (by omega)]
  · obtain ⟨d, _, d2, d3, _⟩ := hread z
    obtain ⟨t, ht⟩ := new.isLead.2
    rw [d2]
    refine ⟨t ++ (headerMagic ++ (d.sigBlob ++ (List.replicate d.pad 0 ++ d.header))), ?_⟩
    rw [PkgFile.leadsig, d3, ← ht]
    simp [leadMagic, List.append_assoc]
  · obtain ⟨d, d1, _, _, x, x1, _, x3⟩ := hread z
    show unmarkedHeader w.lib w.U _ = _
    unfold unmarkedHeader
    rw [d1, x1, Out.bind_ok, x3, m5, Out.bind_ok]
    exact new.exportHeader_of _ rfl
  · obtain ⟨d, d1, _, _, x, x1, _, x3⟩ := hread z
    show deltaIsSource w.lib w.U _ = _
    unfold deltaIsSource
    rw [d1, x1]
    simp only
    unfold isSourceRpm
    have hm : w.lib.getStr m 1044 = some s := by rw [hl.str, m4 _ n1044, if_neg (by omega), hs]
    rw [x3, hm]
    rfl
  · obtain ⟨d, d1, _, _, x, x1, _, x3⟩ := hread z
    refine ⟨m, ?_, m4⟩
    unfold deltaNevr
    rw [d1, x1, Out.bind_ok, x3]

/-- The index of the header of a package lists every tag the header has. -/
theorem sealed_index {η : Type} {lib : Rpmlib η} {Ok : TagData → Prop} (hl : HeaderLaws lib Ok) {h : η} {b : Bytes} (hs : Sealed lib h)
    (hb : OnDisk lib h b) {t : Nat} {d : TagData} (ht : lib.get h t = some d) (hr : ¬ IsRegion t) : HasIndex b t := by
  obtain ⟨h0, _, h2⟩ := hs
  obtain ⟨b', b1, b2⟩ := hl.disk h0 63 h (Or.inr rfl) h2
  have : b' = b := by
    have := b1.exp
    rw [hb.exp] at this
    exact (Option.some.inj this).symm
  subst this
  refine b2 t d ?_ hr
  rw [← (hl.region h0 63 h (Or.inr rfl) h2).1 t hr]
  exact ht

/-- C68 for rpm-only deltas: for every two package files, the delta that is made from them turns the
    old file into the new one, byte for byte. What is asked of rpmlib, MD5 and the compression
    libraries is in `HeaderLaws`, `h16`, `GoodDeltaComp`, `GoodAdd` and `hcomp`. -/
theorem C68_rpmonly {η σ τ : Type} (w : World η σ τ) (Ok : TagData → Prop) (hl : HeaderLaws w.lib Ok) (h16 : ∀ b, (w.H b).length = 16)
    (o : Opts Bytes) (ho : o.rpmOnly = true) (hv : o.version = 3)
    (old new : PkgFile w.lib) (oa na : Bytes) (oc nc : Comp) (level : Nat)
    (hold : Unpacks w.U old oa oc) (hnew : GoodNew w new na nc level)
    (hn : GoodNevr (getNevr w.lib old.hdr)) (hn' : GoodNevr (getNevr w.lib new.hdr))
    (hmd5 : w.lib.get old.sig 1004 = some (.bin (w.H (old.header ++ old.payload))))
    (hd : GoodDeltaComp w o new.lead nc level)
    (hsize : oa.length ≤ 2^43 ∧ na.length < 2^62)
    (hsmall : old.header.length + oa.length < 2^31 ∨ new.header.length + na.length < 2^31)
    (hcnt : FewCopies (old.header ++ oa) (new.header ++ na) o.addblk)
    (hadd : GoodAdd (w.makeEnv new.lead) w.applyEnv o (new.header.length + na.length))
    (hcomp : Reproduces w.applyEnv nc.code level na new.payload) :
    ∃ delta, makeFiles w o old.file new.file = .ok delta ∧
      ∀ cleanup, applyFiles w old.file delta cleanup = (.ok (), .written new.file) := by
  have lo := old.header_length
  have ln := new.header_length
  have so := old.hdrOk.small
  have sn := new.hdrOk.small
  have co := old.hdrOk.counts
  have cn := new.hdrOk.counts
  have hoff := fmtOffset_of new.hdrOk (sealed_index hl hnew.sealed new.hdrOk hnew.cpio (not_region (by omega)))
  have hm : sigGetMd5 w.lib old.sig = .ok (some (w.H (old.header ++ old.payload))) := by
    unfold sigGetMd5
    rw [hmd5]
    simp only
    rw [if_neg (by rw [h16]; exact fun h => h rfl)]
  obtain ⟨delta, h1, h2⟩ := C48_rpmonly (w.makeEnv new.lead) w.applyEnv o (old.toRpm false oa oc) (new.toRpm true na nc)
    (goodPair_of hl h16 (by omega) hn hnew hd false) ho hv hn' hm
    (by show 0 < new.header.length ∧ new.header.length < 2^32; omega) hoff
    (by show 0 < old.header.length + oa.length ∧ old.header.length + oa.length ≤ 2^44; omega)
    (by show 16 ≤ new.header.length + na.length ∧ new.header.length + na.length < 2^63; omega)
    hsmall hcnt hadd (fun l hlv => by
      have hlv : getLevel w.lib new.hdr = .ok l := hlv
      rw [hnew.level.1] at hlv
      cases hlv
      exact hcomp)
  refine ⟨delta, ?_, fun cleanup => ?_⟩
  · unfold makeFiles
    rw [file_take, rpmOf_file hold, rpmOf_file hnew.unpacks]
    exact (drpmMake_rpmonly _ o ho (old.toRpm true oa oc) (old.toRpm false oa oc) _ ⟨_, rfl⟩ rfl rfl rfl rfl).trans h1
  · unfold applyFiles
    rw [rpmOf_file hold]
    exact h2 cleanup

/-- What making a standard delta takes from the old package: its archive, its file list (with colours
    if it has them) and its digest algorithm. -/
def oldInput {η σ τ : Type} (w : World η σ τ) (o : Opts Bytes) (archive : Bytes) (fs : List FileInfo) (colors : Bool) (algo : Nat) : MakeIn :=
  { archive, files := if colors then fs else fs.map (·.noColor), colors, algo, offadj := decide (o.version ≥ 3), unpatched := w.unpatched }

/-- The old package of a standard delta: a header with a file list whose members fit into a CPIO
    archive, an archive of which an altered one can be made (`Plain` and the limits exclude the
    defects of C21, C43 and C51). -/
structure GoodBase {η σ τ : Type} (w : World η σ τ) (o : Opts Bytes) (old : PkgFile w.lib) (archive : Bytes) (fs : List FileInfo) (colors : Bool)
    (algo : Nat) (c : Made) : Prop where
  files : HasFiles w.lib old.hdr fs colors
  digest : getAlgo w.lib old.hdr = .ok algo
  nevr : GoodNevr (getNevr w.lib old.hdr)
  size : archive.length < 2^63 ∧ fs.length < 2^32
  fit : FilesFit (oldInput w o archive fs colors algo)
  plain : ∀ es, Entries archive 0 es → Plain (oldInput w o archive fs colors algo) es
  made : makeCpio w.H (oldInput w o archive fs colors algo) = .ok c
  limits : c.cpio.length ≤ 2^44 ∧ c.offadjs.length < 2^29 ∧ (o.version < 3 → c.cpio.length < 2^32)

theorem files_of {η : Type} {lib : Rpmlib η} {h : η} {fs : List FileInfo} {colors : Bool} (hf : HasFiles lib h fs colors) (sig : η) (wc : Bool) :
    (pkgOf lib sig h wc).files = .ok (if wc && colors then fs else fs.map (·.noColor)) := by
  show (do let (fs, _) ← getFileInfo lib h wc; Out.ok fs) = _
  rw [C66_files lib h fs colors wc hf]
  rfl

theorem colorsOf_of {η : Type} {lib : Rpmlib η} {h : η} {fs : List FileInfo} {colors : Bool} (hf : HasFiles lib h fs colors) :
    colorsOf lib h = colors := by
  unfold colorsOf
  rw [C66_files lib h fs colors true hf]
  simp

theorem goodOld_of {η σ τ : Type} {w : World η σ τ} {o : Opts Bytes} {old : PkgFile w.lib} {oa : Bytes} {fs : List FileInfo} {colors : Bool}
    {algo : Nat} {c : Made} (hb : GoodBase w o old oa fs colors algo c) (lead : Bytes) (oc : Comp) :
    GoodOld (w.makeEnv lead) o (old.toRpm true oa oc) (oldInput w o oa fs colors algo) c := by
  refine ⟨?_, hb.digest, ⟨rfl, (colorsOf_of hb.files).symm, rfl, rfl⟩, ⟨hb.size.1, ?_⟩, hb.fit, hb.plain, hb.made, hb.limits⟩
  · show (pkgOf w.lib old.sig old.hdr true).files = _
    rw [files_of hb.files]
    rfl
  · show (if colors then fs else fs.map (·.noColor)).length < 2^32
    have := hb.size.2
    split
    · exact this
    · rw [List.length_map]
      exact this

theorem sameButColors_of (fs : List FileInfo) (colors : Bool) :
    SameButColors (fs.map (·.noColor)) (if colors then fs else fs.map (·.noColor)) := by
  have : (fs.map (·.noColor)).map (·.noColor) = fs.map (·.noColor) := by
    rw [List.map_map]
    rfl
  unfold SameButColors
  split
  · exact this
  · rfl

/-- C68 for standard deltas applied to the old package file: for every two package files, the delta
    that is made from them turns the old file into the new one, byte for byte. `hc` is the compression
    method the header of the new package names. -/
theorem C68_standard {η σ τ : Type} (w : World η σ τ) (Ok : TagData → Prop) (hl : HeaderLaws w.lib Ok) (h16 : ∀ b, (w.H b).length = 16)
    (o : Opts Bytes) (ho : o.rpmOnly = false) (hv : 1 ≤ o.version ∧ o.version ≤ 3)
    (old new : PkgFile w.lib) (oa na : Bytes) (oc nc : Comp) (level : Nat)
    (hold : Unpacks w.U old oa oc) (fs : List FileInfo) (colors : Bool) (algo : Nat) (c : Made) (hb : GoodBase w o old oa fs colors algo c)
    (hnew : GoodNew w new na nc level)
    (hc : Comp) (hname : ∃ s, (s, hc) ∈ payloadNames ∧ w.lib.get new.hdr 1125 = some (.str (ascii s))) (hv1 : o.version = 1 → hc = nc)
    (hd : GoodDeltaComp w o new.lead nc level)
    (hsize : 16 ≤ na.length ∧ na.length < 2^63 ∧ (o.version < 3 → na.length < 2^32))
    (hsmall : c.cpio.length < 2^31 ∨ na.length < 2^31)
    (hcnt : FewCopies c.cpio na o.addblk)
    (hadd : GoodAdd (w.makeEnv new.lead) w.applyEnv o na.length)
    (hcomp : Reproduces w.applyEnv nc.code (if o.version = 1 then 0 else level) na new.payload) :
    ∃ delta, makeFiles w o old.file new.file = .ok delta ∧
      ∀ cleanup, applyFiles w old.file delta cleanup = (.ok (), .written new.file) := by
  obtain ⟨marked, head, hh, _⟩ := goodHeader_of hl h16 hnew hc hname
  obtain ⟨delta, h1, h2⟩ := C48_standard (w.makeEnv new.lead) w.applyEnv o (old.toRpm true oa oc) (new.toRpm true na nc)
    (goodPair_of hl h16 hv hb.nevr hnew hd true) ho (oldInput w o oa fs colors algo) c (goodOld_of hb new.lead oc) marked head hc.code hh
    (fun e => by rw [hv1 e]; rfl) hsize hsmall hcnt hadd
    (fun l hlv => by
      have hlv : getLevel w.lib new.hdr = .ok l := hlv
      rw [hnew.level.1] at hlv
      cases hlv
      exact hcomp)
    (old.toRpm false oa oc) (fs.map (·.noColor)) ⟨rfl, by
      show (pkgOf w.lib old.sig old.hdr false).files = _
      rw [files_of hb.files]
      simp, rfl, rfl⟩ (sameButColors_of fs colors)
  refine ⟨delta, ?_, fun cleanup => ?_⟩
  · unfold makeFiles
    rw [file_take, rpmOf_file hold, rpmOf_file hnew.unpacks]
    exact h1
  · unfold applyFiles
    rw [rpmOf_file hold]
    exact h2 cleanup

/-- C68 for standard deltas applied to installed files: the header of the old package (which need not
    have its colours) is what the database has under the name, epoch, version and release of the old
    package, and its files are installed unchanged or changed by prelink only. The new package must
    not be a source package. -/
theorem C68_installed {η σ τ : Type} (w : World η σ τ) (Ok : TagData → Prop) (hl : HeaderLaws w.lib Ok) (h16 : ∀ b, (w.H b).length = 16)
    (o : Opts Bytes) (ho : o.rpmOnly = false) (hv : 1 ≤ o.version ∧ o.version ≤ 3)
    (old new : PkgFile w.lib) (oa na : Bytes) (oc nc : Comp) (level : Nat)
    (hold : Unpacks w.U old oa oc) (fs : List FileInfo) (colors : Bool) (algo : Nat) (c : Made) (hb : GoodBase w o old oa fs colors algo c)
    (hnew : GoodNew w new na nc level)
    (hc : Comp) (hname : ∃ s, (s, hc) ∈ payloadNames ∧ w.lib.get new.hdr 1125 = some (.str (ascii s))) (hv1 : o.version = 1 → hc = nc)
    (hd : GoodDeltaComp w o new.lead nc level)
    (hsize : 16 ≤ na.length ∧ na.length < 2^63 ∧ (o.version < 3 → na.length < 2^32))
    (hsmall : c.cpio.length < 2^31 ∨ na.length < 2^31)
    (hcnt : FewCopies c.cpio na o.addblk)
    (hadd : GoodAdd (w.makeEnv new.lead) w.applyEnv o na.length)
    (hcomp : Reproduces w.applyEnv nc.code (if o.version = 1 then 0 else level) na new.payload)
    (hbin : ∃ s, w.lib.get new.hdr 1044 = some (.str s))
    (db : Bytes → Option Bytes → Bytes → Bytes → Option η) (disk : Disk) (h : η)
    (hdb : ∀ nevr n e v r, getNevr w.lib old.hdr = .ok nevr → splitNevr nevr = .ok (n, e, v, r) → db n e v r = some h)
    (hsplit : ∀ nevr, getNevr w.lib old.hdr = .ok nevr → ∃ x, splitNevr nevr = .ok x)
    (colors' : Bool) (hh : HasFiles w.lib h fs colors' ∧ getNevr w.lib h = getNevr w.lib old.hdr ∧ getAlgo w.lib h = .ok algo)
    (hdisk : ∀ es, Entries oa 0 es → ∃ get, OldInstalled (oldInput w o oa fs colors algo) disk get es ∧
      ∀ df, makeDiff c.cpio na o.addblk = .ok df → Servable (oldInput w o oa fs colors algo) disk get es df.ext) :
    ∃ delta, makeFiles w o old.file new.file = .ok delta ∧
      ∀ cleanup, applyInstalled w db disk delta cleanup = (.ok (), .written new.file) := by
  obtain ⟨marked, head, hhd, hsrc, _⟩ := goodHeader_of hl h16 hnew hc hname
  obtain ⟨s, hs⟩ := hbin
  obtain ⟨delta, h1, h2⟩ := C48_installed (w.makeEnv new.lead) w.applyEnv o (old.toRpm true oa oc) (new.toRpm true na nc)
    (goodPair_of hl h16 hv hb.nevr hnew hd true) ho (oldInput w o oa fs colors algo) c (goodOld_of hb new.lead oc) marked head hc.code hhd
    (fun e => by rw [hv1 e]; rfl) hsize hsmall hcnt hadd
    (fun l hlv => by
      have hlv : getLevel w.lib new.hdr = .ok l := hlv
      rw [hnew.level.1] at hlv
      cases hlv
      exact hcomp)
    (fun n e v r => (db n e v r).map (fun h => pkgOf w.lib w.lib.new h false)) disk (pkgOf w.lib w.lib.new h false)
    (fun nevr hn => by
      have hn : getNevr w.lib old.hdr = .ok nevr := hn
      obtain ⟨⟨n, e, v, r⟩, hx⟩ := hsplit nevr hn
      unfold readInstalled
      rw [hx, Out.bind_ok]
      simp only
      rw [hdb nevr n e v r hn hx]
      rfl)
    (fs.map (·.noColor)) ⟨hh.2.1, by rw [files_of hh.1]; simp, by show getAlgo w.lib h = getAlgo w.lib old.hdr; rw [hh.2.2, hb.digest]⟩
    (sameButColors_of fs colors) (hsrc s hs) hdisk
  refine ⟨delta, ?_, h2⟩
  unfold makeFiles
  rw [file_take, rpmOf_file hold, rpmOf_file hnew.unpacks]
  exact h1

/-! ## The conditions hold for concrete packages -/

namespace Toy

theorem goodNew : GoodNew world newFile demoNewPkg.archive .gzip 9 := by
  refine ⟨unpacks _ _ rfl, sealedHdr_sealed _ (by decide +kernel), ?_, ⟨?_, Or.inl (by omega)⟩, by decide, ?_, Or.inr ?_⟩
  · decide +kernel
  · have : Out.okAnd (getLevel lib newFile.hdr) (fun l => l = 9) = true := by decide +kernel
    obtain ⟨l, l1, l2⟩ := okAnd_ok this
    simp only [decide_eq_true_eq] at l2
    rw [← l2]
    exact l1
  · decide +kernel
  · decide +kernel

theorem goodComp (o : Opts Bytes) (ho : o.compFromRpm = true) : GoodDeltaComp world o newFile.lead .gzip 9 := by
  refine ⟨.gzip, 9, by rw [if_pos ho]; exact ⟨rfl, rfl⟩, Or.inl (by omega), fun _ s => ⟨demoPack s, rfl, by simp [demoPack], ⟨_, rfl⟩, rfl⟩⟩

theorem goodAdd (rpmOnly addblk : Bool) (version n : Nat) (hn : n < 2^30) :
    GoodAdd (world.makeEnv newFile.lead) world.applyEnv (demoOpts rpmOnly version addblk) n := by
  intro _
  refine ⟨.gzip, by simp, rfl, Or.inl (by show 9 ≤ 9; omega), fun ws hw => ⟨demoPack ws.flatten, rfl, ?_, ?_, ⟨_, rfl⟩, rfl⟩⟩
  · simp [demoPack]
  · simp only [demoPack, List.length_append, List.length_cons, List.length_nil]
    omega

theorem reproduces (level : Nat) : Reproduces world.applyEnv 1 level demoNewPkg.archive newFile.payload := by
  unfold Reproduces
  rw [if_neg (by omega)]
  intro ps h _
  have := demoEnc_all ps []
  rw [h] at this
  exact this

/-- Non-vacuity of C67: the header of the new package can be marked, and the delta with any data is a
    package file. -/
example : ∃ m, patchFormat lib newFile.hdr (ascii "drpm") = .ok m ∧ patchFormat lib m (ascii "cpio") = .ok newFile.hdr := by
  obtain ⟨m, h1, _, _, h2⟩ := C67_mark lib Ok laws newFile.hdr goodNew.sealed goodNew.cpio
  exact ⟨m, h1, h2⟩

example (z : Bytes) : ∃ d : PkgFile lib, standardHead lib demoH ⟨newFile.lead, newFile.sig, newFile.hdr, [], 0, 0⟩ z = .ok (d.leadsig ++ d.header) := by
  obtain ⟨d, h, _⟩ := C67_delta lib Ok laws demoH md5_16 ⟨newFile.lead, newFile.sig, newFile.hdr, [], 0, 0⟩ _ newFile.isLead newFile.hdrOk z
  exact ⟨d, h⟩

end Toy

open Toy in
/-- Non-vacuity of C68 for rpm-only deltas. -/
theorem C68_demo_rpmonly (addblk : Bool) : ∃ delta, makeFiles world (demoOpts true 3 addblk) oldFile.file newFile.file = .ok delta ∧
    ∀ cleanup, applyFiles world oldFile.file delta cleanup = (.ok (), .written newFile.file) := by
  obtain ⟨s1, s2, s3, s4, s5⟩ := demoSizes
  have l1 := oldFile.header_length
  have l2 := newFile.header_length
  have c1 := oldFile.hdrOk.counts
  have c2 := newFile.hdrOk.counts
  refine C68_rpmonly world Ok laws md5_16 _ rfl rfl oldFile newFile demoArchive demoNewPkg.archive .gzip .gzip 9 (unpacks _ _ rfl)
    goodNew ⟨_, nevrs.1, by decide, by decide⟩ ⟨_, nevrs.2, by decide, by decide⟩ (by decide +kernel) (goodComp _ rfl) (by omega) (by omega)
    (FewCopies.of_size _ _ _ ?_ ?_ ?_) (goodAdd _ _ _ _ (by omega)) (reproduces 9)
  all_goals simp only [List.length_append]; omega

namespace Toy

theorem goodBase (addblk : Bool) : ∃ c, GoodBase world (demoOpts false 3 addblk) oldFile demoArchive demoFiles false 0 c ∧
    c.cpio.length < 500 ∧ c.sequence.length < 500 := by
  have hin : oldInput world (demoOpts false 3 addblk) demoArchive demoFiles false 0 = inOrderIn := rfl
  have hc : Out.okAnd (makeCpio demoH inOrderIn) (fun c => c.cpio.length < 500 ∧ c.offadjs.length < 10 ∧ c.sequence.length < 500) = true := by
    decide +kernel
  obtain ⟨c, c1, c2⟩ := okAnd_ok hc
  simp only [decide_eq_true_eq] at c2
  refine ⟨c, ⟨demoHasFiles, demoAlgo, ⟨_, nevrs.1, by decide, by decide⟩, by decide +kernel, ?_,
    fun es he => by rw [hin]; exact (inOrder_plain es he).1, by rw [hin]; exact c1, by omega, by omega, fun _ => by omega⟩, c2.1, c2.2.2⟩
  rw [hin]
  intro f hf
  have : ∀ f ∈ inOrderIn.files, f.mode < 2^16 ∧ f.rdev < 2^16 ∧ f.size + 3 < 2^32 ∧ f.linkto.length + 3 < 2^32 ∧
    f.name.length + 3 < 2^16 := by decide +kernel
  obtain ⟨a, b, c, d, e⟩ := this f hf
  exact ⟨a, b, c, d, e⟩

end Toy

open Toy in
/-- Non-vacuity of C68 for standard deltas. -/
theorem C68_demo_standard (addblk : Bool) : ∃ delta, makeFiles world (demoOpts false 3 addblk) oldFile.file newFile.file = .ok delta ∧
    ∀ cleanup, applyFiles world oldFile.file delta cleanup = (.ok (), .written newFile.file) := by
  obtain ⟨_, _, s3, s4, s5⟩ := demoSizes
  obtain ⟨c, hb, hc⟩ := goodBase addblk
  exact C68_standard world Ok laws md5_16 _ rfl (by show 1 ≤ 3 ∧ 3 ≤ 3; omega) oldFile newFile demoArchive demoNewPkg.archive .gzip .gzip 9 (unpacks _ _ rfl)
    demoFiles false 0 c hb goodNew .gzip ⟨"gzip", by decide +kernel, by decide +kernel⟩ (fun _ => rfl) (goodComp _ rfl)
    ⟨by omega, by omega, fun _ => by omega⟩ (by omega) (FewCopies.of_size _ _ _ (by omega) (by omega) (by omega))
    (goodAdd _ _ _ _ (by omega)) (reproduces _)

namespace Toy

/-- A database with the header of the old package. -/
def db : Bytes → Option Bytes → Bytes → Bytes → Option Hdr :=
  fun n _ v r => if n = ascii "a" ∧ v = ascii "1" ∧ r = ascii "1" then some oldFile.hdr else none

end Toy

open Toy in
/-- Non-vacuity of C68 for installed files. -/
theorem C68_demo_installed (addblk : Bool) : ∃ delta, makeFiles world (demoOpts false 3 addblk) oldFile.file newFile.file = .ok delta ∧
    ∀ cleanup, applyInstalled world db inOrderDisk delta cleanup = (.ok (), .written newFile.file) := by
  obtain ⟨_, _, s3, s4, s5⟩ := demoSizes
  obtain ⟨c, hb, hc⟩ := goodBase addblk
  have hsplit : splitNevr (ascii "a-1-1") = .ok (ascii "a", none, ascii "1", ascii "1") := by decide +kernel
  refine C68_installed world Ok laws md5_16 _ rfl (by show 1 ≤ 3 ∧ 3 ≤ 3; omega) oldFile newFile demoArchive demoNewPkg.archive .gzip .gzip 9 (unpacks _ _ rfl)
    demoFiles false 0 c hb goodNew .gzip ⟨"gzip", by decide +kernel, by decide +kernel⟩ (fun _ => rfl) (goodComp _ rfl)
    ⟨by omega, by omega, fun _ => by omega⟩ (by omega) (FewCopies.of_size _ _ _ (by omega) (by omega) (by omega))
    (goodAdd _ _ _ _ (by omega)) (reproduces _) ⟨ascii "a.src.rpm", by decide +kernel⟩ db inOrderDisk oldFile.hdr ?_ ?_ false
    ⟨demoHasFiles, rfl, demoAlgo⟩ (fun es he => ⟨_, (inOrder_plain es he).2.1, fun df _ => (inOrder_plain es he).2.2 _⟩)
  · intro nevr n e v r h1 h2
    have h1 : getNevr lib oldFile.hdr = .ok nevr := h1
    rw [nevrs.1] at h1
    cases h1
    rw [hsplit] at h2
    cases h2
    rfl
  · intro nevr h1
    have h1 : getNevr lib oldFile.hdr = .ok nevr := h1
    rw [nevrs.1] at h1
    cases h1
    exact ⟨_, hsplit⟩

end Drpm
