import Verif.Props.RpmMake
/-!
# Identity deltas of package files (C44), headers without a region (C67), reading the archive in
pieces (C62)
-/

namespace Drpm

/-! ## C44 -/

/-- Lead and signature of a package file survive being put into another package and written. -/
theorem exportSig_of {η σ τ : Type} (w : World η σ τ) (p : PkgFile w.lib) : w.applyEnv.exportSig p.leadsig = .ok p.leadsig := by
  have hl := p.leadsig_length
  have hc := p.sigOk.counts
  have e1 : p.leadsig = (p.lead ++ headerMagic) ++ (p.sigBlob ++ List.replicate p.pad 0) := by
    simp [PkgFile.leadsig, List.append_assoc]
  have e2 : (p.lead ++ headerMagic).length = 104 := by rw [List.length_append, p.isLead.1]; rfl
  have e3 : p.leadsig = p.lead ++ (headerMagic ++ (p.sigBlob ++ List.replicate p.pad 0)) := by
    simp [PkgFile.leadsig, List.append_assoc]
  have d1 : p.leadsig.drop 104 = p.sigBlob ++ List.replicate p.pad 0 := by rw [e1, ← e2, List.drop_left]
  have d2 : p.leadsig.take 96 = p.lead := by rw [e3, ← p.isLead.1, List.take_left]
  have d3 : slice p.leadsig 96 4 = headerMagic.take 4 := by
    unfold slice
    rw [e3, ← p.isLead.1, List.drop_left]
    rfl
  show (do let r ← replaceLeadsig w.lib ⟨[], w.lib.new, w.lib.new, [], 0, 0⟩ p.leadsig; fetchLeadsig w.lib r) = _
  unfold replaceLeadsig
  rw [if_neg (by omega), if_neg (fun h => h d3), d1, p.sigOk.imp, Out.bind_ok, d2]
  exact p.fetchLeadsig_of _ rfl rfl

theorem goodSingle_of {η σ τ : Type} {w : World η σ τ} {o : Opts Bytes} {p : PkgFile w.lib} {archive : Bytes} {c : Comp} {level : Nat}
    (h16 : ∀ b, (w.H b).length = 16) (ho : o.rpmOnly = true) (hv : o.version = 3) (hp : GoodNew w p archive c level)
    (hn : GoodNevr (getNevr w.lib p.hdr)) (hmd5 : w.lib.get p.sig 1004 = some (.bin (w.H (p.header ++ p.payload))))
    (hd : ∃ dc : Comp, (if o.compFromRpm then 1 else o.comp) = dc.code ∧
      GoodCodec (w.makeEnv p.lead) w.applyEnv dc (if o.compFromRpm then 0 else o.compLevel)) :
    GoodSingle (w.makeEnv p.lead) w.applyEnv o (p.toRpm false archive c) := by
  have lh := p.header_length
  have sh := p.hdrOk.small
  have ch := p.hdrOk.counts
  refine ⟨⟨rfl, h16⟩, hv, ho, hn, ?_, ?_, exportSig_of w p, ?_, hd⟩
  · show 0 < p.header.length ∧ p.header.length < 2^32
    omega
  · obtain ⟨a, b, c, d, e⟩ := goodSignature_of h16 hp
    exact ⟨a, b, c, d, e⟩
  · show sigGetMd5 w.lib p.sig = _
    unfold sigGetMd5
    rw [hmd5]
    simp only
    rw [if_neg (by rw [h16]; exact fun h => h rfl)]
    rfl

/-- `drpm_make` on one package file. -/
def makeFileAlone {η σ τ : Type} (w : World η σ τ) (o : Opts Bytes) (file : Bytes) : Out Bytes :=
  drpmMake (w.makeEnv (file.take 96)) o (some (rpmOf w.lib w.U true file)) none

/-- C44 on files: what the identity delta of a package file makes of that file. Lead, signature and header
    are reproduced; the payload is written as it is when decompressed. The call reports success or a
    mismatch according to the MD5 of what it has written. -/
theorem C44_files {η σ τ : Type} (w : World η σ τ) (o : Opts Bytes) (p : PkgFile w.lib) (archive : Bytes) (c : Comp) (level : Nat)
    (h16 : ∀ b, (w.H b).length = 16) (ho : o.rpmOnly = true) (hv : o.version = 3) (hp : GoodNew w p archive c level)
    (hn : GoodNevr (getNevr w.lib p.hdr)) (hmd5 : w.lib.get p.sig 1004 = some (.bin (w.H (p.header ++ p.payload))))
    (hd : ∃ dc : Comp, (if o.compFromRpm then 1 else o.comp) = dc.code ∧
      GoodCodec (w.makeEnv p.lead) w.applyEnv dc (if o.compFromRpm then 0 else o.compLevel)) :
    ∃ delta, makeFileAlone w o p.file = .ok delta ∧ ∀ cleanup,
      (applyFiles w p.file delta cleanup).2 = .written (p.leadsig ++ p.header ++ archive) ∧
      (w.H p.file ≠ zeros 16 → (applyFiles w p.file delta cleanup).1 =
        if w.H (p.leadsig ++ p.header ++ archive) = w.H p.file then .ok () else .err .mismatch) := by
  obtain ⟨delta, h1, _, h2⟩ := identity_applied _ _ _ _ (goodSingle_of h16 ho hv hp hn hmd5 hd)
  refine ⟨delta, ?_, fun cleanup => ?_⟩
  · unfold makeFileAlone
    rw [file_take, rpmOf_file hp.unpacks]
    refine Eq.trans ?_ h1
    unfold drpmMake
    simp only [makeAny, Out.bind_ok, ho, if_true]
    rfl
  · unfold applyFiles
    rw [rpmOf_file hp.unpacks]
    exact h2 cleanup

open Toy in
/-- Non-vacuity: the new package of the examples. Its payload is compressed, so it is not reproduced. -/
example : ∃ delta, makeFileAlone world { demoOpts true 3 false with compFromRpm := false, comp := 1, compLevel := 9 } newFile.file = .ok delta ∧
    ∀ cleanup, (applyFiles world newFile.file delta cleanup).2 = .written (newFile.leadsig ++ newFile.header ++ demoNewPkg.archive) := by
  obtain ⟨dc, dl, h1, h2⟩ := goodComp (demoOpts true 3 false) rfl
  rw [if_pos (show (demoOpts true 3 false).compFromRpm = true from rfl)] at h1
  obtain ⟨delta, d1, d2⟩ := C44_files world { demoOpts true 3 false with compFromRpm := false, comp := 1, compLevel := 9 } newFile
    demoNewPkg.archive .gzip 9 md5_16 rfl rfl goodNew ⟨_, nevrs.2, by decide, by decide⟩ (by decide +kernel)
    ⟨.gzip, rfl, by rw [h1.1, h1.2] at h2; exact h2⟩
  exact ⟨delta, d1, fun cleanup => (d2 cleanup).1⟩

/-! ## C67 -/

/-- C67 for a header that has no region of its own (packages older than rpm 4): it can be marked too, but
    taking away the mark gives the header with a region, which is not the header that was marked. -/
theorem C67_bare {η : Type} (lib : Rpmlib η) (Ok : TagData → Prop) (hl : HeaderLaws lib Ok) (h : η) (h63 : lib.get h 63 = none)
    (hf : lib.get h 1124 = some (.str (ascii "cpio"))) (hroom : lib.reload h 63 ≠ none) :
    ∃ m s, patchFormat lib h (ascii "drpm") = .ok m ∧ WithTag lib h 1124 (some (.str (ascii "drpm"))) m ∧
      patchFormat lib m (ascii "cpio") = .ok s ∧ lib.reload h 63 = some s ∧ SameTags lib h s ∧ s ≠ h := by
  have e1 : ascii "drpm" = fmtDrpm := by decide +kernel
  have e2 : ascii "cpio" = fmtCpio := by decide +kernel
  rw [e1, e2]
  rw [e2] at hf
  have n63 : IsRegion 63 := by unfold IsRegion; omega
  have n1124 : ¬ IsRegion 1124 := not_region (by omega)
  rcases hr : lib.reload h 63 with _ | s
  · exact absurd hr hroom
  obtain ⟨s0, b, _, r1, _⟩ := hl.region h 63 s (Or.inr rfl) hr
  obtain ⟨v, v1, v2, v3⟩ := hl.del h 1124 (.str fmtCpio) hf n1124
  obtain ⟨w, w1, w2, w3⟩ := hl.put v 1124 (.str fmtDrpm) (by rw [v2 _ n1124, if_pos rfl]) n1124 hl.okFormat.1 (by omega)
  have hw : WithTag lib h 1124 (some (.str fmtDrpm)) w := by
    intro t ht
    rw [w2 t ht]
    by_cases e : t = 1124
    · rw [if_pos e, if_pos e]
    · rw [if_neg e, if_neg e, v2 t ht, if_neg e]
  have hn : lib.get w 63 = none := w3 63 n63 (v3 63 n63 h63)
  rcases hm : lib.reload w 63 with _ | m
  · exact absurd hm (hl.room h 63 1124 fmtCpio fmtDrpm w hroom rfl hf n1124 hl.okFormat.1 hn hw)
  have s1 := (hl.region w 63 m (Or.inr rfl) hm).1
  have hwm : WithTag lib h 1124 (some (.str fmtDrpm)) m := fun t ht => by rw [s1 t ht, hw t ht]
  obtain ⟨s', u', k1, k2, k3, k4⟩ := patchFormat_of hl hm fmtDrpm fmtCpio (by rw [hwm _ n1124, if_pos rfl]) rfl hl.okFormat.2
  have hsame : SameTags lib h u' := by
    intro t ht
    rw [k4 t ht]
    by_cases e : t = 1124
    · subst e
      rw [if_pos rfl, hf]
    · rw [if_neg e, hwm t ht, if_neg e]
  have := hl.canonical h u' 63 h63 k2 hsame
  rw [hr, k3] at this
  cases this
  refine ⟨m, s, ?_, hwm, k1, rfl, s0, fun e => ?_⟩
  · unfold patchFormat unloadRegion
    rw [h63]
    simp only [Out.bind_ok]
    rw [v1]
    simp only
    rw [w1]
    simp only
    rw [hm]
  · rw [e, h63] at r1
    cases r1

open Toy in
/-- Non-vacuity: the header of the new package of the examples before it was given a region. -/
example : ∃ h m s, lib.get h 63 = none ∧ patchFormat lib h (ascii "drpm") = .ok m ∧ patchFormat lib m (ascii "cpio") = .ok s ∧ s ≠ h := by
  obtain ⟨h0, h1, h2⟩ := goodNew.sealed
  have hf : lib.get h0 1124 = some (.str (ascii "cpio")) := by
    rw [← (laws.region h0 63 _ (Or.inr rfl) h2).1 1124 (not_region (by omega))]
    exact goodNew.cpio
  obtain ⟨m, s, a, _, b, _, _, c⟩ := C67_bare lib Ok laws h0 h1 hf (fun e => by
    have h2 : lib.reload h0 63 = _ := h2
    rw [e] at h2; cases h2)
  exact ⟨h0, m, s, h1, a, b, c⟩

/-! ## C62 -/

/-- Reading the archive of a package in pieces of the given lengths. -/
def archiveChunks {η : Type} : RpmSt η → List Nat → Out (List Bytes)
  | _, [] => .ok []
  | r, n :: ns => do
    let (b, r) ← archiveChunk r n
    let bs ← archiveChunks r ns
    .ok (b :: bs)

/-- C62 (pieces): the archive of a package, read in pieces from the start: together they are the first
    bytes of the archive, each has the length that was asked for, and reading fails exactly if more is
    asked for than there is. -/
theorem C62_chunks {η : Type} (r : RpmSt η) (ns : List Nat) (hl : r.archive.length < 2^63) (hs : ns.sum < 2^63) :
    (ns.sum ≤ r.archive.length → ∃ bs, archiveChunks (archiveRewind r) ns = .ok bs ∧ bs.map (·.length) = ns ∧
      bs.flatten = r.archive.take ns.sum) ∧
    (r.archive.length < ns.sum → archiveChunks (archiveRewind r) ns = .err .format) := by
  have key : ∀ (ns : List Nat) (q : RpmSt η), q.archive.length < 2^63 → ns.sum < 2^63 → q.archiveOff ≤ q.archive.length →
      (q.archiveOff + ns.sum ≤ q.archive.length → ∃ bs, archiveChunks q ns = .ok bs ∧ bs.map (·.length) = ns ∧
        bs.flatten = slice q.archive q.archiveOff ns.sum) ∧
      (q.archive.length < q.archiveOff + ns.sum → archiveChunks q ns = .err .format) := by
    intro ns
    induction ns with
    | nil =>
      intro q hl hs ho
      refine ⟨fun _ => ⟨[], rfl, rfl, ?_⟩, fun h => ?_⟩
      · simp [slice]
      · simp only [List.sum_nil] at h; omega
    | cons n ns ih =>
      intro q hl hs ho
      rw [List.sum_cons] at hs ⊢
      have hm : (q.archiveOff + n) % 2^64 = q.archiveOff + n := Nat.mod_eq_of_lt (by omega)
      by_cases hle : q.archiveOff + n ≤ q.archive.length
      · have hc : archiveChunk q n = .ok (slice q.archive q.archiveOff n, { q with archiveOff := q.archiveOff + n }) := by
          unfold archiveChunk
          rw [hm, if_neg (by omega), rdBlk_ok hle, Out.bind_ok]
        obtain ⟨i1, i2⟩ := ih { q with archiveOff := q.archiveOff + n } hl (by omega) hle
        rw [archiveChunks, hc, Out.bind_ok]
        simp only at i1 i2 ⊢
        refine ⟨fun h => ?_, fun h => ?_⟩
        · obtain ⟨bs, b1, b2, b3⟩ := i1 (by omega)
          refine ⟨slice q.archive q.archiveOff n :: bs, by rw [b1, Out.bind_ok], ?_, ?_⟩
          · rw [List.map_cons, b2, slice_length hle]
          · rw [List.flatten_cons, b3]
            unfold slice
            rw [← List.drop_drop, List.take_add]
        · rw [i2 (by omega), Out.bind_err]
      · refine ⟨fun h => by omega, fun _ => ?_⟩
        rw [archiveChunks]
        unfold archiveChunk
        rw [hm, if_pos (by omega), Out.bind_err]
  obtain ⟨k1, k2⟩ := key ns (archiveRewind r) hl hs (Nat.zero_le _)
  have h0 : (archiveRewind r).archiveOff + ns.sum = ns.sum := Nat.zero_add _
  rw [h0] at k1 k2
  refine ⟨fun h => ?_, k2⟩
  obtain ⟨bs, b1, b2, b3⟩ := k1 h
  refine ⟨bs, b1, b2, ?_⟩
  rw [b3]
  unfold slice archiveRewind
  rw [List.drop_zero]

/-- Non-vacuity: five bytes in three pieces, and one byte too many. -/
example : archiveChunks (archiveRewind (⟨[], (), (), [1, 2, 3, 4, 5], 3, 0⟩ : RpmSt Unit)) [2, 0, 3] = .ok [[1, 2], [], [3, 4, 5]] ∧
    archiveChunks (archiveRewind (⟨[], (), (), [1, 2, 3, 4, 5], 3, 0⟩ : RpmSt Unit)) [2, 4] = .err .format := by
  decide +kernel

end Drpm
