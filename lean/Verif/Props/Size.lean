import Verif.Props.Delta
/-!
# How large a delta can get (C97)
-/

namespace Drpm

/-- C97 for the computed difference: every byte of the new payload is either stored or copied from the
    old payload, exactly once; the add block (before compression) has one byte for every copied byte; and
    every copy but the last few comes with 32 bytes of the new payload (one more for each 2 GiB the
    copies have to move in the old payload). -/
theorem C97_diff (old new : Bytes) (addblk : Bool) (hn : 16 ≤ new.length) (hnew : new.length < 2^63)
    (hsmall : old.length < 2^31 ∨ new.length < 2^31) :
    ∃ d, makeDiff old new addblk = .ok d ∧
      d.intData.flatten.length + (d.ext.map (·.2)).sum = new.length ∧
      d.addWrites.flatten.length = (if addblk then (d.ext.map (·.2)).sum else 0) ∧
      d.ext.length ≤ (new.length / 32 + 1) * (old.length / (2^31 - 1) + 1) ∧
      d.int.length ≤ new.length / 32 + new.length / (2^31 - 1) + 2 := by
  obtain ⟨d, e, _⟩ := makeDiff_spec old new addblk hn hnew
  exact ⟨d, e, makeDiff_size hn hnew hsmall e⟩

/-- A case with a copy, stored data and an add block in which the numbers are not zero. -/
example : 16 ≤ sampleNew.length ∧ sampleOld.length < 2^31 ∧ sampleNew.length < 2^63 := by decide

set_option maxRecDepth 100000 in
example : (makeDiff sampleOld sampleNew true).okAnd (fun d =>
    d.intData.flatten.length == 5 && (d.ext.map (·.2)).sum == 64 && d.addWrites.flatten.length == 64) = true := by
  decide +kernel

theorem bigEnd_length (k n : Nat) : (bigEnd k n).length = k := by simp [bigEnd]

theorem flatMap_length_const {α : Type} (l : List α) (f : α → Bytes) (k : Nat) (h : ∀ a, (f a).length = k) :
    (l.flatMap f).length = k * l.length := by
  induction l with
  | nil => simp
  | cons a l ih => rw [List.flatMap_cons, List.length_append, h, ih, List.length_cons, Nat.mul_succ]; omega

/-- What the parts of a delta add up to. -/
theorem DeltaInfo.text_length (f : DeltaInfo) (t : DType) :
    (f.text t).length ≤ 100 + f.source.length + f.sequence.length + f.md5.length + f.params.length + 8 * f.adjust.length +
      f.leadsig.length + 8 * (f.ints.length + f.exts.length) + (if t = .rpmonly then 0 else f.add.length) + f.data.length := by
  have h1 : f.part2.length = 12 + f.params.length := by
    simp [DeltaInfo.part2, sized, bigEnd_length]
    omega
  have h2 : f.part3.length = 8 + 8 * f.adjust.length := by
    simp only [DeltaInfo.part3, List.length_append, bigEnd_length]
    rw [flatMap_length_const f.adjust (fun a => bigEnd 4 a.1) 4 (fun _ => bigEnd_length _ _),
      flatMap_length_const f.adjust (fun a => signMag a.2) 4 (fun _ => bigEnd_length _ _)]
    omega
  have h3 : f.copies.length = 8 + 8 * (f.ints.length + f.exts.length) := by
    simp only [DeltaInfo.copies, List.length_append, bigEnd_length]
    rw [flatMap_length_const f.ints (fun c => bigEnd 4 c.1) 4 (fun _ => bigEnd_length _ _),
      flatMap_length_const f.ints (fun c => bigEnd 4 c.2) 4 (fun _ => bigEnd_length _ _),
      flatMap_length_const f.exts (fun c => signMag c.1) 4 (fun _ => bigEnd_length _ _),
      flatMap_length_const f.exts (fun c => bigEnd 4 c.2) 4 (fun _ => bigEnd_length _ _)]
    omega
  have h4 : ∀ n, (f.long n).length ≤ 8 := by
    intro n
    unfold DeltaInfo.long
    rw [bigEnd_length]
    split <;> omega
  have h5 : ∀ b, (sized b).length = 4 + b.length := by intro b; simp [sized, bigEnd_length]
  have h6 : (if 2 ≤ f.version then f.part2 else []).length ≤ 12 + f.params.length := by
    split
    · omega
    · simp
  have h7 : (if f.version = 3 then f.part3 else []).length ≤ 8 + 8 * f.adjust.length := by
    split
    · omega
    · simp
  have h8 : (if t = .rpmonly then [] else f.add).length = (if t = .rpmonly then 0 else f.add.length) := by
    split <;> rfl
  have h9 := h4 f.oldLen
  have h10 := h4 f.data.length
  unfold DeltaInfo.text
  simp only [List.length_append, h5, h8, h3, bigEnd_length, List.length_cons, List.length_nil, DeltaInfo.mark]
  omega

/-- The uncompressed contents `f` of a delta do not waste anything: `payload` is the length of the new
    data. -/
structure Economical (f : DeltaInfo) (t : DType) (oldLen payload : Nat) : Prop where
  once : f.data.length + (f.exts.map (·.2)).sum = payload
  exts : f.exts.length ≤ (payload / 32 + 1) * (oldLen / (2^31 - 1) + 1)
  ints : f.ints.length ≤ payload / 32 + payload / (2^31 - 1) + 2
  text : oldLen < 2^31 - 1 → (f.text t).length ≤ 150 + f.source.length + f.sequence.length + 8 * f.adjust.length + f.leadsig.length +
    (if t = .rpmonly then 0 else f.add.length) + payload + payload / 2 + 8 * (payload / (2^31 - 1))

theorem economical_of {old new : Bytes} {addblk : Bool} {df : Diff} {f : DeltaInfo} {t : DType} (hn : 16 ≤ new.length) (hnew : new.length < 2^63)
    (hsmall : old.length < 2^31 ∨ new.length < 2^31) (h : makeDiff old new addblk = .ok df) (hi : f.ints = df.int)
    (he : f.exts = df.ext.map (fun c => (s32 c.1, c.2))) (hd : f.data = df.intData.flatten) (hp : f.params = [])
    (hm : f.md5.length = 16) : Economical f t old.length new.length := by
  obtain ⟨h1, _, h3, h4⟩ := makeDiff_size hn hnew hsmall h
  have hl : f.exts.length = df.ext.length := by rw [he, List.length_map]
  have hs : f.exts.map (·.2) = df.ext.map (·.2) := by rw [he, List.map_map]; rfl
  refine ⟨by rw [hd, hs]; exact h1, by rw [hl]; exact h3, by rw [hi]; exact h4, fun ho => ?_⟩
  have ht := f.text_length t
  rw [hp, hm, hl, hi, List.length_nil] at ht
  have : old.length / 2147483647 = 0 := by omega
  rw [this, Nat.zero_add, Nat.mul_one] at h3
  have hd' : f.data.length ≤ new.length := by rw [hd]; omega
  generalize (if t = .rpmonly then 0 else f.add.length) = A at ht ⊢
  omega

/-- C97 for rpm-only deltas: what `drpm_make` writes holds, before compression, every byte of the new
    header and archive at most once and few copies; if the old data are below 2 GiB, that is at most one
    and a half times the new data and a few bytes. -/
theorem C97_rpmonly {σ : Type} (menv : MakeEnv) (env : ApplyEnv σ) (o : Opts Bytes) (old new : Rpm)
    (hg : GoodPair menv env o old new) (ho : o.rpmOnly = true) (hv : o.version = 3)
    (hnevr : GoodNevr new.nevr) (hmd5 : old.sigMd5 = .ok (some (menv.H (old.header ++ old.payload))))
    (hhdr : 0 < new.header.length ∧ new.header.length < 2^32) (hoff : ∃ off, fmtOffset new.header = .ok off)
    (hold : old.header.length + old.archive.length < 2^63)
    (hnew : 16 ≤ new.header.length + new.archive.length ∧ new.header.length + new.archive.length < 2^63)
    (hsmall : old.header.length + old.archive.length < 2^31 ∨ new.header.length + new.archive.length < 2^31)
    (hcnt : FewCopies (old.header ++ old.archive) (new.header ++ new.archive) o.addblk)
    (hadd : GoodAdd menv env o (new.header.length + new.archive.length)) :
    ∃ file f, drpmMake menv o (some (.ok old)) (some (.ok new)) = .ok file ∧ RpmonlyDelta env.H env.dec old new f file ∧
      Economical f .rpmonly (old.header ++ old.archive).length (new.header ++ new.archive).length := by
  obtain ⟨file, f, h1, h2, _, _, _, _, df, d1, d2, d3, d4, d5⟩ :=
    makes_rpmonly menv env o old new hg ho hv hnevr hmd5 hhdr hoff hold hnew hsmall hcnt hadd
  exact ⟨file, f, h1, h2, economical_of (by rw [List.length_append]; exact hnew.1) (by rw [List.length_append]; exact hnew.2)
    (by simp only [List.length_append]; exact hsmall) d1 d2 d3 d4 d5 h2.turns.1.md5⟩

/-- C97 for standard deltas: the same with the altered archive as old and the archive of the new package
    as new data. The add block is counted as stored. -/
theorem C97_standard {σ : Type} (menv : MakeEnv) (env : ApplyEnv σ) (o : Opts Bytes) (old new : Rpm)
    (hg : GoodPair menv env o old new) (ho : o.rpmOnly = false)
    (m : MakeIn) (c : Made) (hm : GoodOld menv o old m c)
    (marked : Bytes) (head : Bytes → Bytes) (hc : Nat) (hh : GoodHeader menv env new marked head hc)
    (hv1 : o.version = 1 → hc = new.comp)
    (hnew : 16 ≤ new.archive.length ∧ new.archive.length < 2^63 ∧ (o.version < 3 → new.archive.length < 2^32))
    (hsmall : c.cpio.length < 2^31 ∨ new.archive.length < 2^31)
    (hcnt : FewCopies c.cpio new.archive o.addblk)
    (hadd : GoodAdd menv env o new.archive.length) :
    ∃ file f source, drpmMake menv o (some (.ok old)) (some (.ok new)) = .ok file ∧ old.nevr = .ok source ∧
      StandardDelta env.rpmHead env.tgtHeader env.H env.dec source c.sequence c.cpio new f file ∧
      Economical f .standard c.cpio.length new.archive.length := by
  obtain ⟨file, f, source, h1, h2, h3, _, _, _, _, df, d1, d2, d3, d4, d5⟩ :=
    makes_standard menv env o old new hg ho m c hm marked head hc hh hv1 hnew hsmall hcnt hadd
  exact ⟨file, f, source, h1, h2, h3, economical_of hnew.1 hnew.2.1 hsmall d1 d2 d3 d4 d5 h3.turns.1.md5⟩

/-- Non-vacuity of C97 for rpm-only deltas. -/
example (addblk : Bool) : ∃ file f, drpmMake demoMake (demoOpts true 3 addblk) (some (.ok demoOldPkg)) (some (.ok demoNewPkg)) = .ok file ∧
    RpmonlyDelta demoApply.H demoApply.dec demoOldPkg demoNewPkg f file ∧
    (f.text .rpmonly).length ≤ 300 + f.source.length + f.leadsig.length + 3 * (demoNewPkg.header ++ demoNewPkg.archive).length / 2 +
      f.sequence.length + 8 * f.adjust.length := by
  have h1 : 16 ≤ (demoOldPkg.header ++ demoOldPkg.archive).length ∧
    (demoOldPkg.header ++ demoOldPkg.archive).length < 1000 := by decide +kernel
  have h2 : 16 ≤ (demoNewPkg.header ++ demoNewPkg.archive).length ∧
    (demoNewPkg.header ++ demoNewPkg.archive).length < 1000 := by decide +kernel
  have h1' := h1
  have h2' := h2
  rw [List.length_append] at h1' h2'
  obtain ⟨file, f, h3, h4, h5⟩ := C97_rpmonly _ demoApply _ _ _ (demo_pair true addblk 3 (by omega)) rfl rfl ⟨_, rfl, by decide, by decide⟩ rfl
    (by decide) ⟨5, by decide +kernel⟩ (by omega) (by omega) (by omega)
    (FewCopies.of_size _ _ _ (by omega) (by omega) (by omega)) (demo_add _ _ _ _ (by omega))
  refine ⟨file, f, h3, h4, ?_⟩
  have := h5.text (by omega)
  rw [if_pos rfl] at this
  omega

/-- Non-vacuity of C97 for standard deltas of all versions. -/
example (addblk : Bool) (version : Nat) (hv : 1 ≤ version ∧ version ≤ 3) :
    ∃ m c file f, makeCpio demoH m = .ok c ∧
      drpmMake demoMake (demoOpts false version addblk) (some (.ok demoOldPkg)) (some (.ok demoNewPkg)) = .ok file ∧
      Economical f .standard c.cpio.length demoNewPkg.archive.length := by
  have h2 : 16 ≤ demoNewPkg.archive.length ∧ demoNewPkg.archive.length < 1000 := by decide +kernel
  have hc : ∀ v, 1 ≤ v → v ≤ 3 → ∃ c, makeCpio demoH { demoIn with offadj := decide (v ≥ 3) } = .ok c ∧
      c.cpio.length < 500 ∧ c.offadjs.length < 10 := by
    intro v v1 v2
    have : Out.okAnd (makeCpio demoH { demoIn with offadj := decide (v ≥ 3) })
        (fun c => c.cpio.length < 500 ∧ c.offadjs.length < 10) = true := by
      match v, v1, v2 with
      | 1, _, _ => decide +kernel
      | 2, _, _ => decide +kernel
      | 3, _, _ => decide +kernel
    rcases hm : makeCpio demoH { demoIn with offadj := decide (v ≥ 3) } with c | _ | _ | _
    · rw [hm] at this
      exact ⟨c, rfl, by simpa [Out.okAnd] using this⟩
    all_goals rw [hm] at this; cases this
  obtain ⟨c, c1, c2, c3⟩ := hc version hv.1 hv.2
  have hplain : ∀ es, Entries demoIn.archive 0 es → Plain { demoIn with offadj := decide (version ≥ 3) } es := by
    intro es he
    obtain ⟨p1, p2, p3⟩ := demo_plain es he
    exact ⟨p1, p2, p3⟩
  have hfit : FilesFit { demoIn with offadj := decide (version ≥ 3) } := demo_fits
  have hold : GoodOld demoMake (demoOpts false version addblk) demoOldPkg { demoIn with offadj := decide (version ≥ 3) } c :=
    ⟨rfl, rfl, ⟨rfl, rfl, rfl, rfl⟩, demo_size, hfit, hplain, c1, by omega, by omega, fun _ => by omega⟩
  obtain ⟨file, f, source, g1, _, _, g4⟩ := C97_standard demoMake demoApply _ demoOldPkg demoNewPkg
    (demo_pair false addblk version hv) rfl { demoIn with offadj := decide (version ≥ 3) } c hold demoHeader
    (fun _ => [0xED, 0xAB, 0xEE, 0xDB] ++ demoHeader) 1 ⟨rfl, ⟨5, by decide +kernel⟩, fun _ => rfl,
      fun z => by show Out.ok _ = Out.ok _; simp, fun z => ⟨_, rfl⟩, fun z => rfl⟩ (fun _ => rfl)
    (by omega) (by omega) (FewCopies.of_size _ _ _ (by omega) (by omega) (by omega)) (demo_add _ _ _ _ (by omega))
  exact ⟨_, c, file, f, c1, g1, g4⟩

end Drpm
