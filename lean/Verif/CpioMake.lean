import Verif.CpioSpec
import Verif.CpioLemmas
/-!
# The altered archive, the MD5 input and the sequence made from an archive
-/

namespace Drpm

theorem cpioPadding_lt (n : Nat) : cpioPadding n < 4 := Nat.mod_lt _ (by decide)

theorem cpioPadding_mod (n : Nat) : (n + cpioPadding n) % 4 = 0 := by
  unfold cpioPadding padding; omega

theorem keepFile_spec {m : MakeIn} {name : Bytes} {size i : Nat} {f : FileInfo}
    (h : keepFile m name size = some (i, f)) :
    m.files[i]? = some f ∧ name = relName f ∧ (isReg f = true → size = f.size) := by
  unfold keepFile at h
  split at h
  · cases h
  · rename_i j hj
    split at h
    · cases h
    · rename_i g hg
      split at h
      · cases h
      · rename_i h1
        split at h
        · cases h
        · rename_i h2
          simp only [Option.some.injEq, Prod.mk.injEq] at h
          obtain ⟨rfl, rfl⟩ := h
          refine ⟨hg, ?_, fun hr => ?_⟩
          · have := List.findIdx?_eq_some_iff_getElem.mp hj
            obtain ⟨hlt, hp, _⟩ := this
            rw [List.getElem?_eq_getElem hlt] at hg
            simp only [Option.some.injEq] at hg
            rw [hg] at hp
            simpa using hp
          · simp only [hr, Bool.true_and, skipReg, Bool.or_eq_true, not_or] at h2
            simpa using h2.1.1.1.1

theorem readHead_inv {archive : Bytes} {off o : Nat} {h : CpioHdr} {name : Bytes} (hl : archive.length < 2^63)
    (ho : off ≤ archive.length) (hr : readHead archive off = .ok (h, name, o)) :
    o = off + 110 + h.namesize ∧ o ≤ archive.length ∧ h.namesize < 2^16 ∧ h.filesize < 2^32 := by
  unfold readHead at hr
  rw [Out.bind_eq_ok] at hr
  obtain ⟨⟨hb, o1⟩, r1, hr⟩ := hr
  obtain ⟨a1, a2, a3⟩ := archiveRead_inv hl ho (by decide) r1
  simp only at hr
  rw [Out.bind_eq_ok] at hr
  obtain ⟨h', r2, hr⟩ := hr
  have hn : h'.namesize < 2^16 ∧ h'.filesize < 2^32 := by
    unfold cpioHeaderRead at r2
    split at r2
    · cases r2
    · simp only [Out.bind_eq_ok] at r2
      obtain ⟨_, _, _, _, _, _, _, _, _, _, _, _, _, _, _, _, _, _, _, _, _, _, _, _, r2⟩ := r2
      cases r2
      exact ⟨Nat.mod_lt _ (by decide), Nat.mod_lt _ (by decide)⟩
  rw [Out.bind_eq_ok] at hr
  obtain ⟨⟨nb, o2⟩, r3, hr⟩ := hr
  obtain ⟨b1, b2, b3⟩ := archiveRead_inv hl (by omega) (by omega) r3
  simp only at hr
  split at hr
  · cases hr
  · simp only [Out.ok.injEq, Prod.mk.injEq] at hr
    obtain ⟨rfl, _, rfl⟩ := hr
    exact ⟨by omega, by omega, hn⟩

/-- The whole MD5 input for a list of files. -/
def md5Files (algo : Nat) : List FileInfo → Out Bytes
  | [] => .ok []
  | f :: fs => do
    let a ← seqMd5 algo noCheck f
    let b ← md5Files algo fs
    .ok (a ++ b)

theorem isLnk_not_reg {f : FileInfo} (h : isLnk f = true) : isReg f = false := by
  simp only [isLnk, isReg, beq_iff_eq] at h ⊢
  rw [h]; rfl

theorem seqFilesize_lnk {f : FileInfo} (h : isLnk f = true) : seqFilesize f = f.linkto.length % 2^32 := by
  unfold seqFilesize; rw [isLnk_not_reg h, h]; rfl

theorem entryHdr_rdev (f : FileInfo) (n : Nat) (h : f.rdev < 2^16) :
    makeDev (entryHdr f n).rdevmajor (entryHdr f n).rdevminor = seqRdev f := by
  unfold entryHdr seqRdev
  simp only
  split
  · exact makeDev_split _ h
  · decide

/-- The part of the MD5 input before link target or digest. -/
def seqMd5Head (f : FileInfo) : Bytes :=
  (relName f ++ [0]) ++ createBe32 f.mode ++ createBe32 (seqFilesize f) ++ createBe32 (seqRdev f)

theorem emitBody_spec {m : MakeIn} {f : FileInfo} (hf : f.Fits) {hdr : CpioHdr} (hfs : hdr.filesize = seqFilesize f)
    {c c5 : CpioBuf} {md md' : Bytes} (r5 : emitBody m f hdr c md = .ok (c5, md')) :
    ∃ b0, seqBody m.algo noCheck f = .ok b0 ∧ md' = md ++ b0 ∧
      c5.data = c.data ++ (if isLnk f then f.linkto ++ zeros (cpioPadding f.linkto.length) else []) := by
  unfold emitBody at r5
  rw [hfs] at r5
  split at r5
  · rename_i hlnk
    have hlen : f.linkto.length % 2^32 = f.linkto.length := Nat.mod_eq_of_lt (by have := hf.linkto; omega)
    rw [seqFilesize_lnk hlnk, hlen] at r5
    rw [rdBlk_ok (by omega), Out.bind_ok, slice_all] at r5
    rw [Out.bind_eq_ok] at r5
    obtain ⟨d1, s1, r5⟩ := r5
    rw [Out.bind_eq_ok] at r5
    obtain ⟨d2, s2, r5⟩ := r5
    rw [rdBlk_ok (by simp), Out.bind_ok] at r5
    simp only [Out.ok.injEq, Prod.mk.injEq] at r5
    obtain ⟨rfl, r5⟩ := r5
    refine ⟨f.linkto ++ [0], by unfold seqBody; rw [if_pos hlnk], ?_, ?_⟩
    · have : slice (f.linkto ++ [0]) 0 (f.linkto.length + 1) = f.linkto ++ [0] := by
        simp only [slice, List.drop_zero]
        exact List.take_of_length_le (by simp)
      rw [← r5, this]
    · rw [cpioExtend_inv s2, cpioExtend_inv s1, if_pos hlnk, List.append_assoc]
  · rename_i hlnk
    split at r5
    · rename_i hreg
      rw [Out.bind_eq_ok] at r5
      obtain ⟨d, s1, r5⟩ := r5
      simp only [Out.ok.injEq, Prod.mk.injEq] at r5
      obtain ⟨rfl, r5⟩ := r5
      refine ⟨d, ?_, r5.symm, ?_⟩
      · unfold seqBody seqDigest noCheck
        rw [if_neg hlnk]
        have : (isReg f && decide (seqFilesize f > 0)) = true := by
          simp only [Bool.and_eq_true, bne_iff_ne, ne_eq, decide_eq_true_eq] at hreg ⊢
          exact ⟨hreg.1, by omega⟩
        rw [if_pos this, s1, Out.bind_ok, Out.bind_ok]
      · rw [if_neg hlnk]; simp
    · rename_i hreg
      simp only [Out.ok.injEq, Prod.mk.injEq] at r5
      obtain ⟨rfl, r5⟩ := r5
      refine ⟨[], ?_, ?_, ?_⟩
      · unfold seqBody
        rw [if_neg hlnk]
        have : ¬ (isReg f && decide (seqFilesize f > 0)) = true := by
          simp only [Bool.and_eq_true, bne_iff_ne, ne_eq, decide_eq_true_eq, not_and] at hreg ⊢
          intro h1 h2; exact hreg h1 (by omega)
        rw [if_neg this]
      · rw [← r5]; simp
      · rw [if_neg hlnk]; simp

theorem relName_le (f : FileInfo) : (relName f).length ≤ f.name.length := by
  unfold relName; split <;> simp_all

theorem entryHdr_namesize {f : FileInfo} (hf : f.Fits) :
    (entryHdr f ((relName f).length + 1)).namesize = (relName f).length + 1 + 2 := by
  have := relName_le f
  have := hf.name
  simp only [entryHdr]
  omega

/-- Adding one kept entry: the header and, for links, the content are appended; the MD5 input grows
    by what `expand_sequence` feeds for that file; the index goes into the sequence. -/
theorem emitEntry_spec {m : MakeIn} {st st' : MkSt} {idx : Nat} {f : FileInfo} {hl pb : Nat} (hf : f.Fits)
    (h : emitEntry m st idx f (relName f) hl pb = .ok st') :
    ∃ b adj, seqMd5 m.algo noCheck f = .ok b ∧ adjust m st pb = .ok adj ∧ seqAdd st.seq idx = .ok st'.seq ∧
      st'.arcOff = st.arcOff ∧
      st'.cpioPos = (if st.cpio.data.length ≠ pb then st.cpio.data.length + hl else st.cpioPos) ∧
      st'.lenPrev = adj.2 ∧ st'.offadjs = adj.1 ∧
      st'.md5 = st.md5 ++ b ∧
      st'.cpio.data = st.cpio.data ++ alteredHeader f ++
        (if isLnk f then f.linkto ++ zeros (cpioPadding f.linkto.length) else []) := by
  unfold emitEntry at h
  simp only at h
  rw [Out.bind_eq_ok] at h
  obtain ⟨⟨adjs, prev⟩, r0, h⟩ := h
  simp only at h
  rw [Out.bind_eq_ok] at h
  obtain ⟨c1, r1, h⟩ := h
  rw [Out.bind_eq_ok] at h
  obtain ⟨c2, r2, h⟩ := h
  rw [Out.bind_eq_ok] at h
  obtain ⟨c3, r3, h⟩ := h
  rw [Out.bind_eq_ok] at h
  obtain ⟨c4, r4, h⟩ := h
  rw [Out.bind_eq_ok] at h
  obtain ⟨⟨c5, md⟩, r5, h⟩ := h
  simp only at h
  rw [Out.bind_eq_ok] at h
  obtain ⟨sq, r6, h⟩ := h
  have ez : 110 + ((relName f).length + 1 + 2) = 110 + 2 + (relName f).length + 1 := by omega
  have e4 : c4.data = st.cpio.data ++ alteredHeader f := by
    rw [entryHdr_namesize hf, ez] at r4
    rw [cpioExtend_inv r4, cpioExtend_inv r3, cpioExtend_inv r2, cpioExtend_inv r1]
    simp only [alteredHeader, List.append_assoc]
  obtain ⟨b0, k1, k2, k3⟩ := emitBody_spec hf rfl r5
  rw [entryHdr_rdev f _ hf.rdev] at k2
  refine ⟨seqMd5Head f ++ b0, (adjs, prev), by unfold seqMd5; rw [k1, Out.bind_ok]; rfl, r0, ?_⟩
  cases h
  refine ⟨r6, rfl, rfl, rfl, rfl, ?_, ?_⟩
  · simp only [k2, seqMd5Head, List.append_assoc]
    rfl
  · simp only; rw [k3, e4]

/-- The data of an entry is read completely, and copied if wanted. -/
theorem copyData_spec {archive : Bytes} (hl : archive.length < 2^63) (copy : Bool) :
    ∀ (fuel left : Nat) (st st' : MkSt), st.arcOff ≤ archive.length → left < 2^32 →
      copyData archive copy fuel left st = .ok st' →
      st.arcOff + left ≤ archive.length ∧ st'.arcOff = st.arcOff + left ∧ st'.cpioPos = st.cpioPos + left ∧
      st'.cpio.data = st.cpio.data ++ (if copy then slice archive st.arcOff left else []) ∧
      st'.lenPrev = st.lenPrev ∧ st'.offadjs = st.offadjs ∧ st'.md5 = st.md5 ∧ st'.seq = st.seq := by
  intro fuel
  induction fuel with
  | zero => intro left st st' _ _ h; cases h
  | succ fuel ih =>
    intro left st st' ho hlt h
    rw [copyData] at h
    split at h
    · simp only [Out.bind_eq_ok] at h
      obtain ⟨⟨b, o⟩, r1, c, r2, h⟩ := h
      obtain ⟨a1, a2, a3⟩ := archiveRead_inv hl ho (by omega) r1
      obtain ⟨b1, b2, b3, b4, b5, b6, b7, b8⟩ := ih _ _ _ (by simp only; omega) (by omega) h
      simp only at b1 b2 b3 b4 b5 b6 b7 b8
      refine ⟨by omega, by omega, by omega, ?_, b5, b6, b7, b8⟩
      rw [b4, extendIf_inv r2, a2, a3]
      cases copy
      · simp
      · simp only [if_true, List.append_assoc]
        rw [slice_append_slice]
        congr 2
        omega
    · cases h
      have : left = 0 := by omega
      subst this
      refine ⟨by omega, rfl, rfl, ?_, rfl, rfl, rfl, rfl⟩
      simp

theorem copyPadding_spec {archive : Bytes} (hl : archive.length < 2^63) (copy : Bool) (n : Nat) (st st' : MkSt)
    (ho : st.arcOff ≤ archive.length) (h : copyPadding archive copy n st = .ok st') :
    st.arcOff + cpioPadding n ≤ archive.length ∧ st'.arcOff = st.arcOff + cpioPadding n ∧
    st'.cpioPos = st.cpioPos + cpioPadding n ∧
    st'.cpio.data = st.cpio.data ++ (if copy then zeros (cpioPadding n) else []) ∧
    st'.lenPrev = st.lenPrev ∧ st'.offadjs = st.offadjs ∧ st'.md5 = st.md5 ∧ st'.seq = st.seq := by
  unfold copyPadding at h
  have := cpioPadding_lt n
  split at h
  · simp only [Out.bind_eq_ok] at h
    obtain ⟨⟨b, o⟩, r1, c, r2, h⟩ := h
    obtain ⟨a1, a2, a3⟩ := archiveRead_inv hl ho (by omega) r1
    simp only [Out.ok.injEq] at h
    subst h
    exact ⟨a1, a3, rfl, extendIf_inv r2, rfl, rfl, rfl, rfl⟩
  · cases h
    have e : cpioPadding n = 0 := by omega
    rw [e]
    refine ⟨by omega, rfl, rfl, ?_, rfl, rfl, rfl, rfl⟩
    simp [zeros]

/-- What one entry adds. -/
structure EntryStep (m : MakeIn) (st st' : MkSt) (e : AEnt) (o : Nat) : Prop where
  fits : e.stop ≤ m.archive.length
  arcOff : st'.arcOff = e.stop
  skip : keepFile m e.name e.size = none →
    st'.cpio.data = st.cpio.data ∧ st'.md5 = st.md5 ∧ st'.seq = st.seq ∧ st'.lenPrev = st.lenPrev ∧
    st'.offadjs = st.offadjs ∧ st'.cpioPos = st.cpioPos + (e.stop - o)
  keep : ∀ i f, keepFile m e.name e.size = some (i, f) → f.Fits →
    st'.cpio.data = st.cpio.data ++ (alteredHeader f ++ alteredContent m.archive f e) ∧
    (∃ b, seqMd5 m.algo noCheck f = .ok b ∧ st'.md5 = st.md5 ++ b) ∧
    seqAdd st.seq i = .ok st'.seq ∧
    (∃ st1 : MkSt, st1.cpio = st.cpio ∧ st1.lenPrev = st.lenPrev ∧ st1.offadjs = st.offadjs ∧
      adjust m st1 st.cpioPos = .ok (st'.offadjs, st'.lenPrev)) ∧
    st'.cpioPos = st.cpio.data.length + (e.stop - o)

theorem mkEntry_spec {m : MakeIn} (hl : m.archive.length < 2^63) {st st' : MkSt} {h : CpioHdr} {name : Bytes} {off o : Nat}
    (hr : readHead m.archive off = .ok (h, name, o)) (hoff : off ≤ m.archive.length)
    (hm : mkEntry m st h name o = .ok st') :
    EntryStep m st st' ⟨stripDot name, h.filesize, off, o + cpioPadding (110 + h.namesize)⟩ off := by
  obtain ⟨h1, h2, h3, h4⟩ := readHead_inv hl hoff hr
  have hp := cpioPadding_lt (110 + h.namesize)
  unfold mkEntry at hm
  simp only [Out.bind_eq_ok] at hm
  obtain ⟨⟨b, o1⟩, r1, st1, r2, st2, r3, r4⟩ := hm
  obtain ⟨a1, a2, a3⟩ := archiveRead_inv hl h2 (by omega) r1
  simp only at r2
  cases hk : keepFile m (stripDot name) h.filesize with
  | none =>
    rw [hk] at r2 r3 r4
    simp only [emitKept, Out.ok.injEq, copied] at r2 r3 r4
    subst r2
    obtain ⟨b1, b2, b3, b4, b5, b6, b7, b8⟩ := copyData_spec hl _ _ _ _ _ (by simp only; omega) h4 r3
    obtain ⟨c1, c2, c3, c4, c5, c6, c7, c8⟩ := copyPadding_spec hl _ _ _ _ (by omega) r4
    simp only at b1 b2 b3 b4 b5 b6 b7 b8
    refine ⟨?_, ?_, fun _ => ?_, fun i f hk' => ?_⟩
    · simp only [AEnt.stop]; omega
    · simp only [AEnt.stop]; omega
    · refine ⟨by rw [c4, b4]; simp, by rw [c7, b7], by rw [c8, b8], by rw [c5, b5], by rw [c6, b6], ?_⟩
      rw [c3, b3]
      simp only [AEnt.stop]
      omega
    · simp only [hk] at hk'; cases hk'
  | some p =>
    obtain ⟨i, f⟩ := p
    rw [hk] at r2 r3 r4
    simp only [emitKept, copied] at r2 r3 r4
    obtain ⟨g1, g2, g3⟩ := keepFile_spec hk
    have harc : st1.arcOff = o1 := by
      have r2 := r2
      unfold emitEntry at r2
      simp only [Out.bind_eq_ok] at r2
      obtain ⟨⟨adjs, prev⟩, _, c1, _, c2, _, c3, _, c4, _, ⟨c5, md⟩, _, sq, _, r2⟩ := r2
      simp only [Out.ok.injEq] at r2
      subst r2
      rfl
    obtain ⟨b1, b2, b3, b4, b5, b6, b7, b8⟩ := copyData_spec hl _ _ _ _ _ (by omega) h4 r3
    obtain ⟨c1, c2, c3, c4, c5, c6, c7, c8⟩ := copyPadding_spec hl _ _ _ _ (by omega) r4
    refine ⟨?_, ?_, fun hk' => ?_, fun i' f' hk' hf => ?_⟩
    · simp only [AEnt.stop]; omega
    · simp only [AEnt.stop]; omega
    · simp only [hk] at hk'; cases hk'
    · simp only [hk, Option.some.injEq, Prod.mk.injEq] at hk'
      obtain ⟨rfl, rfl⟩ := hk'
      rw [g2] at r2
      obtain ⟨bb, adj, d1, d2, d3, d4, d5, d6, d7, d8, d9⟩ := emitEntry_spec hf r2
      simp only at d1 d2 d3 d4 d5 d6 d7 d8 d9
      refine ⟨?_, ⟨bb, d1, by rw [c7, b7, d8]⟩, by rw [c8, b8]; exact d3,
        ⟨_, rfl, rfl, rfl, by rw [c6, b6, c5, b5, d6, d7]; exact d2⟩, ?_⟩
      · rw [c4, b4, d9]
        unfold alteredContent
        cases hlnk : isLnk f
        · simp only [Bool.not_false, if_true, Bool.false_eq_true, if_false, List.append_nil]
          rw [harc, a3, List.append_assoc, List.append_assoc]
        · simp
      · rw [c3, b3, d5]
        simp only [AEnt.stop]
        split <;> omega

/-- A run of the loop over entries. -/
inductive Run (m : MakeIn) : MkSt → List AEnt → MkSt → Prop
  | done {st st' : MkSt} : st'.cpio = st.cpio → st'.md5 = st.md5 → st'.seq = st.seq → st'.offadjs = st.offadjs →
      Run m st [] st'
  | step {st st1 st' : MkSt} {e : AEnt} {es : List AEnt} : e.at_ = st.arcOff → EntryStep m st st1 e st.arcOff →
      st.arcOff + 110 ≤ e.data → Run m st1 es st' → Run m st (e :: es) st'

theorem mkLoop_run {m : MakeIn} (hl : m.archive.length < 2^63) : ∀ (fuel : Nat) (st st' : MkSt),
    st.arcOff ≤ m.archive.length → mkLoop m fuel st = .ok st' →
    ∃ es, Entries m.archive st.arcOff es ∧ Run m st es st' := by
  intro fuel
  induction fuel with
  | zero => intro st st' _ h; cases h
  | succ fuel ih =>
    intro st st' ho h
    rw [mkLoop, Out.bind_eq_ok] at h
    obtain ⟨⟨hd, name, o⟩, r1, h⟩ := h
    simp only at h
    split at h
    · rename_i ht
      subst ht
      cases h
      exact ⟨[], .trailer r1, .done rfl rfl rfl rfl⟩
    · rename_i ht
      rw [Out.bind_eq_ok] at h
      obtain ⟨st1, r2, h⟩ := h
      have es1 := mkEntry_spec hl r1 ho r2
      obtain ⟨es, e1, e2⟩ := ih st1 st' (by rw [es1.arcOff]; exact es1.fits) h
      obtain ⟨i1, i2, i3, i4⟩ := readHead_inv hl ho r1
      rw [es1.arcOff] at e1
      exact ⟨_ :: es, .entry r1 ht rfl es1.fits e1, .step rfl es1 (by simp only; omega) e2⟩

/-- All files that can be kept are within the limits. -/
def FilesFit (m : MakeIn) : Prop := ∀ f ∈ m.files, f.Fits

theorem keepFile_fits {m : MakeIn} (hf : FilesFit m) {name : Bytes} {size i : Nat} {f : FileInfo}
    (h : keepFile m name size = some (i, f)) : f.Fits :=
  hf f (List.mem_of_getElem? (keepFile_spec h).1)

theorem kept_cons (m : MakeIn) (e : AEnt) (es : List AEnt) :
    kept m (e :: es) = (match keepFile m e.name e.size with
      | none => kept m es
      | some (i, f) => (i, f, e) :: kept m es) := by
  unfold kept
  rw [List.filterMap_cons]
  cases keepFile m e.name e.size <;> rfl

theorem run_spec {m : MakeIn} (hf : FilesFit m) {st st' : MkSt} {es : List AEnt} (h : Run m st es st') :
    st'.cpio.data = st.cpio.data ++ alteredEntries m es ∧
    (∃ b, md5Files m.algo ((kept m es).map (fun x => x.2.1)) = .ok b ∧ st'.md5 = st.md5 ++ b) ∧
    ((kept m es).map (fun x => x.1)).foldlM seqAdd st.seq = .ok st'.seq := by
  induction h with
  | done h1 h2 h3 h4 =>
    refine ⟨by rw [h1]; simp [alteredEntries, kept], ⟨[], rfl, by rw [h2]; simp⟩, ?_⟩
    rw [h3]; rfl
  | @step st st1 st' e es _ hs _ _ ih =>
    obtain ⟨i1, ⟨b, i2, i3⟩, i4⟩ := ih
    unfold alteredEntries at i1 ⊢
    rw [kept_cons]
    cases hk : keepFile m e.name e.size with
    | none =>
      obtain ⟨s1, s2, s3, _⟩ := hs.skip hk
      simp only
      rw [s3] at i4
      exact ⟨by rw [i1, s1], ⟨b, i2, by rw [i3, s2]⟩, i4⟩
    | some p =>
      obtain ⟨i, f⟩ := p
      obtain ⟨s1, ⟨b1, s2, s3⟩, s4, _⟩ := hs.keep i f hk (keepFile_fits hf hk)
      simp only [List.map_cons, List.flatten_cons]
      refine ⟨?_, ⟨b1 ++ b, ?_, ?_⟩, ?_⟩
      · rw [i1, s1]; simp only [List.append_assoc]
      · rw [md5Files, s2, Out.bind_ok, i2, Out.bind_ok]
      · rw [i3, s3, List.append_assoc]
      · rw [List.foldlM_cons, s4, Out.bind_ok]; exact i4

/-- What `parse_cpio_from_rpm_filedata` makes. -/
theorem makeCpio_spec {H : Bytes → Bytes} {m : MakeIn} {r : Made} (hl : m.archive.length < 2^63) (hf : FilesFit m)
    (h : makeCpio H m = .ok r) :
    ∃ es md s, Entries m.archive 0 es ∧ r.cpio = altered m es ∧
      md5Files m.algo ((kept m es).map (fun x => x.2.1)) = .ok md ∧
      encodeSeq ((kept m es).map (fun x => x.1)) = .ok s ∧ r.sequence = H md ++ s ∧
      (∃ st, Run m ⟨0, ⟨[], 0⟩, 0, 0, [], [], SeqSt.init⟩ es st ∧ r.offadjs = st.offadjs) := by
  unfold makeCpio at h
  rw [Out.bind_eq_ok] at h
  obtain ⟨st, h1, h⟩ := h
  obtain ⟨es, e1, e2⟩ := mkLoop_run hl _ _ _ (by simp) h1
  obtain ⟨f1, ⟨b, f2, f3⟩, f4⟩ := run_spec hf e2
  unfold mkFinish at h
  rw [Out.bind_eq_ok] at h
  obtain ⟨c1, g1, h⟩ := h
  rw [Out.bind_eq_ok] at h
  obtain ⟨c2, g2, h⟩ := h
  rw [Out.bind_eq_ok] at h
  obtain ⟨c3, g3, h⟩ := h
  rw [Out.bind_eq_ok] at h
  obtain ⟨s, g4, h⟩ := h
  split at h
  · cases h
  · cases h
    refine ⟨es, b, s, e1, ?_, f2, ?_, ?_, st, e2, rfl⟩
    · simp only
      rw [cpioExtend_inv g3, cpioExtend_inv g2, cpioExtend_inv g1, f1]
      simp only [altered, trailerBytes, List.append_assoc, List.nil_append]
      rfl
    · unfold encodeSeq
      rw [f4, Out.bind_ok]; exact g4
    · simp only [f3, List.nil_append]

end Drpm
