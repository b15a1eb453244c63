import Verif.SafeLemmas
import Verif.SeqLemmas
import Verif.CpioAdj
import Verif.MakeLemmas
/-!
# Making a delta is defined: lemmas
-/

namespace Drpm

/-! ## The sequence -/

/-- The encoder's buffer is in order and holds at most `n` nibbles. -/
def SeqOk (n : Nat) (s : SeqSt) : Prop := ∃ ns, Holds s ns ∧ ns.length ≤ n

theorem seqAppend_good {n : Nat} {s : SeqSt} (h : SeqOk n s) {v : Nat} (hv : v < 2^32) :
    (seqAppend s v).Good (SeqOk (n + 11)) := by
  obtain ⟨ns, hh, hn⟩ := h
  obtain ⟨s', e, h', _⟩ := seqAppend_holds v s ns hh hv
  rw [e]
  have := nibLen_le v hv
  exact ⟨_, h', by rw [List.length_append, encNibs_length]; omega⟩

theorem SeqOk.mono {n m : Nat} {s : SeqSt} (h : SeqOk n s) (hm : n ≤ m) : SeqOk m s := by
  obtain ⟨ns, hh, hn⟩ := h
  exact ⟨ns, hh, by omega⟩

theorem u32OfInt_lt (i : Int) : u32OfInt i < 2^32 := by unfold u32OfInt; omega

theorem flushRun_good {n : Nat} {s : SeqSt} (h : SeqOk n s) : (flushRun s).Good (SeqOk (n + 11)) := by
  unfold flushRun
  split
  · exact seqAppend_good h (u32OfInt_lt _)
  · exact h.mono (by omega)

theorem SeqOk.last {n : Nat} {s : SeqSt} (h : SeqOk n s) (a : Nat) (b : Int) : SeqOk n { s with lastStart := a, last := b } := by
  obtain ⟨ns, hh, hn⟩ := h
  exact ⟨ns, ⟨hh.idx, hh.len, hh.alloc, hh.nib, hh.small⟩, hn⟩

theorem seqAdd_good {n : Nat} {s : SeqSt} (h : SeqOk n s) {i : Nat} (hi : i < 2^32) : (seqAdd s i).Good (SeqOk (n + 33)) := by
  unfold seqAdd
  split
  · exact (h.last s.lastStart _).mono (by omega)
  · refine (flushRun_good h).bind ?_
    intro s1 h1
    refine Out.Good.bind (P := SeqOk (n + 33)) ?_ (fun s2 h2 => h2.last _ _)
    unfold addJump
    split
    · exact (seqAppend_good h1 (u32OfInt_lt _)).mono (fun _ h => h.mono (by omega))
    · refine (seqAppend_good h1 (by decide)).bind ?_
      intro s2 h2
      exact (seqAppend_good h2 hi).mono (fun _ h => h.mono (by omega))

theorem seqFinal_good {n : Nat} {s : SeqSt} (h : SeqOk n s) : (seqFinal s).Good (fun b => b.length ≤ n / 2 + 6) := by
  unfold seqFinal
  refine (flushRun_good h).bind ?_
  intro s1 ⟨ns, hh, hn⟩
  show (s1.data.take (seqByteLen s1.index)).length ≤ n / 2 + 6
  rw [List.length_take, hh.idx]
  unfold seqByteLen
  omega

/-! ## The offset adjustments -/

theorem offadjLoop_defined : ∀ (fuel len prev pos : Nat) (adjs : List (Nat × Nat)),
    prev < 2^64 → len < 2^64 → (len + 2^64 - prev) % 2^64 % 2^32 + (len - pos) + (pos - len) < fuel * (2^31 - 1) →
    (offadjLoop len fuel prev pos adjs).Good (fun r => r.2 = len) := by
  intro fuel
  induction fuel with
  | zero => intro len prev pos adjs _ _ h; omega
  | succ fuel ih =>
    intro len prev pos adjs hp hl h
    rw [offadjLoop]
    split
    · refine ih _ _ _ _ (Nat.mod_lt _ (by decide)) hl ?_
      have : (len + 2^64 - (prev + (2^31 - 1)) % 2^64) % 2^64 % 2^32 =
        (len + 2^64 - prev) % 2^64 % 2^32 - (2^31 - 1) := by omega
      rw [this]
      omega
    · have hz : (len + 2^64 - len) % 2^64 % 2^32 = 0 := by omega
      split
      · split
        · exact ih _ _ _ _ hl hl (by rw [hz]; omega)
        · rfl
      · split
        · exact ih _ _ _ _ hl hl (by rw [hz]; omega)
        · rfl

/-- `n` is a `size_t`. -/
def IsSize (n : Nat) : Prop := n < 2^64

theorem adjust_good {m : MakeIn} {st : MkSt} {pos : Nat} (hp : st.lenPrev < 2^64) (hl : st.cpio.data.length < 2^64) :
    (adjust m st pos).Good (fun r => IsSize r.2) := by
  unfold adjust
  split
  · rename_i h
    have h1 := h.1
    have h2 : (st.cpio.data.length + 2^64 - st.lenPrev) % 2^64 % 2^32 < 2^32 := Nat.mod_lt _ (by decide)
    refine (offadjLoop_defined _ _ _ _ _ hp hl (by omega)).mono ?_
    intro r hr
    unfold IsSize
    rw [hr]
    exact hl
  · exact hp

/-! ## The altered archive -/

theorem cpioExtend_good {c : CpioBuf} (hc : c.Ok) {piece : Bytes} (hp : piece.length < 2^64) : (cpioExtend c piece).Good CpioBuf.Ok := by
  rcases cpioExtend_spec hc piece hp with ⟨h, _⟩ | ⟨c', h, h', _⟩
  · rw [h]; trivial
  · rw [h]; exact h'

theorem zeros_small (n : Nat) : (zeros (cpioPadding n)).length < 2^64 := by
  rw [zeros, List.length_replicate]
  have := cpioPadding_lt n
  omega

/-- Digests that fit into the program's buffer. -/
def DigestsFit (files : List FileInfo) : Prop := ∀ f ∈ files, f.md5.length < 66

theorem fileDigest_good {algo : Nat} {f : FileInfo} (h : f.md5.length < 66) : (fileDigest algo f).Good (fun _ => True) := by
  have hd : digestOverruns f.md5 = false := by
    unfold digestOverruns
    rw [decide_eq_false (by omega), Bool.false_and]
  unfold fileDigest
  rw [hd]
  split
  · split
    · rename_i h; cases h
    · split <;> trivial
  · split
    · split
      · rename_i h; cases h
      · split <;> trivial
    · trivial

theorem emitBody_good {m : MakeIn} {f : FileInfo} (hf : f.md5.length < 66) {hdr : CpioHdr} (hs : isLnk f = true → hdr.filesize = f.linkto.length % 2^32)
    {c : CpioBuf} (hc : c.Ok) (md5 : Bytes) : (emitBody m f hdr c md5).Good (fun r => r.1.Ok) := by
  unfold emitBody
  split
  · rename_i hl
    have h1 := hs hl
    have h2 : hdr.filesize ≤ f.linkto.length := by rw [h1]; exact Nat.mod_le _ _
    have h3 : hdr.filesize < 2^32 := by rw [h1]; exact Nat.mod_lt _ (by decide)
    refine (rdBlk_good (by omega)).bind ?_
    intro l hll
    refine (cpioExtend_good hc (by omega)).bind ?_
    intro c1 hc1
    refine (cpioExtend_good hc1 (zeros_small _)).bind ?_
    intro c2 hc2
    refine (rdBlk_good (by rw [List.length_append, List.length_singleton]; omega)).bind ?_
    intro l1 _
    exact hc2
  · split
    · refine (fileDigest_good hf).bind ?_
      intro d _
      exact hc
    · exact hc

/-- The loop's variables: inside the archive, buffer in order, at most 33 nibbles for every 110 bytes
    of the archive. -/
structure MkInv (m : MakeIn) (st : MkSt) : Prop where
  off : st.arcOff ≤ m.archive.length
  buf : st.cpio.Ok
  prev : st.lenPrev < 2^64
  seq : SeqOk (33 * (st.arcOff / 110)) st.seq

theorem Out.good_ok {P : α → Prop} {a : α} (h : P a) : (Out.ok a).Good P := h

section
attribute [local irreducible] Out.Good

theorem emitEntry_good {m : MakeIn} {st : MkSt} {k i : Nat} {f : FileInfo} {name : Bytes} {hl pb : Nat} (hb : st.cpio.Ok)
    (hp : st.lenPrev < 2^64) (hs : SeqOk k st.seq) (hi : i < 2^32) (hf : f.md5.length < 66) (hn : name.length < 2^16) :
    (emitEntry m st i f name hl pb).Good (fun x => x.cpio.Ok ∧ x.lenPrev < 2^64 ∧ SeqOk (k + 33) x.seq ∧ x.arcOff = st.arcOff) := by
  have hsz : isLnk f = true → (entryHdr f (name.length + 1)).filesize = f.linkto.length % 2^32 := by
    intro hk
    show (if isReg f = true then f.size else if isLnk f = true then f.linkto.length % 2^32 else 0) = _
    rw [if_neg (by rw [isLnk_not_reg hk]; decide), if_pos hk]
  unfold emitEntry
  refine Out.Good.bind (adjust_good hp hb.1) (fun r hr => ?_)
  refine Out.Good.bind (cpioExtend_good hb (by rw [cpioHeaderWrite_length]; decide)) (fun c1 h1 => ?_)
  refine Out.Good.bind (cpioExtend_good h1 (by decide)) (fun c2 h2 => ?_)
  refine Out.Good.bind (cpioExtend_good h2 (by rw [List.length_append, List.length_singleton]; omega)) (fun c3 h3 => ?_)
  refine Out.Good.bind (cpioExtend_good h3 (zeros_small _)) (fun c4 h4 => ?_)
  refine Out.Good.bind (emitBody_good hf hsz h4 _) (fun r5 h5 => ?_)
  refine Out.Good.bind (seqAdd_good hs hi) (fun sq hsq => ?_)
  exact Out.good_ok ⟨h5, hr, hsq, rfl⟩

end

theorem extendIf_good {copy : Bool} {c : CpioBuf} (hc : c.Ok) {piece : Bytes} (hp : piece.length < 2^64) :
    (extendIf copy c piece).Good CpioBuf.Ok := by
  unfold extendIf
  split
  · exact cpioExtend_good hc hp
  · exact hc

theorem copyData_good {archive : Bytes} (hl : archive.length < 2^63) (copy : Bool) : ∀ (fuel left : Nat) (st : MkSt), left < fuel →
    left < 2^33 → st.arcOff ≤ archive.length → st.cpio.Ok → (copyData archive copy fuel left st).Good
      (fun x => x.cpio.Ok ∧ st.arcOff ≤ x.arcOff ∧ x.arcOff ≤ archive.length ∧ x.lenPrev = st.lenPrev ∧ x.seq = st.seq) := by
  intro fuel
  induction fuel with
  | zero => intro left st h; omega
  | succ fuel ih =>
    intro left st hf h33 ho hc
    rw [copyData]
    split
    · refine (archiveRead_good hl ho (by omega)).bind ?_
      rintro ⟨b, o⟩ ⟨h1, h2, h3⟩
      simp only at h1 h2 ⊢
      subst h1 h2
      refine (extendIf_good hc (by rw [slice_length h3]; omega)).bind ?_
      intro c hc'
      refine (ih _ _ (by omega) (by omega) (by simpa only using h3) hc').mono ?_
      rintro x ⟨a, b, c, d, e⟩
      exact ⟨a, by simp only at b; omega, c, d, e⟩
    · exact ⟨hc, Nat.le_refl _, ho, rfl, rfl⟩

theorem copyPadding_good {archive : Bytes} (hl : archive.length < 2^63) (copy : Bool) (n : Nat) {st : MkSt}
    (ho : st.arcOff ≤ archive.length) (hc : st.cpio.Ok) : (copyPadding archive copy n st).Good
      (fun x => x.cpio.Ok ∧ st.arcOff ≤ x.arcOff ∧ x.arcOff ≤ archive.length ∧ x.lenPrev = st.lenPrev ∧ x.seq = st.seq) := by
  have := cpioPadding_lt n
  unfold copyPadding
  split
  · refine (archiveRead_good hl ho (by omega)).bind ?_
    rintro ⟨b, o⟩ ⟨h1, h2, h3⟩
    simp only at h1 h2 ⊢
    subst h1 h2
    refine (extendIf_good hc (zeros_small _)).bind ?_
    intro c hc'
    exact ⟨hc', Nat.le_add_right _ _, h3, rfl, rfl⟩
  · exact ⟨hc, Nat.le_refl _, ho, rfl, rfl⟩

theorem readHead_name {archive : Bytes} {off : Nat} {r : CpioHdr × Bytes × Nat} (h : readHead archive off = .ok r) :
    r.2.1.length ≤ r.1.namesize := by
  unfold readHead at h
  obtain ⟨⟨hb, o1⟩, _, h⟩ := Out.bind_eq_ok.1 h
  obtain ⟨hd, _, h⟩ := Out.bind_eq_ok.1 h
  obtain ⟨⟨nb, o2⟩, _, h⟩ := Out.bind_eq_ok.1 h
  simp only at h
  split at h
  · cases h
  · cases h
    simp only [cstr]
    have h1 := List.Sublist.length_le (List.takeWhile_sublist (· != 0) (l := nb.take (hd.namesize - 1)))
    rw [List.length_take] at h1
    omega

theorem stripDot_le (name : Bytes) : (stripDot name).length ≤ name.length := by
  unfold stripDot
  split
  · rw [List.length_drop]; omega
  · exact Nat.le_refl _

theorem Out.Good.and {P Q : α → Prop} {x : Out α} (h : x.Good P) (hq : ∀ a, x = .ok a → Q a) : x.Good (fun a => P a ∧ Q a) := by
  cases x with
  | ok a => exact ⟨h, hq a rfl⟩
  | err e => trivial
  | ub => exact h
  | loop => exact h

theorem keepFile_lt {m : MakeIn} {name : Bytes} {size i : Nat} {f : FileInfo} (h : keepFile m name size = some (i, f)) :
    i < m.files.length ∧ f ∈ m.files := by
  unfold keepFile at h
  split at h
  · cases h
  · rename_i j hj
    split at h
    · cases h
    · rename_i g hg
      split at h
      · cases h
      · split at h
        · cases h
        · cases h
          obtain ⟨h1, h2⟩ := List.getElem?_eq_some_iff.1 hg
          exact ⟨h1, h2 ▸ List.getElem_mem h1⟩

theorem mkEntry_good {m : MakeIn} (hl : m.archive.length < 2^34) (hd : DigestsFit m.files) (hc : m.files.length ≤ 2^32)
    {st : MkSt} (hs : MkInv m st) {h : CpioHdr} {name : Bytes} {off : Nat} (ho : st.arcOff + 110 ≤ off) (ho2 : off ≤ m.archive.length)
    (hn : h.namesize < 2^16) (hfs : h.filesize < 2^32) (hname : name.length ≤ h.namesize) :
    (mkEntry m st h name off).Good (fun x => MkInv m x ∧ st.arcOff + 110 ≤ x.arcOff) := by
  unfold mkEntry
  simp only
  have hpad := cpioPadding_lt (110 + h.namesize)
  refine (archiveRead_good (by omega) ho2 (by omega)).bind ?_
  rintro ⟨pb, o⟩ ⟨h1, h2, h3⟩
  simp only at h1 h2 ⊢
  subst h1 h2
  refine Out.Good.bind (P := fun x : MkSt => x.cpio.Ok ∧ x.lenPrev < 2^64 ∧ SeqOk (33 * (st.arcOff / 110) + 33) x.seq ∧
    x.arcOff = off + cpioPadding (110 + h.namesize)) ?_ ?_
  · unfold emitKept
    split
    · rename_i i f hk
      obtain ⟨hi, hm⟩ := keepFile_lt hk
      have := stripDot_le name
      exact emitEntry_good hs.buf hs.prev hs.seq (by omega) (hd f hm) (by omega)
    · exact ⟨hs.buf, hs.prev, hs.seq.mono (by omega), rfl⟩
  · intro x ⟨a1, a2, a3, a4⟩
    refine (copyData_good (by omega) _ _ _ x (by omega) (by omega) (by omega) a1).bind ?_
    intro y ⟨b1, b2, b3, b4, b5⟩
    refine (copyPadding_good (by omega) _ _ b3 b1).mono ?_
    intro z ⟨c1, c2, c3, c4, c5⟩
    refine ⟨⟨c3, c1, by rw [c4, b4]; exact a2, ?_⟩, by omega⟩
    rw [c5, b5]
    exact a3.mono (by omega)

theorem mkLoop_good {m : MakeIn} (hl : m.archive.length < 2^34) (hne : NoEmptyName m.archive) (hd : DigestsFit m.files)
    (hc : m.files.length ≤ 2^32) : ∀ (fuel : Nat) (st : MkSt), MkInv m st → m.archive.length - st.arcOff < fuel →
      (mkLoop m fuel st).Good (MkInv m) := by
  intro fuel
  induction fuel with
  | zero => intro st _ h; omega
  | succ fuel ih =>
    intro st hs hf
    rw [mkLoop]
    refine ((readHead_good (by omega) hs.off hne).and (fun r hr => readHead_name hr)).bind ?_
    rintro ⟨h, name, o⟩ ⟨⟨h1, h2, h3, h4⟩, h5⟩
    simp only at h1 h2 h3 h4 h5 ⊢
    refine Out.Good.ite (fun _ => ?_) (fun _ => ?_)
    · exact ⟨h2, hs.buf, hs.prev, hs.seq.mono (by simp only; omega)⟩
    · refine (mkEntry_good hl hd hc hs h1 h2 h3 h4 h5).bind ?_
      intro x ⟨hx, hx2⟩
      exact ih _ hx (by omega)

theorem makeCpio_good (H : Bytes → Bytes) {m : MakeIn} (hl : m.archive.length < 2^34) (hne : NoEmptyName m.archive)
    (hd : DigestsFit m.files) (hc : m.files.length ≤ 2^32) : (makeCpio H m).Good (fun _ => True) := by
  unfold makeCpio
  refine (mkLoop_good hl hne hd hc _ _ ⟨Nat.zero_le _, ⟨by simp, rfl⟩, by simp, ?_⟩ (by simp only; omega)).bind ?_
  · exact ⟨[], holds_init, by simp⟩
  · intro st hs
    unfold mkFinish
    refine (cpioExtend_good hs.buf (by rw [cpioHeaderWrite_length]; decide)).bind ?_
    intro c1 h1
    refine (cpioExtend_good h1 (by decide)).bind ?_
    intro c2 h2
    refine (cpioExtend_good h2 (zeros_small _)).bind ?_
    intro c3 h3
    refine (seqFinal_good hs.seq).bind ?_
    intro s hsl
    have := hs.off
    rw [if_neg (by omega)]
    trivial

/-! ## The payload format offset -/

theorem fmtOffsetLoop_good {header : Bytes} (hl : header.length < 2^32 - 16) : ∀ n off, off ≤ header.length →
    (fmtOffsetLoop header n off).Good (fun v => v < 2^32) := by
  intro n
  induction n with
  | zero => intro off _; trivial
  | succ n ih =>
    intro off ho
    rw [fmtOffsetLoop]
    split
    · rename_i h
      rw [Nat.mod_eq_of_lt (by omega)] at h ⊢
      rw [(be32At_drop header off (by omega)).1, Out.bind_ok]
      split
      · obtain ⟨h1, h2⟩ := be32At_drop header (off + 8) (by omega)
        rw [h1]
        exact h2
      · exact ih _ h
    · trivial

theorem fmtOffset_good {header : Bytes} (h16 : 16 ≤ header.length) (hl : header.length < 2^32 - 16) :
    (fmtOffset header).Good (fun v => v < 2^32) := by
  unfold fmtOffset
  rw [(be32At_drop header 8 (by omega)).1, Out.bind_ok]
  exact fmtOffsetLoop_good hl _ _ h16

/-! ## Writing -/

theorem writeElems_good (arr : List (Nat × Nat)) (sel : Nat × Nat → Nat) : ∀ n i, i + n ≤ arr.length →
    (writeElems arr sel n i).Good (fun _ => True) := by
  intro n
  induction n with
  | zero => intro i _; trivial
  | succ n ih =>
    intro i h
    rw [writeElems, rd_ok (by omega), Out.bind_ok]
    refine (ih (i + 1) (by omega)).bind ?_
    intro _ _
    trivial

theorem pairRounds_le (n : Nat) : pairRounds n ≤ n := by
  unfold pairRounds
  omega

theorem writePtrs_good {ptrs : List Bytes} {ints : List (Nat × Nat)} (h : ptrs.map List.length = ints.map (·.2)) :
    ∀ n i, i + n ≤ ints.length → (writePtrs ptrs ints n i).Good (fun _ => True) := by
  have hlen : ptrs.length = ints.length := by simpa using congrArg List.length h
  intro n
  induction n with
  | zero => intro i _; trivial
  | succ n ih =>
    intro i hi
    rw [writePtrs, rd_ok (by omega), Out.bind_ok, rd_ok (by omega), Out.bind_ok]
    have he : (ptrs[i]'(by omega)).length = (ints[i]'(by omega)).2 := by
      have := List.getElem_of_eq h (i := i) (by simp; omega)
      simpa using this
    refine (rdBlk_good (by omega)).bind ?_
    intro b _
    refine (ih (i + 1) (by omega)).bind ?_
    intro _ _
    trivial

/-- Writing a delta whose counters are the lengths of its arrays. -/
theorem writeStream_good {d : Delta} (h1 : d.intCount = d.ints.length) (h2 : d.extCount = d.exts.length)
    (h3 : d.offadjCount = d.offadj.length) (h4 : (writeIntData d).Good (fun _ => True)) :
    (writeStream d).Good (fun _ => True) := by
  have w : ∀ (arr : List (Nat × Nat)) (sel : Nat × Nat → Nat) (n : Nat), n = arr.length →
      (writeElems arr sel (pairRounds n) 0).Good (fun _ => True) := by
    intro arr sel n hn
    have := pairRounds_le n
    exact writeElems_good arr sel _ _ (by omega)
  unfold writeStream
  refine Out.Good.bind (P := fun _ => True) ?_ (fun _ _ => ?_)
  · unfold writeV2
    split
    · split
      · trivial
      · refine Out.Good.bind (P := fun _ => True) ?_ (fun _ _ => trivial)
        unfold writeV3
        split
        · exact (w _ _ _ h3).bind (fun _ _ => (w _ _ _ h3).bind (fun _ _ => trivial))
        · trivial
    · trivial
  · refine (w _ _ _ h1).bind (fun _ _ => (w _ _ _ h1).bind (fun _ _ => (w _ _ _ h2).bind (fun _ _ => (w _ _ _ h2).bind (fun _ _ => ?_))))
    exact h4.bind (fun _ _ => trivial)

theorem writeIntData_good {d : Delta} {ptrs : List Bytes} (h1 : d.intCount = d.ints.length) (h4 : d.intPtrs = some ptrs)
    (h5 : ptrs.map List.length = d.ints.map (·.2)) : (writeIntData d).Good (fun _ => True) := by
  unfold writeIntData
  rw [h4]
  exact writePtrs_good h5 _ _ (by omega)

theorem writeDelta_good {compress rpmHead : Bytes → Out Bytes} {d : Delta} (h : (writeStream d).Good (fun _ => True))
    (hc : ∀ s, (compress s).Good (fun _ => True)) (hh : d.type = .standard → ∀ z, (rpmHead z).Good (fun _ => True)) :
    (writeDelta compress rpmHead d).Good (fun _ => True) := by
  unfold writeDelta
  refine h.bind (fun s _ => (hc s).bind (fun z _ => ?_))
  refine Out.Good.bind (P := fun _ => True) ?_ (fun _ _ => trivial)
  unfold standardPart
  cases ht : d.type with
  | standard => exact hh ht z
  | rpmonly => exact trivial

/-! ## The difference -/

theorem makeDiff_good (old new : Bytes) (addblk : Bool) (hn : new = [] ∨ 16 ≤ new.length) (hl : new.length < 2^63) :
    (makeDiff old new addblk).Good (fun d => d.intData.map List.length = d.int.map (·.2)) := by
  have hd : (makeDiff old new addblk).Good (fun _ => True) := by
    rcases hn with rfl | hn
    · obtain ⟨h, hh, _⟩ := hashCreate_ok old
      unfold makeDiff makeDiffWith
      rw [hh, Out.bind_ok]
      exact trivial
    · obtain ⟨d, e, _⟩ := makeDiff_spec old new addblk hn hl
      rw [e]
      trivial
  refine (hd.and (Q := fun d => d.intData.map List.length = d.int.map (·.2)) (fun d h => ?_)).mono (fun _ h => h.2)
  unfold makeDiff makeDiffWith at h
  obtain ⟨x, _, h⟩ := Out.bind_eq_ok.1 h
  obtain ⟨⟨rs, adds⟩, _, h⟩ := Out.bind_eq_ok.1 h
  obtain ⟨⟨ext, int⟩, _, h⟩ := Out.bind_eq_ok.1 h
  obtain ⟨data, h1, h⟩ := Out.bind_eq_ok.1 h
  cases h
  exact intDataLoop_lengths _ _ _ _ _ _ h1

end Drpm
