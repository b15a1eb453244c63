import Verif.MakeSafe
import Verif.SeqMetaLemmas
/-!
# Making the altered archive succeeds: lemmas
-/

namespace Drpm

/-- Success, with a result that has the property. -/
def Out.Sure (P : α → Prop) (x : Out α) : Prop := ∃ a, x = .ok a ∧ P a

theorem Out.Sure.bind {P : α → Prop} {Q : β → Prop} {x : Out α} {f : α → Out β} (h : x.Sure P) (hf : ∀ a, P a → (f a).Sure Q) :
    (x >>= f).Sure Q := by
  obtain ⟨a, rfl, ha⟩ := h
  exact hf a ha

theorem Out.Sure.mono {P Q : α → Prop} {x : Out α} (h : x.Sure P) (hpq : ∀ a, P a → Q a) : x.Sure Q := by
  obtain ⟨a, e, ha⟩ := h
  exact ⟨a, e, hpq a ha⟩

theorem Out.Good.sure {P : α → Prop} {x : Out α} (h : x.Good P) (he : ∀ e, x ≠ .err e) : x.Sure P := by
  cases x with
  | ok a => exact ⟨a, rfl, h⟩
  | err e => exact absurd rfl (he e)
  | ub => exact absurd h id
  | loop => exact absurd h id

/-! ## The sequence -/

theorem seqAppend_sure {n : Nat} {s : SeqSt} (h : SeqOk n s) {v : Nat} (hv : v < 2^32) :
    (seqAppend s v).Sure (SeqOk (n + 11)) := by
  obtain ⟨ns, hh, hn⟩ := h
  obtain ⟨s', e, h', _⟩ := seqAppend_holds v s ns hh hv
  have := nibLen_le v hv
  exact ⟨s', e, _, h', by rw [List.length_append, encNibs_length]; omega⟩

theorem flushRun_sure {n : Nat} {s : SeqSt} (h : SeqOk n s) : (flushRun s).Sure (SeqOk (n + 11)) := by
  unfold flushRun
  split
  · exact seqAppend_sure h (u32OfInt_lt _)
  · exact ⟨_, rfl, h.mono (by omega)⟩

theorem addJump_sure {n : Nat} {s : SeqSt} (h : SeqOk n s) {i : Nat} (hi : i < 2^32) : (addJump s i).Sure (SeqOk (n + 22)) := by
  unfold addJump
  split
  · exact (seqAppend_sure h (u32OfInt_lt _)).mono (fun _ h => h.mono (by omega))
  · exact (seqAppend_sure h (by decide)).bind (fun s1 h1 => (seqAppend_sure h1 hi).mono (fun _ h => h.mono (by omega)))

theorem seqAdd_sure {n : Nat} {s : SeqSt} (h : SeqOk n s) {i : Nat} (hi : i < 2^32) : (seqAdd s i).Sure (SeqOk (n + 33)) := by
  unfold seqAdd
  split
  · exact ⟨_, rfl, (h.last s.lastStart _).mono (by omega)⟩
  · exact (flushRun_sure h).bind (fun s1 h1 => (addJump_sure h1 hi).bind (fun s2 h2 => ⟨_, rfl, h2.last _ _⟩))

theorem seqFinal_sure {n : Nat} {s : SeqSt} (h : SeqOk n s) : (seqFinal s).Sure (fun b => b.length ≤ n / 2 + 6) := by
  refine (seqFinal_good h).sure (fun e he => ?_)
  obtain ⟨s1, e1, _⟩ := flushRun_sure h
  unfold seqFinal at he
  rw [e1, Out.bind_ok] at he
  cases he

/-! ## The offset adjustments -/

theorem offadjLoop_noerr : ∀ (fuel len prev pos : Nat) (adjs : List (Nat × Nat)) (e : Err), offadjLoop len fuel prev pos adjs ≠ .err e := by
  intro fuel
  induction fuel with
  | zero => intro len prev pos adjs e h; cases h
  | succ fuel ih =>
    intro len prev pos adjs e
    rw [offadjLoop]
    repeat' split
    all_goals first
      | exact ih _ _ _ _ _
      | nofun

theorem adjust_sure {m : MakeIn} {st : MkSt} {pos : Nat} (hp : st.lenPrev < 2^64) (hl : st.cpio.data.length < 2^64) :
    (adjust m st pos).Sure (fun r => IsSize r.2) := by
  refine (adjust_good hp hl).sure (fun e => ?_)
  unfold adjust
  split
  · exact offadjLoop_noerr _ _ _ _ _ _
  · nofun

/-! ## Digests -/

theorem parseHex_len : ∀ (n : Nat) (s d : Bytes), s.length = n → parseHex s = some d → d.length = s.length / 2 := by
  intro n
  induction n using Nat.strongRecOn with
  | ind n ih =>
    intro s d hs h
    match s with
    | [] => unfold parseHex at h; cases h; rfl
    | [a] => unfold parseHex at h; cases h; simp
    | a :: b :: rest =>
      unfold parseHex at h
      split at h
      · cases h
      · rw [Option.map_eq_some_iff] at h
        obtain ⟨d', h1, rfl⟩ := h
        simp only [List.length_cons] at hs ⊢
        have := ih rest.length (by omega) rest d' rfl h1
        omega

theorem fileDigest_sure {algo : Nat} {f : FileInfo} (hr : isReg f = true) (h0 : 0 < f.size) (h : DigestOk algo f) :
    (fileDigest algo f).Sure (fun _ => True) := by
  obtain ⟨a, b⟩ := h (by rw [regular_eq]; exact hr) h0
  have key : ∀ (n : Nat) (d : Bytes), n ≤ 32 → parseHex f.md5 = some d → d.length = n → digestOverruns f.md5 = false := by
    intro n d hn h1 h2
    have := parseHex_len _ _ _ rfl h1
    unfold digestOverruns
    rw [decide_eq_false (by omega), Bool.false_and]
  unfold fileDigest
  split
  · rename_i h
    obtain ⟨d, h1, h2⟩ := a h
    rw [key 16 d (by decide) h1 h2]
    unfold parseMd5
    rw [h1]
    simp only [h2, if_true]
    exact ⟨_, rfl, trivial⟩
  · split
    · rename_i h
      obtain ⟨d, h1, h2⟩ := b h
      rw [key 32 d (by decide) h1 h2]
      unfold parseSha256
      rw [h1]
      simp only [h2, if_true]
      exact ⟨_, rfl, trivial⟩
    · exact ⟨_, rfl, trivial⟩

/-! ## The altered archive -/

/-- A buffer with at most `n` bytes in it. -/
def CpioBuf.Has (n : Nat) (c : CpioBuf) : Prop := c.Ok ∧ c.data.length ≤ n

theorem cpioExtend_sure {n k : Nat} {c : CpioBuf} (hc : c.Has n) {piece : Bytes} (hp : piece.length ≤ k) (hn : n + k ≤ 2^63) :
    (cpioExtend c piece).Sure (CpioBuf.Has (n + k)) := by
  have hb := hc.2
  rcases cpioExtend_spec hc.1 piece (by omega) with ⟨h, h1⟩ | ⟨c', h, h', h2⟩
  · omega
  · exact ⟨c', h, h', by rw [h2, List.length_append]; omega⟩

theorem zeros_padding (n : Nat) : (zeros (cpioPadding n)).length ≤ 4 := by
  rw [zeros, List.length_replicate]
  have := cpioPadding_lt n
  omega

theorem rdBlk_sure {b : Bytes} {i n : Nat} (h : i + n ≤ b.length) : (rdBlk b i n).Sure (fun x => x.length = n) :=
  ⟨_, rdBlk_ok h, slice_length h⟩

theorem emitBody_sure {m : MakeIn} {f : FileInfo} (hd : DigestOk m.algo f) {hdr : CpioHdr} (hs : hdr.filesize = seqFilesize f) {n : Nat}
    {c : CpioBuf} (hc : c.Has n) (hn : n + 2^33 ≤ 2^63) (md5 : Bytes) : (emitBody m f hdr c md5).Sure (fun r => r.1.Has (n + 2^33)) := by
  unfold emitBody
  split
  · rename_i hl
    have h1 := hs.trans (seqFilesize_lnk hl)
    have h2 : hdr.filesize ≤ f.linkto.length := by rw [h1]; exact Nat.mod_le _ _
    have h3 : hdr.filesize < 2^32 := by rw [h1]; exact Nat.mod_lt _ (by decide)
    refine (rdBlk_sure (by omega)).bind (fun l hll => ?_)
    refine (cpioExtend_sure (k := 2^32) hc (by omega) (by omega)).bind (fun c1 hc1 => ?_)
    refine (cpioExtend_sure hc1 (zeros_padding _) (by omega)).bind (fun c2 hc2 => ?_)
    refine (rdBlk_sure (by rw [List.length_append, List.length_singleton]; omega)).bind (fun l1 _ => ?_)
    exact ⟨_, rfl, hc2.1, Nat.le_trans hc2.2 (by omega)⟩
  · split
    · rename_i hr
      rw [Bool.and_eq_true, bne_iff_ne] at hr
      have : hdr.filesize = f.size := by rw [hs]; unfold seqFilesize; rw [if_pos hr.1]
      refine (fileDigest_sure hr.1 (by omega) hd).bind (fun d _ => ?_)
      exact ⟨_, rfl, hc.1, Nat.le_trans hc.2 (by omega)⟩
    · exact ⟨_, rfl, hc.1, Nat.le_trans hc.2 (by omega)⟩

/-- The loop's variables: buffer in order, at most 2^34 bytes and 33 nibbles for every 110 bytes of the
    archive. -/
structure MkGoes (off : Nat) (st : MkSt) : Prop where
  pos : st.arcOff = off
  buf : st.cpio.Has (2^34 * (off / 110))
  prev : st.lenPrev < 2^64
  seq : SeqOk (33 * (off / 110)) st.seq

section
attribute [local irreducible] Out.Sure

theorem Out.sure_ok {P : α → Prop} {a : α} (h : P a) : (Out.ok a).Sure P := by unfold Out.Sure; exact ⟨a, rfl, h⟩

theorem emitEntry_sure {m : MakeIn} {st : MkSt} {n k i : Nat} {f : FileInfo} {name : Bytes} {hl pb : Nat} (hb : st.cpio.Has n)
    (hn : n + 2^34 ≤ 2^63) (hp : st.lenPrev < 2^64) (hs : SeqOk k st.seq) (hi : i < 2^32) (hd : DigestOk m.algo f) (hname : name.length < 2^16) :
    (emitEntry m st i f name hl pb).Sure (fun x => x.cpio.Has (n + 2^33 + 2^17) ∧ x.lenPrev < 2^64 ∧ SeqOk (k + 33) x.seq ∧ x.arcOff = st.arcOff) := by
  have hsz : (entryHdr f (name.length + 1)).filesize = seqFilesize f := rfl
  have hlen := hb.2
  unfold emitEntry
  refine Out.Sure.bind (adjust_sure hp hb.1.1) (fun r hr => ?_)
  refine Out.Sure.bind (cpioExtend_sure (k := 110) hb (by rw [cpioHeaderWrite_length]; exact Nat.le_refl _) (by omega)) (fun c1 h1 => ?_)
  refine Out.Sure.bind (cpioExtend_sure (k := 2) h1 (by decide) (by omega)) (fun c2 h2 => ?_)
  refine Out.Sure.bind (cpioExtend_sure (k := 2^16) h2 (by rw [List.length_append, List.length_singleton]; omega) (by omega)) (fun c3 h3 => ?_)
  refine Out.Sure.bind (cpioExtend_sure (k := 4) h3 (zeros_padding _) (by omega)) (fun c4 h4 => ?_)
  refine Out.Sure.bind (emitBody_sure hd hsz h4 (by omega) _) (fun r5 h5 => ?_)
  refine Out.Sure.bind (seqAdd_sure hs hi) (fun sq hsq => ?_)
  exact Out.sure_ok ⟨⟨h5.1, Nat.le_trans h5.2 (by omega)⟩, hr, hsq, rfl⟩

end

theorem archiveRead_sure {archive : Bytes} {off n : Nat} (hl : archive.length < 2^63) (h : off + n ≤ archive.length) :
    (archiveRead archive off n).Sure (fun r => r.1.length = n ∧ r.2 = off + n) :=
  ⟨_, archiveRead_ok hl h, slice_length h, rfl⟩

theorem extendIf_sure {copy : Bool} {n k : Nat} {c : CpioBuf} (hc : c.Has n) {piece : Bytes} (hp : piece.length ≤ k) (hn : n + k ≤ 2^63) :
    (extendIf copy c piece).Sure (CpioBuf.Has (n + k)) := by
  unfold extendIf
  split
  · exact cpioExtend_sure hc hp hn
  · exact ⟨_, rfl, hc.1, Nat.le_trans hc.2 (by omega)⟩

theorem copyData_sure {archive : Bytes} (hl : archive.length < 2^63) (copy : Bool) : ∀ (fuel left n : Nat) (st : MkSt), left < fuel →
    st.arcOff + left ≤ archive.length → st.cpio.Has n → n + left ≤ 2^63 → (copyData archive copy fuel left st).Sure
      (fun x => x.cpio.Has (n + left) ∧ x.arcOff = st.arcOff + left ∧ x.lenPrev = st.lenPrev ∧ x.seq = st.seq) := by
  intro fuel
  induction fuel with
  | zero => intro left n st h; omega
  | succ fuel ih =>
    intro left n st hf ho hc hn
    rw [copyData]
    split
    · refine (archiveRead_sure hl (by omega)).bind ?_
      rintro ⟨b, o⟩ ⟨h1, h2⟩
      simp only at h1 h2 ⊢
      subst h2
      refine (extendIf_sure (k := min left 4096) hc (by omega) (by omega)).bind (fun c hc' => ?_)
      refine (ih (left - min left 4096) (n + min left 4096) _ (by omega) (by simp only; omega) hc' (by omega)).mono ?_
      rintro x ⟨a, b, c, d⟩
      exact ⟨⟨a.1, Nat.le_trans a.2 (by omega)⟩, by simp only at b; omega, c, d⟩
    · have : left = 0 := by omega
      subst this
      exact ⟨_, rfl, hc, rfl, rfl, rfl⟩

theorem copyPadding_sure {archive : Bytes} (hl : archive.length < 2^63) (copy : Bool) (k n : Nat) {st : MkSt}
    (ho : st.arcOff + cpioPadding k ≤ archive.length) (hc : st.cpio.Has n) (hn : n + 4 ≤ 2^63) : (copyPadding archive copy k st).Sure
      (fun x => x.cpio.Has (n + 4) ∧ x.arcOff = st.arcOff + cpioPadding k ∧ x.lenPrev = st.lenPrev ∧ x.seq = st.seq) := by
  unfold copyPadding
  split
  · refine (archiveRead_sure hl ho).bind ?_
    rintro ⟨b, o⟩ ⟨h1, h2⟩
    simp only at h1 h2 ⊢
    subst h2
    refine (extendIf_sure hc (zeros_padding _) hn).bind (fun c hc' => ?_)
    exact ⟨_, rfl, hc', rfl, rfl, rfl⟩
  · exact ⟨_, rfl, ⟨hc.1, Nat.le_trans hc.2 (by omega)⟩, by omega, rfl, rfl⟩

theorem mkEntry_sure {m : MakeIn} (hl : m.archive.length < 2^34) (hc : m.files.length ≤ 2^32) {st : MkSt} {off o : Nat} {h : CpioHdr}
    {name : Bytes} (hs : MkGoes off st) (ho : off ≤ m.archive.length) (hr : readHead m.archive off = .ok (h, name, o)) {e : AEnt}
    (he : e = ⟨stripDot name, h.filesize, off, o + cpioPadding (110 + h.namesize)⟩) (hstop : e.stop ≤ m.archive.length)
    (hd : ∀ i f, keepFile m e.name e.size = some (i, f) → DigestOk m.algo f) :
    (mkEntry m st h name o).Sure (MkGoes e.stop) := by
  obtain ⟨h1, h2, h3, h4⟩ := readHead_inv (by omega) ho hr
  have hnm := readHead_name hr
  have hsd := stripDot_le name
  have hp := cpioPadding_lt (110 + h.namesize)
  have hst : e.stop = o + cpioPadding (110 + h.namesize) + h.filesize + cpioPadding h.filesize := by rw [he]; rfl
  have hsb := hs.buf
  have hss := hs.seq
  unfold mkEntry
  simp only
  refine (archiveRead_sure (by omega) (by omega)).bind ?_
  rintro ⟨pb, o1⟩ ⟨_, h6⟩
  simp only at h6 ⊢
  subst h6
  refine Out.Sure.bind (P := fun x : MkSt => x.cpio.Has (2^34 * (off / 110) + 2^33 + 2^17) ∧ x.lenPrev < 2^64 ∧
    SeqOk (33 * (off / 110) + 33) x.seq ∧ x.arcOff = o + cpioPadding (110 + h.namesize)) ?_ ?_
  · unfold emitKept
    split
    · rename_i i f hk
      obtain ⟨hi, hm⟩ := keepFile_lt hk
      exact emitEntry_sure hsb (by omega) hs.prev hss (by omega) (hd i f (by rw [he]; exact hk)) (by simp only at hnm; omega)
    · exact ⟨_, rfl, ⟨hsb.1, Nat.le_trans hsb.2 (by omega)⟩, hs.prev, hss.mono (by omega), rfl⟩
  · intro x ⟨a1, a2, a3, a4⟩
    refine (copyData_sure (by omega) _ _ _ _ x (Nat.lt_succ_self _) (by omega) a1 (by omega)).bind ?_
    intro y ⟨b1, b2, b3, b4⟩
    refine (copyPadding_sure (by omega) _ _ _ (by omega) b1 (by omega)).mono ?_
    intro z ⟨c1, c2, c3, c4⟩
    refine ⟨by omega, ⟨c1.1, Nat.le_trans c1.2 (by omega)⟩, by rw [c3, b3]; exact a2, ?_⟩
    rw [c4, b4]
    exact a3.mono (by omega)

theorem mkLoop_sure {m : MakeIn} (hl : m.archive.length < 2^34) (hc : m.files.length ≤ 2^32) {off : Nat} {es : List AEnt}
    (h : Entries m.archive off es) (hd : ∀ e ∈ es, ∀ i f, keepFile m e.name e.size = some (i, f) → DigestOk m.algo f) :
    ∀ (fuel : Nat) (st : MkSt), off ≤ m.archive.length → MkGoes off st → m.archive.length - off < fuel →
      (mkLoop m fuel st).Sure (fun x => ∃ n k, n ≤ 2^62 ∧ k < 2^33 - 100 ∧ x.cpio.Has n ∧ SeqOk k x.seq) := by
  induction h with
  | @trailer off o h hr =>
    intro fuel st ho hs hf
    obtain ⟨fuel, rfl⟩ : ∃ k, fuel = k + 1 := ⟨fuel - 1, by omega⟩
    rw [mkLoop, hs.pos, hr, Out.bind_ok]
    simp only [if_true]
    exact ⟨_, rfl, _, _, by omega, by omega, hs.buf, hs.seq⟩
  | @entry off o h name e es hr hne he hstop _ ih =>
    intro fuel st ho hs hf
    obtain ⟨fuel, rfl⟩ : ∃ k, fuel = k + 1 := ⟨fuel - 1, by omega⟩
    rw [mkLoop, hs.pos, hr, Out.bind_ok]
    simp only
    rw [if_neg hne]
    obtain ⟨h1, h2, h3, h4⟩ := readHead_inv (by omega) ho hr
    have hst : e.stop = o + cpioPadding (110 + h.namesize) + h.filesize + cpioPadding h.filesize := by rw [he]; rfl
    refine (mkEntry_sure hl hc hs ho hr he hstop (hd e (by simp))).bind (fun x hx => ?_)
    exact ih (fun e' hm => hd e' (by simp [hm])) _ _ hstop hx (by omega)

theorem makeCpio_sure (H : Bytes → Bytes) {m : MakeIn} (hl : m.archive.length < 2^34) (hc : m.files.length ≤ 2^32) {es : List AEnt}
    (h : Entries m.archive 0 es) (hd : ∀ e ∈ es, ∀ i f, keepFile m e.name e.size = some (i, f) → DigestOk m.algo f) :
    ∃ r, makeCpio H m = .ok r := by
  have : (makeCpio H m).Sure (fun _ => True) := by
    unfold makeCpio
    refine (mkLoop_sure hl hc h hd _ _ (Nat.zero_le _) ⟨rfl, ⟨⟨by simp, rfl⟩, by simp⟩, by simp, ⟨[], holds_init, by simp⟩⟩ (by omega)).bind ?_
    rintro st ⟨n, k, hn, hk, hb, hs⟩
    unfold mkFinish
    refine (cpioExtend_sure (k := 110) hb (by rw [cpioHeaderWrite_length]; exact Nat.le_refl _) (by omega)).bind (fun c1 h1 => ?_)
    refine (cpioExtend_sure (k := 11) h1 (by decide) (by omega)).bind (fun c2 h2 => ?_)
    refine (cpioExtend_sure h2 (zeros_padding _) (by omega)).bind (fun c3 h3 => ?_)
    refine (seqFinal_sure hs).bind (fun s hsl => ?_)
    rw [if_neg (by omega)]
    exact ⟨_, rfl, trivial⟩
  obtain ⟨r, hr, _⟩ := this
  exact ⟨r, hr⟩

end Drpm
