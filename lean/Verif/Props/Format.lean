import Verif.AcceptLemmas
import Verif.MagicLemmas
import Verif.MadeLemmas
/-!
# The delta file (C07-C11, C31, C51)
-/

namespace Drpm

/-! ## C07 -/

/-- `fileBe32` on four bytes written. -/
theorem fileBe32_create (n : Nat) (h : n < 2^32) (r : Bytes) :
    fileBe32 (createBe32 n ++ r) = .ok (n, r) := by
  have e := be32At_createBe32 n h []
  rw [List.append_nil] at e
  have hl : (createBe32 n).length = 4 := rfl
  unfold fileBe32 sysRead
  simp only [List.length_append, hl]
  rw [if_neg (by omega), if_neg (by omega), Out.bind_ok]
  simp only
  rw [List.take_append_of_le_length (by omega), List.take_of_length_le (by omega), e, Out.bind_ok,
    List.drop_append_of_le_length (by omega), List.drop_of_length_le (by omega), List.nil_append]

theorem sysRead_append (cap n : Nat) (x r : Bytes) (h : x.length = n) (hc : n ≤ cap)
    (hm : n ≤ 0x7ffff000) : sysRead cap n (x ++ r) = .ok (x, r) := by
  subst h
  unfold sysRead
  simp only [List.length_append]
  rw [if_neg (by omega), if_neg (by omega)]
  simp

/-- Reading back the head of an rpm-only delta. -/
theorem rdRpmonlyHead_write (d0 d : Delta) (ptrs : List Bytes) (hd : d.Made ptrs)
    (ht : d.type = .rpmonly) (r : Bytes) :
    rdRpmonlyHead d0 (versionBytes d.version ++ (writeCStr d.tgtNevr ++ (writeBuf d.addData ++ r))) =
      .ok ({ d0 with tgtNevr := d.tgtNevr, addData := d.addData }, r) := by
  obtain ⟨hv, _, _, hn, hz, ha⟩ := hd.rpmonly ht
  unfold rdRpmonlyHead fileVersion
  rw [hv, show versionBytes 3 = createBe32 0x444C5433 by decide]
  rw [P.bind_run, P.bind_run, fileBe32_create _ (by omega), Out.bind_ok]
  simp only
  rw [if_neg (by simp), P.pure_run, Out.bind_ok]
  simp only
  rw [P.bind_run, writeCStr_eq _ (by omega), List.append_assoc, fileBe32_create _ (by omega), Out.bind_ok]
  simp only
  have hnv : ∀ q, fileNevr (d.tgtNevr.length + 1) ((d.tgtNevr ++ [0]) ++ q) = .ok (d.tgtNevr, q) := by
    intro q
    unfold fileNevr
    rw [P.bind_run, sysRead_append _ _ (d.tgtNevr ++ [0]) q (by simp) (by omega) (by omega), Out.bind_ok]
    simp only
    rw [if_pos (by omega), takeWhile_all _ hz]
    rfl
  rw [P.bind_run, hnv, Out.bind_ok]
  simp only
  unfold writeBuf
  rw [P.bind_run, List.append_assoc, fileBe32_create _ (by omega), Out.bind_ok]
  simp only
  rw [P.bind_run, sysRead_append _ _ d.addData r rfl (by omega) (by omega), Out.bind_ok]
  rfl

/-- A stream that starts with "DLT" is not mistaken for a compressed one. -/
theorem plain_not_magic (z : Bytes) (v : Nat) (h : z.take 4 = versionBytes v) (c : Comp)
    (hc : c ≠ .none) : ¬ magicBytes c <+: z := by
  intro hp
  match z, h with
  | [], h => simp [versionBytes] at h
  | [_], h => simp [versionBytes] at h
  | [_, _], h => simp [versionBytes] at h
  | [_, _, _], h => simp [versionBytes] at h
  | b0 :: b1 :: b2 :: b3 :: r, h =>
    simp only [versionBytes, List.take_succ_cons, List.take_zero, List.cons.injEq] at h
    obtain ⟨rfl, rfl, rfl, _⟩ := h
    cases c <;> simp [magicBytes, List.cons_prefix_cons] at hp hc

/-- C07. Writing a delta and reading the file back gives the same delta, for every delta
    `drpm_make` hands to the writer (`Delta.Made`), both types, versions 1 to 3, and every lossless
    codec. For standard deltas the head of the file is rpmlib's: `rpmW z` are the lead, signature
    and header written in front of the stream `z`, and `rpmR` finds their size and the payload
    compression `hc` again. -/
theorem C07_roundtrip (d : Delta) (ptrs : List Bytes) (hd : d.Made ptrs) (c : Comp)
    (hc : d.comp = c.code) (compress : Bytes → Out Bytes) (dec : Decoder)
    (hl : Lossless c compress dec) (rpmW : Bytes → Bytes) (rpmR : Bytes → Out (Nat × Nat)) (headComp : Nat)
    (hrpm : ∀ z, rpmR (rpmW z ++ z) = .ok ((rpmW z).length, headComp) ∧
      ∃ t, rpmW z = [0xED, 0xAB, 0xEE, 0xDB] ++ t) :
    ∃ file r, writeDelta compress (fun z => .ok (rpmW z)) d = .ok file ∧ readDelta dec rpmR file = .ok r ∧
      SameDelta d ptrs r ∧ r.comp = d.comp ∧
      (d.version = 1 → r.tgtComp = headComp ∧ r.tgtSize = 0 ∧ r.tgtCompParam = [] ∧ r.tgtCompLevel = 0) ∧
      (d.version < 3 → r.offadjCount = 0) := by
  have key : ∀ d0 : Delta, d0.type = d.type → (d0.tgtHeaderLen = 0 ∧ d0.offadj = []) →
      (d.type = .rpmonly → d0.tgtNevr = d.tgtNevr) →
      (d0.addData = if d.type = .rpmonly then d.addData else []) →
      ∃ s z d', writeStream d = .ok s ∧ compress s = .ok z ∧ openStream dec z = .ok (c, s) ∧
        rdRest d0 s = .ok (d', []) ∧ SameDelta d ptrs d' ∧ d'.comp = d0.comp ∧
        (d.version = 1 → d'.tgtComp = d0.tgtComp ∧ d'.tgtSize = d0.tgtSize ∧ d'.tgtCompParam = d0.tgtCompParam ∧
          d'.tgtCompLevel = d0.tgtCompLevel) ∧
        (d.version < 3 → d'.offadjCount = d0.offadjCount) := by
    intro d0 h1 h2 h3 h4
    obtain ⟨s, d', e1, e2, e3, e4, e8, e5, e6, e7⟩ := rdRest_write d0 d ptrs hd h1 h2 h3 h4 []
    have e9 : d.version < 3 → d'.offadjCount = d0.offadjCount := fun h => by rw [e8, if_neg (by omega)]
    rw [List.append_nil] at e2
    by_cases hn : c = .none
    · subst hn
      exact ⟨s, s, d', e1, hl.plain rfl s, openStream_plain dec s e6 (plain_not_magic s _ e7), e2, e3,
        e4, e5, e9⟩
    · obtain ⟨z, z1, z2, z3, z4⟩ := hl.packed hn s
      exact ⟨s, z, d', e1, z1, by rw [openStream_packed dec z c hn z2 z3, z4], e2, e3, e4, e5, e9⟩
  cases hty : d.type with
  | rpmonly =>
    obtain ⟨s, z, d', e1, e2, e3, e4, e5, e6, _⟩ := key
      { Delta.zero with type := .rpmonly, tgtNevr := d.tgtNevr, addData := d.addData, comp := c.code }
      hty.symm ⟨rfl, rfl⟩ (fun _ => rfl) (by simp [hty])
    refine ⟨[100, 114, 112, 109] ++ versionBytes d.version ++ writeCStr d.tgtNevr ++
        writeBuf d.addData ++ z, d', ?_, ?_, e5, by rw [e6, hc], fun h => ?_, fun h => ?_⟩
    · rw [writeDelta_total, e1, Out.bind_ok, e2, Out.bind_ok]
      unfold writeHead
      rw [hty]
    · unfold readDelta
      simp only [List.append_assoc]
      rw [show ([100, 114, 112, 109] : Bytes) = createBe32 0x6472706D by decide,
        fileBe32_create _ (by omega), Out.bind_ok]
      simp only [if_true]
      rw [rdRpmonlyHead_write _ d ptrs hd hty, Out.bind_ok]
      simp only
      rw [e3, Out.bind_ok]
      simp only
      rw [e4, Out.bind_ok]
    · have := (hd.rpmonly hty).1
      omega
    · have := (hd.rpmonly hty).1
      omega
  | standard =>
    obtain ⟨s, z, d', e1, e2, e3, e4, e5, e6, e7, e8⟩ := key
      { Delta.zero with type := .standard, tgtComp := headComp, comp := c.code }
      hty.symm ⟨rfl, rfl⟩ (by simp [hty]) (by simp [hty, Delta.zero])
    obtain ⟨h1, t, h2⟩ := hrpm z
    refine ⟨rpmW z ++ z, d', ?_, ?_, e5, by rw [e6, hc], e7, e8⟩
    · rw [writeDelta_total, e1, Out.bind_ok, e2, Out.bind_ok]
      unfold writeHead
      rw [hty]
    · unfold readDelta
      have hm : fileBe32 (rpmW z ++ z) = .ok (0xEDABEEDB, t ++ z) := by
        rw [h2, List.append_assoc, show ([0xED, 0xAB, 0xEE, 0xDB] : Bytes) = createBe32 0xEDABEEDB by decide,
          fileBe32_create _ (by omega)]
      rw [hm, Out.bind_ok]
      simp only
      rw [if_neg (by decide), if_pos trivial, h1, Out.bind_ok]
      simp only [List.drop_left]
      rw [e3, Out.bind_ok]
      simp only
      rw [e4, Out.bind_ok]

/-- An rpm-only delta of version 3 with one seek back, two external copies, internal data and an
    offset adjustment by -2. -/
def sampleDelta : Delta :=
  { Delta.zero with
    type := .rpmonly, comp := 1, tgtNevr := [97, 45, 50], version := 3, srcNevr := [97, 45, 49],
    sequence := List.replicate 16 7, tgtMd5 := List.replicate 16 9, tgtSize := 4000, tgtComp := 4,
    tgtCompLevel := 2, tgtHeaderLen := 300, offadjCount := 1, offadj := [(3, 2^32 - 2)],
    tgtLeadsig := List.replicate 112 1, payloadFmtOff := 40, intCount := 2, extCount := 2,
    ints := [(1, 3), (1, 0)], exts := [(5, 10), (2^32 - 15, 4)], extDataLen := 20,
    addData := [1, 2, 3], intDataLen := 3, intPtrs := some [[1, 2, 3], []] }

theorem sampleDelta_made : sampleDelta.Made [[1, 2, 3], []] where
  version := by decide
  rpmonly := by decide +kernel
  srcNevr := by decide
  sequence := by decide
  md5 := by decide
  size := by decide
  comp := by decide
  param := by decide
  header := by decide
  offadj := ⟨by decide, by decide, by unfold Words; decide, by decide⟩
  old := by decide
  leadsig := by decide +kernel
  fmt := by decide
  ints := ⟨by decide, by decide, by unfold Words; decide⟩
  exts := ⟨by decide, by decide, by unfold Words; decide, by decide⟩
  ext := ⟨by decide, ⟨5, by decide, by decide, 0, by decide, by decide, trivial⟩, ⟨by decide, by decide, trivial⟩⟩
  add := by decide
  data := ⟨rfl, by decide, by decide, by decide⟩

/-- A standard delta of version 1. -/
theorem sampleDelta1_made :
    { sampleDelta with type := .standard, version := 1, tgtHeaderLen := 0, offadjCount := 0,
                       offadj := [] }.Made [[1, 2, 3], []] where
  version := by decide
  rpmonly := by decide
  srcNevr := by decide
  sequence := by decide
  md5 := by decide
  size := by decide
  comp := by decide
  param := by decide
  header := by decide
  offadj := ⟨by decide, by decide, by unfold Words; decide, by decide⟩
  old := by decide
  leadsig := by decide +kernel
  fmt := by decide
  ints := ⟨by decide, by decide, by unfold Words; decide⟩
  exts := ⟨by decide, by decide, by unfold Words; decide, by decide⟩
  ext := ⟨by decide, ⟨5, by decide, by decide, 0, by decide, by decide, trivial⟩, ⟨by decide, by decide, trivial⟩⟩
  add := by decide
  data := ⟨rfl, by decide, by decide, by decide⟩

/-- A lossless codec in the sense of `Lossless` exists for each method (bytes behind the magic). -/
example : Lossless .gzip (fun s => .ok ([0x1F, 0x8B, 0, 0, 0, 0, 0, 0] ++ s)) (fun _ z => z.drop 8) :=
  ⟨by simp, fun _ s => ⟨_, rfl, by simp, by simp [magicBytes], by simp⟩⟩

/-- C07, the limit of old versions: before version 3 the length of the external data is stored in
    32 bits without a check, so a delta over 4 GiB or more is written with a wrong length. -/
theorem C07_old_length_truncated (v n : Nat) (hv : v < 3) (r : Bytes) :
    rdLen v (writeLen v n ++ r) = .ok (n % 2^32, r) := by
  unfold rdLen writeLen
  rw [if_neg (by omega), if_neg (by omega)]
  exact rdBe32_create _ (Nat.mod_lt _ (by omega)) r

/-- C07 applies to what `drpm_make` produces: the copy lists and the internal data of the diff of
    any two payloads (below 2 GiB in one of them) meet the conditions on copies in `Delta.Made`. -/
theorem C07_made (old new : Bytes) (addblk : Bool) (hn : 16 ≤ new.length) (hnew : new.length < 2^63)
    (hsmall : old.length < 2^31 ∨ new.length < 2^31) :
    ∃ d, makeDiff old new addblk = .ok d ∧ CopiesInside old.length 0 d.ext ∧ EndsPositive 0 d.ext ∧
      Words d.ext ∧ (∀ p ∈ d.ext, p.1 ≠ 2^31) ∧ (d.ext.length < 2^32 → Words d.int) ∧
      d.intData.map List.length = d.int.map (·.2) := by
  obtain ⟨d, e, hR, e2, e3⟩ := makeDiff_spec old new addblk hn hnew
  have hb := hR.bounds
  have hr : ∀ r ∈ d.regions, r.oldLen < 2^31 ∧ r.oldOff + r.oldLen ≤ old.length := fun r hr => by
    have := hb r hr; omega
  obtain ⟨ext, int, f1, f2, f3, f4, _, f5⟩ := copiesLoop_walk old d.regions 0 0 (by omega) hr
  have hpos := copiesLoop_endsPositive d.regions 0 0 ext int (fun r hr' => (hr r hr').1) f1
  unfold createDiffCopies at e2
  rw [f1] at e2
  simp only [Out.ok.injEq, Prod.mk.injEq] at e2
  obtain ⟨h1, h2⟩ := e2
  subst h1 h2
  refine ⟨d, e, walkCopies_inside old _ _ (by rw [f2]; rfl), hpos,
    fun p hp => ⟨(f3 p hp).1, by have := (f3 p hp).2.2; omega⟩, fun p hp => (f3 p hp).2.1,
    fun hl p hp => ⟨?_, by have := f5 p hp; omega⟩, intDataLoop_lengths new _ _ _ _ _ e3⟩
  have : p.1 ≤ (d.int.map Prod.fst).sum := le_sum_of_mem (List.mem_map_of_mem hp)
  omega

/-! ## C08 -/

/-- C08. A 32-bit signed number other than -2^31 (`x` is its two's complement) is read back as it
    was written. -/
theorem C08_roundtrip (x : Nat) (h : x < 2^32) (hx : x ≠ 2^31) : smDecode (smEncode x) = x :=
  sm_roundtrip x h hx

/-- C08, the representation: magnitude in the low 31 bits, sign in the top bit. -/
theorem C08_representation (x : Nat) (h : x < 2^32) (hx : x ≠ 2^31) :
    smEncode x = (s32 x).natAbs + (if s32 x < 0 then 2^31 else 0) := by
  rw [smEncode_val x h hx]
  unfold s32
  rw [Nat.mod_eq_of_lt h]
  by_cases hl : x < 2^31
  · simp only [if_pos hl]
    have : ¬ ((x : Int) < 0) := by omega
    rw [if_neg this]
    omega
  · simp only [if_neg hl]
    have : (x : Int) - 2^32 < 0 := by omega
    rw [if_pos this]
    omega

/-- C08: -2^31 reads back as 0. -/
theorem C08_min_lost : smDecode (smEncode (2^31)) = 0 := by decide +kernel

/-- C08: `drpm_make` never emits a seek by -2^31, for any regions at all. -/
theorem C08_never_emitted (rs : List DiffCopy) (ext int : List (Nat × Nat))
    (h : createDiffCopies rs = .ok (ext, int)) : ∀ p ∈ ext, p.1 < 2^32 ∧ p.1 ≠ 2^31 :=
  copiesLoop_words rs 0 0 ext int h

example : smEncode (2^32 - 5) = 2^31 + 5 ∧ smDecode (2^31 + 5) = 2^32 - 5 := by decide +kernel

/-! ## C09 -/

theorem plainOpen (dec : Decoder) (v : UInt8) (rest : Bytes) (h : 4 ≤ rest.length) :
    openStream dec ([68, 76, 84, v] ++ rest) = .ok (.none, [68, 76, 84, v] ++ rest) := by
  refine openStream_plain dec _ (by simp; omega) ?_
  intro c hc hp
  cases c <;> simp [magicBytes, List.cons_prefix_cons] at hp hc

/-- A zero name length. -/
def writeCStrEmpty : Bytes := createBe32 0

/-- A delta file around an uncompressed stream: rpm-only, empty names, version digit `v`, with the
    given words for the counts and copies, 64-bit external length and no internal data. -/
def sampleStream (v : UInt8) (intCount extCount : Nat) (copies : List Nat) (extLen : Nat) : Bytes :=
  [68, 76, 84, v] ++ (createBe32 0 ++ createBe32 16 ++ List.replicate 16 0 ++ List.replicate 16 0 ++
  createBe32 100 ++ createBe32 0 ++ createBe32 0 ++
  (if v = 51 then createBe32 1 ++ createBe32 0 else []) ++
  createBe32 112 ++ List.replicate 112 0 ++ createBe32 0 ++ createBe32 intCount ++
  createBe32 extCount ++ copies.flatMap createBe32 ++
  (if v = 51 then createBe64 extLen else createBe32 extLen) ++ createBe32 0 ++
  (if v = 51 then createBe64 0 else createBe32 0))

/-- The file of an rpm-only delta with that stream. -/
def sampleFile (s : Bytes) : Bytes :=
  [100, 114, 112, 109, 68, 76, 84, 51] ++ createBe32 0 ++ createBe32 0 ++ s

theorem sampleFile_read (dec : Decoder) (rpmR : Bytes → Out (Nat × Nat)) (v : UInt8) (t : Bytes)
    (ht : 4 ≤ t.length) : readDelta dec rpmR (sampleFile ([68, 76, 84, v] ++ t)) =
      (rdRest { Delta.zero with type := .rpmonly } ([68, 76, 84, v] ++ t) >>= fun y => .ok y.1) := by
  have hm : fileBe32 (sampleFile ([68, 76, 84, v] ++ t)) = .ok (0x6472706D,
      [68, 76, 84, 51] ++ (writeCStrEmpty ++ (createBe32 0 ++ ([68, 76, 84, v] ++ t)))) := by
    rw [← fileBe32_create 0x6472706D (by omega)]
    rfl
  have hh : rdRpmonlyHead { Delta.zero with type := .rpmonly }
      ([68, 76, 84, 51] ++ (writeCStrEmpty ++ (createBe32 0 ++ ([68, 76, 84, v] ++ t)))) =
      .ok ({ Delta.zero with type := .rpmonly }, [68, 76, 84, v] ++ t) := by
    unfold rdRpmonlyHead fileVersion
    rw [show ([68, 76, 84, 51] : Bytes) = createBe32 0x444C5433 by decide]
    rw [P.bind_run, P.bind_run, fileBe32_create _ (by omega), Out.bind_ok]
    simp only
    rw [if_neg (by simp), P.pure_run, Out.bind_ok]
    simp only
    rw [P.bind_run, writeCStrEmpty, fileBe32_create _ (by omega), Out.bind_ok]
    simp only
    have e0 : fileNevr 0 (createBe32 0 ++ ([68, 76, 84, v] ++ t)) =
        .ok ([], createBe32 0 ++ ([68, 76, 84, v] ++ t)) := rfl
    rw [P.bind_run, e0, Out.bind_ok]
    simp only
    rw [P.bind_run, fileBe32_create _ (by omega), Out.bind_ok]
    simp only
    have e1 : sysRead 0 0 ([68, 76, 84, v] ++ t) = .ok ([], [68, 76, 84, v] ++ t) := rfl
    rw [P.bind_run, e1, Out.bind_ok]
    rfl
  unfold readDelta
  rw [hm, Out.bind_ok]
  simp only [if_true]
  rw [hh, Out.bind_ok]
  simp only
  rw [plainOpen dec v t ht, Out.bind_ok]
  rfl

/-- C09 with the hypothesis that the declared external length is below 2^64 - 2^32 (such lengths
    make `drpm_apply` fail later; see `C09_violated`). Streams are below 2^63 bytes. -/
theorem C09_partial (dec : Decoder) (rpmR : Bytes → Out (Nat × Nat)) (file : Bytes) (d : Delta)
    (hf : file.length < 2^63) (hdec : ∀ c z, (dec c z).length < 2^63)
    (h : readDelta dec rpmR file = .ok d) (he : d.extDataLen < 2^64 - 2^32) :
    (d.ints.map (·.2)).sum ≤ d.intDataLen ∧ d.intBytes.length = d.intDataLen ∧
      CopiesInside d.extDataLen 0 d.exts := by
  obtain ⟨d0, s, r, h1, _, h3⟩ := readDelta_inv dec rpmR file d h
  obtain ⟨_, _, _, _, w1, w2, _, _, _, h4, h5, _, c1, c2⟩ := rdRest_post d0 s d r h1
  have hs : s.length < 2^63 := by
    rcases h3 with ⟨k, rfl⟩ | ⟨c, z, rfl⟩
    · rw [List.length_drop]; omega
    · exact hdec c z
  have := intCheck_true _ 0 d.ints (by omega) (by omega) (fun c hc => (w1 c hc).2) c1
  refine ⟨by omega, h4, ((extCheck_inside _ 0 d.exts he (by omega) (fun c hc => (w2 c hc).2)).1 c2).1⟩

/-- C09 is false for larger declared lengths: this delta is accepted although its only external
    copy starts at position -1. -/
theorem C09_violated : ∃ file, ∃ d : Delta, ∀ dec rpmR, readDelta dec rpmR file = .ok d ∧
    ¬ CopiesInside d.extDataLen 0 d.exts := by
  refine ⟨sampleFile (sampleStream 51 0 1 [2^31 + 1, 2] (2^64 - 1)),
    { Delta.zero with
      type := .rpmonly, version := 3, sequence := List.replicate 16 0, tgtMd5 := List.replicate 16 0,
      tgtSize := 100, tgtHeaderLen := 1, tgtLeadsig := List.replicate 112 0, extCount := 1,
      exts := [(2^32 - 1, 2)], extDataLen := 2^64 - 1 }, fun dec rpmR => ⟨?_, ?_⟩⟩
  · unfold sampleStream
    rw [sampleFile_read _ _ _ _ (by simp [createBe32_length])]
    decide +kernel
  · rintro ⟨q, hq, _⟩
    have : s32 (2^32 - 1) = -1 := by decide
    rw [this] at hq
    omega

example : Out.okAnd (readDelta (fun _ z => z) (fun _ => .err .other)
    (sampleFile (sampleStream 51 1 2 [2, 0, 5, 2^31 + 15, 10, 4] 20)))
    (fun d => d.exts = [(5, 10), (2^32 - 15, 4)] ∧ d.extDataLen = 20 ∧ d.ints = [(2, 0)]) = true := by
  decide +kernel

/-! ## C10 -/

/-- The lengths and counts of a stream are not near the 32-bit limit: the source name is shorter
    than 2^32 - 1 and there are fewer than 2^29 offset adjustments (in version 3), internal and
    external copies. -/
def CountsSmall (s : Bytes) : Prop :=
  word s 4 < 2^32 - 1 ∧ (versionDigit s = 51 → word s (offadjCountPos s) < 2^29) ∧
  word s (intCountPos s) < 2^29 ∧ word s (extCountPos s) < 2^29

instance (s : Bytes) : Decidable (CountsSmall s) := by unfold CountsSmall; infer_instance

/-- Where the compressed part of a delta file begins: in an rpm-only delta after magic, version, target
    name and add block, in a standard delta after the package head that rpmlib reads. -/
def StreamAt (rpmR : Bytes → Out (Nat × Nat)) (file : Bytes) (k : Nat) : Prop :=
  (word file 0 = 0x6472706D ∧ k = 16 + word file 8 + word file (12 + word file 8)) ∨ ∃ comp, rpmR file = .ok (k, comp)

/-- C10 for every file whose declared name lengths and counts are not near the 32-bit limit: reading
    is defined, whatever the file contains otherwise (truncated, inconsistent lengths, ...). -/
theorem C10_partial (dec : Decoder) (rpmR : Bytes → Out (Nat × Nat)) (file : Bytes)
    (hr : (rpmR file).Defined) (hn : word file 0 = 0x6472706D → word file 8 < 2^32 - 1)
    (hs : ∀ k c s, StreamAt rpmR file k → openStream dec (file.drop k) = .ok (c, s) → CountsSmall s) :
    (readDelta dec rpmR file).Defined := by
  have hfile : ∀ p, Safe fileBe32 (file.drop p) (fun v r => v = word file p ∧ r = file.drop (p + 4)) := by
    intro p
    have h := rdBe32_safe file p
    have e : ∀ s, fileBe32 s = rdBe32 s := by
      intro s
      unfold fileBe32 rdBe32 sysRead rdN
      by_cases h4 : 4 ≤ s.length
      · rw [if_neg (by omega), if_neg (by omega), if_pos h4]
      · rw [if_neg (by omega), if_pos (by omega), if_neg h4]
    unfold Safe Post at h ⊢
    rw [e]
    exact ⟨h.1, fun a r q => ⟨(h.2 a r q).1, (h.2 a r q).2.1⟩⟩
  have hsys : ∀ cap n p, n ≤ cap → Safe (sysRead cap n) (file.drop p) (fun _ r => r = file.drop (p + n)) := by
    intro cap n p hc
    unfold Safe Post sysRead
    rw [if_neg (by omega)]
    split
    · exact ⟨Out.defined_err _, fun a r e => by cases e⟩
    · refine ⟨Out.defined_ok _, fun a r e => ?_⟩
      cases e
      rw [List.drop_drop]
  have hopen : ∀ k (d0 : Comp → Delta), StreamAt rpmR file k → ((openStream dec (file.drop k)) >>= fun x =>
      (rdRest (d0 x.1) x.2) >>= fun y => Out.ok y.1).Defined := by
    intro k d0 hat
    refine Out.Defined.bind ?_ ?_
    · unfold openStream
      split
      · exact Out.defined_err _
      · rename_i hl
        obtain ⟨m, hm, _⟩ := detect_iff (file.drop k) (by omega)
        rw [hm, Out.bind_ok]
        split <;> exact Out.defined_ok _
    · intro x hx
      obtain ⟨h1, h2, h3, h4⟩ := hs k x.1 x.2 hat hx
      exact (rdRest_safe _ _ (by omega) h2 h3 h4).bind (fun _ _ => Out.defined_ok _)
  unfold readDelta
  have h0 := hfile 0
  rw [List.drop_zero] at h0
  refine h0.1.bind ?_
  intro ⟨m, rest⟩ e
  obtain ⟨hm0, g⟩ := h0.2 m rest e
  subst g
  simp only
  split
  · rename_i hmag
    have hn := hn (by rw [← hm0]; exact hmag)
    have hh : Safe (rdRpmonlyHead { Delta.zero with type := .rpmonly }) (file.drop (0 + 4))
        (fun _ r => r = file.drop (16 + word file 8 + word file (12 + word file 8))) := by
      unfold rdRpmonlyHead
      refine Safe.bind (Q := fun _ r => r = file.drop 8) ?_ ?_
      · unfold fileVersion
        refine (hfile _).bind ?_
        intro v r ⟨_, g⟩
        exact Safe.ite (fun _ => Safe.fail) (fun _ => Safe.pure g)
      · intro _ r g
        subst g
        refine (hfile 8).bind ?_
        intro n r ⟨g1, g⟩
        subst g
        refine Safe.bind (Q := fun _ r => r = file.drop (8 + 4 + n)) ?_ ?_
        · unfold fileNevr
          refine (hsys _ n _ (by omega)).bind ?_
          intro b r g
          rw [if_pos (by omega)]
          exact Safe.pure g
        · intro _ r g
          subst g
          refine (hfile _).bind ?_
          intro an r ⟨g2, g⟩
          subst g
          refine (hsys an an _ (Nat.le_refl _)).bind ?_
          intro _ r g
          refine Safe.pure ?_
          have e12 : 8 + 4 + n = 12 + word file 8 := by omega
          rw [g, g2, e12]
          congr 1
          omega
    refine hh.1.bind ?_
    intro ⟨d, r⟩ e
    have g := hh.2 d r e
    subst g
    exact hopen _ (fun c => { d with comp := c.code }) (Or.inl ⟨by rw [← hm0]; exact hmag, rfl⟩)
  · split
    · refine hr.bind ?_
      intro ⟨size, comp⟩ hsz
      exact hopen size (fun c => { Delta.zero with type := .standard, tgtComp := comp, comp := c.code }) (Or.inr ⟨comp, hsz⟩)
    · exact Out.defined_err _

/-- The hypotheses of `C10_partial` hold of a complete delta file with a compressed stream. -/
example : ∀ k c s, openStream (fun _ _ => sampleStream 51 1 2 [2, 0, 5, 2^31 + 15, 10, 4] 20)
    ((sampleFile [0x1F, 0x8B, 0, 0, 0, 0, 0, 0]).drop k) = .ok (c, s) → CountsSmall s := by
  intro k c s h
  by_cases hk : k ≤ 16
  · have : ∀ k ≤ 16, Out.okAnd (openStream
        (fun _ _ => sampleStream 51 1 2 [2, 0, 5, 2^31 + 15, 10, 4] 20)
        ((sampleFile [0x1F, 0x8B, 0, 0, 0, 0, 0, 0]).drop k))
        (fun x => decide (CountsSmall x.2)) = true := by decide +kernel
    have := this k hk
    rw [h] at this
    simpa [Out.okAnd] using this
  · unfold openStream at h
    rw [if_pos (by rw [List.length_drop]; simp [sampleFile, createBe32_length]; omega)] at h
    cases h

/-- C10 is false: a target name length of 2^32 - 1 in an rpm-only delta allocates nothing and the
    name is read beyond the buffer. -/
theorem C10_violated_name : ∀ dec rpmR,
    readDelta dec rpmR [100, 114, 112, 109, 68, 76, 84, 51, 255, 255, 255, 255, 65] = .ub := by
  intro dec rpmR
  rfl

/-- C10 is false: 2^29 internal copies (a file of a few hundred bytes that declares them suffices)
    allocate nothing, and the first copy is stored beyond the buffer. -/
theorem C10_violated_counts : ∀ dec rpmR,
    readDelta dec rpmR (sampleFile (sampleStream 51 (2^29) 0 [] 0)) = .ub := by
  intro dec rpmR
  unfold sampleStream
  rw [sampleFile_read _ _ _ _ (by simp [createBe32_length])]
  decide +kernel

/-! ## C11 -/

/-- C11, what holds: an accepted rpm-only delta starts with "drpmDLT3" and its inner version is at
    least 3; every accepted delta has a stream that starts with "DLT", and the version is the
    following byte minus 48 (modulo 2^16). -/
theorem C11_partial (dec : Decoder) (rpmR : Bytes → Out (Nat × Nat)) (file : Bytes) (d : Delta)
    (h : readDelta dec rpmR file = .ok d) :
    (d.type = .rpmonly → file.take 8 = [100, 114, 112, 109, 68, 76, 84, 51] ∧ 3 ≤ d.version) ∧
    (d.type = .standard → file.take 4 = [0xED, 0xAB, 0xEE, 0xDB]) ∧
    ∃ s, ((∃ k, s = file.drop k) ∨ ∃ c z, s = dec c z) ∧ word s 0 / 256 = 0x444C54 ∧
      ((48 ≤ word s 0 % 256 ∧ d.version = word s 0 % 256 - 48) ∨
       (word s 0 % 256 < 48 ∧ d.version = word s 0 % 256 + 65488)) := by
  obtain ⟨d0, s, r, h1, h2, h3⟩ := readDelta_inv dec rpmR file d h
  obtain ⟨v1, v2, v3, v4, _⟩ := rdRest_post d0 s d r h1
  refine ⟨fun ht => ?_, fun ht => ?_, s, h3, ?_, ?_⟩
  · rcases h2 with ⟨a, b⟩ | ⟨a, _⟩
    · exact ⟨b, v4 a⟩
    · rw [v3, a] at ht; cases ht
  · rcases h2 with ⟨a, _⟩ | ⟨a, b⟩
    · rw [v3, a] at ht; cases ht
    · exact b
  · rw [Nat.shiftRight_eq_div_pow] at v2
    exact v2
  · rw [v1]
    unfold versionOf
    omega

theorem sampleStd_read (dec : Decoder) (v : UInt8) (t : Bytes) (ht : 4 ≤ t.length) :
    readDelta dec (fun _ => .ok (4, 0)) ([0xED, 0xAB, 0xEE, 0xDB] ++ ([68, 76, 84, v] ++ t)) =
      (rdRest Delta.zero ([68, 76, 84, v] ++ t) >>= fun y => .ok y.1) := by
  have hm : fileBe32 ([0xED, 0xAB, 0xEE, 0xDB] ++ ([68, 76, 84, v] ++ t)) =
      .ok (0xEDABEEDB, [68, 76, 84, v] ++ t) := by
    rw [← fileBe32_create 0xEDABEEDB (by omega)]
    rfl
  unfold readDelta
  rw [hm, Out.bind_ok]
  simp only
  rw [if_neg (by decide), if_pos trivial, Out.bind_ok]
  have hd : ([0xED, 0xAB, 0xEE, 0xDB] ++ ([68, 76, 84, v] ++ t) : Bytes).drop 4 = [68, 76, 84, v] ++ t := rfl
  simp only [hd]
  rw [plainOpen dec v t ht, Out.bind_ok]
  rfl

/-- C11 is false: a delta of "version 9" is accepted (and read in a layout of its own: no header
    length and adjustments, 32-bit lengths). The header length of an rpm-only delta must not be
    zero, so the witness is a standard one; rpmlib finds a head of four bytes here. -/
theorem C11_violated : ∀ dec, Out.okAnd (readDelta dec (fun _ => .ok (4, 0))
    ([0xED, 0xAB, 0xEE, 0xDB] ++ sampleStream 57 0 0 [] 0)) (fun d => d.version = 9) = true := by
  intro dec
  unfold sampleStream
  rw [sampleStd_read _ _ _ (by simp [createBe32_length])]
  decide +kernel

/-- Also "version" 65488, from a zero byte. -/
theorem C11_violated_wrap : ∀ dec, Out.okAnd (readDelta dec (fun _ => .ok (4, 0))
    ([0xED, 0xAB, 0xEE, 0xDB] ++ sampleStream 0 0 0 [] 0)) (fun d => d.version = 65488) = true := by
  intro dec
  unfold sampleStream
  rw [sampleStd_read _ _ _ (by simp [createBe32_length])]
  decide +kernel

/-! ## C31 -/

/-- C31. The method reported for a stream of at least eight bytes is the one whose magic bytes it
    starts with; it depends on the first eight bytes only. -/
theorem C31_detected (dec : Decoder) (z : Bytes) (hz : 8 ≤ z.length) :
    ∃ c s, openStream dec z = .ok (c, s) ∧ (∀ m, m ≠ Comp.none → (c = m ↔ magicBytes m <+: z)) ∧
      ∀ z', z'.take 8 = z.take 8 → ∃ s', openStream dec z' = .ok (c, s') := by
  obtain ⟨m, hm, hi⟩ := detect_iff z hz
  have hopen : ∀ z', 8 ≤ z'.length → be64At z' = .ok m → ∃ s', openStream dec z' = .ok (detectComp m, s') := by
    intro z' h8 hm'
    unfold openStream
    rw [if_neg (by omega), hm', Out.bind_ok]
    split
    · exact ⟨_, by rename_i h; rw [h]⟩
    · exact ⟨_, rfl⟩
  obtain ⟨s, hs⟩ := hopen z hz hm
  refine ⟨detectComp m, s, hs, fun c hc => hi c hc, ?_⟩
  intro z' ht
  have h8 : 8 ≤ z'.length := by
    have := congrArg List.length ht
    simp only [List.length_take] at this
    omega
  apply hopen z' h8
  rw [← hm]
  have hb : ∀ y : Bytes, 8 ≤ y.length → be64At y = be64At (y.take 8) := by
    intro y hy
    match y, hy with
    | b0 :: b1 :: b2 :: b3 :: b4 :: b5 :: b6 :: b7 :: r, _ => rfl
  rw [hb z' h8, hb z hz, ht]

/-- C31, at most one method matches: no stream starts with the magic bytes of two methods. -/
theorem C31_unambiguous (z : Bytes) (c c' : Comp) (hc : c ≠ .none) (hc' : c' ≠ .none)
    (h : magicBytes c <+: z) (h' : magicBytes c' <+: z) : c = c' := by
  have key : ∀ c c' : Comp, c ≠ .none → c' ≠ .none → c ≠ c' → ∀ z, magicBytes c <+: z →
      ¬ magicBytes c' <+: z := by
    intro c c' h1 h2 h3 z h4 h5
    have := List.prefix_or_prefix_of_prefix h4 h5
    revert h1 h2 h3 this
    cases c <;> cases c' <;> decide
  exact Decidable.byContradiction fun h0 => key c c' hc hc' h0 z h h'

/-- C31, an uncompressed delta stream (it starts with "DLT" and a digit) is reported as
    uncompressed and read as it is. -/
theorem C31_uncompressed (dec : Decoder) (v : UInt8) (rest : Bytes) (h : 4 ≤ rest.length) :
    openStream dec ([68, 76, 84, v] ++ rest) = .ok (.none, [68, 76, 84, v] ++ rest) :=
  plainOpen dec v rest h

example : magicBytes .xz <+: [0xFD, 0x37, 0x7A, 0x58, 0x5A, 0x00, 0, 4] := by decide

/-! ## C51 -/

/-- C51, partial: an accepted delta that declares fewer than 2^31 copies has exactly that many. -/
theorem C51_partial (dec : Decoder) (rpmR : Bytes → Out (Nat × Nat)) (file : Bytes) (d : Delta)
    (h : readDelta dec rpmR file = .ok d) :
    (d.intCount < 2^31 → d.ints.length = d.intCount) ∧
    (d.extCount < 2^31 → d.exts.length = d.extCount) := by
  obtain ⟨d0, s, r, h1, _, _⟩ := readDelta_inv dec rpmR file d h
  obtain ⟨_, _, _, _, _, _, l1, l2, _⟩ := rdRest_post d0 s d r h1
  unfold pairRounds at l1 l2
  omega

/-- C51 is false: this file declares 2^31 internal copies, has none, and is accepted;
    `drpm_apply` then runs its loop 2^31 times over the empty list. -/
theorem C51_violated : ∀ dec rpmR, Out.okAnd (readDelta dec rpmR
    (sampleFile (sampleStream 51 (2^31) 0 [] 0)))
    (fun d => d.intCount = 2^31 ∧ d.ints = []) = true := by
  intro dec rpmR
  unfold sampleStream
  rw [sampleFile_read _ _ _ _ (by simp [createBe32_length])]
  decide +kernel

end Drpm
