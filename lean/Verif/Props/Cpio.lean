import Verif.CpioRead
import Verif.CpioAdj
/-!
# Properties C18, C20, C21, C41, C46: CPIO archives at make and apply time
-/

namespace Drpm

/-! ## C20 -/

/-- A hexadecimal digit, upper or lower case. -/
def isHexDigit (c : UInt8) : Bool :=
  (48 ≤ c && c ≤ 57) || (65 ≤ c && c ≤ 70) || (97 ≤ c && c ≤ 102)

theorem hexDigitVal_isHex : ∀ c : UInt8, (hexDigitVal c).isSome = isHexDigit c := by
  have : ∀ n : Fin 256, (hexDigitVal (UInt8.ofNat n.val)).isSome = isHexDigit (UInt8.ofNat n.val) := by decide +kernel
  intro c
  have := this ⟨c.toNat, c.toNat_lt⟩
  simpa using this

theorem parseHexnum_digits : ∀ (n : Nat) (s : Bytes), s.length = n → ∀ v, parseHexnum s = some v →
    ∀ c ∈ s, isHexDigit c = true := by
  intro n
  induction n with
  | zero => intro s hs v _ c hc; rw [List.length_eq_zero_iff.mp hs] at hc; simp at hc
  | succ n ih =>
    intro s hs v hv c hc
    have hne : s ≠ [] := by intro h; rw [h] at hs; simp at hs
    have e := List.dropLast_concat_getLast hne
    rw [← e, parseHexnum_snoc] at hv
    split at hv
    · cases hv
    · rename_i r hr
      rw [← e] at hc
      simp only [List.mem_append, List.mem_singleton] at hc
      rcases hc with hc | hc
      · exact ih _ (by rw [List.length_dropLast]; omega) _ hr c hc
      · rw [← hexDigitVal_isHex, hc]
        cases hd : hexDigitVal (s.getLast hne)
        · rw [hd] at hv; cases hv
        · rfl

/-- C20, round trip: a header is 110 characters long and reading it gives the same field values,
    for all values that fit the fields. -/
theorem C20_roundtrip (h : CpioHdr) (hf : h.Fits) :
    (cpioHeaderWrite h).length = 110 ∧ cpioHeaderRead (cpioHeaderWrite h) = .ok h :=
  ⟨cpioHeaderWrite_length h, cpioHeaderRead_write h hf⟩

example : CpioHdr.Fits ⟨1, 0o100644, 2, 3, 1, 1234567890, 4294967295, 8, 255, 1, 2, 65535⟩ := by
  constructor <;> decide

/-- C20, acceptance: an accepted header begins with the magic, its fields are hexadecimal digits
    only, and the field values are the numbers written there, cut to the width of the field
    (`unsigned short` for name size and mode, 32 bits for the file size). Reading 110 bytes never
    is undefined. -/
theorem C20_accepted (buf : Bytes) (hl : buf.length = 110) :
    (cpioHeaderRead buf).Defined ∧
    ∀ h, cpioHeaderRead buf = .ok h →
      buf.take 6 = "070701".toUTF8.toList ∧ (∀ c ∈ slice buf 6 96, isHexDigit c = true) ∧
      (parseHexnum (slice buf 14 8)).map (· % 2^16) = some h.mode ∧
      (parseHexnum (slice buf 54 8)).map (· % 2^32) = some h.filesize ∧
      (parseHexnum (slice buf 94 8)).map (· % 2^16) = some h.namesize := by
  have hdef : ∀ i, i < 13 → (hexField buf i).Defined := by
    intro i hi
    unfold hexField
    rw [rdBlk_ok (by omega), Out.bind_ok]
    split <;> simp
  have hval : ∀ i v, i < 13 → hexField buf i = .ok v → parseHexnum (slice buf (6 + 8 * i) 8) = some v := by
    intro i v hi h
    unfold hexField at h
    rw [rdBlk_ok (by omega), Out.bind_ok] at h
    split at h
    · rename_i w hw; cases h; exact hw
    · cases h
  constructor
  · unfold cpioHeaderRead
    split
    · simp
    · repeat (refine Out.Defined.bind (hdef _ (by decide)) (fun _ _ => ?_))
      simp
  · intro h hh
    unfold cpioHeaderRead at hh
    split at hh
    · cases hh
    · rename_i hm
      simp only [Out.bind_eq_ok] at hh
      obtain ⟨v0, r0, v1, r1, v2, r2, v3, r3, v4, r4, v5, r5, v6, r6, v7, r7, v8, r8, v9, r9, v10, r10, v11, r11, hh⟩ := hh
      have q0 := hval 0 _ (by decide) r0
      have q1 := hval 1 _ (by decide) r1
      have q2 := hval 2 _ (by decide) r2
      have q3 := hval 3 _ (by decide) r3
      have q4 := hval 4 _ (by decide) r4
      have q5 := hval 5 _ (by decide) r5
      have q6 := hval 6 _ (by decide) r6
      have q7 := hval 7 _ (by decide) r7
      have q8 := hval 8 _ (by decide) r8
      have q9 := hval 9 _ (by decide) r9
      have q10 := hval 10 _ (by decide) r10
      have q11 := hval 11 _ (by decide) r11
      cases hh
      refine ⟨?_, ?_, by rw [q1]; rfl, by rw [q6]; rfl, by rw [q11]; rfl⟩
      · have : buf.take 6 = cpioMagic := by simpa using hm
        rw [this]; decide +kernel
      · have e : slice buf 6 96 = slice buf 6 8 ++ slice buf 14 8 ++ slice buf 22 8 ++ slice buf 30 8 ++ slice buf 38 8 ++
            slice buf 46 8 ++ slice buf 54 8 ++ slice buf 62 8 ++ slice buf 70 8 ++ slice buf 78 8 ++ slice buf 86 8 ++
            slice buf 94 8 := by
          rw [slice_append_slice, slice_append_slice, slice_append_slice, slice_append_slice, slice_append_slice,
            slice_append_slice, slice_append_slice, slice_append_slice, slice_append_slice, slice_append_slice,
            slice_append_slice]
        intro c hc
        rw [e] at hc
        simp only [List.mem_append] at hc
        have hd : ∀ i v, i + 8 ≤ 110 → parseHexnum (slice buf i 8) = some v → c ∈ slice buf i 8 → isHexDigit c = true :=
          fun i v hi hv hc => parseHexnum_digits 8 _ (slice_length (by omega)) v hv c hc
        rcases hc with ((((((((((hc | hc) | hc) | hc) | hc) | hc) | hc) | hc) | hc) | hc) | hc) | hc
        · exact hd _ _ (by decide) q0 hc
        · exact hd _ _ (by decide) q1 hc
        · exact hd _ _ (by decide) q2 hc
        · exact hd _ _ (by decide) q3 hc
        · exact hd _ _ (by decide) q4 hc
        · exact hd _ _ (by decide) q5 hc
        · exact hd _ _ (by decide) q6 hc
        · exact hd _ _ (by decide) q7 hc
        · exact hd _ _ (by decide) q8 hc
        · exact hd _ _ (by decide) q9 hc
        · exact hd _ _ (by decide) q10 hc
        · exact hd _ _ (by decide) q11 hc

example : Out.okAnd (cpioHeaderRead (cpioHeaderWrite ⟨1, 0o100644, 2, 3, 1, 1234567890, 77, 8, 255, 1, 2, 5⟩))
    (fun h => h.filesize = 77 ∧ h.namesize = 5) = true := by decide +kernel

/-! ## C41 -/

theorem cpioExtend_fold (pieces : List Bytes) : ∀ (c : CpioBuf), c.Ok → (∀ p ∈ pieces, p.length < 2^64) →
    (pieces.foldlM cpioExtend c = .err .overflow ∧ 2^64 ≤ c.data.length + pieces.flatten.length + 65535) ∨
    ∃ c', pieces.foldlM cpioExtend c = .ok c' ∧ c'.data = c.data ++ pieces.flatten ∧ c'.data.length ≤ c'.alloc := by
  induction pieces with
  | nil =>
    intro c hc _
    right
    exact ⟨c, rfl, by simp, by rw [hc.2]; omega⟩
  | cons p ps ih =>
    intro c hc hp
    rw [List.foldlM_cons]
    rcases cpioExtend_spec hc p (hp p (by simp)) with ⟨h1, h2⟩ | ⟨c', h1, h2, h3⟩
    · left
      rw [h1, Out.bind_err]
      simp only [List.flatten_cons, List.length_append]
      exact ⟨trivial, by omega⟩
    · rw [h1, Out.bind_ok]
      rcases ih c' h2 (fun q hq => hp q (by simp [hq])) with ⟨k1, k2⟩ | ⟨c'', k1, k2, k3⟩
      · left
        refine ⟨k1, ?_⟩
        rw [h3] at k2
        simp only [List.flatten_cons, List.length_append] at k2 ⊢
        omega
      · right
        exact ⟨c'', k1, by rw [k2, h3]; simp, k3⟩

/-- C41: appending any pieces, one after the other, never writes outside the buffer. It fails only
    if the archive would come within 64 KiB of the address space; otherwise the buffer holds the
    concatenation and is large enough for it. -/
theorem C41_growth (pieces : List Bytes) (hp : ∀ p ∈ pieces, p.length < 2^64) :
    (pieces.foldlM cpioExtend ⟨[], 0⟩ = .err .overflow ∧ 2^64 ≤ pieces.flatten.length + 65535) ∨
    ∃ c, pieces.foldlM cpioExtend ⟨[], 0⟩ = .ok c ∧ c.data = pieces.flatten ∧ c.data.length ≤ c.alloc := by
  have := cpioExtend_fold pieces ⟨[], 0⟩ ⟨by decide, by decide⟩ hp
  simpa using this

example : Out.okAnd ([[1, 2, 3], [], [4]].foldlM cpioExtend ⟨[], 0⟩) (fun c => c.data = [1, 2, 3, 4] ∧ c.alloc = 65536) = true := by
  decide +kernel

/-! ## C46 -/

/-- Reading chunks of the given sizes one after the other; a failing read leaves the position
    alone. The result of every read, and the position at the end. -/
def readChunks (archive : Bytes) : List Nat → Nat → List (Out Bytes) × Nat
  | [], off => ([], off)
  | n :: ns, off =>
    match archiveRead archive off n with
    | .ok (b, off') => let (rs, o) := readChunks archive ns off'; (.ok b :: rs, o)
    | .err e => let (rs, o) := readChunks archive ns off; (.err e :: rs, o)
    | .ub => let (rs, o) := readChunks archive ns off; (.ub :: rs, o)
    | .loop => let (rs, o) := readChunks archive ns off; (.loop :: rs, o)

/-- What the reads should give: consecutive slices, and a format error for each read that does not
    fit into what is left. -/
def chunksSpec : Bytes → List Nat → List (Out Bytes)
  | _, [] => []
  | rest, n :: ns => if n ≤ rest.length then .ok (rest.take n) :: chunksSpec (rest.drop n) ns
    else .err .format :: chunksSpec rest ns

theorem readChunks_spec (archive : Bytes) (hl : archive.length < 2^63) : ∀ (ns : List Nat) (off : Nat),
    (∀ n ∈ ns, n < 2^63) → off ≤ archive.length →
    (readChunks archive ns off).1 = chunksSpec (archive.drop off) ns := by
  intro ns
  induction ns with
  | nil => intro off _ _; rfl
  | cons n ns ih =>
    intro off hn ho
    rw [readChunks, chunksSpec, List.length_drop]
    by_cases h : off + n ≤ archive.length
    · rw [archiveRead_ok hl h, if_pos (by omega)]
      simp only
      rw [ih (off + n) (fun k hk => hn k (by simp [hk])) h, List.drop_drop]
      rfl
    · rw [archiveRead_fail hl ho (hn n (by simp)) (by omega), if_neg (by omega)]
      simp only
      rw [ih off (fun k hk => hn k (by simp [hk])) ho]

/-- C46: whatever sizes are asked for, the reads return consecutive slices of the archive; a read
    that does not fit fails with a format error and does not move. (Sizes of 2^63 and more, which
    could wrap around, are not asked for: file sizes in a CPIO archive have 32 bits.) -/
theorem C46_consecutive (archive : Bytes) (hl : archive.length < 2^63) (ns : List Nat) (hn : ∀ n ∈ ns, n < 2^63) :
    (readChunks archive ns 0).1 = chunksSpec archive ns := by
  rw [readChunks_spec archive hl ns 0 hn (by omega), List.drop_zero]

example : (readChunks [1, 2, 3, 4, 5] [2, 4, 3, 1] 0).1 = [.ok [1, 2], .err .format, .ok [3, 4, 5], .err .format] := by
  decide +kernel

/-- Why the size is limited: the test is made on a sum that wraps. -/
theorem C46_wraps (x : UInt8) : archiveRead [x] 1 (2^64 - 1) = .ub := by
  unfold archiveRead rdBlk
  rw [if_neg (by simp), if_neg (by simp)]
  rfl

/-! ## C18 -/

/-- A list of different numbers below `n` has at most `n` elements. -/
theorem nodup_length_le : ∀ (n : Nat) (l : List Nat), l.Nodup → (∀ x ∈ l, x < n) → l.length ≤ n := by
  intro n
  induction n with
  | zero => intro l _ h; cases l with
    | nil => simp
    | cons x l => exact absurd (h x (by simp)) (by omega)
  | succ n ih =>
    intro l hn h
    have h1 := ih (l.filter (· != n)) (hn.sublist List.filter_sublist) (by
      intro x hx
      simp only [List.mem_filter, bne_iff_ne, ne_eq] at hx
      have := h x hx.1
      omega)
    have h2 : l.length ≤ (l.filter (· != n)).length + 1 := by
      clear h1 ih h
      induction l with
      | nil => simp
      | cons x l ih =>
        rw [List.nodup_cons] at hn
        rw [List.filter_cons]
        by_cases hx : x = n
        · subst hx
          have : l.filter (· != x) = l := by
            apply List.filter_eq_self.mpr
            intro y hy
            simp only [bne_iff_ne, ne_eq]
            intro h; subst h; exact hn.1 hy
          simp [this]
        · rw [if_pos (by simpa using hx)]
          have := ih hn.2
          simp only [List.length_cons]
          omega
    omega

theorem kept_mem {m : MakeIn} {es : List AEnt} {i : Nat} {f : FileInfo} {e : AEnt} (h : (i, f, e) ∈ kept m es) :
    e ∈ es ∧ keepFile m e.name e.size = some (i, f) := by
  unfold kept at h
  rw [List.mem_filterMap] at h
  obtain ⟨e', h1, h2⟩ := h
  cases hk : keepFile m e'.name e'.size with
  | none => rw [hk] at h2; cases h2
  | some p =>
    obtain ⟨j, g⟩ := p
    rw [hk] at h2
    simp only [Option.map_some, Option.some.injEq, Prod.mk.injEq] at h2
    obtain ⟨rfl, rfl, rfl⟩ := h2
    exact ⟨h1, hk⟩

/-- Different names are different files. -/
theorem kept_nodup {m : MakeIn} : ∀ {es : List AEnt}, (es.map AEnt.name).Nodup → ((kept m es).map (fun x => x.1)).Nodup := by
  intro es
  induction es with
  | nil => intro _; simp [kept]
  | cons e es ih =>
    intro h
    rw [List.map_cons, List.nodup_cons] at h
    rw [kept_cons]
    cases hk : keepFile m e.name e.size with
    | none => exact ih h.2
    | some p =>
      obtain ⟨i, f⟩ := p
      simp only [List.map_cons, List.nodup_cons]
      refine ⟨?_, ih h.2⟩
      intro hmem
      rw [List.mem_map] at hmem
      obtain ⟨⟨j, g, e'⟩, h1, h2⟩ := hmem
      simp only at h2
      subst h2
      obtain ⟨q1, q2⟩ := kept_mem h1
      obtain ⟨a1, a2, _⟩ := keepFile_spec hk
      obtain ⟨b1, b2, _⟩ := keepFile_spec q2
      rw [a1] at b1
      cases b1
      exact h.1 (by rw [a2, ← b2]; exact List.mem_map_of_mem q1)

/-- A file check that finds nothing wrong with the files of the package. -/
def Passes (check : Bytes → Bytes → Nat → Out Unit) (algo : Nat) (files : List FileInfo) : Prop :=
  ∀ f ∈ files, ∀ d, fileDigest algo f = .ok d → isReg f = true → 0 < seqFilesize f → check f.name d (seqFilesize f) = .ok ()

/-- Expanding the sequence that was made gives the kept files in their order. -/
theorem expand_made {H : Bytes → Bytes} (hH : ∀ b, (H b).length = 16) {m : MakeIn} {r : Made} {es : List AEnt}
    (hn : m.files.length < 2^32) {md s : Bytes} (hmd : md5Files m.algo ((kept m es).map (fun x => x.2.1)) = .ok md)
    (hs : encodeSeq ((kept m es).map (fun x => x.1)) = .ok s) (hr : r.sequence = H md ++ s)
    (hu : (es.map AEnt.name).Nodup) (check : Bytes → Bytes → Nat → Out Unit) (hc : Passes check m.algo m.files) :
    expandSeq H m.files m.algo check r.sequence =
      .ok (seqPlaces (keptFiles m es) 0 ++ [trailerPlace (seqEnd (keptFiles m es) 0)]) := by
  have hlt : ∀ i ∈ (kept m es).map (fun x => x.1), i < m.files.length := by
    intro i hi
    rw [List.mem_map] at hi
    obtain ⟨⟨j, g, e⟩, h1, rfl⟩ := hi
    have := (keepFile_spec (kept_mem h1).2).1
    exact (List.getElem?_eq_some_iff.mp this).1
  have hle := nodup_length_le _ _ (kept_nodup (m := m) hu) hlt
  obtain ⟨bs, d1, d2⟩ := encode_decode m.files.length hn _ hlt hle
  rw [hs] at d1
  cases d1
  unfold expandSeq
  rw [hr]
  have e1 : (H md ++ s).drop 16 = s := by
    rw [List.drop_append, hH, List.drop_eq_nil_of_le (by rw [hH]; omega)]; simp
  have e2 : (H md ++ s).take 16 = H md := by
    rw [List.take_append_of_le_length (by rw [hH]; omega), List.take_of_length_le (by rw [hH]; omega)]
  rw [if_neg (by rw [List.length_append, hH]; omega), e1, e2, d2, Out.bind_ok]
  have hm1 : (keptFiles m es).map (fun k => k.1) = (kept m es).map (fun x => x.1) := by
    unfold keptFiles; rw [List.map_map]; rfl
  have hm2 : (keptFiles m es).map (fun k => k.2) = (kept m es).map (fun x => x.2.1) := by
    unfold keptFiles; rw [List.map_map]; rfl
  have hkf : ∀ k ∈ keptFiles m es, m.files[k.1]? = some k.2 := by
    intro k hk
    unfold keptFiles at hk
    rw [List.mem_map] at hk
    obtain ⟨⟨j, g, e⟩, h1, rfl⟩ := hk
    exact (keepFile_spec (kept_mem h1).2).1
  have q := seqLoop_spec m.files m.algo check (keptFiles m es) [] [] 0 md hkf
    (fun k hk d hd hr => hc k.2 (List.mem_of_getElem? (hkf k hk)) d hd hr) (by rw [hm2]; exact hmd)
  rw [hm1] at q
  rw [q, Out.bind_ok]
  simp only [List.nil_append]
  rw [if_neg (by simp)]

/-- C18. Whatever the file list (names, modes, sizes, device numbers, link targets, digests) and
    the archive: the sequence made from them is accepted when it is checked against the same file
    list, with whatever file check that passes. In particular the MD5 never mismatches. -/
theorem C18_verifies (H : Bytes → Bytes) (hH : ∀ b, (H b).length = 16) (m : MakeIn) (r : Made)
    (hl : m.archive.length < 2^63) (hn : m.files.length < 2^32) (hf : FilesFit m)
    (h : makeCpio H m = .ok r)
    (hu : ∀ es, Entries m.archive 0 es → (es.map AEnt.name).Nodup)
    (check : Bytes → Bytes → Nat → Out Unit) (hc : Passes check m.algo m.files) :
    ∃ places, expandSeq H m.files m.algo check r.sequence = .ok places := by
  obtain ⟨es, md, s, e1, e2, e3, e4, e5, _⟩ := makeCpio_spec hl hf h
  have q := expand_made hH hn e3 e4 e5 (hu es e1) check hc
  exact ⟨_, q⟩

/-! ## C21 -/

/-- C21. For every archive (with entries as `rpmbuild` writes them) and every file list: if the
    altered archive, sequence and offset adjustments can be made, then the sequence can be
    expanded against the same file list, and the old RPM, read block by block from front to back
    with that layout, yields exactly the altered archive. -/
theorem C21_same_payload (H : Bytes → Bytes) (hH : ∀ b, (H b).length = 16) (m : MakeIn) (r : Made)
    (hl : m.archive.length < 2^63) (hn : m.files.length < 2^32) (hf : FilesFit m)
    (h : makeCpio H m = .ok r) (hp : ∀ es, Entries m.archive 0 es → Plain m es)
    (check : Bytes → Bytes → Nat → Out Unit) (hc : Passes check m.algo m.files) :
    ∃ places, expandSeq H m.files m.algo check r.sequence = .ok places ∧
      YieldsBlocks (stdStep ⟨m.archive, m.files, places⟩) StdSrc.init r.cpio := by
  obtain ⟨es, md, s, e1, e2, e3, e4, e5, _⟩ := makeCpio_spec hl hf h
  have q := expand_made hH hn e3 e4 e5 (hp es e1).unique check hc
  refine ⟨_, q, ?_⟩
  apply std_yields (m := m) hl hf rfl rfl
  refine ⟨[], 0, Or.inl ⟨rfl, rfl, rfl⟩, Or.inr ⟨es, 0, seqEnd (keptFiles m es) 0, by omega, e1, hp es e1, ?_, Or.inl rfl, ?_⟩⟩
  · rfl
  · rw [e2]; rfl

/-- C21 with C23: reconstruction from the old RPM does what reconstruction from the altered archive
    held in memory does. -/
theorem C21_applied (H : Bytes → Bytes) (hH : ∀ b, (H b).length = 16) (m : MakeIn) (r : Made)
    (hl : m.archive.length < 2^63) (hn : m.files.length < 2^32) (hf : FilesFit m)
    (h : makeCpio H m = .ok r) (hp : ∀ es, Entries m.archive 0 es → Plain m es) (hcl : r.cpio.length < 2^63)
    (ext ints : List (Nat × Nat)) (hi : CopiesInside r.cpio.length 0 ext) (he : EndsPositive 0 ext)
    (cleanup : Nat) (cfg : CacheCfg) (hc : blocksCreate r.cpio.length ext = .ok cfg) (useAdd : Bool)
    (intData add : Bytes) :
    ∃ places, expandSeq H m.files m.algo noCheck r.sequence = .ok places ∧
      reconWrites (blocksNext cfg (rpmFiller cfg (stdStep ⟨m.archive, m.files, places⟩)))
        (emptyCache StdSrc.init cleanup) useAdd ext ints intData add =
      reconWrites (flatNext r.cpio) () useAdd ext ints intData add := by
  obtain ⟨places, p1, p2⟩ := C21_same_payload H hH m r hl hn hf h hp noCheck (fun _ _ _ _ _ _ => rfl)
  refine ⟨places, p1, ?_⟩
  have hm : cfg.maxCore = maxCoreBlocks := by
    unfold blocksCreate at hc
    split at hc
    · cases hc
    · rw [Out.bind_eq_ok] at hc
      obtain ⟨mx, _, hc⟩ := hc
      cases hc
      rfl
  have h0 : 0 < r.cpio.length := by
    obtain ⟨es, _, _, _, e2, _⟩ := makeCpio_spec hl hf h
    rw [e2]
    unfold altered
    rw [List.length_append, trailerBytes_length]
    omega
  refine C23_cache_exact_rpm _ _ _ p2 h0 hcl ext ints hi he maxCoreBlocks (by decide) cleanup cfg ?_ useAdd intData add
  unfold tablesFor
  rw [hc, Out.bind_ok, ← hm]

/-! ## C43 -/

/-- C43. At each kept entry, its position in the altered archive plus the displacement that the
    offset adjustments say holds there is its position in the original archive. Proved for altered
    archives below 4 GiB; `C43_violated` shows that larger distances are cut to 32 bits. -/
theorem C43_partial (H : Bytes → Bytes) (m : MakeIn) (r : Made)
    (hl : m.archive.length < 2^63) (hf : FilesFit m) (ho : m.offadj = true)
    (h : makeCpio H m = .ok r) (hs : r.cpio.length < 2^32) :
    ∃ es, Entries m.archive 0 es ∧ r.cpio = altered m es ∧
      ∀ before i f e after, kept m es = before ++ (i, f, e) :: after →
        ((keptBytes m.archive before).length : Int) + dispAt 0 r.offadjs (keptBytes m.archive before).length = e.at_ := by
  obtain ⟨es, md, s, e1, e2, e3, e4, e5, st, e6, e7⟩ := makeCpio_spec hl hf h
  refine ⟨es, e1, e2, ?_⟩
  obtain ⟨new, n1, _, n3⟩ := run_adj ho hf e6 (by
    rw [e2, altered, List.length_append] at hs
    rw [List.length_append]
    simp only [List.length_nil]
    omega) rfl (by simp) rfl
  intro before i f e after hk
  have := n3 before i f e after hk
  simp only [List.nil_append, List.length_nil, Nat.zero_add] at this n1
  rw [e7, n1]
  exact this

/-- Distances of 4 GiB and more are cut to 32 bits: for an entry at 2^32 + 5, with the previous
    adjustment at 0 and a displacement of 7, the adjustment is recorded for position 5. -/
theorem C43_violated : offadjLoop (2^32 + 5) 1 0 (2^32 + 12) [] = .ok ([(5, 7)], 2^32 + 5) ∧
    dispAt 0 [(5, 7)] 100 = 7 := by
  decide +kernel

/-! ## A concrete package -/

/-- An archive entry as `rpmbuild` writes it. -/
def demoEntry (ino mode : Nat) (name data : Bytes) : Bytes :=
  cpioHeaderWrite ⟨ino, mode, 0, 0, 1, 1600000000, data.length, 8, 1, 0, 0, name.length + 3⟩ ++ [46, 47] ++ name ++ [0] ++
    zeros (cpioPadding (110 + (name.length + 3))) ++ data ++ zeros (cpioPadding data.length)

def demoFile (name : Bytes) (mode size : Nat) (link : Bytes) : FileInfo :=
  { name, mode, size, linkto := link, rdev := 0, flags := 0, verify := 3, color := 0, md5 := List.replicate 32 97 }

/-- Five entries: a regular file, a file that is not in the file list, a link, a regular file whose
    size differs from the file list, and a regular file. -/
def demoArchive : Bytes :=
  demoEntry 1 0o100644 [97] [104, 101, 108, 108, 111] ++ demoEntry 2 0o100644 [120, 121] [1, 2, 3, 4, 5, 6] ++
  demoEntry 3 0o120777 [98] [97] ++ demoEntry 4 0o100644 [99] [9] ++ demoEntry 5 0o100755 [100] [7, 7, 7] ++ trailerBytes

def demoIn : MakeIn :=
  { archive := demoArchive
    files := [demoFile [47, 97] 0o100644 5 [], demoFile [47, 98] 0o120777 1 [97], demoFile [47, 99] 0o100644 2 [],
      demoFile [47, 100] 0o100755 3 []]
    colors := false, algo := 0, offadj := true, unpatched := fun _ _ => false }

def demoH : Bytes → Bytes := fun b => ((b ++ zeros 16).take 16)

/-- The entries of an archive, computed. -/
def listEntries (archive : Bytes) : Nat → Nat → Option (List AEnt)
  | 0, _ => none
  | fuel + 1, off =>
    match readHead archive off with
    | .ok (h, name, o) =>
      if name = cpioTrailer then some []
      else
        let e : AEnt := ⟨stripDot name, h.filesize, off, o + cpioPadding (110 + h.namesize)⟩
        if e.stop ≤ archive.length then (listEntries archive fuel e.stop).map (fun es => e :: es) else none
    | _ => none

theorem listEntries_entries (archive : Bytes) : ∀ (fuel off : Nat) (es : List AEnt),
    listEntries archive fuel off = some es → Entries archive off es := by
  intro fuel
  induction fuel with
  | zero => intro off es h; cases h
  | succ fuel ih =>
    intro off es h
    rw [listEntries] at h
    split at h
    · rename_i hd name o hr
      by_cases ht : name = cpioTrailer
      · rw [if_pos ht] at h
        cases h
        exact .trailer (ht ▸ hr)
      · rw [if_neg ht] at h
        simp only at h
        split at h
        · rename_i hs
          rw [Option.map_eq_some_iff] at h
          obtain ⟨es', h1, rfl⟩ := h
          exact .entry hr ht rfl hs (ih _ _ h1)
        · cases h
    · cases h

theorem entries_unique {archive : Bytes} {off : Nat} {es : List AEnt} (h : Entries archive off es) :
    ∀ es', Entries archive off es' → es = es' := by
  induction h with
  | trailer h1 =>
    intro es' h2
    cases h2 with
    | trailer => rfl
    | entry k1 k2 => rw [h1] at k1; cases k1; exact absurd rfl k2
  | entry h1 h2 h3 h4 _ ih =>
    intro es' k
    cases k with
    | trailer k1 => rw [h1] at k1; cases k1; exact absurd rfl h2
    | entry k1 k2 k3 k4 k5 =>
      rw [h1] at k1
      cases k1
      subst h3
      subst k3
      rw [ih _ k5]

def demoEntries : List AEnt := (listEntries demoArchive 10 0).getD []

theorem demo_entries : Entries demoArchive 0 demoEntries :=
  listEntries_entries demoArchive 10 0 _ (by decide +kernel)

/-- The demonstration package meets the hypotheses of C18, C21 and C43: three of five entries are
    kept and there are offset adjustments. -/
example : Out.okAnd (makeCpio demoH demoIn) (fun r => r.offadjs = [(124, 124), (120, 120)] ∧ r.cpio.length = 488 ∧
    (kept demoIn demoEntries).length = 3) = true := by decide +kernel

theorem demo_plain : ∀ es, Entries demoIn.archive 0 es → Plain demoIn es := by
  intro es he
  have : demoEntries = es := entries_unique demo_entries es he
  subst this
  refine ⟨by decide +kernel, ?_, ?_⟩
  · intro e hm i f _ _
    have : ∀ e ∈ demoEntries, slice demoIn.archive (e.data + e.size) (cpioPadding e.size) = zeros (cpioPadding e.size) := by
      decide +kernel
    exact this e hm
  · intro e hm i f hk h1 h2
    have : ∀ e ∈ demoEntries, (match keepFile demoIn e.name e.size with
      | some (_, f) => isReg f || isLnk f | none => true) = true := by decide +kernel
    have := this e hm
    rw [hk] at this
    simp [h1, h2] at this

theorem demo_fits : FilesFit demoIn := by
  intro f hf
  have : ∀ f ∈ demoIn.files, f.mode < 2^16 ∧ f.rdev < 2^16 ∧ f.size + 3 < 2^32 ∧ f.linkto.length + 3 < 2^32 ∧
    f.name.length + 3 < 2^16 := by decide +kernel
  obtain ⟨a, b, c, d, e⟩ := this f hf
  exact ⟨a, b, c, d, e⟩

example : demoIn.archive.length < 2^63 ∧ demoIn.files.length < 2^32 := by decide +kernel

/-! ## Where C18 and C21 do not hold -/

/-- An archive that names the same file twice. The sequence has two file numbers for a file list of
    one, and expanding it writes past the end of the array of file positions. -/
def twiceIn : MakeIn :=
  { demoIn with
    archive := demoEntry 1 0o100644 [97] [1] ++ demoEntry 2 0o100644 [97] [1] ++ trailerBytes
    files := [demoFile [47, 97] 0o100644 1 []] }

theorem okAnd_ok {α : Type} {x : Out α} {p : α → Bool} (h : Out.okAnd x p = true) : ∃ a, x = .ok a ∧ p a = true := by
  cases x with
  | ok a => exact ⟨a, rfl, h⟩
  | err e => cases h
  | ub => cases h
  | loop => cases h

theorem C21_violated_twice : ∃ r, makeCpio demoH twiceIn = .ok r ∧
    expandSeq demoH twiceIn.files twiceIn.algo noCheck r.sequence = .ub := by
  have : Out.okAnd (makeCpio demoH twiceIn) (fun r =>
    match expandSeq demoH twiceIn.files twiceIn.algo noCheck r.sequence with | .ub => true | _ => false) = true := by
    decide +kernel
  obtain ⟨r, h1, h2⟩ := okAnd_ok this
  refine ⟨r, h1, ?_⟩
  revert h2
  cases expandSeq demoH twiceIn.files twiceIn.algo noCheck r.sequence <;> simp

/-- An archive whose data is padded with a byte other than zero: making the delta writes zeros,
    applying it copies the padding of the archive. -/
def paddedIn : MakeIn :=
  { demoIn with
    archive := (demoEntry 1 0o100644 [97] [1, 2, 3]).take 119 ++ [255] ++ trailerBytes
    files := [demoFile [47, 97] 0o100644 3 []] }

/-- An archive with data in the entry of a directory: making the delta copies it, applying it does
    not. -/
def dirDataIn : MakeIn :=
  { demoIn with
    archive := demoEntry 1 0o40755 [97] [1, 2, 3, 4] ++ trailerBytes
    files := [demoFile [47, 97] 0o40755 4096 []] }

/-- The altered archive that was made and the one read from the old RPM differ. -/
def differs (m : MakeIn) : Bool :=
  Out.okAnd (makeCpio demoH m) (fun r =>
    Out.okAnd (expandSeq demoH m.files m.algo noCheck r.sequence) (fun places =>
      match stdStep ⟨m.archive, m.files, places⟩ StdSrc.init with
      | .ok (b, _) => (b != dataBlock r.cpio 0) && decide (0 < r.cpio.length)
      | _ => decide (0 < r.cpio.length)))

theorem differs_spec {m : MakeIn} (h : differs m = true) : ∃ r places, makeCpio demoH m = .ok r ∧
    expandSeq demoH m.files m.algo noCheck r.sequence = .ok places ∧
    ¬ YieldsBlocks (stdStep ⟨m.archive, m.files, places⟩) StdSrc.init r.cpio := by
  obtain ⟨r, h1, h2⟩ := okAnd_ok h
  obtain ⟨places, h3, h4⟩ := okAnd_ok h2
  refine ⟨r, places, h1, h3, ?_⟩
  rintro ⟨S, s0, sk⟩
  split at h4
  · rename_i b s hs
    simp only [Bool.and_eq_true, bne_iff_ne, ne_eq, decide_eq_true_eq] at h4
    have := sk 0 (by omega)
    rw [s0, hs] at this
    cases this
    exact h4.1 rfl
  · rename_i hs
    have := sk 0 (by simpa using h4)
    rw [s0] at this
    exact hs _ _ this

/-- C21 fails without the conditions on padding and on the data of entries that are neither regular
    files nor links. -/
theorem C21_violated : (∃ r places, makeCpio demoH paddedIn = .ok r ∧
      expandSeq demoH paddedIn.files paddedIn.algo noCheck r.sequence = .ok places ∧
      ¬ YieldsBlocks (stdStep ⟨paddedIn.archive, paddedIn.files, places⟩) StdSrc.init r.cpio) ∧
    (∃ r places, makeCpio demoH dirDataIn = .ok r ∧
      expandSeq demoH dirDataIn.files dirDataIn.algo noCheck r.sequence = .ok places ∧
      ¬ YieldsBlocks (stdStep ⟨dirDataIn.archive, dirDataIn.files, places⟩) StdSrc.init r.cpio) :=
  ⟨differs_spec (by decide +kernel), differs_spec (by decide +kernel)⟩

/-- In the demonstration package they do not differ. -/
example : differs demoIn = false := by decide +kernel

end Drpm
