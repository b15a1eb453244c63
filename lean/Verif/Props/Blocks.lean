import Verif.CacheRefine
import Verif.DiffSpec
/-!
# Properties C22 to C25: the block cache and the old RPM of an rpm-only delta
-/

namespace Drpm

/-! ## Specification -/

/-- Block `k` of some data cut into blocks of 8192 bytes, the last one filled up with zeros. -/
def dataBlock (data : Bytes) (k : Nat) : Bytes :=
  slice data (8192 * k) 8192 ++ List.replicate (8192 - (slice data (8192 * k) 8192).length) 0

/-- A sequential source yields the blocks of `data`, one after the other: after any number of
    successful steps the next step yields the next block. -/
def YieldsBlocks {σ : Type} (step : σ → Out (Bytes × σ)) (init : σ) (data : Bytes) : Prop :=
  ∃ S : Nat → σ, S 0 = init ∧ ∀ k, 8192 * k < data.length → step (S k) = .ok (dataBlock data k, S (k + 1))

theorem dataBlock_length (data : Bytes) (k : Nat) : (dataBlock data k).length = blockSize := by
  unfold dataBlock slice blockSize
  simp only [List.length_append, List.length_replicate, List.length_take, List.length_drop]
  omega

theorem dataBlock_prefix (data : Bytes) (k : Nat) : slice data (blockSize * k) blockSize <+: dataBlock data k :=
  ⟨_, rfl⟩

/-! ## C25 -/

/-- C25. For every list of external copies that stays inside the external data (as the reader
    demands), setting up the tables succeeds without touching memory outside them — unless there
    are too many blocks, which is reported. Afterwards every block that a byte of a copy lies in is
    inside the table and recorded as needed up to that copy or a later one, and what is recorded
    for a block is the number of a copy around that block (or 0). -/
theorem C25_tables (extLen : Nat) (ext : List (Nat × Nat)) (h0 : 0 < extLen) (hl : extLen < 2^63)
    (hi : CopiesInside extLen 0 ext) (he : EndsPositive 0 ext) :
    (blocksCreate extLen ext = .err .overflow ∧ (2^32 - 2) * 8192 < extLen) ∨
    ∃ cfg, blocksCreate extLen ext = .ok cfg ∧ cfg.nblk = (extLen + 8191) / 8192 ∧ cfg.nblk ≤ 2^32 - 2 ∧
      (∀ i off len b, (placed 0 ext)[i]? = some (off, len) → off ≤ b → b < off + len →
        b / 8192 < cfg.nblk ∧ i ≤ cfg.max (b / 8192)) ∧
      (∀ j, cfg.max j = 0 ∨ ∃ off len, (placed 0 ext)[cfg.max j]? = some (off, len) ∧
        off / 8192 ≤ j ∧ 8192 * j < off + len) := by
  have hb : blocksOf extLen = (extLen - 1) / blockSize + 1 := blocksOf_pos h0 (by omega)
  have hbs : blockSize = 8192 := rfl
  unfold blocksCreate
  split
  · rename_i hov
    left
    refine ⟨rfl, ?_⟩
    rw [hb, hbs] at hov
    omega
  · right
    obtain ⟨mx, m1, m2, m3, m4⟩ := markCopies_spec extLen hl h0 ext 0 0 (fun _ => 0) hi he (fun _ => Nat.le_refl _)
    rw [m1, Out.bind_ok]
    refine ⟨_, rfl, ?_, by simp only; omega, ?_, ?_⟩
    · simp only
      rw [hb, hbs]
      omega
    · intro i off len b hk h1 h2
      have := m3 i off len (b / 8192) hk (by rw [hbs]; exact Nat.div_le_div_right h1) (by
        rw [hbs]; have := Nat.div_mul_le_self b 8192; omega)
      simpa using this
    · intro j
      rcases m4 j with h | ⟨k, q, n, h1, h2, h3, h4⟩
      · left; exact h
      · right
        simp only at h2 ⊢
        refine ⟨q, n, by rw [h2]; simpa using h1, h3, h4⟩

example : CopiesInside 20000 0 [(8190, 5), (2^32 - 100, 9000)] ∧ EndsPositive 0 [(8190, 5), (2^32 - 100, 9000)] := by
  refine ⟨⟨8190, by decide, by decide, 8095, by decide, by decide, trivial⟩, by decide, by decide, trivial⟩

/-- C25, the other case: no external data at all is reported, before any table is set up. -/
theorem C25_empty (ext : List (Nat × Nat)) : blocksCreate 0 ext = .err .overflow := by
  unfold blocksCreate
  rw [if_pos (by decide)]

/-! ## C23, C24 -/

/-- The tables for `ext`, with any limit for the number of blocks in memory. -/
def tablesFor (extLen : Nat) (ext : List (Nat × Nat)) (limit : Nat) : Out CacheCfg := do
  let cfg ← blocksCreate extLen ext
  .ok { cfg with maxCore := limit }

theorem ready_of_create {extLen : Nat} {ext : List (Nat × Nat)} {limit : Nat} {cfg : CacheCfg}
    (h0 : 0 < extLen) (hl : extLen < 2^63) (hi : CopiesInside extLen 0 ext) (he : EndsPositive 0 ext)
    (hc : tablesFor extLen ext limit = .ok cfg) :
    Ready cfg extLen 0 0 ext ∧ cfg.maxCore = limit ∧ cfg.nblk = (extLen + 8191) / 8192 := by
  have hbs : blockSize = 8192 := rfl
  have hb : blocksOf extLen = (extLen - 1) / blockSize + 1 := blocksOf_pos h0 (by omega)
  unfold tablesFor blocksCreate at hc
  split at hc
  · simp at hc
  · obtain ⟨mx, m1, m2, m3, m4⟩ := markCopies_spec extLen hl h0 ext 0 0 (fun _ => 0) hi he (fun _ => Nat.le_refl _)
    rw [m1, Out.bind_ok, Out.bind_ok] at hc
    simp only [Out.ok.injEq] at hc
    subst hc
    refine ⟨ready_of_placed _ _ ext 0 0 hi m3, rfl, ?_⟩
    simp only
    rw [hb, hbs]
    omega

/-- C23, old RPM. Whatever the external copies, the internal copies, the add block, the limit for
    blocks in memory and the value left in the cleanup counter: reconstructing through the cache,
    which can read the old RPM only once from front to back, does exactly the same as
    reconstructing from the external data held in one byte string. -/
theorem C23_cache_exact_rpm {σ : Type} (step : σ → Out (Bytes × σ)) (init : σ) (data : Bytes)
    (hsrc : YieldsBlocks step init data) (h0 : 0 < data.length) (hl : data.length < 2^63)
    (ext ints : List (Nat × Nat)) (hi : CopiesInside data.length 0 ext) (he : EndsPositive 0 ext)
    (limit : Nat) (hlim : 0 < limit) (cleanup : Nat) (cfg : CacheCfg)
    (hc : tablesFor data.length ext limit = .ok cfg) (useAdd : Bool) (intData add : Bytes) :
    reconWrites (blocksNext cfg (rpmFiller cfg step)) (emptyCache init cleanup) useAdd ext ints intData add =
    reconWrites (flatNext data) () useAdd ext ints intData add := by
  obtain ⟨hr, hm, hn⟩ := ready_of_create h0 hl hi he hc
  obtain ⟨S, s0, hS⟩ := hsrc
  have hsok : SrcOk step S (dataBlock data) cfg.nblk := fun k hk => hS k (by omega)
  exact reconWrites_refine (serves_cacheOk (rpmFiller_ok hsok) (by omega) (fun k _ => dataBlock_length data k))
    (fun k _ => dataBlock_length data k)
    (fun k _ => dataBlock_prefix data k) hl useAdd ints ext intData add (fun _ => emptyCache_ok s0.symm) hr

/-- The source, in whatever way it was used so far, delivers block `k` of `data` when asked for it. -/
def ServesBlocks {σ : Type} (step : σ → Nat → Out (Bytes × σ)) (init : σ) (data : Bytes) : Prop :=
  ∃ I : σ → Prop, I init ∧ ∀ s k, I s → 8192 * k < data.length → ∃ s', step s k = .ok (dataBlock data k, s') ∧ I s'

/-- C23, installed files: the same when any block can be read at any time. -/
theorem C23_cache_exact_files {σ : Type} (step : σ → Nat → Out (Bytes × σ)) (init : σ) (data : Bytes)
    (hsrc : ServesBlocks step init data) (h0 : 0 < data.length) (hl : data.length < 2^63)
    (ext ints : List (Nat × Nat)) (hi : CopiesInside data.length 0 ext) (he : EndsPositive 0 ext)
    (limit : Nat) (hlim : 0 < limit) (cleanup : Nat) (cfg : CacheCfg)
    (hc : tablesFor data.length ext limit = .ok cfg) (useAdd : Bool) (intData add : Bytes) :
    reconWrites (blocksNext cfg (fsFiller step)) (emptyCache init cleanup) useAdd ext ints intData add =
    reconWrites (flatNext data) () useAdd ext ints intData add := by
  obtain ⟨hr, hm, hn⟩ := ready_of_create h0 hl hi he hc
  obtain ⟨I, i0, hI⟩ := hsrc
  exact reconWrites_refine (serves_cacheOk (fsFiller_ok (fun s k hs hk => hI s k hs (by omega))) (by omega)
    (fun k _ => dataBlock_length data k))
    (fun k _ => dataBlock_length data k) (fun k _ => dataBlock_prefix data k) hl useAdd ints ext intData add
    (fun _ => emptyCache_ok i0) hr

/-- The external copies alone, over plain data, deliver what walking the copies by the
    documentation of the format delivers. -/
theorem flat_walk (data : Bytes) (hl : data.length < 2^63) :
    ∀ (ext : List (Nat × Nat)) (s : ReconSt Unit), CopiesInside data.length s.extOff ext →
      ∃ s' w, extCopies (flatNext data) false ext s = .ok s' ∧ walkCopies data s.extOff ext = some w ∧
        s'.out.flatten = s.out.flatten ++ w := by
  intro ext
  induction ext with
  | nil => intro s _; exact ⟨s, [], rfl, rfl, by simp⟩
  | cons c ext ih =>
    intro s hi
    obtain ⟨w, n⟩ := c
    obtain ⟨q, hq, hql, hrest⟩ := hi
    have hoff : addS32 s.extOff w = q := addS32_nat _ _ _ hq.symm (by omega)
    obtain ⟨s1, a1, a2, a3, a4, a5⟩ := extCopyLoop_flat data false (n + 1) n { s with extOff := q } (by omega)
      hql hl (by simp)
    rw [extCopies]
    simp only [hoff]
    simp only at a1
    rw [a1, Out.bind_ok]
    obtain ⟨s2, w2, b1, b2, b3⟩ := ih { s1 with done := s1.done + 1 } (by simp only [a2]; exact hrest)
    refine ⟨s2, slice data q n ++ w2, b1, ?_, ?_⟩
    · rw [walkCopies]
      have hq' : ((s.extOff : Int) + s32 w).toNat = q := by omega
      simp only [hq']
      rw [if_pos ⟨by omega, hql⟩]
      simp only [a2] at b2
      rw [b2]
      rfl
    · rw [b3]
      simp only
      rw [a5]
      simp [extBytes]

/-- C23 in terms of the format: the bytes delivered through the cache for all the external copies
    of a delta are the bytes of the external data at the offsets that the copies name. -/
theorem C23_delivers {σ : Type} (step : σ → Out (Bytes × σ)) (init : σ) (data : Bytes)
    (hsrc : YieldsBlocks step init data) (h0 : 0 < data.length) (hl : data.length < 2^63)
    (ext : List (Nat × Nat)) (hi : CopiesInside data.length 0 ext) (he : EndsPositive 0 ext)
    (limit : Nat) (hlim : 0 < limit) (cleanup : Nat) (cfg : CacheCfg)
    (hc : tablesFor data.length ext limit = .ok cfg) :
    ∃ ws w, reconWrites (blocksNext cfg (rpmFiller cfg step)) (emptyCache init cleanup) false ext
        [(ext.length, 0)] [] [] = .ok ws ∧
      walkCopies data 0 ext = some w ∧ ws.flatten = w := by
  rw [C23_cache_exact_rpm step init data hsrc h0 hl ext _ hi he limit hlim cleanup cfg hc]
  obtain ⟨s', w, h1, h2, h3⟩ := flat_walk data hl ext ⟨(), 0, 0, [], []⟩ hi
  unfold reconWrites
  rw [reconLoop, if_neg (by simp), List.take_length, h1, Out.bind_ok, rdBlk_ok (by simp), Out.bind_ok,
    reconLoop, Out.bind_ok]
  refine ⟨_, w, rfl, h2, ?_⟩
  simp only [List.flatten_append]
  rw [h3]
  simp [slice]

/-- Over plain data the only error that can be reported is a format error. -/
theorem flat_errors (data : Bytes) (useAdd : Bool) :
    ∀ (fuel len id : Nat) (s : ReconSt Unit) (e : Err),
      extCopyLoop (flatNext data) useAdd fuel len id s = .err e → e = .format := by
  intro fuel
  induction fuel with
  | zero => intro len id s e h; cases h
  | succ fuel ih =>
    intro len id s e h
    rw [extCopyLoop] at h
    split at h
    · unfold flatNext at h
      simp only at h
      split at h
      · rw [Out.bind_ok] at h
        simp only at h
        unfold applyAdd at h
        split at h
        · split at h
          · rw [Out.bind_ok] at h; exact ih _ _ _ _ h
          · rw [Out.bind_err] at h; cases h; rfl
        · rw [Out.bind_ok] at h; exact ih _ _ _ _ h
      · rw [Out.bind_ub] at h; cases h
    · cases h

theorem flat_errors_copies (data : Bytes) (useAdd : Bool) :
    ∀ (ext : List (Nat × Nat)) (s : ReconSt Unit) (e : Err),
      extCopies (flatNext data) useAdd ext s = .err e → e = .format := by
  intro ext
  induction ext with
  | nil => intro s e h; cases h
  | cons c ext ih =>
    intro s e h
    obtain ⟨w, n⟩ := c
    rw [extCopies] at h
    rcases hx : extCopyLoop (flatNext data) useAdd (n + 1) n (blockId (addS32 s.extOff w))
        { s with extOff := addS32 s.extOff w } with s1 | e1 | _ | _
    · rw [hx, Out.bind_ok] at h; exact ih _ _ h
    · rw [hx, Out.bind_err] at h
      cases h
      exact flat_errors data useAdd _ _ _ _ _ hx
    · rw [hx, Out.bind_ub] at h; cases h
    · rw [hx, Out.bind_loop] at h; cases h

theorem flat_errors_loop (data : Bytes) (useAdd : Bool) :
    ∀ (ints ext : List (Nat × Nat)) (intData : Bytes) (s : ReconSt Unit) (e : Err),
      reconLoop (flatNext data) useAdd ints ext intData s = .err e → e = .format := by
  intro ints
  induction ints with
  | nil => intro ext d s e h; cases h
  | cons c ints ih =>
    intro ext d s e h
    obtain ⟨todo, len⟩ := c
    rw [reconLoop] at h
    split at h
    · cases h; rfl
    · rcases hx : extCopies (flatNext data) useAdd (ext.take todo) s with s1 | e1 | _ | _
      · rw [hx, Out.bind_ok] at h
        unfold rdBlk at h
        split at h
        · rw [Out.bind_ok] at h; exact ih _ _ _ _ h
        · rw [Out.bind_ub] at h; cases h
      · rw [hx, Out.bind_err] at h
        cases h
        exact flat_errors_copies data useAdd _ _ _ hx
      · rw [hx, Out.bind_ub] at h; cases h
      · rw [hx, Out.bind_loop] at h; cases h

/-- C24. Reading the old RPM once from front to back is enough: reconstruction never ends with the
    internal error that reports that a block was dropped too early (nor with any other error than
    the format errors of a delta whose copies or add block do not add up). -/
theorem C24_no_block_lost {σ : Type} (step : σ → Out (Bytes × σ)) (init : σ) (data : Bytes)
    (hsrc : YieldsBlocks step init data) (h0 : 0 < data.length) (hl : data.length < 2^63)
    (ext ints : List (Nat × Nat)) (hi : CopiesInside data.length 0 ext) (he : EndsPositive 0 ext)
    (limit : Nat) (hlim : 0 < limit) (cleanup : Nat) (cfg : CacheCfg)
    (hc : tablesFor data.length ext limit = .ok cfg) (useAdd : Bool) (intData add : Bytes) (e : Err)
    (hx : reconWrites (blocksNext cfg (rpmFiller cfg step)) (emptyCache init cleanup) useAdd ext ints
      intData add = .err e) : e = .format := by
  rw [C23_cache_exact_rpm step init data hsrc h0 hl ext ints hi he limit hlim cleanup cfg hc] at hx
  unfold reconWrites at hx
  rcases hy : reconLoop (flatNext data) useAdd ints ext intData ⟨(), 0, 0, add, []⟩ with s1 | e1 | _ | _
  · rw [hy, Out.bind_ok] at hx; cases hx
  · rw [hy, Out.bind_err] at hx
    cases hx
    exact flat_errors_loop data useAdd _ _ _ _ _ hy
  · rw [hy, Out.bind_ub] at hx; cases hx
  · rw [hy, Out.bind_loop] at hx; cases hx

/-! ## C57 -/

/-- C57, old RPM. However long the payload and however its blocks are needed, the blocks held in
    memory never exceed the limit. (Blocks are never given back before the end, so the number
    at the end of any part of a run is the largest during it.) -/
theorem C57_memory_rpm {σ : Type} (step : σ → Out (Bytes × σ)) (init : σ) (data : Bytes)
    (hsrc : YieldsBlocks step init data) (h0 : 0 < data.length) (hl : data.length < 2^63)
    (ext ints : List (Nat × Nat)) (hi : CopiesInside data.length 0 ext) (he : EndsPositive 0 ext)
    (limit : Nat) (hlim : 0 < limit) (cleanup : Nat) (cfg : CacheCfg)
    (hc : tablesFor data.length ext limit = .ok cfg) (useAdd : Bool) (intData add : Bytes)
    (s : ReconSt (Cache σ))
    (hs : reconLoop (blocksNext cfg (rpmFiller cfg step)) useAdd ints ext intData
      ⟨emptyCache init cleanup, 0, 0, add, []⟩ = .ok s) :
    s.blk.core.length + s.blk.free.length ≤ limit := by
  obtain ⟨hr, hm, hn⟩ := ready_of_create h0 hl hi he hc
  obtain ⟨S, s0, hS⟩ := hsrc
  have hsok : SrcOk step S (dataBlock data) cfg.nblk := fun k hk => hS k (by omega)
  have := reconLoop_ok (serves_cacheOk (rpmFiller_ok hsok) (by omega) (fun k _ => dataBlock_length data k))
    (fun k _ => dataBlock_length data k)
    (fun k _ => dataBlock_prefix data k) hl useAdd ints ext intData ⟨emptyCache init cleanup, 0, 0, add, []⟩ s hr
    (fun _ => emptyCache_ok s0.symm) hs 0
  rw [← hm, ← this.inv.count]
  exact this.inv.small

/-- C57, installed files. -/
theorem C57_memory_files {σ : Type} (step : σ → Nat → Out (Bytes × σ)) (init : σ) (data : Bytes)
    (hsrc : ServesBlocks step init data) (h0 : 0 < data.length) (hl : data.length < 2^63)
    (ext ints : List (Nat × Nat)) (hi : CopiesInside data.length 0 ext) (he : EndsPositive 0 ext)
    (limit : Nat) (hlim : 0 < limit) (cleanup : Nat) (cfg : CacheCfg)
    (hc : tablesFor data.length ext limit = .ok cfg) (useAdd : Bool) (intData add : Bytes)
    (s : ReconSt (Cache σ))
    (hs : reconLoop (blocksNext cfg (fsFiller step)) useAdd ints ext intData
      ⟨emptyCache init cleanup, 0, 0, add, []⟩ = .ok s) :
    s.blk.core.length + s.blk.free.length ≤ limit := by
  obtain ⟨hr, hm, hn⟩ := ready_of_create h0 hl hi he hc
  obtain ⟨I, i0, hI⟩ := hsrc
  have := reconLoop_ok (serves_cacheOk (fsFiller_ok (fun s k hs hk => hI s k hs (by omega))) (by omega)
    (fun k _ => dataBlock_length data k))
    (fun k _ => dataBlock_length data k) (fun k _ => dataBlock_prefix data k) hl useAdd ints ext intData
    ⟨emptyCache init cleanup, 0, 0, add, []⟩ s hr (fun _ => emptyCache_ok i0) hs 0
  rw [← hm, ← this.inv.count]
  exact this.inv.small

/-- The limit of the program: 5000 blocks, about 40 MB. -/
theorem C57_limit (extLen : Nat) (ext : List (Nat × Nat)) (cfg : CacheCfg)
    (h : blocksCreate extLen ext = .ok cfg) : cfg.maxCore = 5000 := by
  unfold blocksCreate at h
  split at h
  · cases h
  · rw [Out.bind_eq_ok] at h
    obtain ⟨mx, _, h⟩ := h
    cases h
    rfl

/-! ## C22 -/

/-- The position in the old RPM after `k` blocks. -/
def rpmonlyAt (header : Bytes) (extLen k : Nat) : RpmonlySrc :=
  { hdrOff := min (min (blockSize * k) extLen) header.length
    arcOff := min (blockSize * k) extLen - header.length
    left := extLen - min (blockSize * k) extLen }

theorem rpmonly_bytes (header archive : Bytes) (hH : header.length + archive.length < 2^63) (t n : Nat)
    (left : Nat) (hn : t + n ≤ header.length + archive.length) :
    rpmonlyBytes header archive ⟨min t header.length, t - header.length, left⟩ n =
      .ok (slice (header ++ archive) t n, min (t + n) header.length, t + n - header.length) := by
  unfold rpmonlyBytes
  simp only
  split
  · have ht : min t header.length = t := by omega
    rw [ht]
    split
    · have e1 : t - header.length = 0 := by omega
      rw [e1, archiveRead, if_neg (by rw [Nat.mod_eq_of_lt] <;> omega), rdBlk_ok (by omega), Out.bind_ok,
        Out.bind_ok]
      simp only
      rw [rdBlk_ok (by omega), Out.bind_ok]
      simp only [Out.ok.injEq, Prod.mk.injEq]
      refine ⟨?_, by omega, by rw [Nat.mod_eq_of_lt] <;> omega⟩
      unfold slice
      rw [List.drop_append_of_le_length (by omega), List.take_append, List.length_drop, List.drop_zero]
      congr 1
      rw [List.take_of_length_le (by rw [List.length_drop]; omega),
        List.take_of_length_le (by rw [List.length_drop]; omega)]
    · rw [rdBlk_ok (by omega), Out.bind_ok]
      simp only [Out.ok.injEq, Prod.mk.injEq]
      refine ⟨?_, by omega, by omega⟩
      unfold slice
      rw [List.drop_append_of_le_length (by omega), List.take_append_of_le_length (by rw [List.length_drop]; omega)]
  · have ht : header.length ≤ t := by omega
    rw [archiveRead, if_neg (by rw [Nat.mod_eq_of_lt] <;> omega), rdBlk_ok (by omega), Out.bind_ok, Out.bind_ok]
    simp only [Out.ok.injEq, Prod.mk.injEq]
    refine ⟨?_, by omega, by rw [Nat.mod_eq_of_lt] <;> omega⟩
    unfold slice
    rw [List.drop_append, List.drop_eq_nil_of_le ht, List.nil_append]

/-- C22. The old RPM of an rpm-only delta, read block by block, is the header followed by the
    archive, up to the external length that the delta declares, with zeros after the end of the
    last block. -/
theorem C22_header_then_archive (header archive : Bytes) (hH : header.length + archive.length < 2^63)
    (extLen : Nat) (hl : extLen ≤ header.length + archive.length) :
    YieldsBlocks (rpmonlyStep header archive) ⟨0, 0, extLen⟩ ((header ++ archive).take extLen) := by
  have hbs : blockSize = 8192 := rfl
  refine ⟨rpmonlyAt header extLen, by simp [rpmonlyAt], fun k hk => ?_⟩
  have hlen : ((header ++ archive).take extLen).length = extLen := by
    rw [List.length_take, List.length_append]; omega
  rw [hlen] at hk
  have hk : blockSize * k < extLen := hk
  unfold rpmonlyStep
  simp only
  have e1 : rpmonlyAt header extLen k =
      ⟨min (blockSize * k) header.length, blockSize * k - header.length, extLen - blockSize * k⟩ := by
    unfold rpmonlyAt
    rw [Nat.min_eq_left (show blockSize * k ≤ extLen by omega)]
  rw [e1]
  simp only
  rw [rpmonly_bytes header archive hH (blockSize * k) (min (extLen - blockSize * k) blockSize) _ (by omega),
    Out.bind_ok]
  simp only [Out.ok.injEq, Prod.mk.injEq]
  have e3 : slice ((header ++ archive).take extLen) (8192 * k) 8192 =
      slice (header ++ archive) (blockSize * k) (min (extLen - blockSize * k) blockSize) := by
    unfold slice
    rw [List.drop_take, List.take_take, hbs, Nat.min_comm]
  have e4 : (slice (header ++ archive) (blockSize * k) (min (extLen - blockSize * k) blockSize)).length =
      min (extLen - blockSize * k) blockSize := by
    rw [slice_length (by rw [List.length_append]; omega)]
  refine ⟨?_, ?_⟩
  · unfold dataBlock
    rw [e3, e4, hbs]
  · unfold rpmonlyAt
    simp only [RpmonlySrc.mk.injEq]
    have : blockSize * (k + 1) = blockSize * k + blockSize := by rw [Nat.mul_add, Nat.mul_one]
    refine ⟨by omega, by omega, by omega⟩

/-- C22 with C23: applying an rpm-only delta reads the old header and archive. -/
theorem C22_applied (header archive : Bytes) (hH : header.length + archive.length < 2^63)
    (extLen : Nat) (h0 : 0 < extLen) (hl : extLen ≤ header.length + archive.length)
    (ext ints : List (Nat × Nat)) (hi : CopiesInside extLen 0 ext) (he : EndsPositive 0 ext)
    (cleanup : Nat) (cfg : CacheCfg) (hc : blocksCreate extLen ext = .ok cfg) (useAdd : Bool)
    (intData add : Bytes) :
    reconWrites (blocksNext cfg (rpmFiller cfg (rpmonlyStep header archive)))
      (emptyCache ⟨0, 0, extLen⟩ cleanup) useAdd ext ints intData add =
    reconWrites (flatNext ((header ++ archive).take extLen)) () useAdd ext ints intData add := by
  have hlen : ((header ++ archive).take extLen).length = extLen := by
    rw [List.length_take, List.length_append]; omega
  have hm : cfg.maxCore = maxCoreBlocks := by
    unfold blocksCreate at hc
    split at hc
    · cases hc
    · rw [Out.bind_eq_ok] at hc
      obtain ⟨mx, _, hc⟩ := hc
      cases hc
      rfl
  refine C23_cache_exact_rpm _ _ _ (C22_header_then_archive header archive hH extLen hl) (by omega) (by omega)
    ext ints (by rw [hlen]; exact hi) he maxCoreBlocks (by decide) cleanup cfg ?_ useAdd intData add
  unfold tablesFor
  rw [hlen, hc, Out.bind_ok, ← hm]

/-- Non-vacuity of C22, C23 and C24: a header, an archive, copies that go back and forth between
    blocks, and tables with room for a single block in memory. -/
example : ∃ cfg, YieldsBlocks (rpmonlyStep (List.replicate 9000 1) (List.replicate 11000 2)) ⟨0, 0, 20000⟩
      ((List.replicate 9000 1 ++ List.replicate 11000 2 : Bytes).take 20000) ∧
    CopiesInside 20000 0 [(8190, 5), (2^32 - 100, 9000)] ∧ EndsPositive 0 [(8190, 5), (2^32 - 100, 9000)] ∧
    tablesFor 20000 [(8190, 5), (2^32 - 100, 9000)] 1 = .ok cfg := by
  have hi : CopiesInside 20000 0 [(8190, 5), (2^32 - 100, 9000)] :=
    ⟨8190, by decide, by decide, 8095, by decide, by decide, trivial⟩
  have he : EndsPositive 0 [(8190, 5), (2^32 - 100, 9000)] := ⟨by decide, by decide, trivial⟩
  rcases C25_tables 20000 [(8190, 5), (2^32 - 100, 9000)] (by decide) (by decide) hi he with ⟨_, h⟩ | ⟨cfg, h, _⟩
  · exact absurd h (by decide)
  · refine ⟨{ cfg with maxCore := 1 }, C22_header_then_archive _ _ (by rw [List.length_replicate, List.length_replicate]; omega) _
      (by rw [List.length_replicate, List.length_replicate]; omega), hi, he, ?_⟩
    unfold tablesFor
    rw [h, Out.bind_ok]

example : (blocksCreate 20000 [(8190, 5), (2^32 - 100, 9000)]).Defined ∧
    Out.okAnd (blocksCreate 20000 [(8190, 5), (2^32 - 100, 9000)])
      (fun c => c.nblk = 3 ∧ c.max 0 = 1 ∧ c.max 1 = 1 ∧ c.max 2 = 1) = true := by
  constructor
  · decide +kernel
  · decide +kernel

end Drpm
