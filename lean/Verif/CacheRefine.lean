import Verif.CacheLemmas
import Verif.FormatSpec
/-!
# The reconstruction loop over the cache does the same as over the plain external data
-/

namespace Drpm

variable {σ : Type}

/-- `blocks_max` is good enough for the copies, the first of which has number `i` and starts from
    position `p`. -/
def Ready (cfg : CacheCfg) (limit : Nat) : Nat → Nat → List (Nat × Nat) → Prop
  | _, _, [] => True
  | i, p, (w, n) :: rest =>
    ∃ q : Nat, (q : Int) = (p : Int) + s32 w ∧ q + n ≤ limit ∧
      (∀ j, q / blockSize ≤ j → blockSize * j < q + n → j < cfg.nblk ∧ i ≤ cfg.max j) ∧
      Ready cfg limit (i + 1) (q + n) rest

theorem CacheOk.next {cfg : CacheCfg} {B : Nat → Bytes} {np : Bool} {R : Nat → σ → Prop} {c : Cache σ}
    {cnt id cnt' id' : Nat} (h : CacheOk cfg B np R c cnt id)
    (hl : cnt < cnt' ∨ (cnt = cnt' ∧ id ≤ id')) : CacheOk cfg B np R c cnt' id' :=
  { h with inv := h.inv.mono (fun j hj => by unfold Needed at hj ⊢; omega) }

/-- The same state over the plain data. -/
def ReconSt.flat {τ : Type} (t : ReconSt τ) : ReconSt Unit := ⟨(), t.extOff, t.done, t.add, t.out⟩

theorem slice_prefix {l m : Bytes} (h : l <+: m) (i n : Nat) (hn : i + n ≤ l.length) :
    slice m i n = slice l i n := by
  obtain ⟨t, rfl⟩ := h
  unfold slice
  rw [List.drop_append_of_le_length (by omega), List.take_append_of_le_length (by rw [List.length_drop]; omega)]

/-- What the refinement needs of an invariant `K` of the cache (for a copy number and a block number):
    every block that is still needed is delivered, and time moves on. -/
structure Serves (cfg : CacheCfg) (B : Nat → Bytes) (fill : Filler σ) (K : Cache σ → Nat → Nat → Prop) : Prop where
  step : ∀ (c : Cache σ) (off len cnt id : Nat), K c cnt id → id < cfg.nblk → cnt ≤ cfg.max id →
    len + blockSize < 2^64 →
    ∃ c', blocksNext cfg fill c off len cnt id =
        .ok (slice (B id) (off % blockSize) (min len (blockSize - off % blockSize)), c') ∧ K c' cnt id
  next : ∀ (c : Cache σ) (cnt id cnt' id' : Nat), K c cnt id → (cnt < cnt' ∨ (cnt = cnt' ∧ id ≤ id')) → K c cnt' id'

theorem serves_cacheOk {cfg : CacheCfg} {B : Nat → Bytes} {np : Bool} {R : Nat → σ → Prop} {fill : Filler σ}
    (hfill : FillOk cfg B np R fill) (hmax : 0 < cfg.maxCore) (hB : ∀ k, k < cfg.nblk → (B k).length = blockSize) :
    Serves cfg B fill (CacheOk cfg B np R) :=
  { step := fun _ _ _ _ _ h hid hm hlen => blocksNext_spec hfill hmax hB h hid hm hlen
    next := fun _ _ _ _ _ h hl => h.next hl }

variable {cfg : CacheCfg} {B : Nat → Bytes} {fill : Filler σ} {K : Cache σ → Nat → Nat → Prop} {old : Bytes}

/-- One call. -/
theorem blocksNext_flat (hK : Serves cfg B fill K)
    (hB : ∀ k, k < cfg.nblk → (B k).length = blockSize)
    (hBo : ∀ k, k < cfg.nblk → slice old (blockSize * k) blockSize <+: B k)
    (hold : old.length < 2^63) {c : Cache σ} {off len cnt : Nat}
    (h : K c cnt (blockId off)) (hlen : off + len ≤ old.length)
    (hr : blockId off < cfg.nblk ∧ cnt ≤ cfg.max (blockId off)) :
    ∃ b c', blocksNext cfg fill c off len cnt (blockId off) = .ok (b, c') ∧
      flatNext old () off len cnt (blockId off) = .ok (b, ()) ∧
      b.length = min len (blockSize - off % blockSize) ∧ K c' cnt (blockId off) := by
  have hbs : blockSize = 8192 := rfl
  obtain ⟨c', h1, h2⟩ := hK.step c off len cnt (blockId off) h hr.1 hr.2 (by omega)
  have hdm := Nat.div_add_mod off blockSize
  have hlt : off % blockSize < blockSize := Nat.mod_lt _ (by decide)
  have hn : min (blockSize * (blockId off + 1) - off) len = min len (blockSize - off % blockSize) := by
    unfold blockId
    rw [Nat.mul_add, Nat.mul_one]
    omega
  refine ⟨_, c', h1, ?_, ?_, h2⟩
  · unfold flatNext
    simp only
    rw [hn, if_pos ⟨trivial, by omega⟩]
    have hs : off % blockSize + min len (blockSize - off % blockSize) ≤
        (slice old (blockSize * blockId off) blockSize).length := by
      simp only [slice, List.length_take, List.length_drop]
      unfold blockId
      omega
    rw [slice_prefix (hBo _ hr.1) _ _ hs]
    unfold slice blockId
    rw [List.drop_take, List.take_take, List.drop_drop, hdm]
    congr 3
    omega
  · simp only [slice, List.length_take, List.length_drop]; rw [hB _ hr.1]; omega

/-- One external copy. -/
theorem extCopyLoop_refine (hK : Serves cfg B fill K)
    (hB : ∀ k, k < cfg.nblk → (B k).length = blockSize)
    (hBo : ∀ k, k < cfg.nblk → slice old (blockSize * k) blockSize <+: B k)
    (hold : old.length < 2^63) (useAdd : Bool) :
    ∀ fuel len (t : ReconSt (Cache σ)), len < fuel → t.extOff + len ≤ old.length →
      (∀ j, t.extOff / blockSize ≤ j → blockSize * j < t.extOff + len → j < cfg.nblk ∧ t.done ≤ cfg.max j) →
      (∀ id, blockId t.extOff ≤ id → K t.blk t.done id) →
      (∃ t', extCopyLoop (blocksNext cfg fill) useAdd fuel len (blockId t.extOff) t = .ok t' ∧
        extCopyLoop (flatNext old) useAdd fuel len (blockId t.extOff) t.flat = .ok t'.flat ∧
        t'.extOff = t.extOff + len ∧ t'.done = t.done ∧
        (∀ cnt id, t.done < cnt → K t'.blk cnt id)) ∨
      (extCopyLoop (blocksNext cfg fill) useAdd fuel len (blockId t.extOff) t = .err .format ∧
        extCopyLoop (flatNext old) useAdd fuel len (blockId t.extOff) t.flat = .err .format) := by
  have hbs : blockSize = 8192 := rfl
  intro fuel
  induction fuel with
  | zero => intro len t hf; omega
  | succ fuel ih =>
    intro len t hf hlen hr hc
    by_cases h0 : len > 0
    rotate_left
    · left
      have : len = 0 := by omega
      subst this
      rw [extCopyLoop, if_neg h0, extCopyLoop, if_neg h0]
      exact ⟨t, rfl, rfl, by omega, rfl, fun cnt id hcnt => hK.next _ _ _ _ _ (hc _ (Nat.le_refl _)) (Or.inl hcnt)⟩
    · have hdm := Nat.div_add_mod t.extOff blockSize
      have hlt : t.extOff % blockSize < blockSize := Nat.mod_lt _ (by decide)
      obtain ⟨b, c', e1, e2, hbl, hc'⟩ := blocksNext_flat (off := t.extOff) (len := len) hK hB hBo hold
        (hc _ (Nat.le_refl _)) hlen (hr _ (Nat.le_refl _) (by unfold blockId at *; omega))
      rw [extCopyLoop, if_pos h0, e1, Out.bind_ok, extCopyLoop, if_pos h0]
      have e2' : flatNext old t.flat.blk t.flat.extOff len t.flat.done (blockId t.extOff) = .ok (b, ()) := e2
      rw [e2', Out.bind_ok]
      simp only
      show _ ∨ (_ ∧ (applyAdd useAdd b t.add >>= _) = _)
      rcases ha : applyAdd useAdd b t.add with ⟨chunk', add'⟩ | e | _ | _
      · simp only [ReconSt.flat, ha, Out.bind_ok]
        have hw1 : (len + 2 ^ 64 - b.length) % 2 ^ 64 = len - b.length := by omega
        have hw2 : (t.extOff + b.length) % 2 ^ 64 = t.extOff + b.length := Nat.mod_eq_of_lt (by omega)
        rw [hw1, hw2]
        by_cases hlast : len - b.length = 0
        · -- the copy is complete
          have hbl' : b.length = len := by omega
          have hfu : ∃ f, fuel = f + 1 := ⟨fuel - 1, by omega⟩
          obtain ⟨f, rfl⟩ := hfu
          rw [hlast]
          left
          rw [extCopyLoop, if_neg (by omega), extCopyLoop, if_neg (by omega)]
          refine ⟨_, rfl, rfl, by simp only [hbl'], rfl, ?_⟩
          intro cnt id hcnt
          exact hK.next _ _ _ _ _ hc' (Or.inl hcnt)
        · have hbl' : b.length = blockSize - t.extOff % blockSize := by omega
          have hid : blockId t.extOff + 1 = blockId (t.extOff + b.length) := by
            unfold blockId
            rw [hbl', show t.extOff + (blockSize - t.extOff % blockSize) =
              blockSize * (t.extOff / blockSize + 1) by rw [Nat.mul_add, Nat.mul_one]; omega]
            rw [Nat.mul_div_cancel_left _ (by decide)]
          rw [hid]
          have := ih (len - b.length)
            { blk := c', extOff := t.extOff + b.length, done := t.done, add := add', out := t.out ++ [chunk'] }
            (by omega) (by simp only; omega)
            (by
              intro j hj1 hj2
              simp only at hj1 hj2 ⊢
              refine hr j (Nat.le_trans (Nat.div_le_div_right (by omega)) hj1) (by omega))
            (by
              intro id hid'
              exact hK.next _ _ _ _ _ hc' (Or.inr ⟨rfl, by simp only at hid'; omega⟩))
          simp only [ReconSt.flat] at this
          rcases this with ⟨t', f1, f2, f3, f4, f5⟩ | ⟨f1, f2⟩
          · left
            exact ⟨t', f1, f2, by rw [f3]; omega, f4, f5⟩
          · right; exact ⟨f1, f2⟩
      · right
        have he : e = .format := by
          unfold applyAdd at ha
          split at ha
          · split at ha <;> cases ha; rfl
          · cases ha
        simp only [Out.bind_err, he]
        trivial
      · exfalso
        unfold applyAdd at ha
        split at ha
        · split at ha <;> cases ha
        · cases ha
      · exfalso
        unfold applyAdd at ha
        split at ha
        · split at ha <;> cases ha
        · cases ha

/-- The external copies before an internal copy. -/
theorem extCopies_refine (hK : Serves cfg B fill K)
    (hB : ∀ k, k < cfg.nblk → (B k).length = blockSize)
    (hBo : ∀ k, k < cfg.nblk → slice old (blockSize * k) blockSize <+: B k)
    (hold : old.length < 2^63) (useAdd : Bool) (l2 : List (Nat × Nat)) :
    ∀ (l1 : List (Nat × Nat)) (t : ReconSt (Cache σ)), Ready cfg old.length t.done t.extOff (l1 ++ l2) →
      (∀ id, K t.blk t.done id) →
      (∃ t', extCopies (blocksNext cfg fill) useAdd l1 t = .ok t' ∧
        extCopies (flatNext old) useAdd l1 t.flat = .ok t'.flat ∧
        Ready cfg old.length t'.done t'.extOff l2 ∧ (∀ id, K t'.blk t'.done id)) ∨
      (extCopies (blocksNext cfg fill) useAdd l1 t = .err .format ∧
        extCopies (flatNext old) useAdd l1 t.flat = .err .format) := by
  intro l1
  induction l1 with
  | nil =>
    intro t hr hc
    left
    exact ⟨t, rfl, rfl, by simpa using hr, hc⟩
  | cons c l1 ih =>
    intro t hr hc
    obtain ⟨w, n⟩ := c
    obtain ⟨q, hq, hql, hj, hrest⟩ := hr
    have hoff : addS32 t.extOff w = q := addS32_nat _ _ _ hq.symm (by omega)
    rw [extCopies, extCopies]
    simp only [ReconSt.flat, hoff]
    have := extCopyLoop_refine hK hB hBo hold useAdd (n + 1) n { t with extOff := q } (by omega)
      hql hj (fun id _ => hc id)
    simp only [ReconSt.flat] at this
    rcases this with ⟨t', f1, f2, f3, f4, f5⟩ | ⟨f1, f2⟩
    · rw [f1, f2, Out.bind_ok, Out.bind_ok]
      have := ih { t' with done := t'.done + 1 } (by
          simp only [f3, f4]
          exact hrest) (fun id => f5 _ _ (by simp only [f4]; omega))
      simpa only [ReconSt.flat] using this
    · right
      rw [f1, f2]
      exact ⟨rfl, rfl⟩

/-- The whole loop. -/
theorem reconLoop_refine (hK : Serves cfg B fill K)
    (hB : ∀ k, k < cfg.nblk → (B k).length = blockSize)
    (hBo : ∀ k, k < cfg.nblk → slice old (blockSize * k) blockSize <+: B k)
    (hold : old.length < 2^63) (useAdd : Bool) :
    ∀ (ints : List (Nat × Nat)) (ext : List (Nat × Nat)) (intData : Bytes) (t : ReconSt (Cache σ)),
      Ready cfg old.length t.done t.extOff ext → (∀ id, K t.blk t.done id) →
      (reconLoop (blocksNext cfg fill) useAdd ints ext intData t >>= fun s => .ok s.out) =
      (reconLoop (flatNext old) useAdd ints ext intData t.flat >>= fun s => .ok s.out) := by
  intro ints
  induction ints with
  | nil => intro ext intData t _ _; rfl
  | cons c ints ih =>
    intro ext intData t hr hc
    obtain ⟨todo, len⟩ := c
    rw [reconLoop, reconLoop]
    by_cases ht : todo > ext.length
    · rw [if_pos ht, if_pos ht]
      rfl
    · rw [if_neg ht, if_neg ht]
      have := extCopies_refine hK hB hBo hold useAdd (ext.drop todo) (ext.take todo) t
        (by rw [List.take_append_drop]; exact hr) hc
      rcases this with ⟨t', f1, f2, f3, f4⟩ | ⟨f1, f2⟩
      · rw [f1, f2, Out.bind_ok, Out.bind_ok]
        rcases rdBlk intData 0 len with d | e | _ | _
        · simp only [Out.bind_ok]
          exact ih (ext.drop todo) (intData.drop len) { t' with out := t'.out ++ [d] } f3 f4
        · rfl
        · rfl
        · rfl
      · rw [f1, f2]
        rfl

/-- The cache after the whole loop. -/
theorem reconLoop_ok (hK : Serves cfg B fill K)
    (hB : ∀ k, k < cfg.nblk → (B k).length = blockSize)
    (hBo : ∀ k, k < cfg.nblk → slice old (blockSize * k) blockSize <+: B k)
    (hold : old.length < 2^63) (useAdd : Bool) :
    ∀ (ints : List (Nat × Nat)) (ext : List (Nat × Nat)) (intData : Bytes) (t t' : ReconSt (Cache σ)),
      Ready cfg old.length t.done t.extOff ext → (∀ id, K t.blk t.done id) →
      reconLoop (blocksNext cfg fill) useAdd ints ext intData t = .ok t' →
      ∀ id, K t'.blk t'.done id := by
  intro ints
  induction ints with
  | nil => intro ext intData t t' _ hc h; cases h; exact hc
  | cons c ints ih =>
    intro ext intData t t' hr hc h
    obtain ⟨todo, len⟩ := c
    rw [reconLoop] at h
    split at h
    · cases h
    · have := extCopies_refine hK hB hBo hold useAdd (ext.drop todo) (ext.take todo) t
        (by rw [List.take_append_drop]; exact hr) hc
      rcases this with ⟨t1, f1, f2, f3, f4⟩ | ⟨f1, f2⟩
      · rw [f1, Out.bind_ok] at h
        rcases hd : rdBlk intData 0 len with d | e | _ | _ <;> rw [hd] at h
        · rw [Out.bind_ok] at h
          exact ih (ext.drop todo) (intData.drop len) { t1 with out := t1.out ++ [d] } t' f3 f4 h
        · cases h
        · cases h
        · cases h
      · rw [f1] at h
        cases h

theorem emptyCache_ok {np : Bool} {R : Nat → σ → Prop} {src : σ} {cleanup cnt id : Nat} (hs : R 0 src) :
    CacheOk cfg B np R (emptyCache src cleanup) cnt id :=
  { inv :=
    { nodup := by simp [emptyCache]
      lt := by simp [emptyCache]
      pageOk := by simp [emptyCache]
      offInj := by simp [emptyCache]
      count := rfl
      small := Nat.zero_le _
      freeOk := by simp [emptyCache]
      coreOk := by simp [emptyCache]
      tab := by simp [emptyCache]
      avail := by simp [emptyCache]
      rpmLe := Nat.zero_le _ }
    lastOk := by simp [emptyCache]
    srcOk := hs
    zero := fun _ => rfl }

theorem reconWrites_refine (hK : Serves cfg B fill K)
    (hB : ∀ k, k < cfg.nblk → (B k).length = blockSize)
    (hBo : ∀ k, k < cfg.nblk → slice old (blockSize * k) blockSize <+: B k)
    (hold : old.length < 2^63) (useAdd : Bool) (ints ext : List (Nat × Nat)) (intData add : Bytes)
    {src : σ} {cleanup : Nat} (hs : ∀ id, K (emptyCache src cleanup) 0 id) (hr : Ready cfg old.length 0 0 ext) :
    reconWrites (blocksNext cfg fill) (emptyCache src cleanup) useAdd ext ints intData add =
    reconWrites (flatNext old) () useAdd ext ints intData add :=
  reconLoop_refine hK hB hBo hold useAdd ints ext intData ⟨emptyCache src cleanup, 0, 0, add, []⟩ hr
    hs

/-! ## The tables -/

theorem markBlocks_spec (nblk i : Nat) : ∀ n b mx, b + n ≤ nblk →
    ∃ mx', markBlocks nblk i n b mx = .ok mx' ∧
      ∀ j, mx' j = if b ≤ j ∧ j < b + n then i else mx j := by
  intro n
  induction n with
  | zero =>
    intro b mx _
    refine ⟨mx, rfl, fun j => ?_⟩
    rw [if_neg (by omega)]
  | succ n ih =>
    intro b mx h
    rw [markBlocks, if_pos (by omega)]
    obtain ⟨mx', h1, h2⟩ := ih (b + 1) (upd mx b i) (by omega)
    refine ⟨mx', h1, fun j => ?_⟩
    rw [h2 j]
    unfold upd
    by_cases hj : j = b
    · subst hj; rw [if_neg (by omega), if_pos rfl, if_pos (by omega)]
    · rw [if_neg hj]
      by_cases hc : b + 1 ≤ j ∧ j < b + 1 + n
      · rw [if_pos hc, if_pos (by omega)]
      · rw [if_neg hc, if_neg (by omega)]

theorem blocksOf_pos {n : Nat} (h0 : 0 < n) (h : n < 2^64) : blocksOf n = (n - 1) / blockSize + 1 := by
  unfold blocksOf
  rw [show (n + 2 ^ 64 - 1) % 2 ^ 64 = n - 1 by omega]
  omega

/-- Absolute offset and length of each external copy. -/
def placed : Nat → List (Nat × Nat) → List (Nat × Nat)
  | _, [] => []
  | p, (w, n) :: rest => (((p : Int) + s32 w).toNat, n) :: placed (((p : Int) + s32 w).toNat + n) rest

theorem markCopies_spec (limit : Nat) (hl : limit < 2^63) (hl0 : 0 < limit) :
    ∀ (ext : List (Nat × Nat)) (i p : Nat) (mx : Nat → Nat), CopiesInside limit p ext → EndsPositive p ext →
      (∀ j, mx j ≤ i) →
      ∃ mx', markCopies (blocksOf limit) ext i p mx = .ok mx' ∧
        (∀ j, mx j ≤ mx' j) ∧
        (∀ k q n j, (placed p ext)[k]? = some (q, n) → q / blockSize ≤ j → blockSize * j < q + n →
          j < blocksOf limit ∧ i + k ≤ mx' j) ∧
        (∀ j, mx' j = mx j ∨ ∃ k q n, (placed p ext)[k]? = some (q, n) ∧ mx' j = i + k ∧
          q / blockSize ≤ j ∧ blockSize * j < q + n) := by
  have hbs : blockSize = 8192 := rfl
  intro ext
  induction ext with
  | nil =>
    intro i p mx _ _ _
    exact ⟨mx, rfl, fun _ => Nat.le_refl _, by simp [placed], fun j => Or.inl rfl⟩
  | cons c ext ih =>
    intro i p mx hc he hmx
    obtain ⟨w, n⟩ := c
    obtain ⟨q, hq, hql, hrest⟩ := hc
    obtain ⟨he1, he2⟩ := he
    have hq' : ((p : Int) + s32 w).toNat = q := by omega
    rw [hq'] at he1 he2
    have hoff : addS32 p w = q := addS32_nat _ _ _ hq.symm (by omega)
    have hbo : blocksOf ((q + n) % 2^64) = (q + n - 1) / blockSize + 1 := by
      rw [Nat.mod_eq_of_lt (by omega), blocksOf_pos (by omega) (by omega)]
    have hnb : blocksOf limit = (limit - 1) / blockSize + 1 := blocksOf_pos hl0 (by omega)
    have hle : (q + n - 1) / blockSize ≤ (limit - 1) / blockSize := Nat.div_le_div_right (by omega)
    rw [markCopies]
    simp only [hoff, hbo]
    have hd1 : q / blockSize ≤ (q + n - 1) / blockSize + 1 := by rw [hbs]; omega
    obtain ⟨mx1, m1, m2⟩ := markBlocks_spec (blocksOf limit) i ((q + n - 1) / blockSize + 1 - q / blockSize)
      (q / blockSize) mx (by omega)
    rw [m1, Out.bind_ok, Nat.mod_eq_of_lt (show q + n < 2^64 by omega)]
    have hmx1 : ∀ j, mx1 j ≤ i := by
      intro j
      rw [m2 j]
      split
      · exact Nat.le_refl _
      · exact hmx j
    have hmono : ∀ j, mx j ≤ mx1 j := by
      intro j
      rw [m2 j]
      split
      · exact hmx j
      · exact Nat.le_refl _
    obtain ⟨mx', r1, r2, r3, r4⟩ := ih (i + 1) (q + n) mx1 hrest he2 (fun j => Nat.le_succ_of_le (hmx1 j))
    refine ⟨mx', r1, fun j => Nat.le_trans (hmono j) (r2 j), ?_, ?_⟩
    · intro k q1 n1 j hk hj1 hj2
      cases k with
      | zero =>
        simp only [placed, hq', List.getElem?_cons_zero, Option.some.injEq, Prod.mk.injEq] at hk
        obtain ⟨rfl, rfl⟩ := hk
        have hj3 : j ≤ (q + n - 1) / blockSize := by
          rw [Nat.le_div_iff_mul_le (by decide)]
          rw [Nat.mul_comm]
          omega
        refine ⟨by omega, ?_⟩
        have := r2 j
        rw [m2 j, if_pos ⟨hj1, by omega⟩] at this
        omega
      | succ k =>
        simp only [placed, hq', List.getElem?_cons_succ] at hk
        obtain ⟨a1, a2⟩ := r3 k q1 n1 j hk hj1 hj2
        exact ⟨a1, by omega⟩
    · intro j
      rcases r4 j with h | ⟨k, q1, n1, h1, h2, h3, h4⟩
      · rw [h, m2 j]
        split
        · rename_i hj
          right
          refine ⟨0, q, n, by simp [placed, hq'], by omega, hj.1, ?_⟩
          have hj3 : j ≤ (q + n - 1) / blockSize := by omega
          rw [Nat.le_div_iff_mul_le (by decide)] at hj3
          rw [Nat.mul_comm]
          omega
        · left; rfl
      · right
        exact ⟨k + 1, q1, n1, by simpa [placed, hq'] using h1, by omega, h3, h4⟩

theorem ready_of_placed (cfg : CacheCfg) (limit : Nat) :
    ∀ (ext : List (Nat × Nat)) (i p : Nat), CopiesInside limit p ext →
      (∀ k q n j, (placed p ext)[k]? = some (q, n) → q / blockSize ≤ j → blockSize * j < q + n →
        j < cfg.nblk ∧ i + k ≤ cfg.max j) → Ready cfg limit i p ext := by
  intro ext
  induction ext with
  | nil => intro i p _ _; trivial
  | cons c ext ih =>
    intro i p hc h
    obtain ⟨w, n⟩ := c
    obtain ⟨q, hq, hql, hrest⟩ := hc
    have hq' : ((p : Int) + s32 w).toNat = q := by omega
    refine ⟨q, hq, hql, ?_, ih (i + 1) (q + n) hrest ?_⟩
    · intro j h1 h2
      have := h 0 q n j (by simp [placed, hq']) h1 h2
      simpa using this
    · intro k q1 n1 j hk h1 h2
      have := h (k + 1) q1 n1 j (by simpa [placed, hq'] using hk) h1 h2
      omega

end Drpm
