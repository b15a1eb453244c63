import Verif.OnceSpec
import Verif.CacheRefine
import Verif.OpenFilesLemmas
/-!
# A cache that is large enough asks for every block once
-/

namespace Drpm

variable {σ : Type}

/-! ## The requests -/

/-- The requests made of the cache: number of the copy and number of the block. -/
def requests : Nat → Nat → List (Nat × Nat) → List (Nat × Nat)
  | _, _, [] => []
  | i, p, (w, n) :: rest =>
    (rangeBlocks ((p : Int) + s32 w).toNat n).map (fun j => (i, j)) ++ requests (i + 1) (((p : Int) + s32 w).toNat + n) rest

theorem requests_blocks : ∀ (ext : List (Nat × Nat)) (i p : Nat), (requests i p ext).map Prod.snd = blocksAsked p ext := by
  intro ext
  induction ext with
  | nil => intro i p; rfl
  | cons x ext ih =>
    intro i p
    obtain ⟨w, n⟩ := x
    rw [requests, blocksAsked, List.map_append, ih, List.map_map]
    congr 1
    exact List.map_id _

theorem rangeBlocks_mem {q n j : Nat} (h : j ∈ rangeBlocks q n) : q / blockSize ≤ j ∧ blockSize * j < q + n := by
  have hbs : blockSize = 8192 := rfl
  unfold rangeBlocks at h
  split at h
  · cases h
  · rw [List.mem_range'_1] at h
    rw [hbs]
    omega

theorem rangeBlocks_step {q n b : Nat} (hn : 0 < n) (hb : b = min n (8192 - q % 8192)) :
    rangeBlocks q n = q / 8192 :: rangeBlocks (q + b) (n - b) := by
  unfold rangeBlocks
  rw [if_neg (by omega), List.range'_succ]
  congr 1
  by_cases h : n - b = 0
  · rw [if_pos h]
    have : (q + n - 1) / 8192 - q / 8192 = 0 := by omega
    rw [this]; rfl
  · rw [if_neg h]
    have e1 : (q + b) / 8192 = q / 8192 + 1 := by omega
    have e2 : q + b + (n - b) - 1 = q + n - 1 := by omega
    rw [e1, e2]
    congr 1
    omega

/-- The order of time. -/
def Before (x y : Nat × Nat) : Prop := x.1 < y.1 ∨ (x.1 = y.1 ∧ x.2 < y.2)

theorem requests_first : ∀ (ext : List (Nat × Nat)) (i p : Nat), ∀ x ∈ requests i p ext, i ≤ x.1 := by
  intro ext
  induction ext with
  | nil => intro i p x hx; cases hx
  | cons c ext ih =>
    intro i p x hx
    obtain ⟨w, n⟩ := c
    rw [requests, List.mem_append, List.mem_map] at hx
    rcases hx with ⟨j, _, rfl⟩ | hx
    · exact Nat.le_refl _
    · have := ih _ _ x hx; omega

theorem requests_sorted : ∀ (ext : List (Nat × Nat)) (i p : Nat), (requests i p ext).Pairwise Before := by
  intro ext
  induction ext with
  | nil => intro i p; exact List.Pairwise.nil
  | cons c ext ih =>
    intro i p
    obtain ⟨w, n⟩ := c
    rw [requests, List.pairwise_append]
    refine ⟨?_, ih _ _, ?_⟩
    · rw [List.pairwise_map]
      unfold rangeBlocks
      split
      · exact List.Pairwise.nil
      · exact (List.pairwise_lt_range' (s := ((p : Int) + s32 w).toNat / 8192) (n := (((p : Int) + s32 w).toNat + n - 1) / 8192 - ((p : Int) + s32 w).toNat / 8192 + 1) 1 (by decide)).imp (fun h => Or.inr ⟨rfl, h⟩)
    · intro x hx y hy
      obtain ⟨j, _, rfl⟩ := List.mem_map.mp hx
      have := requests_first ext _ _ y hy
      exact Or.inl (by simp only; omega)

theorem requests_ready {cfg : CacheCfg} {limit : Nat} : ∀ (ext : List (Nat × Nat)) (i p : Nat), Ready cfg limit i p ext →
    ∀ x ∈ requests i p ext, x.2 < cfg.nblk ∧ x.1 ≤ cfg.max x.2 := by
  intro ext
  induction ext with
  | nil => intro i p _ x hx; cases hx
  | cons c ext ih =>
    intro i p hr x hx
    obtain ⟨w, n⟩ := c
    obtain ⟨q, q1, q2, q3, q4⟩ := hr
    have hq : ((p : Int) + s32 w).toNat = q := by omega
    rw [requests, hq, List.mem_append, List.mem_map] at hx
    rcases hx with ⟨j, hj, rfl⟩ | hx
    · obtain ⟨h1, h2⟩ := rangeBlocks_mem hj
      exact q3 j h1 h2
    · exact ih _ _ q4 x hx

/-! ## The loop over a cache that serves these requests -/

/-- What is needed of an invariant `K` of the cache, for the requests to come. -/
def Feeds (cfg : CacheCfg) (B : Nat → Bytes) (fill : Filler σ) (K : Cache σ → List (Nat × Nat) → Prop) : Prop :=
  ∀ (c : Cache σ) (off len cnt id : Nat) (rem : List (Nat × Nat)), K c ((cnt, id) :: rem) → len + blockSize < 2^64 →
    id < cfg.nblk ∧ ∃ c', blocksNext cfg fill c off len cnt id =
        .ok (slice (B id) (off % blockSize) (min len (blockSize - off % blockSize)), c') ∧ K c' rem

variable {cfg : CacheCfg} {B : Nat → Bytes} {fill : Filler σ} {K : Cache σ → List (Nat × Nat) → Prop} {old : Bytes}

theorem blocksNext_feed (hK : Feeds cfg B fill K)
    (hB : ∀ k, k < cfg.nblk → (B k).length = blockSize)
    (hBo : ∀ k, k < cfg.nblk → slice old (blockSize * k) blockSize <+: B k)
    (hold : old.length < 2^63) {c : Cache σ} {off len cnt : Nat} {rem : List (Nat × Nat)}
    (h : K c ((cnt, blockId off) :: rem)) (hlen : off + len ≤ old.length) :
    ∃ b c', blocksNext cfg fill c off len cnt (blockId off) = .ok (b, c') ∧
      flatNext old () off len cnt (blockId off) = .ok (b, ()) ∧
      b.length = min len (blockSize - off % blockSize) ∧ K c' rem := by
  have hbs : blockSize = 8192 := rfl
  obtain ⟨hr, c', h1, h2⟩ := hK c off len cnt (blockId off) rem h (by omega)
  have hdm := Nat.div_add_mod off blockSize
  have hlt : off % blockSize < blockSize := Nat.mod_lt _ (by decide)
  have hn : min (blockSize * (blockId off + 1) - off) len = min len (blockSize - off % blockSize) := by
    unfold blockId
    rw [Nat.mul_add, Nat.mul_one]
    omega
  refine ⟨_, c', h1, ?_, ?_, h2⟩
  · unfold flatNext
    simp only
    rw [hn, if_pos ⟨trivial, by omega⟩]
    have hs : off % blockSize + min len (blockSize - off % blockSize) ≤
        (slice old (blockSize * blockId off) blockSize).length := by
      simp only [slice, List.length_take, List.length_drop]
      unfold blockId
      omega
    rw [slice_prefix (hBo _ hr) _ _ hs]
    unfold slice blockId
    rw [List.drop_take, List.take_take, List.drop_drop, hdm]
    congr 3
    omega
  · simp only [slice, List.length_take, List.length_drop]; rw [hB _ hr]; omega

theorem extCopyLoop_feed (hK : Feeds cfg B fill K)
    (hB : ∀ k, k < cfg.nblk → (B k).length = blockSize)
    (hBo : ∀ k, k < cfg.nblk → slice old (blockSize * k) blockSize <+: B k)
    (hold : old.length < 2^63) (useAdd : Bool) (rem : List (Nat × Nat)) :
    ∀ fuel len (t : ReconSt (Cache σ)), len < fuel → t.extOff + len ≤ old.length →
      K t.blk ((rangeBlocks t.extOff len).map (fun j => (t.done, j)) ++ rem) →
      (∃ t', extCopyLoop (blocksNext cfg fill) useAdd fuel len (blockId t.extOff) t = .ok t' ∧
        extCopyLoop (flatNext old) useAdd fuel len (blockId t.extOff) t.flat = .ok t'.flat ∧
        t'.extOff = t.extOff + len ∧ t'.done = t.done ∧ K t'.blk rem) ∨
      (extCopyLoop (blocksNext cfg fill) useAdd fuel len (blockId t.extOff) t = .err .format ∧
        extCopyLoop (flatNext old) useAdd fuel len (blockId t.extOff) t.flat = .err .format) := by
  have hbs : blockSize = 8192 := rfl
  intro fuel
  induction fuel with
  | zero => intro len t hf; omega
  | succ fuel ih =>
    intro len t hf hlen hc
    by_cases h0 : len > 0
    rotate_left
    · left
      have : len = 0 := by omega
      subst this
      rw [extCopyLoop, if_neg h0, extCopyLoop, if_neg h0]
      exact ⟨t, rfl, rfl, by omega, rfl, hc⟩
    · have hdm := Nat.div_add_mod t.extOff blockSize
      have hlt : t.extOff % blockSize < blockSize := Nat.mod_lt _ (by decide)
      rw [rangeBlocks_step (b := min len (blockSize - t.extOff % blockSize)) h0 rfl, List.map_cons] at hc
      obtain ⟨b, c', e1, e2, hbl, hc'⟩ := blocksNext_feed (off := t.extOff) (len := len) hK hB hBo hold hc hlen
      rw [← hbl] at hc'
      rw [extCopyLoop, if_pos h0, e1, Out.bind_ok, extCopyLoop, if_pos h0]
      have e2' : flatNext old t.flat.blk t.flat.extOff len t.flat.done (blockId t.extOff) = .ok (b, ()) := e2
      rw [e2', Out.bind_ok]
      simp only
      show _ ∨ (_ ∧ (applyAdd useAdd b t.add >>= _) = _)
      rcases ha : applyAdd useAdd b t.add with ⟨chunk', add'⟩ | e | _ | _
      · simp only [ReconSt.flat, ha, Out.bind_ok]
        have hw1 : (len + 2 ^ 64 - b.length) % 2 ^ 64 = len - b.length := by omega
        have hw2 : (t.extOff + b.length) % 2 ^ 64 = t.extOff + b.length := Nat.mod_eq_of_lt (by omega)
        rw [hw1, hw2]
        by_cases hlast : len - b.length = 0
        · have hbl' : b.length = len := by omega
          have hfu : ∃ f, fuel = f + 1 := ⟨fuel - 1, by omega⟩
          obtain ⟨f, rfl⟩ := hfu
          rw [hlast] at hc' ⊢
          left
          rw [extCopyLoop, if_neg (by omega), extCopyLoop, if_neg (by omega)]
          exact ⟨_, rfl, rfl, by simp only [hbl'], rfl, hc'⟩
        · have hbl' : b.length = blockSize - t.extOff % blockSize := by omega
          have hid : blockId t.extOff + 1 = blockId (t.extOff + b.length) := by
            unfold blockId
            rw [hbl', show t.extOff + (blockSize - t.extOff % blockSize) =
              blockSize * (t.extOff / blockSize + 1) by rw [Nat.mul_add, Nat.mul_one]; omega]
            rw [Nat.mul_div_cancel_left _ (by decide)]
          rw [hid]
          have := ih (len - b.length)
            { blk := c', extOff := t.extOff + b.length, done := t.done, add := add', out := t.out ++ [chunk'] }
            (by omega) (by simp only; omega) hc'
          simp only [ReconSt.flat] at this
          rcases this with ⟨t', f1, f2, f3, f4, f5⟩ | ⟨f1, f2⟩
          · left
            exact ⟨t', f1, f2, by rw [f3]; omega, f4, f5⟩
          · right; exact ⟨f1, f2⟩
      · right
        have he : e = .format := by
          unfold applyAdd at ha
          split at ha
          · split at ha <;> cases ha; rfl
          · cases ha
        simp only [Out.bind_err, he]
        trivial
      · exfalso
        unfold applyAdd at ha
        split at ha
        · split at ha <;> cases ha
        · cases ha
      · exfalso
        unfold applyAdd at ha
        split at ha
        · split at ha <;> cases ha
        · cases ha

theorem extCopies_feed (hK : Feeds cfg B fill K)
    (hB : ∀ k, k < cfg.nblk → (B k).length = blockSize)
    (hBo : ∀ k, k < cfg.nblk → slice old (blockSize * k) blockSize <+: B k)
    (hold : old.length < 2^63) (useAdd : Bool) (l2 : List (Nat × Nat)) :
    ∀ (l1 : List (Nat × Nat)) (t : ReconSt (Cache σ)), CopiesInside old.length t.extOff (l1 ++ l2) →
      K t.blk (requests t.done t.extOff (l1 ++ l2)) →
      (∃ t', extCopies (blocksNext cfg fill) useAdd l1 t = .ok t' ∧
        extCopies (flatNext old) useAdd l1 t.flat = .ok t'.flat ∧
        CopiesInside old.length t'.extOff l2 ∧ K t'.blk (requests t'.done t'.extOff l2)) ∨
      (extCopies (blocksNext cfg fill) useAdd l1 t = .err .format ∧
        extCopies (flatNext old) useAdd l1 t.flat = .err .format) := by
  intro l1
  induction l1 with
  | nil =>
    intro t hr hc
    left
    exact ⟨t, rfl, rfl, hr, hc⟩
  | cons c l1 ih =>
    intro t hr hc
    obtain ⟨w, n⟩ := c
    obtain ⟨q, hq, hql, hrest⟩ := hr
    have hoff : addS32 t.extOff w = q := addS32_nat _ _ _ hq.symm (by omega)
    have hqn : ((t.extOff : Int) + s32 w).toNat = q := by omega
    rw [List.cons_append, requests, hqn] at hc
    rw [extCopies, extCopies]
    simp only [ReconSt.flat, hoff]
    have := extCopyLoop_feed hK hB hBo hold useAdd _ (n + 1) n { t with extOff := q } (by omega) hql hc
    simp only [ReconSt.flat] at this
    rcases this with ⟨t', f1, f2, f3, f4, f5⟩ | ⟨f1, f2⟩
    · rw [f1, f2, Out.bind_ok, Out.bind_ok]
      have := ih { t' with done := t'.done + 1 } (by
          simp only [f3]
          exact hrest) (by simp only [f3, f4]; exact f5)
      simpa only [ReconSt.flat] using this
    · right
      rw [f1, f2]
      exact ⟨rfl, rfl⟩

theorem reconLoop_feed (hK : Feeds cfg B fill K)
    (hB : ∀ k, k < cfg.nblk → (B k).length = blockSize)
    (hBo : ∀ k, k < cfg.nblk → slice old (blockSize * k) blockSize <+: B k)
    (hold : old.length < 2^63) (useAdd : Bool) :
    ∀ (ints : List (Nat × Nat)) (ext : List (Nat × Nat)) (intData : Bytes) (t : ReconSt (Cache σ)),
      CopiesInside old.length t.extOff ext → K t.blk (requests t.done t.extOff ext) →
      (reconLoop (blocksNext cfg fill) useAdd ints ext intData t >>= fun s => .ok s.out) =
      (reconLoop (flatNext old) useAdd ints ext intData t.flat >>= fun s => .ok s.out) := by
  intro ints
  induction ints with
  | nil => intro ext intData t _ _; rfl
  | cons c ints ih =>
    intro ext intData t hr hc
    obtain ⟨todo, len⟩ := c
    rw [reconLoop, reconLoop]
    by_cases ht : todo > ext.length
    · rw [if_pos ht, if_pos ht]
      rfl
    · rw [if_neg ht, if_neg ht]
      have := extCopies_feed hK hB hBo hold useAdd (ext.drop todo) (ext.take todo) t
        (by rw [List.take_append_drop]; exact hr) (by rw [List.take_append_drop]; exact hc)
      rcases this with ⟨t', f1, f2, f3, f4⟩ | ⟨f1, f2⟩
      · rw [f1, f2, Out.bind_ok, Out.bind_ok]
        rcases rdBlk intData 0 len with d | e | _ | _
        · simp only [Out.bind_ok]
          exact ih (ext.drop todo) (intData.drop len) { t' with out := t'.out ++ [d] } f3 f4
        · rfl
        · rfl
        · rfl
      · rw [f1, f2]
        rfl

/-- The state at the end: the requests of the copies that were made are done. -/
theorem reconLoop_fed (hK : Feeds cfg B fill K)
    (hB : ∀ k, k < cfg.nblk → (B k).length = blockSize)
    (hBo : ∀ k, k < cfg.nblk → slice old (blockSize * k) blockSize <+: B k)
    (hold : old.length < 2^63) (useAdd : Bool) :
    ∀ (ints : List (Nat × Nat)) (ext : List (Nat × Nat)) (intData : Bytes) (t s : ReconSt (Cache σ)),
      CopiesInside old.length t.extOff ext → K t.blk (requests t.done t.extOff ext) →
      reconLoop (blocksNext cfg fill) useAdd ints ext intData t = .ok s →
      K s.blk (requests s.done s.extOff (ext.drop (ints.map Prod.fst).sum)) := by
  intro ints
  induction ints with
  | nil =>
    intro ext intData t s _ hc h
    rw [reconLoop] at h
    cases h
    exact hc
  | cons c ints ih =>
    intro ext intData t s hr hc h
    obtain ⟨todo, len⟩ := c
    rw [reconLoop] at h
    by_cases ht : todo > ext.length
    · rw [if_pos ht] at h; cases h
    · rw [if_neg ht] at h
      have := extCopies_feed hK hB hBo hold useAdd (ext.drop todo) (ext.take todo) t
        (by rw [List.take_append_drop]; exact hr) (by rw [List.take_append_drop]; exact hc)
      rcases this with ⟨t', f1, _, f3, f4⟩ | ⟨f1, _⟩
      · rw [f1, Out.bind_ok, Out.bind_eq_ok] at h
        obtain ⟨d, _, h⟩ := h
        have := ih (ext.drop todo) (intData.drop len) { t' with out := t'.out ++ [d] } s f3 f4 h
        rw [List.drop_drop] at this
        exact this
      · rw [f1] at h
        cases h

/-! ## A cache that has room for every block -/

/-- Every core block is one of the blocks filled so far (`L`), and the table leads to it. `hole` is a
    core block that is being filled. -/
structure RInv (cfg : CacheCfg) (B : Nat → Bytes) (L : List Nat) (c : Cache σ) (hole : Option Nat) : Prop where
  nodup : (c.core ++ c.free).Nodup
  lt : ∀ a ∈ c.core ++ c.free, a < c.next
  count : c.coreCount = c.core.length + c.free.length
  core : ∀ a ∈ c.core, hole ≠ some a → (c.heap a).type = .nopage ∧ (c.heap a).id < cfg.nblk ∧ (c.heap a).id ∈ L ∧
    (c.heap a).buf = B (c.heap a).id ∧ c.table (c.heap a).id = some a
  tab : ∀ j a, c.table j = some a → a ∈ c.core ∧ hole ≠ some a ∧ (c.heap a).id = j

theorem RInv.setMisc {L : List Nat} {c : Cache σ} {hole : Option Nat} (h : RInv cfg B L c hole) (l : Option Nat) (n r : Nat)
    (s : σ) : RInv cfg B L { c with last := l, cleanup := n, rpmId := r, src := s } hole :=
  { nodup := h.nodup, lt := h.lt, count := h.count, core := h.core, tab := h.tab }

/-- A block without use from now on. -/
def Dead (cfg : CacheCfg) (cnt id j : Nat) : Prop := cfg.max j < cnt ∨ (j < id ∧ cfg.max j = cnt)

/-- What obtaining an empty core block may change: blocks without further use may be given up. -/
structure RGrab (cfg : CacheCfg) (B : Nat → Bytes) (L : List Nat) (c0 c : Cache σ) (a cnt id : Nat) : Prop extends
    RInv cfg B L c (some a) where
  mem : a ∈ c.core
  source : c.src = c0.src
  kept : ∀ j, c0.table j ≠ none → c.table j ≠ none ∨ Dead cfg cnt id j
  gone : ∀ j, c0.table j = none → c.table j = none

theorem getFree_rgrab {L : List Nat} {c : Cache σ} {a cnt id : Nat} {rest : List Nat}
    (h : RInv cfg B L c none) (hf : c.free = a :: rest) :
    RGrab cfg B L c { c with free := rest, core := a :: c.core } a cnt id := by
  have hperm : (a :: c.core ++ rest).Perm (c.core ++ c.free) := by
    rw [hf]
    exact List.perm_middle.symm
  have hcore : ∀ x ∈ c.core, a ≠ x := fun x hx e =>
    (List.nodup_append.mp h.nodup).2.2 x hx a (by rw [hf]; simp) e.symm
  exact
  { nodup := hperm.nodup_iff.mpr h.nodup
    lt := fun x hx => h.lt x (hperm.mem_iff.mp hx)
    count := by
      have := h.count
      simp only [hf, List.length_cons] at this ⊢
      omega
    core := by
      intro x hx hne
      rcases List.mem_cons.mp hx with rfl | hx
      · exact absurd rfl hne
      · exact h.core x hx (by simp)
    tab := by
      intro j x hx
      obtain ⟨h1, _, h3⟩ := h.tab j x hx
      exact ⟨List.mem_cons_of_mem _ h1, (fun e => hcore x h1 (Option.some.inj e)), h3⟩
    mem := List.mem_cons_self
    source := rfl
    kept := fun j hj => Or.inl hj
    gone := fun j hj => hj }

theorem newCore_rgrab {L : List Nat} {c : Cache σ} {cnt id : Nat} (h : RInv cfg B L c none) :
    RGrab cfg B L c (newCore c).2 (newCore c).1 cnt id := by
  have hnc : ∀ x ∈ c.core, x ≠ c.next := fun x hx e => by
    have := h.lt x (List.mem_append_left _ hx); omega
  exact
  { nodup := by
      simp only [newCore, List.cons_append, List.nodup_cons]
      exact ⟨fun hm => by have := h.lt _ hm; omega, h.nodup⟩
    lt := by
      intro x hx
      simp only [newCore, List.cons_append, List.mem_cons] at hx ⊢
      rcases hx with rfl | hx
      · omega
      · have := h.lt x hx; omega
    count := by simp only [newCore, List.length_cons]; have := h.count; omega
    core := by
      intro x hx hne
      simp only [newCore, List.mem_cons] at hx
      rcases hx with rfl | hx
      · exact absurd rfl hne
      · have := hnc x hx
        simp only [newCore, upd, if_neg this]
        exact h.core x hx (by simp)
    tab := by
      intro j x hx
      obtain ⟨h1, _, h3⟩ := h.tab j x hx
      have := hnc x h1
      refine ⟨by simp [newCore, h1], fun e => this (Option.some.inj e).symm, ?_⟩
      simp only [newCore, upd, if_neg this]
      exact h3
    mem := by simp [newCore]
    source := rfl
    kept := fun j hj => Or.inl hj
    gone := fun j hj => hj }

theorem cleanScan_rinv {L : List Nat} {c : Cache σ} {cnt id : Nat} (h : RInv cfg B L c none) :
    ∀ rest seen, c.core = seen ++ rest →
      ∃ c', cleanScan cfg c id cnt seen rest = .ok c' ∧ RInv cfg B L c' none ∧ c'.src = c.src ∧
        (∀ j, c.table j ≠ none → c'.table j ≠ none ∨ Dead cfg cnt id j) ∧ (∀ j, c.table j = none → c'.table j = none) := by
  intro rest
  induction rest with
  | nil => intro seen _; exact ⟨c, rfl, h, rfl, fun j hj => Or.inl hj, fun j hj => hj⟩
  | cons a rest ih =>
    intro seen hs
    have ha : a ∈ c.core := by rw [hs]; simp
    obtain ⟨t1, t2, t3, t4, t5⟩ := h.core a ha (by simp)
    rw [cleanScan]
    unfold maxRd
    rw [if_pos t2, Out.bind_ok]
    by_cases hd : cfg.max (c.heap a).id < cnt ∨ ((c.heap a).id < id ∧ cfg.max (c.heap a).id = cnt)
    · rw [if_pos hd]
      unfold tabWr
      rw [if_pos t2]
      have hperm : (seen ++ rest ++ (a :: c.free)).Perm (c.core ++ c.free) := by
        rw [hs, List.append_assoc, List.append_assoc]
        apply List.Perm.append_left
        rw [List.cons_append]
        exact List.perm_middle
      have hnd : a ∉ seen ++ rest := by
        have := (List.nodup_append.mp h.nodup).1
        rw [hs] at this
        have := (List.perm_middle.nodup_iff).mp this
        exact (List.nodup_cons.mp this).1
      refine ⟨_, rfl, ?_, rfl, ?_, ?_⟩
      · exact
        { nodup := hperm.nodup_iff.mpr h.nodup
          lt := fun x hx => h.lt x (hperm.mem_iff.mp hx)
          count := by
            have := h.count
            simp only [hs, List.length_append, List.length_cons] at this ⊢
            omega
          core := by
            intro x hx _
            have hxa : x ≠ a := fun e => hnd (e ▸ hx)
            have hxc : x ∈ c.core := by
              rw [hs]
              have hx : x ∈ seen ++ rest := hx
              simp only [List.mem_append, List.mem_cons] at hx ⊢
              rcases hx with hx | hx
              · exact Or.inl hx
              · exact Or.inr (Or.inr hx)
            obtain ⟨g1, g2, g3, g4, g5⟩ := h.core x hxc (by simp)
            simp only [upd, if_neg hxa]
            refine ⟨g1, g2, g3, g4, ?_⟩
            rw [if_neg (fun e => hxa ?_)]
            · exact g5
            · rw [e, t5] at g5
              exact (Option.some.inj g5).symm
          tab := by
            intro j x hx
            simp only [upd] at hx
            split at hx
            · cases hx
            · rename_i hj
              obtain ⟨g1, g2, g3⟩ := h.tab j x hx
              have hxa : x ≠ a := fun e => hj (by rw [← g3, e])
              refine ⟨?_, by simp, ?_⟩
              · show x ∈ seen ++ rest
                rw [hs] at g1
                simp only [List.mem_append, List.mem_cons] at g1 ⊢
                rcases g1 with g1 | g1 | g1
                · exact Or.inl g1
                · exact absurd g1 hxa
                · exact Or.inr g1
              · simp only [upd, if_neg hxa]
                exact g3 }
      · intro j hj
        by_cases hja : j = (c.heap a).id
        · right; rw [hja]; exact hd
        · left
          simp only [upd, if_neg hja]
          exact hj
      · intro j hj
        simp only [upd]
        split
        · rfl
        · exact hj
    · rw [if_neg hd]
      exact ih (seen ++ [a]) (by rw [hs]; simp)

/-- If block `id` is not in memory, not all blocks are. -/
theorem RInv.room {L : List Nat} {c : Cache σ} {id : Nat} (h : RInv cfg B L c none) (hid : id < cfg.nblk)
    (ht : c.table id = none) (hfree : c.free = []) : c.coreCount < cfg.nblk := by
  have hnd := (List.nodup_append.mp h.nodup).1
  have hinj : ∀ x ∈ c.core, ∀ y ∈ c.core, (c.heap x).id = (c.heap y).id → x = y := by
    intro x hx y hy e
    have h1 := (h.core x hx (by simp)).2.2.2.2
    have h2 := (h.core y hy (by simp)).2.2.2.2
    rw [e, h2] at h1
    exact (Option.some.inj h1).symm
  have hm : (c.core.map (fun a => (c.heap a).id)).Nodup := by
    rw [List.nodup_iff_pairwise_ne, List.pairwise_map]
    refine (List.Pairwise.and_mem.mp (List.nodup_iff_pairwise_ne.mp hnd)).imp ?_
    intro x y hxy e
    exact hxy.2.2 (hinj x hxy.1 y hxy.2.1 e)
  have := length_le_of_nodup_subset (id :: c.core.map (fun a => (c.heap a).id)) (List.range cfg.nblk) (by
      rw [List.nodup_cons]
      refine ⟨?_, hm⟩
      rw [List.mem_map]
      rintro ⟨a, ha, e⟩
      have := (h.core a ha (by simp)).2.2.2.2
      rw [e, ht] at this
      cases this) (by
      intro x hx
      rw [List.mem_range]
      rcases List.mem_cons.mp hx with rfl | hx
      · exact hid
      · obtain ⟨a, ha, rfl⟩ := List.mem_map.mp hx
        exact (h.core a ha (by simp)).2.1)
  rw [List.length_cons, List.length_map, List.length_range] at this
  have hc := h.count
  rw [hfree, List.length_nil] at hc
  omega

theorem grabBlock_rinv {L : List Nat} {c : Cache σ} {cnt id : Nat} (hroomy : cfg.nblk ≤ cfg.maxCore)
    (h : RInv cfg B L c none) (hid : id < cfg.nblk) (ht : c.table id = none) :
    ∃ a c', grabBlock cfg c id cnt = .ok (a, c') ∧ RGrab cfg B L c c' a cnt id := by
  unfold grabBlock
  have hget : ∀ (c : Cache σ) a rest, c.free = a :: rest → getFree c = some (a, { c with free := rest, core := a :: c.core }) := by
    intro c a rest e; unfold getFree; rw [e]
  have hget0 : ∀ (c : Cache σ), c.free = [] → getFree c = none := by
    intro c e; unfold getFree; rw [e]
  have hcases : c.free = [] ∨ ∃ a rest, c.free = a :: rest := by
    cases c.free with
    | nil => exact Or.inl rfl
    | cons a rest => exact Or.inr ⟨a, rest, rfl⟩
  rcases hcases with hf | ⟨a, rest, hf⟩
  rotate_left
  · rw [hget c a rest hf]
    exact ⟨_, _, rfl, getFree_rgrab h hf⟩
  · rw [hget0 c hf]
    have hroom := h.room hid ht hf
    have hlt : c.coreCount < cfg.maxCore := by omega
    simp only
    by_cases hcl : c.coreCount < cfg.maxCore ∧ (c.cleanup + 1) % 2 ^ 64 % 8 ≠ 0
    · rw [if_pos hcl]
      have g := newCore_rgrab (cnt := cnt) (id := id) (h.setMisc c.last ((c.cleanup + 1) % 2 ^ 64) c.rpmId c.src)
      exact ⟨_, _, rfl, ⟨g.toRInv, g.mem, g.source, g.kept, g.gone⟩⟩
    · rw [if_neg hcl, if_pos hlt]
      obtain ⟨c', e1, e2, e3, e4, e5⟩ := cleanScan_rinv (cnt := cnt) (id := id)
        (h.setMisc c.last ((c.cleanup + 1) % 2 ^ 64) c.rpmId c.src) c.core [] rfl
      rw [e1, Out.bind_ok]
      cases hf' : c'.free with
      | cons a rest =>
        rw [hget c' a rest hf']
        have g := getFree_rgrab (cnt := cnt) (id := id) e2 hf'
        exact ⟨_, _, rfl, ⟨g.toRInv, g.mem, g.source.trans e3, e4, e5⟩⟩
      | nil =>
        rw [hget0 c' hf']
        simp only
        have := e2.room hid (e5 id ht) hf'
        rw [if_pos (by omega)]
        have g := newCore_rgrab (cnt := cnt) (id := id) e2
        exact ⟨_, _, rfl, ⟨g.toRInv, g.mem, g.source.trans e3, e4, e5⟩⟩

/-! ## Filling every block once -/

/-- Blocks are filled in the order `F`, each leaving the source in a state that depends on the blocks
    filled so far. -/
def FillsOnce (cfg : CacheCfg) (B : Nat → Bytes) (I : List Nat → σ → Prop) (F : List Nat) (fill : Filler σ) : Prop :=
  ∀ (c : Cache σ) (a id cnt : Nat) (L : List Nat), id < cfg.nblk → L ++ [id] <+: F → I L c.src →
    ∃ s', fill c a id cnt = .ok { c with src := s', heap := upd c.heap a { c.heap a with type := .nopage, id := id, buf := B id } } ∧
      I (L ++ [id]) s'

/-- The cache, when `rem` are the requests still to come. -/
def Roomy (cfg : CacheCfg) (B : Nat → Bytes) (I : List Nat → σ → Prop) (F : List Nat) (c : Cache σ) (rem : List (Nat × Nat)) : Prop :=
  ∃ L, RInv cfg B L c none ∧ (∀ a, c.last = some a → a ∈ c.core) ∧ I L c.src ∧ rem.Pairwise Before ∧
    (∀ x ∈ rem, x.2 < cfg.nblk ∧ x.1 ≤ cfg.max x.2) ∧ (∀ x ∈ rem, x.2 ∈ L → c.table x.2 ≠ none) ∧
    F = L ++ (firstUses (rem.map Prod.snd)).filter (fun j => decide (j ∉ L))

theorem firstUses_cons_in {L : List Nat} {x : Nat} {xs : List Nat} (h : x ∈ L) :
    (firstUses (x :: xs)).filter (fun j => decide (j ∉ L)) = (firstUses xs).filter (fun j => decide (j ∉ L)) := by
  rw [firstUses, List.filter_cons_of_neg (by simpa using h), List.filter_filter]
  apply List.filter_congr
  intro y _
  by_cases hy : y ∈ L
  · simp [hy]
  · have : y ≠ x := fun e => hy (e ▸ h)
    simp [hy, this]

theorem firstUses_cons_out {L : List Nat} {x : Nat} {xs : List Nat} (h : x ∉ L) :
    L ++ (firstUses (x :: xs)).filter (fun j => decide (j ∉ L)) =
    (L ++ [x]) ++ (firstUses xs).filter (fun j => decide (j ∉ L ++ [x])) := by
  rw [firstUses, List.filter_cons_of_pos (by simpa using h), List.filter_filter, List.append_assoc]
  congr 1
  rw [List.singleton_append]
  congr 1
  apply List.filter_congr
  intro y _
  simp

theorem feeds_roomy {I : List Nat → σ → Prop} {F : List Nat} (hfill : FillsOnce cfg B I F fill)
    (hroomy : cfg.nblk ≤ cfg.maxCore) (hB : ∀ k, k < cfg.nblk → (B k).length = blockSize) :
    Feeds cfg B fill (Roomy cfg B I F) := by
  intro c off len cnt id rem ⟨L, hi, hla, hsrc, hsort, hreq, hav, hF⟩ hlen
  obtain ⟨hid, hmx⟩ := hreq (cnt, id) List.mem_cons_self
  simp only at hid hmx
  rw [List.pairwise_cons] at hsort
  refine ⟨hid, ?_⟩
  -- it is enough to find the block
  have key : ∀ a c', lastBlock cfg fill c cnt id = .ok (a, c') → (a ∈ c'.core ∧ (c'.heap a).id = id) →
      (∃ L', RInv cfg B L' c' none ∧ I L' c'.src ∧ (∀ x ∈ rem, x.2 ∈ L' → c'.table x.2 ≠ none) ∧
        F = L' ++ (firstUses (rem.map Prod.snd)).filter (fun j => decide (j ∉ L'))) →
      ∃ c', blocksNext cfg fill c off len cnt id =
        .ok (slice (B id) (off % blockSize) (min len (blockSize - off % blockSize)), c') ∧ Roomy cfg B I F c' rem := by
    intro a c' e1 ⟨e2, e3⟩ ⟨L', g1, g2, g3, g4⟩
    have hbuf : (c'.heap a).buf = B id := by
      have := (g1.core a e2 (by simp)).2.2.2.1
      rw [e3] at this; exact this
    have hlt : off % blockSize < blockSize := Nat.mod_lt _ (by decide)
    have hn : (if (off % blockSize + len) % 2 ^ 64 > blockSize then blockSize - off % blockSize else len) =
        min len (blockSize - off % blockSize) := by
      rw [Nat.mod_eq_of_lt (by omega)]
      split <;> omega
    unfold blocksNext
    rw [e1, Out.bind_ok]
    simp only
    rw [hn, hbuf, rdBlk_ok (by rw [hB id hid]; omega), Out.bind_ok]
    refine ⟨_, rfl, L', g1.setMisc (some a) c'.cleanup c'.rpmId c'.src, ?_, g2, hsort.2, fun x hx => hreq x (List.mem_cons_of_mem _ hx), g3, g4⟩
    intro x hx
    simp only [Option.some.injEq] at hx
    subst hx; exact e2
  have hin : ∀ a, a ∈ c.core → (c.heap a).id = id → lastBlock cfg fill c cnt id = .ok (a, c) →
      ∃ c', blocksNext cfg fill c off len cnt id =
        .ok (slice (B id) (off % blockSize) (min len (blockSize - off % blockSize)), c') ∧ Roomy cfg B I F c' rem := by
    intro a h1 h2 h3
    have hL : id ∈ L := by
      have := (hi.core a h1 (by simp)).2.2.1
      rw [h2] at this; exact this
    refine key a c h3 ⟨h1, h2⟩ ⟨L, hi, hsrc, fun x hx => hav x (List.mem_cons_of_mem _ hx), ?_⟩
    rw [hF, List.map_cons, firstUses_cons_in hL]
  have hfind : lastBlock cfg fill c cnt id = findBlock cfg fill c cnt id →
      ∃ c', blocksNext cfg fill c off len cnt id =
        .ok (slice (B id) (off % blockSize) (min len (blockSize - off % blockSize)), c') ∧ Roomy cfg B I F c' rem := by
    intro hl
    unfold findBlock tabRd at hl
    rw [if_pos hid, Out.bind_ok] at hl
    cases ht : c.table id with
    | some a =>
      rw [ht] at hl
      simp only at hl
      obtain ⟨h1, _, h3⟩ := hi.tab id a ht
      rw [if_neg (by rw [(hi.core a h1 (by simp)).1]; decide)] at hl
      exact hin a h1 h3 hl
    | none =>
      rw [ht] at hl
      simp only at hl
      have hL : id ∉ L := fun h => hav (cnt, id) List.mem_cons_self h ht
      obtain ⟨a, c1, e1, e2⟩ := grabBlock_rinv (cnt := cnt) hroomy (hi.setMisc none c.cleanup c.rpmId c.src) hid ht
      unfold getBlock at hl
      rw [e1, Out.bind_ok] at hl
      simp only at hl
      have ht1 := e2.gone id ht
      unfold loadBlock tabRd tabWr at hl
      rw [if_pos hid, Out.bind_ok, if_pos hid, Out.bind_ok, ht1] at hl
      simp only at hl
      obtain ⟨s', f1, f2⟩ := hfill { c1 with table := upd c1.table id (some a) } a id cnt L hid (by
        rw [hF, List.map_cons, firstUses_cons_out hL]
        exact List.prefix_append _ _) (by
        show I L c1.src
        rw [e2.source]
        exact hsrc)
      rw [f1, Out.bind_ok] at hl
      refine key _ _ hl ⟨e2.mem, by simp [upd]⟩ ⟨L ++ [id], ?_, f2, ?_, ?_⟩
      · exact
        { nodup := e2.nodup
          lt := e2.lt
          count := e2.count
          core := by
            intro x hx _
            by_cases hxa : x = a
            · subst hxa
              simp [upd, hid]
            · obtain ⟨g1, g2, g3, g4, g5⟩ := e2.core x hx (fun e => hxa (Option.some.inj e).symm)
              simp only [upd, if_neg hxa]
              refine ⟨g1, g2, List.mem_append_left _ g3, g4, ?_⟩
              rw [if_neg (fun e => ?_)]
              · exact g5
              · rw [e, ht1] at g5; cases g5
          tab := by
            intro j x hx
            simp only [upd] at hx
            split at hx
            · rename_i hj
              cases hx
              exact ⟨e2.mem, by simp, by simp [upd, hj]⟩
            · obtain ⟨g1, g2, g3⟩ := e2.tab j x hx
              have hxa : x ≠ a := fun e => g2 (by rw [e])
              refine ⟨g1, by simp, ?_⟩
              simp only [upd, if_neg hxa]
              exact g3 }
      · intro x hx hxL
        simp only [upd]
        split
        · simp
        · rename_i hne
          have hxL : x.2 ∈ L := by
            rcases List.mem_append.mp hxL with h | h
            · exact h
            · exact absurd (List.mem_singleton.mp h) hne
          rcases e2.kept x.2 (hav x (List.mem_cons_of_mem _ hx) hxL) with h | h
          · exact h
          · exfalso
            have h1 := hsort.1 x hx
            have h2 := (hreq x (List.mem_cons_of_mem _ hx)).2
            unfold Dead at h
            unfold Before at h1
            simp only at h1
            omega
      · rw [hF, List.map_cons, firstUses_cons_out hL]
  unfold lastBlock at hin hfind key
  cases hl : c.last with
  | none => exact hfind (by rw [hl])
  | some a =>
    by_cases he : id = (c.heap a).id
    · exact hin a (hla a hl) he.symm (by rw [hl]; simp only; rw [if_pos he])
    · exact hfind (by rw [hl]; simp only; rw [if_neg he])

theorem roomy_init {I : List Nat → σ → Prop} {src : σ} {cleanup : Nat} (hI : I [] src) {rem : List (Nat × Nat)}
    (hs : rem.Pairwise Before) (hr : ∀ x ∈ rem, x.2 < cfg.nblk ∧ x.1 ≤ cfg.max x.2) :
    Roomy cfg B I (firstUses (rem.map Prod.snd)) (emptyCache src cleanup) rem := by
  refine ⟨[], ?_, ?_, hI, hs, hr, ?_, ?_⟩
  · exact
    { nodup := by simp [emptyCache]
      lt := by simp [emptyCache]
      count := rfl
      core := by simp [emptyCache]
      tab := by simp [emptyCache] }
  · simp [emptyCache]
  · intro x _ h; cases h
  · rw [List.nil_append, List.filter_eq_self.mpr]
    intro a _
    simp

/-! ## Copies that never go back -/

theorem firstUses_mem {x : Nat} : ∀ {l : List Nat}, x ∈ firstUses l → x ∈ l := by
  intro l
  induction l with
  | nil => intro h; exact h
  | cons y l ih =>
    intro h
    rw [firstUses] at h
    rcases List.mem_cons.mp h with h | h
    · rw [h]; exact List.mem_cons_self
    · exact List.mem_cons_of_mem _ (ih (List.mem_filter.mp h).1)

theorem firstUses_nodup : ∀ (l : List Nat), (firstUses l).Nodup := by
  intro l
  induction l with
  | nil => exact List.nodup_nil
  | cons y l ih =>
    rw [firstUses, List.nodup_cons]
    refine ⟨?_, ih.filter _⟩
    intro h
    have := (List.mem_filter.mp h).2
    simp at this

theorem firstUses_sorted : ∀ (l : List Nat), l.Pairwise (fun a b => a ≤ b) → (firstUses l).Pairwise (fun a b => a < b) := by
  intro l
  induction l with
  | nil => intro _; exact List.Pairwise.nil
  | cons y l ih =>
    intro h
    rw [List.pairwise_cons] at h
    rw [firstUses, List.pairwise_cons]
    refine ⟨?_, (ih h.2).filter _⟩
    intro x hx
    obtain ⟨h1, h2⟩ := List.mem_filter.mp hx
    have := h.1 x (firstUses_mem h1)
    have : x ≠ y := by simpa using h2
    omega

theorem blocksAsked_from : ∀ (ext : List (Nat × Nat)) (p : Nat), Forward ext → ∀ j ∈ blocksAsked p ext, p / 8192 ≤ j := by
  intro ext
  induction ext with
  | nil => intro p _ j hj; cases hj
  | cons c ext ih =>
    intro p hf j hj
    obtain ⟨w, n⟩ := c
    have h0 := hf (w, n) List.mem_cons_self
    simp only at h0
    rw [blocksAsked, List.mem_append] at hj
    rcases hj with hj | hj
    · have h1 : ((p : Int) + s32 w).toNat / 8192 ≤ j := (rangeBlocks_mem hj).1
      omega
    · have := ih _ (fun x hx => hf x (List.mem_cons_of_mem _ hx)) j hj
      omega

theorem blocksAsked_sorted : ∀ (ext : List (Nat × Nat)) (p : Nat), Forward ext → (blocksAsked p ext).Pairwise (fun a b => a ≤ b) := by
  intro ext
  induction ext with
  | nil => intro p _; exact List.Pairwise.nil
  | cons c ext ih =>
    intro p hf
    obtain ⟨w, n⟩ := c
    have hf' : Forward ext := fun x hx => hf x (List.mem_cons_of_mem _ hx)
    rw [blocksAsked, List.pairwise_append]
    refine ⟨?_, ih _ hf', ?_⟩
    · unfold rangeBlocks
      split
      · exact List.Pairwise.nil
      · exact (List.pairwise_lt_range' (s := ((p : Int) + s32 w).toNat / 8192) (n := (((p : Int) + s32 w).toNat + n - 1) / 8192 - ((p : Int) + s32 w).toNat / 8192 + 1) 1 (by decide)).imp (fun h => Nat.le_of_lt h)
    · intro x hx y hy
      have h1 : 8192 * x < ((p : Int) + s32 w).toNat + n := (rangeBlocks_mem hx).2
      have h2 := blocksAsked_from ext _ hf' y hy
      omega

end Drpm
