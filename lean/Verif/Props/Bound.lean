import Verif.BoundLemmas
/-!
# C94: applying a delta needs bounded resources, whatever the delta

Nothing is assumed about the delta, the old package or the installed files: the requests are any
requests, in any order, and the source of the blocks may deliver anything.
-/

namespace Drpm

/-- The states the block cache can be in after any sequence of successful requests. -/
inductive Reached {σ : Type} (next : BlockProvider σ) (c0 : σ) : σ → Prop where
  | init : Reached next c0 c0
  | step {c c' : σ} {b : Bytes} (off len cnt id : Nat) : Reached next c0 c → next c off len cnt id = .ok (b, c') → Reached next c0 c'

/-- What is held: at most `mem` blocks in memory, at most `disk` blocks described and stored in the
    temporary file (there is nothing behind them). -/
structure Held {σ : Type} (mem disk : Nat) (c : Cache σ) : Prop where
  memory : c.core.length + c.free.length ≤ mem
  pages : c.pages.length ≤ disk
  file : ∀ k, disk ≤ k → c.pageFile k = []

theorem CacheBound.held {σ : Type} {cfg : CacheCfg} {I : σ → Prop} {c : Cache σ} (h : CacheBound cfg I c) :
    Held cfg.maxCore cfg.nblk c := by
  have hl : c.pages.length ≤ cfg.nblk := by
    have := nodup_length_le cfg.nblk _ h.ids (fun x hx => by
      rw [List.mem_map] at hx
      obtain ⟨p, hp, rfl⟩ := hx
      exact (h.inside p hp).1)
    rwa [List.length_map] at this
  exact ⟨by rw [h.count]; exact h.limit, hl, fun k hk => h.clean k (by rw [← h.pages]; omega)⟩

theorem Reached.bound {σ : Type} {cfg : CacheCfg} {I : σ → Prop} {fill : Filler σ} (hf : FillBound cfg I fill) {c0 c : Cache σ}
    (h0 : CacheBound cfg I c0) (h : Reached (blocksNext cfg fill) c0 c) : CacheBound cfg I c := by
  induction h with
  | init => exact h0
  | step off len cnt id _ hs ih => exact blocksNext_bound hf ih hs

theorem blocksCreate_sizes {n : Nat} {exts : List (Nat × Nat)} {cfg : CacheCfg} (h : blocksCreate n exts = .ok cfg) :
    cfg.nblk = blocksOf n ∧ cfg.maxCore = maxCoreBlocks := by
  unfold blocksCreate at h
  split at h
  · cases h
  · rw [Out.bind_eq_ok] at h
    obtain ⟨mx, _, h⟩ := h
    cases h
    exact ⟨rfl, rfl⟩

/-- C94 for any size of the cache. -/
theorem C94_cache {σ : Type} (cfg : CacheCfg) (step : σ → Out (Bytes × σ)) (s : σ) (cleanup : Nat) (c : Cache σ)
    (h : Reached (blocksNext cfg (rpmFiller cfg step)) (emptyCache s cleanup) c) : Held cfg.maxCore cfg.nblk c :=
  (h.bound (I := fun _ => True) (rpmFiller_bound (fun _ _ _ _ _ => trivial)) (cacheBound_init trivial cleanup)).held

/-- C94 for old packages (both kinds of deltas): never more than 5000 blocks of 8 KiB in memory, and
    never more in the temporary file than there are blocks of old data. -/
theorem C94_package {σ : Type} (size : Nat) (copies : List (Nat × Nat)) (cfg : CacheCfg) (hc : blocksCreate size copies = .ok cfg)
    (step : σ → Out (Bytes × σ)) (s : σ) (cleanup : Nat) (c : Cache σ)
    (h : Reached (blocksNext cfg (rpmFiller cfg step)) (emptyCache s cleanup) c) : Held 5000 (blocksOf size) c := by
  have := C94_cache cfg step s cleanup c h
  rwa [(blocksCreate_sizes hc).1, (blocksCreate_sizes hc).2] at this

/-- C94 for installed files, prelinked or not: in addition at most 50 files are open, no descriptor is
    listed twice, and the table refers to open files only. -/
theorem C94_installed (size : Nat) (copies : List (Nat × Nat)) (cfg : CacheCfg) (hc : blocksCreate size copies = .ok cfg)
    (r : FsIn) (cleanup : Nat) (c : Cache FsSt)
    (h : Reached (blocksNext cfg (diskFiller cfg r)) (emptyCache FsSt.init cleanup) c) :
    Held 5000 (blocksOf size) c ∧ c.src.order.length ≤ 50 ∧ c.src.order.Nodup ∧ ∀ i a, c.src.tab i = some a → a ∈ c.src.order := by
  have hb := h.bound (I := FsBound) diskFiller_bound (cacheBound_init fsBound_init cleanup)
  have := hb.held
  rw [(blocksCreate_sizes hc).1, (blocksCreate_sizes hc).2] at this
  exact ⟨this, by rw [hb.src.len]; exact hb.src.limit, hb.src.nodup, hb.src.tab⟩

theorem extCopyLoop_reached {σ : Type} {next : BlockProvider σ} {c0 : σ} {useAdd : Bool} : ∀ (fuel : Nat) {len id : Nat} {s s' : ReconSt σ},
    Reached next c0 s.blk → extCopyLoop next useAdd fuel len id s = .ok s' → Reached next c0 s'.blk := by
  intro fuel
  induction fuel with
  | zero => intro len id s s' _ h; cases h
  | succ n ih =>
    intro len id s s' hr h
    rw [extCopyLoop] at h
    split at h
    · rw [Out.bind_eq_ok] at h
      obtain ⟨⟨b, c⟩, hn, h⟩ := h
      simp only at h
      rw [Out.bind_eq_ok] at h
      obtain ⟨⟨b', add⟩, _, h⟩ := h
      exact ih (hr.step _ _ _ _ hn) h
    · cases h; exact hr

theorem extCopies_reached {σ : Type} {next : BlockProvider σ} {c0 : σ} {useAdd : Bool} : ∀ (l : List (Nat × Nat)) {s s' : ReconSt σ},
    Reached next c0 s.blk → extCopies next useAdd l s = .ok s' → Reached next c0 s'.blk := by
  intro l
  induction l with
  | nil => intro s s' hr h; cases h; exact hr
  | cons x l ih =>
    intro s s' hr h
    rw [extCopies, Out.bind_eq_ok] at h
    obtain ⟨s1, h1, h⟩ := h
    have k := extCopyLoop_reached (c0 := c0) _ (s := { s with extOff := addS32 s.extOff x.1 }) hr h1
    exact ih (s := { s1 with done := s1.done + 1 }) k h

/-- C94: the cache with which applying a delta ends is one of these states. -/
theorem C94_apply {σ : Type} (next : BlockProvider σ) (c0 : σ) (useAdd : Bool) : ∀ (ints ext : List (Nat × Nat)) (data : Bytes) (s s' : ReconSt σ),
    Reached next c0 s.blk → reconLoop next useAdd ints ext data s = .ok s' → Reached next c0 s'.blk := by
  intro ints
  induction ints with
  | nil => intro ext data s s' hr h; cases h; exact hr
  | cons x l ih =>
    intro ext data s s' hr h
    rw [reconLoop] at h
    split at h
    · cases h
    · rw [Out.bind_eq_ok] at h
      obtain ⟨s1, h1, h⟩ := h
      rw [Out.bind_eq_ok] at h
      obtain ⟨d, _, h⟩ := h
      have k := extCopies_reached _ hr h1
      exact ih _ _ { s1 with out := s1.out ++ [d] } _ k h

/-- A cache of two blocks over five blocks of old data, read forwards and backwards: both blocks in
    memory and blocks in the temporary file are used, within the bounds and not less. -/
def boundDemo : Out (ReconSt (Cache Nat)) := do
  let cfg ← blocksCreate 40000 [(0, 5), (8190, 5), (8190, 5), (8190, 5), (8190, 5), (4294934523, 5), (8190, 5), (16380, 5)]
  let cfg := { cfg with maxCore := 2 }
  reconLoop (blocksNext cfg (rpmFiller cfg (fun k : Nat => .ok (List.replicate 8192 (UInt8.ofNat k), k + 1)))) false
    [(8, 0)] [(0, 5), (8190, 5), (8190, 5), (8190, 5), (8190, 5), (4294934523, 5), (8190, 5), (16380, 5)] []
    ⟨emptyCache 0 0, 0, 0, [], []⟩

example : Out.okAnd boundDemo (fun s => s.blk.core.length + s.blk.free.length == 2 && decide (0 < s.blk.pages.length) &&
    (s.blk.pageFile 0).length == 8192) = true := by
  decide +kernel

end Drpm
