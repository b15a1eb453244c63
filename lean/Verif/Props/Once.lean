import Verif.CacheOnce
import Verif.Props.Blocks
/-!
# Applying reads every block of the installed files at most once (C85)
-/

namespace Drpm

/-- A source that notes which blocks it was asked for. -/
def logged {σ : Type} (step : σ → Nat → Out (Bytes × σ)) (s : σ × List Nat) (id : Nat) : Out (Bytes × (σ × List Nat)) := do
  let (b, s') ← step s.1 id
  .ok (b, s', s.2 ++ [id])

theorem once_invariant {σ : Type} (step : σ → Nat → Out (Bytes × σ)) (init : σ) (data : Bytes)
    (hsrc : ServesBlocks step init data) (h0 : 0 < data.length) (hl : data.length < 2^63)
    (ext ints : List (Nat × Nat)) (hi : CopiesInside data.length 0 ext) (he : EndsPositive 0 ext)
    (limit : Nat) (hlim : data.length ≤ 8192 * limit) (cleanup : Nat) (cfg : CacheCfg)
    (hc : tablesFor data.length ext limit = .ok cfg) (useAdd : Bool) (intData add : Bytes) (s : ReconSt (Cache (σ × List Nat)))
    (hs : reconLoop (blocksNext cfg (fsFiller (logged step))) useAdd ints ext intData
      ⟨emptyCache (init, []) cleanup, 0, 0, add, []⟩ = .ok s) :
    ∃ I : σ → Prop, Roomy cfg (dataBlock data) (fun L (x : σ × List Nat) => I x.1 ∧ x.2 = L)
      (firstUses (blocksAsked 0 ext)) s.blk (requests s.done s.extOff (ext.drop (ints.map Prod.fst).sum)) := by
  obtain ⟨hr, hm, hn⟩ := ready_of_create h0 hl hi he hc
  obtain ⟨I, i0, hI⟩ := hsrc
  refine ⟨I, ?_⟩
  have hfill : FillsOnce cfg (dataBlock data) (fun L (x : σ × List Nat) => I x.1 ∧ x.2 = L)
      (firstUses (blocksAsked 0 ext)) (fsFiller (logged step)) := by
    rintro c a id cnt L hid - ⟨hs1, hs2⟩
    obtain ⟨s', e1, e2⟩ := hI c.src.1 id hs1 (by rw [hn] at hid; omega)
    refine ⟨(s', L ++ [id]), ?_, e2, rfl⟩
    unfold fsFiller logged
    rw [e1, Out.bind_ok, hs2]
    rfl
  rw [← requests_blocks ext 0 0] at hfill ⊢
  exact reconLoop_fed (feeds_roomy hfill (by rw [hn, hm]; omega) (fun k _ => dataBlock_length _ k))
    (fun k _ => dataBlock_length _ k) (fun k _ => dataBlock_prefix _ k) hl useAdd ints ext intData
    ⟨emptyCache (init, []) cleanup, 0, 0, add, []⟩ s hi
    (roomy_init (I := fun L (x : σ × List Nat) => I x.1 ∧ x.2 = L) ⟨i0, rfl⟩ (requests_sorted ext 0 0) (requests_ready ext 0 0 hr)) hs

/-- C85. If the external data fit into the cache (5000 blocks of 8192 bytes in the library), then
    whatever the copies, the internal data, the add block and the cleanup counter: the blocks asked of
    the installed files are some of those that the copies need, each once, in the order in which they
    are needed first. -/
theorem C85_once {σ : Type} (step : σ → Nat → Out (Bytes × σ)) (init : σ) (data : Bytes)
    (hsrc : ServesBlocks step init data) (h0 : 0 < data.length) (hl : data.length < 2^63)
    (ext ints : List (Nat × Nat)) (hi : CopiesInside data.length 0 ext) (he : EndsPositive 0 ext)
    (limit : Nat) (hlim : data.length ≤ 8192 * limit) (cleanup : Nat) (cfg : CacheCfg)
    (hc : tablesFor data.length ext limit = .ok cfg) (useAdd : Bool) (intData add : Bytes) (s : ReconSt (Cache (σ × List Nat)))
    (hs : reconLoop (blocksNext cfg (fsFiller (logged step))) useAdd ints ext intData
      ⟨emptyCache (init, []) cleanup, 0, 0, add, []⟩ = .ok s) :
    s.blk.src.2.Nodup ∧ s.blk.src.2 <+: firstUses (blocksAsked 0 ext) := by
  obtain ⟨I, L, _, _, h3, _, _, _, hF⟩ := once_invariant step init data hsrc h0 hl ext ints hi he limit hlim cleanup cfg hc
    useAdd intData add s hs
  rw [h3.2]
  have hp : L <+: firstUses (blocksAsked 0 ext) := by rw [hF]; exact List.prefix_append _ _
  exact ⟨(hp.sublist.nodup (firstUses_nodup _)), hp⟩

/-- C85, when all external copies are made (as in every delta that `drpm_make` writes): exactly the
    blocks that are needed are read. -/
theorem C85_all {σ : Type} (step : σ → Nat → Out (Bytes × σ)) (init : σ) (data : Bytes)
    (hsrc : ServesBlocks step init data) (h0 : 0 < data.length) (hl : data.length < 2^63)
    (ext ints : List (Nat × Nat)) (hi : CopiesInside data.length 0 ext) (he : EndsPositive 0 ext)
    (limit : Nat) (hlim : data.length ≤ 8192 * limit) (cleanup : Nat) (cfg : CacheCfg)
    (hc : tablesFor data.length ext limit = .ok cfg) (useAdd : Bool) (intData add : Bytes) (s : ReconSt (Cache (σ × List Nat)))
    (hs : reconLoop (blocksNext cfg (fsFiller (logged step))) useAdd ints ext intData
      ⟨emptyCache (init, []) cleanup, 0, 0, add, []⟩ = .ok s) (hall : (ints.map Prod.fst).sum = ext.length) :
    s.blk.src.2 = firstUses (blocksAsked 0 ext) := by
  obtain ⟨I, L, _, _, h3, _, _, _, hF⟩ := once_invariant step init data hsrc h0 hl ext ints hi he limit hlim cleanup cfg hc
    useAdd intData add s hs
  rw [h3.2, hF, hall, List.drop_length]
  simp [requests, firstUses]

/-- Reading from one byte string. -/
def stringStep (data : Bytes) (_ : Unit) (id : Nat) : Out (Bytes × Unit) := .ok (dataBlock data id, ())

/-- Non-vacuity of C85: 51 blocks, and copies that go back and forth; `stringStep` serves the blocks. -/
example : ServesBlocks (stringStep (zeros 417000)) () (zeros 417000) ∧
    CopiesInside 417000 0 [(8190, 5), (2^32 - 100, 9000), (300000, 10), (2^32 - 317095, 8300)] ∧
    EndsPositive 0 [(8190, 5), (2^32 - 100, 9000), (300000, 10), (2^32 - 317095, 8300)] ∧ 417000 ≤ 8192 * maxCoreBlocks ∧
    firstUses (blocksAsked 0 [(8190, 5), (2^32 - 100, 9000), (300000, 10), (2^32 - 317095, 8300)]) = [0, 1, 2, 38] := by
  refine ⟨⟨fun _ => True, trivial, fun _ k _ _ => ⟨(), rfl, trivial⟩⟩,
    ⟨8190, by decide, by decide, 8095, by decide, by decide, 317095, by decide, by decide, 10, by decide, by decide, trivial⟩,
    ⟨by decide, by decide, by decide, by decide, trivial⟩, by decide, by decide +kernel⟩

/-- Non-vacuity of C85, computed: a run of the loop with a small cache limit, and what was read. -/
example : Out.okAnd (tablesFor 20000 [(8190, 5), (2^32 - 100, 9000), (0, 20)] 3) (fun cfg =>
    Out.okAnd (reconLoop (blocksNext cfg (fsFiller (logged (stringStep (zeros 20000))))) false [(3, 0)]
      [(8190, 5), (2^32 - 100, 9000), (0, 20)] [] ⟨emptyCache ((), []) 7, 0, 0, [], []⟩) (fun s => s.blk.src.2 == [0, 1, 2])) = true := by
  decide +kernel

/-- With a cache that is too small blocks are read again: the limit is needed. -/
theorem C85_limit : Out.okAnd (tablesFor 20000 [(0, 5), (8190, 5), (2^32 - 8200, 5)] 1) (fun cfg =>
    Out.okAnd (reconLoop (blocksNext cfg (fsFiller (logged (stringStep (zeros 20000))))) false [(3, 0)]
      [(0, 5), (8190, 5), (2^32 - 8200, 5)] [] ⟨emptyCache ((), []) 7, 0, 0, [], []⟩) (fun s => s.blk.src.2 == [0, 1, 0])) = true := by
  decide +kernel

end Drpm
