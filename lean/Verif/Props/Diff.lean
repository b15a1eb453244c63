import Verif.WalkLemmas
/-!
# Delta generation and reconstruction (C01-C06)

`makeDiff` models `make_diff` with the hash search; `reconWrites (flatNext old)` models the loop of
`drpm_apply` that executes a delta against the old payload (`flatNext` delivers the old payload
block by block; `Props/Blocks.lean` shows that the block cache delivers the same).
-/

namespace Drpm

/-- C01, C02 with the weakest hypothesis: making the delta succeeds, and unless some matched region
    has 2 GiB or more (see `C06_violated`) executing its copies, internal data and add data against
    the old payload yields exactly the new payload. `addblk = true` is the default mode, `addblk =
    false` the one of `drpm_make_options_forbid_addblk`. -/
theorem C01_C02_roundtrip_regions (old new : Bytes) (addblk : Bool) (hn : 16 ≤ new.length)
    (hold : old.length < 2^63) (hnew : new.length < 2^63) :
    ∃ d, makeDiff old new addblk = .ok d ∧
      ((∀ r ∈ d.regions, r.oldLen < 2^31) →
        ∃ ws, reconWrites (flatNext old) () addblk d.ext d.int d.intData.flatten d.addWrites.flatten
          = .ok ws ∧ ws.flatten = new) := by
  obtain ⟨d, e, hR, e2, e3⟩ := makeDiff_spec old new addblk hn hnew
  refine ⟨d, e, fun hlt => ?_⟩
  obtain ⟨s', k1, k2, _⟩ := regions_recon old new addblk hold hnew d.regions hlt _ _ _ _ hR e2 e3
  exact ⟨s'.out, by unfold reconWrites; rw [k1]; rfl, k2⟩

/-- C01. With add block (the default): for every old and new payload, at least one of them smaller
    than 2 GiB, making the delta succeeds and executing it gives back the new payload. -/
theorem C01_roundtrip (old new : Bytes) (hn : 16 ≤ new.length)
    (hold : old.length < 2^63) (hnew : new.length < 2^63)
    (hsmall : old.length < 2^31 ∨ new.length < 2^31) :
    ∃ d ws, makeDiff old new true = .ok d ∧
      reconWrites (flatNext old) () true d.ext d.int d.intData.flatten d.addWrites.flatten = .ok ws ∧
      ws.flatten = new := by
  obtain ⟨d, e, hR, e2, e3⟩ := makeDiff_spec old new true hn hnew
  obtain ⟨s', k1, k2, _⟩ := regions_recon old new true hold hnew d.regions
    (fun r hr => by have := hR.bounds r hr; omega) _ _ _ _ hR e2 e3
  exact ⟨d, s'.out, e, by unfold reconWrites; rw [k1]; rfl, k2⟩

/-- C02. Without add block: the delta has no add data, and executing it as exact copies gives back
    the new payload. -/
theorem C02_roundtrip (old new : Bytes) (hn : 16 ≤ new.length)
    (hold : old.length < 2^63) (hnew : new.length < 2^63)
    (hsmall : old.length < 2^31 ∨ new.length < 2^31) :
    ∃ d ws, makeDiff old new false = .ok d ∧ d.addWrites.flatten = [] ∧
      reconWrites (flatNext old) () false d.ext d.int d.intData.flatten [] = .ok ws ∧
      ws.flatten = new := by
  obtain ⟨d, e, hR, e2, e3⟩ := makeDiff_spec old new false hn hnew
  have hadd : d.addWrites.flatten = [] := by
    have : ∀ rs add p, RegionsOK old new false rs add p → add = [] := by
      intro rs
      induction rs with
      | nil => intro add p h; exact h.2
      | cons r rs ih =>
        intro add p h
        obtain ⟨_, _, _, rest, h4, h5⟩ := h
        simp only [Bool.false_eq_true, if_false] at h4
        rw [h4.1]
        exact ih _ _ h5
    exact this _ _ _ hR
  obtain ⟨s', k1, k2, _⟩ := regions_recon old new false hold hnew d.regions
    (fun r hr => by have := hR.bounds r hr; omega) _ _ _ _ hR e2 e3
  refine ⟨d, s'.out, e, hadd, ?_, k2⟩
  rw [hadd] at k1
  unfold reconWrites
  rw [k1]
  rfl

/-- Non-vacuity: two payloads that share a block, so that the search really finds a match. -/
def sampleOld : Bytes := (List.range 80).map UInt8.ofNat
def sampleNew : Bytes := [200, 201, 202] ++ sampleOld.drop 16 ++ [7, 7]

example : 16 ≤ sampleNew.length ∧ sampleOld.length < 2^31 ∧ sampleNew.length < 2^63 := by decide

set_option maxRecDepth 100000 in
example : (makeDiff sampleOld sampleNew true).okAnd (fun d => !d.ext.isEmpty && !d.int.isEmpty) = true := by
  decide +kernel

/-- C03. For every old payload and every new payload of at least 16 bytes, computing the difference
    (index, search, regions, copy lists, internal data) runs to completion within the stated fuel
    and without any access outside the payloads or the table, with and without add block. -/
theorem C03_terminates_in_bounds_partial (old new : Bytes) (addblk : Bool) (hn : 16 ≤ new.length)
    (hnew : new.length < 2^63) : ∃ d, makeDiff old new addblk = .ok d := by
  obtain ⟨d, e, _⟩ := makeDiff_spec old new addblk hn hnew
  exact ⟨d, e⟩

/-- C03 is false for short new payloads: for each new payload of 1 to 15 bytes the code reads
    outside it (`new_len - HSIZE` wraps around). -/
theorem C03_violated (old new : Bytes) (addblk : Bool) (h1 : 1 ≤ new.length) (h2 : new.length ≤ 15) :
    makeDiff old new addblk = .ub := by
  obtain ⟨h, hh, hk⟩ := hashCreate_ok old
  unfold makeDiff makeDiffWith
  rw [hh, Out.bind_ok]
  have hsearch : ∀ lo, hashSearch h old new lo 0 = .ub := by
    intro lo
    unfold hashSearch startHash
    rw [if_pos (by omega)]
    have : rdBlk new 0 hsize = .ub := by
      unfold rdBlk
      rw [if_neg (by simp only [hsize]; omega)]
    rw [this]
    rfl
  have : diffLoop (hashSearch h old new) old new addblk (diffFuel new.length) ⟨0, 0, 0, 0, 0⟩ = .ub := by
    unfold diffFuel diffLoop
    rw [if_pos (by simp only; omega)]
    unfold diffStep
    simp only [Nat.add_zero]
    rw [hsearch]
    rfl
  rw [this]
  rfl

example : makeDiff [] [1, 2, 3] true = .ub := C03_violated _ _ _ (by decide) (by decide)

/-- C04. Every answer of the search is either "end of the new payload" or a match that starts at or
    after the requested position, has at least 32 bytes, lies inside both payloads and is equal in
    both. -/
theorem C04_matches_real (old new : Bytes) (hn : 16 ≤ new.length) (hnew : new.length < 2^64)
    (h : Hash) (hh : hashCreate old = .ok h) (lastOff scan : Nat) (hs : scan ≤ new.length) :
    ∃ newPos oldPos len, hashSearch h old new lastOff scan = .ok (newPos, oldPos, len) ∧
      ((newPos = new.length ∧ oldPos = 0 ∧ len = 0) ∨
       (scan ≤ newPos ∧ 32 ≤ len ∧ newPos + len ≤ new.length ∧ oldPos + len ≤ old.length ∧
        ∀ i < len, old[oldPos + i]? = new[newPos + i]?)) := by
  obtain ⟨h', hh', hk⟩ := hashCreate_ok old
  rw [hh] at hh'
  cases hh'
  obtain ⟨⟨a, b, c⟩, e, hg⟩ := hashSearch_ok h old new lastOff scan hk hn hnew hs
  refine ⟨a, b, c, e, ?_⟩
  rcases hg with hg | ⟨g1, g2, g3, g4, g5⟩
  · left
    simpa using hg
  · right
    refine ⟨g1, g2, g3, g4, fun i hi => ?_⟩
    simp only at g5
    have := congrArg (fun l => l[i]?) g5
    simpa [slice_getElem?, hi] using this

/-- The index is always created, so the hypothesis of `C04_matches_real` can be met. -/
example (old : Bytes) : ∃ h, hashCreate old = .ok h := (hashCreate_ok old).imp fun _ h => h.1

/-- C05. Sliding the hash by one byte equals hashing the new window, for every window. -/
theorem C05_rolling (b x : UInt8) (w : Bytes) (hw : w.length = 15) :
    rollHash (buzhash (b :: w)) b x = buzhash (w ++ [x]) := rollHash_window b x w hw

/-- C05 at every step of every search: whenever the search looks up its current hash, it is the
    hash of the 16 bytes at the current position. -/
theorem C05_search_state (old new : Bytes) (h : Hash) (hh : hashCreate old = .ok h) (lastOff s0 : Nat)
    (hn : 16 ≤ new.length) (hnew : new.length < 2^64) (s s' : SearchSt)
    (hi : SearchInv old new s0 s) (hs : searchStep h old new lastOff s = .ok (.cont s'))
    (hin : s'.scan + 16 < new.length) : s'.prekey = buzhash (slice new s'.scan 16) := by
  obtain ⟨h', hh', hk⟩ := hashCreate_ok old
  rw [hh] at hh'
  cases hh'
  obtain ⟨r, e, hr⟩ := searchStep_ok h old new lastOff s0 s hk hn hnew hi
  rw [hs] at e
  cases e
  exact hr.1.roll hin

example : (List.replicate 15 (3 : UInt8)).length = 15 := rfl

/-- C06, external copies. For any regions inside the old payload, each shorter than 2 GiB, and any
    distances between them, walking the emitted copies reads exactly the regions, in order; no
    seek is -2^31 (C08) and all lengths fit 31 bits. -/
theorem C06_walk_partial (old : Bytes) (rs : List DiffCopy)
    (hr : ∀ r ∈ rs, r.oldLen < 2^31 ∧ r.oldOff + r.oldLen ≤ old.length) :
    ∃ ext int, createDiffCopies rs = .ok (ext, int) ∧
      walkCopies old 0 ext = some (regionBytes old rs) ∧
      (∀ c ∈ ext, c.1 < 2^32 ∧ c.1 ≠ 2^31 ∧ c.2 < 2^31) := by
  obtain ⟨e, i, h1, h2, h3, _⟩ := copiesLoop_walk old rs 0 0 (by omega) hr
  exact ⟨e, i, h1, h2, h3⟩

/-- C06, internal copies: together they announce every external copy exactly once and carry exactly
    the internal bytes of the regions. -/
theorem C06_internal (rs : List DiffCopy) (hr : ∀ r ∈ rs, r.oldLen < 2^31) :
    ∃ ext int, createDiffCopies rs = .ok (ext, int) ∧
      (int.map Prod.fst).sum = ext.length ∧
      (int.map Prod.snd).sum = (rs.map (·.newLen)).sum ∧ (∀ c ∈ int, c.2 < 2^31) := by
  have hb : ∃ n, ∀ r ∈ rs, r.oldOff + r.oldLen ≤ n := by
    clear hr
    induction rs with
    | nil => exact ⟨0, by simp⟩
    | cons r rs ih =>
      obtain ⟨n, hn⟩ := ih
      refine ⟨n + (r.oldOff + r.oldLen), fun x hx => ?_⟩
      simp only [List.mem_cons] at hx
      rcases hx with rfl | hx
      · omega
      · have := hn x hx; omega
  obtain ⟨n, hn⟩ := hb
  obtain ⟨e, i, h1, _, _, h4, h5, h6⟩ := copiesLoop_walk (List.replicate n 0) rs 0 0 (by omega)
    (fun r hr' => ⟨hr r hr', by simpa using hn r hr'⟩)
  exact ⟨e, i, h1, by simpa using h4, h5, h6⟩

/-- Non-vacuity of C06 with a far jump forwards and backwards. -/
example : ∃ ext int, createDiffCopies [⟨5000000000, 100, 100, 3⟩, ⟨7, 50, 153, 0⟩] = .ok (ext, int) ∧
    ext.length = 6 ∧ int = [(3, 3), (3, 0)] := ⟨_, _, rfl, by decide, by decide⟩

/-- C06: regions reached by a seek, 2 GiB long, followed by another region. -/
def hugeRegions : List DiffCopy := [⟨1, 2^31, 2^31, 0⟩, ⟨1, 1, 2^31 + 1, 0⟩]

/-- C06 is false for regions of 2 GiB and more: the copies emitted for `hugeRegions` read, at the
    end, the byte at offset 2 of the old payload where the regions ask for the byte at offset 1. -/
theorem C06_violated (old : Bytes) (h : 2^31 + 1 ≤ old.length) (hne : old[1]? ≠ old[2]?) :
    ∃ ext int, createDiffCopies hugeRegions = .ok (ext, int) ∧
      walkCopies old 0 ext ≠ some (regionBytes old hugeRegions) := by
  refine ⟨[(1, 2147483647), (0, 1), (2147483649, 1)], [(3, 0)], by decide +kernel, ?_⟩
  have hw1 : s32 1 = 1 := by decide
  have hw2 : s32 0 = 0 := by decide
  have hw3 : s32 2147483649 = -2147483647 := by decide
  unfold hugeRegions regionBytes
  rw [show (2 ^ 31 : Nat) = 2147483647 + 1 from rfl] at h ⊢
  obtain ⟨M, hM⟩ : ∃ M, M = 2147483647 := ⟨_, rfl⟩
  rw [← hM] at h ⊢
  simp only [walkCopies, hw1, hw2, hw3]
  rw [if_pos (by omega), if_pos (by omega), if_pos (by omega)]
  simp only [Option.map_some, ne_eq, Option.some.injEq, List.flatMap_cons, List.flatMap_nil,
    List.append_nil]
  have p1 : (((0 : Nat) : Int) + 1).toNat = 1 := by omega
  have p2 : (((1 + M : Nat) : Int) + 0).toNat = 1 + M := by omega
  have p3 : (((1 + M + 1 : Nat) : Int) + -2147483647).toNat = 2 := by omega
  rw [p1, p2, p3, ← slice_append_slice old 1 M 1, List.append_assoc]
  intro heq
  have heq := List.append_cancel_left (List.append_cancel_left heq)
  have := congrArg (fun l => l[0]?) heq
  simp only [slice_getElem?] at this
  exact hne (by simpa using this.symm)

example (n : Nat) : ∃ old : Bytes, n + 1 ≤ old.length ∧ old[1]? ≠ old[2]? :=
  ⟨[0, 1, 2] ++ List.replicate n 0, by simp, by simp⟩

end Drpm
