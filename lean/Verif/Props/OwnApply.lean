import Verif.OwnApplyLemmas
import Verif.Props.Own

/-!
# C77: what applying a delta allocates, frees and forgets

As in C72-C75 the schedule decides everything: the delta, the old package or the installed files, which
blocks the cache has to page out, how the compression library behaves, which calls fail.
-/

namespace Drpm

/-- The calls whose failure makes `drpm_apply` free something that is not live, or use something freed:
allocating the tables of the block cache, opening the page file and writing to it, joining the header to
the compressed data. -/
def CacheCalls (s : Sched) : Prop :=
  s.Passes .blkTable ∧ s.Passes .blkMax ∧ s.Passes .blkCpio ∧ s.Passes .pageFile ∧
    s.Passes .pageWrite ∧ s.Passes .finishJoin

/-- And, with the installed files instead of an old package: exporting the header found in the rpm
database, copying the NEVR, an ELF file without a proper section name table, opening what `prelink`
wrote. -/
def InstalledCalls (s : Sched) : Prop :=
  s.Passes .dbExport ∧ s.Passes .nevrCopy ∧ s.Passes .elfStr ∧ s.Passes .prelinkOpen

/-- The calls whose failure makes `drpm_apply` forget something it holds: reading the head of a standard
delta, finding its compression and seeking behind it; decoding a chunk of a zstd stream; allocating the
structure of the cache; an unknown compression of the output, a parameter the zstd context does not take,
compressing a chunk, finishing. -/
def ApplyKeeps (s : Sched) : Prop :=
  s.Passes .stdRead ∧ s.Passes .stdComp ∧ s.Passes .stdSeek ∧ s.Passes .zstdChunk ∧
    s.Passes .blkSelf ∧ s.Passes .compKnown ∧ s.Passes .compParam ∧ s.Passes .compWrite ∧
    s.Passes .compFinish

/-- **C77**, the part that holds for an old package file.  For every schedule in which the calls of
`CacheCalls` do not fail, `drpm_apply` frees nothing that is not live, and if it succeeds, exactly what
was live before is live.  If it fails, and the calls of `ApplyKeeps` do not, then at most one thing is
left, and nothing if the output is not compressed. -/
theorem C77_package_partial (s : Sched) (h : Heap) (hok : h.Ok) (hc : CacheCalls s) :
    ∃ r h' lk, Own.drpmApply true s h = .ok (r, h') ∧ h'.Ok ∧ h'.live.Perm (lk ++ h.live) ∧
      (r = true → lk = []) ∧
      (ApplyKeeps s → lk.length ≤ 1) ∧
      (ApplyKeeps s → s.Never .compressed → lk = []) := by
  obtain ⟨c1, c2, c3, c4, c5, c6⟩ := hc
  obtain ⟨r, h', lk, he, hok', hl, h1, h2⟩ :=
    (Own.drpmApply_spec s true ⟨⟨c1, c2, c3, c4, c5⟩, c6, nofun, nofun⟩).run hok (base := h.live)
      (List.Perm.refl _)
  have kept : ApplyKeeps s → Own.ApplyKept s true := by
    rintro ⟨k1, k2, k3, k4, k5, k6, k7, k8, k9⟩
    exact ⟨⟨k1, k2, k3, k4⟩, ⟨k5, k4, k6, k7, k8, k9⟩, nofun⟩
  refine ⟨r, h', lk, he, hok', hl, fun h => ?_, fun h => (h2 (kept h)).1, fun h hn => ?_⟩
  · exact List.eq_nil_of_length_eq_zero (h1 h)
  · exact List.eq_nil_of_length_eq_zero (Nat.le_zero.mp ((h2 (kept h)).2 hn))

/-- **C77**, the part that holds for installed files.  If moreover the calls of `InstalledCalls` do not
fail, nothing is freed that is not live; but a success leaves exactly one block live that was not live
before.  A failure, if the calls of `ApplyKeeps` do not fail and the delta is a standard delta of a
binary package, leaves at most that block and one thing of the compression library. -/
theorem C77_installed_partial (s : Sched) (h : Heap) (hok : h.Ok) (hc : CacheCalls s)
    (hi : InstalledCalls s) :
    ∃ r h' lk, Own.drpmApply false s h = .ok (r, h') ∧ h'.Ok ∧ h'.live.Perm (lk ++ h.live) ∧
      (r = true → lk.length = 1) ∧
      (ApplyKeeps s → s.Never .rpmonly → s.Passes .applyArgs → lk.length ≤ 2) ∧
      (ApplyKeeps s → s.Never .rpmonly → s.Passes .applyArgs → s.Never .compressed →
        lk.length ≤ 1) := by
  obtain ⟨c1, c2, c3, c4, c5, c6⟩ := hc
  obtain ⟨i1, i2, i3, i4⟩ := hi
  obtain ⟨r, h', lk, he, hok', hl, h1, h2⟩ :=
    (Own.drpmApply_spec s false ⟨⟨c1, c2, c3, c4, c5⟩, c6, fun _ => ⟨i3, i4⟩,
      fun _ => ⟨i1, i2⟩⟩).run hok (base := h.live) (List.Perm.refl _)
  have kept : ApplyKeeps s → s.Never .rpmonly → s.Passes .applyArgs → Own.ApplyKept s false := by
    rintro ⟨k1, k2, k3, k4, k5, k6, k7, k8, k9⟩ hn ha
    exact ⟨⟨k1, k2, k3, k4⟩, ⟨k5, k4, k6, k7, k8, k9⟩, fun _ => ⟨ha, hn⟩⟩
  exact ⟨r, h', lk, he, hok', hl, h1, fun h hn ha => (h2 (kept h hn ha)).1,
    fun h hn ha => (h2 (kept h hn ha)).2⟩

/-- Everything passes; the delta is a standard delta, and the output is compressed or not. -/
def passing (compressed : Bool) : Sched := fun x _ =>
  if x = .rpmonly ∨ x = .compressed ∧ compressed = false then 0 else 1

theorem passing_passes {b : Bool} {x : Site} (h1 : x ≠ .rpmonly) (h2 : x ≠ .compressed) :
    (passing b).Passes x := fun _ => by simp [passing, h1, h2]

/-- Both hypotheses hold of schedules under which a package is reconstructed: from an old package, and
from installed files. -/
example : CacheCalls (passing true) ∧ InstalledCalls (passing true) ∧ ApplyKeeps (passing true) ∧
    (passing true).Never .rpmonly ∧ (passing true).Passes .applyArgs ∧
    (passing false).Never .compressed ∧
    ((Own.drpmApply true (passing true) {}).okAnd fun r => r.1 && r.2.live == []) = true ∧
    ((Own.drpmApply true (passing false) {}).okAnd fun r => r.1 && r.2.live == []) = true ∧
    ((Own.drpmApply false (passing true) {}).okAnd fun r =>
      r.1 && r.2.live.length == 1) = true := by
  refine ⟨⟨?_, ?_, ?_, ?_, ?_, ?_⟩, ⟨?_, ?_, ?_, ?_⟩, ⟨?_, ?_, ?_, ?_, ?_, ?_, ?_, ?_, ?_⟩, ?_, ?_, ?_,
    ?_, ?_, ?_⟩
  all_goals first
    | exact passing_passes nofun nofun
    | exact fun _ => rfl
    | decide +kernel

/-- The call ends without undefined behaviour, reports a failure, and leaves `n` things live. -/
def leaves (n : Nat) (x : Out (Bool × Heap)) : Bool :=
  x.okAnd fun r => !r.1 && r.2.live.length == n

/-- **C77 is violated**: with an old package and a standard delta, each of these failures leaves
something live that nobody can free any more. -/
theorem C77_violated_leak :
    leaves 1 (Own.drpmApply true (failing .stdRead 5 false) {}) = true ∧
    leaves 3 (Own.drpmApply true (failing .stdComp 0 false) {}) = true ∧
    leaves 3 (Own.drpmApply true (failing .stdSeek 0 false) {}) = true ∧
    leaves 1 (Own.drpmApply true (failing .zstdChunk 0 false) {}) = true ∧
    leaves 1 (Own.drpmApply true (failing .compKnown 0 false) {}) = true ∧
    leaves 1 (Own.drpmApply true (failing .compParam 0 false) {}) = true ∧
    leaves 2 (Own.drpmApply true (failing .compWrite 0 false) {}) = true ∧
    leaves 1 (Own.drpmApply true (failing .compFinish 0 false) {}) = true := by
  decide +kernel

/-- **C77 is violated**: with the installed files, an rpm-only delta makes the whole delta and the open
output file stay behind, and so does the delta of a source package; the table of open files stays behind
when the cache cannot be allocated, besides the block that a success leaves, too. -/
theorem C77_violated_installed :
    leaves 6 (Own.drpmApply false (fun _ _ => 1) {}) = true ∧
    leaves 7 (Own.drpmApply false (failing .applyArgs 0 false) {}) = true ∧
    leaves 2 (Own.drpmApply false (failing .blkSelf 0 false) {}) = true := by
  decide +kernel

/-- **C77 is violated**: a cache that could not be created is destroyed although it was freed, and the
buffer with the compressed data is freed twice when the header cannot be put before it. -/
theorem C77_violated_free :
    Own.drpmApply true (failing .blkTable 0 false) {} = .ub ∧
    Own.drpmApply true (failing .blkMax 0 false) {} = .ub ∧
    Own.drpmApply true (failing .blkCpio 0 false) {} = .ub ∧
    Own.drpmApply true (failing .finishJoin 0 false) {} = .ub ∧
    Own.drpmApply false (failing .dbExport 0 false) {} = .ub ∧
    Own.drpmApply false (failing .nevrCopy 0 false) {} = .ub := by
  decide +kernel

/-- Only these places fail or answer "no"; the delta is a standard delta. -/
def failingAll (xs : List Site) : Sched := fun y _ => if y = .rpmonly ∨ y ∈ xs then 0 else 1

/-- **C77 is violated**: a node of the list of paged blocks is freed while it is in the list; the
descriptor of a file handed to `prelink` is closed twice; a pointer into the middle of a block is
freed.  (The cache holds nothing that is asked for, and is full.) -/
theorem C77_violated_cache :
    Own.drpmApply true (failingAll [.cached, .pageFile]) {} = .ub ∧
    Own.drpmApply true (failingAll [.cached, .pageWrite]) {} = .ub ∧
    Own.drpmApply false (failingAll [.cached, .elfStr]) {} = .ub ∧
    Own.drpmApply false (failingAll [.cached, .boundary, .prelinkOpen]) {} = .ub := by
  decide +kernel

/-- **C77 is violated**: what the compression library holds is not given back when something else fails
after the output has been opened (here a copy that reaches outside the data). -/
theorem C77_violated_codec :
    leaves 1 (Own.drpmApply true (failingAll [.copies]) {}) = true := by
  decide +kernel

end Drpm
