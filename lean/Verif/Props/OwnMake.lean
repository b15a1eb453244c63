import Verif.OwnMakeLemmas
import Verif.Props.OwnApply

/-!
# C76: what making a delta allocates, frees and forgets

As in C72-C75 and C77 the schedule decides everything: the packages, the files in their archives, how often
a buffer grows, how long the difference is, how the compression library behaves, which calls fail.
-/

namespace Drpm

/-- The calls whose failure makes `drpm_make` free something that is not live, or use something that was
freed or never assigned.  `alone`: there is no old package; `rpmonly`, `addblk`: the options of these
names.

* With a delta that is not rpm-only: a patches file is given (what is read from it is never initialised).
* An identity delta that is rpm-only: copying the sequence, hashing the archive.
* An rpm-only delta of two packages: growing the new archive, after the old one has been grown.
* Any delta that is not an rpm-only identity delta: allocating the hash and its table, and with an add
  block a compression level that is refused. -/
def MakeCalls (s : Sched) (rpmonly alone addblk : Bool) : Prop :=
  (rpmonly = false → s.Never .patches) ∧
  (rpmonly = true → alone = true → s.Passes .nodiffSeq ∧ s.Passes .md5Chunk) ∧
  (rpmonly = true → alone = false → s.Passes .growNew) ∧
  (¬(alone = true ∧ rpmonly = true) →
    s.Passes .hashAlloc ∧ s.Passes .hashTable ∧ (addblk = true → s.Passes .addLevel))

/-- The calls whose failure makes `drpm_make` forget a whole object with all its parts: the payload format
and compression level of the new package, a parameter the zstd context does not take, compressing a
chunk, finishing, writing the head of the delta, decoding a chunk of a zstd stream. -/
def MakeKeeps (s : Sched) : Prop :=
  s.Passes .payFmt ∧ s.Passes .compLevel ∧ s.Passes .compWrite ∧ s.Passes .compFinish ∧
    s.Passes .compParam ∧ s.Passes .writeHead ∧ s.Passes .zstdChunk

/-- **C76**, the part that holds.  For every schedule in which the calls of `MakeCalls` do not fail,
`drpm_make` frees nothing that is not live and uses nothing unassigned, and if it succeeds, exactly what
was live before is live.  If it fails, and the calls of `MakeKeeps` do not (nor is the version of an
rpm-only delta refused), then at most one thing is left; for an rpm-only delta nothing, if the delta is not
compressed. -/
theorem C76_partial (s : Sched) (rpmonly alone addblk : Bool) (h : Heap) (hok : h.Ok)
    (hc : MakeCalls s rpmonly alone addblk) :
    ∃ r h' lk, Own.drpmMake rpmonly alone addblk s h = .ok (r, h') ∧ h'.Ok ∧
      h'.live.Perm (lk ++ h.live) ∧
      (r = true → lk = []) ∧
      (MakeKeeps s → (rpmonly = true → s.Passes .optsArgs) → lk.length ≤ 1) ∧
      (MakeKeeps s → rpmonly = true → s.Passes .optsArgs → s.Never .compressed → lk = []) := by
  obtain ⟨c1, c2, c3, c4⟩ := hc
  obtain ⟨r, h', lk, he, hok', hl, h1, h2⟩ :=
    (Own.drpmMake_spec s rpmonly alone addblk
      ⟨c1, c2, c3, fun h => ⟨(c4 h).1, (c4 h).2.1, (c4 h).2.2⟩⟩).run hok (base := h.live)
      (List.Perm.refl _)
  have kept : MakeKeeps s → Own.MakeKept s := by
    rintro ⟨k1, k2, k3, k4, k5, k6, k7⟩
    exact ⟨k1, k2, k3, k4, k5, k6, k7⟩
  exact ⟨r, h', lk, he, hok', hl, h1, fun k ho => (h2 (kept k) ho).1,
    fun k ho ha hn => (h2 (kept k) fun _ => ha).2 ho hn⟩

/-- No patches file; everything else passes; what is written is compressed or not. -/
def making (compressed : Bool) : Sched := fun x _ =>
  if x = .patches ∨ x = .compressed ∧ compressed = false then 0 else 1

theorem making_passes {b : Bool} {x : Site} (h1 : x ≠ .patches) (h2 : x ≠ .compressed) :
    (making b).Passes x := fun _ => by simp [making, h1, h2]

/-- The hypotheses hold of schedules under which a delta is made, of every kind. -/
example : (∀ rpmonly alone addblk b, MakeCalls (making b) rpmonly alone addblk) ∧
    (∀ b, MakeKeeps (making b)) ∧ (making true).Passes .optsArgs ∧ (making false).Never .compressed ∧
    ((Own.drpmMake false false true (making true) {}).okAnd fun r => r.1 && r.2.live == []) = true ∧
    ((Own.drpmMake false true true (making true) {}).okAnd fun r => r.1 && r.2.live == []) = true ∧
    ((Own.drpmMake true false false (making true) {}).okAnd fun r => r.1 && r.2.live == []) = true ∧
    ((Own.drpmMake true true false (making false) {}).okAnd fun r => r.1 && r.2.live == []) = true := by
  refine ⟨fun o a k b => ⟨fun _ _ => by simp [making], fun _ _ => ⟨?_, ?_⟩, fun _ _ => ?_,
    fun _ => ⟨?_, ?_, fun _ => ?_⟩⟩, fun b => ⟨?_, ?_, ?_, ?_, ?_, ?_, ?_⟩, ?_, fun _ => rfl, ?_, ?_, ?_, ?_⟩
  all_goals first
    | exact making_passes nofun nofun
    | decide +kernel

/-- Only these places fail or answer "no"; there is no patches file. -/
def makingBut (xs : List Site) : Sched := fun y _ => if y = .patches ∨ y ∈ xs then 0 else 1

/-- **C76 is violated**: each of these failures leaves something live that nobody can free any more.  For a
standard delta: the new package, when its payload is not in the cpio format or its compression level
cannot be found out. -/
theorem C76_violated_new :
    leaves 4 (Own.drpmMake false false true (makingBut [.payFmt]) {}) = true ∧
    leaves 4 (Own.drpmMake false false true (makingBut [.compLevel]) {}) = true := by
  decide +kernel

/-- **C76 is violated**: and what is being compressed and written, when compressing or writing the head
of the delta fails. -/
theorem C76_violated_write :
    leaves 1 (Own.drpmMake false false true (makingBut [.compParam]) {}) = true ∧
    leaves 2 (Own.drpmMake false false true (makingBut [.compWrite]) {}) = true ∧
    leaves 1 (Own.drpmMake false false true (makingBut [.compFinish]) {}) = true ∧
    leaves 3 (Own.drpmMake false false true (makingBut [.writeHead]) {}) = true ∧
    leaves 3 (Own.drpmMake true false false (makingBut [.writeHead]) {}) = true ∧
    leaves 1 (Own.drpmMake false false true (makingBut [.zstdChunk]) {}) = true := by
  decide +kernel

/-- **C76 is violated**: an rpm-only delta of version 1 or 2 is refused, and the copies of the options are
forgotten. -/
theorem C76_violated_options :
    leaves 3 (Own.drpmMake true false false (failing .optsArgs 0) {}) = true := by
  decide +kernel

/-- Three things are in the archive; the walk over it fails at its end. -/
def cpioFails : Sched := fun y _ =>
  if y = .patches ∨ y = .cpio then 0 else if y = .call then 3 else 1

/-- **C76 is violated**: if the walk over the archive fails, what has been collected of the sequence is
forgotten. -/
theorem C76_violated_sequence :
    leaves 1 (Own.drpmMake false false true cpioFails {}) = true := by
  decide +kernel

/-- **C76 is violated**: failed allocations of the hash make the wrong memory be freed, a refused
compression level of the add block makes an unassigned stream be destroyed, the old archive is freed twice
if the new one cannot be grown, and a failure to copy the sequence of an identity delta frees an
unassigned package. -/
theorem C76_violated_free :
    Own.drpmMake false false true (makingBut [.hashAlloc]) {} = .ub ∧
    Own.drpmMake false false true (makingBut [.hashTable]) {} = .ub ∧
    Own.drpmMake false false true (makingBut [.addLevel]) {} = .ub ∧
    Own.drpmMake true false true (makingBut [.growNew]) {} = .ub ∧
    Own.drpmMake true true true (makingBut [.nodiffSeq]) {} = .ub := by
  decide +kernel

/-- Two chunks are read of the archive; the hash is not updated with the second. -/
def hashFails : Sched := fun y t =>
  if y = .patches ∨ y = .md5Chunk ∧ 24 ≤ t then 0 else if y = .call then 2 else 1

/-- **C76 is violated**: if hashing fails after the buffer for the archive has moved, the old block is
freed again. -/
theorem C76_violated_hash : Own.drpmMake true true true hashFails {} = .ub := by
  decide +kernel

/-- **C76 is violated**: with a patches file and any delta that is not rpm-only, what is freed in the end
was never assigned. -/
theorem C76_violated_patches :
    Own.drpmMake false false true (fun _ _ => 1) {} = .ub := by
  decide +kernel

end Drpm
