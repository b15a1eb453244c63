import Verif.OwnReadLemmas
import Verif.OwnCheckLemmas

/-!
# C72-C75: what reading and checking a delta allocates, frees and forgets

The heap is the list of live numbers: memory blocks, library objects, file descriptors.  A schedule
decides every test on the input and the outcome of every call, so "for every schedule" means: for
every file, every rpm header in it, and every pattern of failing `malloc`, `realloc`, `read`, `lseek`
and MD5 calls.  Freeing a number that is not live is `Out.ub`, which the equations below exclude.
-/

namespace Drpm

/-- A heap in which no number is live twice and the numbers given out next are unused. -/
def Heap.Ok (h : Heap) : Prop := h.live.Nodup ∧ ∀ i ∈ h.live, i < h.next

theorem Heap.Ok.owns {h : Heap} (hok : h.Ok) {l base : List Nat} (hp : h.live.Perm (l ++ base)) :
    Owns base l h := by
  refine ⟨fun a => ?_, fun a => ?_, fun a ha => ?_⟩
  · rw [hp.count_eq, List.count_append]
  · exact List.nodup_iff_count.mp hok.1 a
  · refine List.count_eq_zero.mpr fun hm => ?_
    have := hok.2 a hm
    omega

theorem Owns.ok {base l : List Nat} {h : Heap} (ho : Owns base l h) :
    h.Ok ∧ h.live.Perm (l ++ base) := by
  refine ⟨⟨List.nodup_iff_count.mpr ho.once, fun i hi => ?_⟩, ?_⟩
  · refine Nat.lt_of_not_le fun hn => ?_
    have h1 := ho.fresh i hn
    have h2 := List.count_pos_iff.mpr hi
    omega
  · refine List.perm_iff_count.mpr fun a => ?_
    rw [ho.split a, List.count_append]

/-- From the calculus to the heap. -/
theorem Own.Gives.run {s : Sched} {c : Res α} {l base : List Nat} {own : α → List Nat}
    {P : α → List Nat → Prop} (hg : Own.Gives s c l own P) {h : Heap} (hok : h.Ok)
    (hl : h.live.Perm (l ++ base)) :
    ∃ a h' lk, c s h = .ok (a, h') ∧ h'.Ok ∧ h'.live.Perm (own a ++ (lk ++ base)) ∧ P a lk := by
  obtain ⟨a, h', l', he, ⟨lk, hs, hp⟩, ho⟩ := hg base h (hok.owns hl)
  obtain ⟨hok', hl'⟩ := (ho.same hs).ok
  exact ⟨a, h', lk, he, hok', by rw [List.append_assoc] at hl'; exact hl', hp⟩

/-- **C72.**  For every schedule, `drpm_read` frees nothing that is not live, and if it succeeds,
exactly the blocks of the returned handle are live besides what was live before.  Whatever the process
does in between, `drpm_destroy` on that handle frees nothing that is not live and leaves everything
else: reading and destroying gives back every block, library object and file descriptor. -/
theorem C72_read_destroy (s : Sched) (h : Heap) (hok : h.Ok) :
    ∃ r h', Own.drpmRead s h = .ok (r, h') ∧ h'.Ok ∧
      ∀ o, r = some o →
        h'.live.Perm (o.own ++ h.live) ∧
        ∀ (s₂ : Sched) (h₂ : Heap) (others : List Nat), h₂.Ok →
          h₂.live.Perm (o.own ++ others) →
          ∃ h₃, Own.drpmDestroy o s₂ h₂ = .ok ((), h₃) ∧ h₃.Ok ∧ h₃.live.Perm others := by
  obtain ⟨r, h', lk, he, hok', hl, hp⟩ :=
    (Own.drpmRead_spec s).run hok (base := h.live) (List.Perm.refl _)
  refine ⟨r, h', he, hok', ?_⟩
  rintro o rfl
  cases hp (.inl nofun)
  refine ⟨hl, fun s₂ h₂ others hok₂ hl₂ => ?_⟩
  obtain ⟨_, h₃, lk, he₃, hok₃, hl₃, rfl⟩ := (Own.drpmDestroy_spec s₂ o).run hok₂ hl₂
  exact ⟨h₃, he₃, hok₃, hl₃⟩

/-- A read that succeeds and a destroy that gives everything back. -/
example : ((Own.drpmRead (fun _ _ => 1) {}).okAnd fun r =>
    r.2.live.length == 6 && match r.1 with
      | none => false
      | some o => (Own.drpmDestroy o (fun _ _ => 1) r.2).okAnd fun r => r.2.live == []) = true := by
  decide +kernel

/-- The calls whose failure `drpm_read` handles without forgetting anything are all but these: reading
the package head of a standard delta, finding its compression, seeking behind it; decoding a chunk of a
zstd stream; converting the delta into the returned handle. -/
def ReadKept (s : Sched) : Prop :=
  s.Passes .stdRead ∧ s.Passes .stdComp ∧ s.Passes .stdSeek ∧ s.Passes .zstdChunk ∧
    s.Passes .convert

/-- **C73**, the part that holds: a `drpm_read` that fails leaves exactly what was live before, for
every schedule in which the five kinds of calls of `ReadKept` do not fail. -/
theorem C73_failed_read_partial (s : Sched) (h : Heap) (hok : h.Ok) (hk : ReadKept s) :
    ∃ r h', Own.drpmRead s h = .ok (r, h') ∧ (r = none → h'.live.Perm h.live) := by
  obtain ⟨r, h', lk, he, hok', hl, hp⟩ :=
    (Own.drpmRead_spec s).run hok (base := h.live) (List.Perm.refl _)
  refine ⟨r, h', he, ?_⟩
  rintro rfl
  cases hp (.inr ⟨⟨hk.1, hk.2.1, hk.2.2.1, hk.2.2.2.1⟩, hk.2.2.2.2⟩)
  exact hl

/-- A schedule in which only the calls at one place fail, from a given moment on; `rpmonly` says whether
the delta is an rpm-only delta. -/
def failing (x : Site) (from_ : Nat) (rpmonly : Bool := true) : Sched := fun y t =>
  if y = x ∧ from_ ≤ t then 0 else if y = .rpmonly ∧ rpmonly = false then 0 else 1

example : ReadKept (failing .call 20) ∧
    ((Own.drpmRead (failing .call 20) {}).okAnd fun r => r.1 == none && r.2.live == []) = true :=
  ⟨⟨fun _ => by simp [failing], fun _ => by simp [failing], fun _ => by simp [failing],
    fun _ => by simp [failing], fun _ => by simp [failing]⟩, by decide +kernel⟩

/-- The call ends without undefined behaviour, hands nothing out, and leaves something live. -/
def forgets (x : Out (Option α × Heap)) : Bool :=
  x.okAnd fun r => r.1.isNone && r.2.live != []

/-- **C73 is violated**: each of the five kinds of calls, when it fails, makes `drpm_read` fail and
leaves blocks live that nobody can free any more. -/
theorem C73_violated :
    forgets (Own.drpmRead (failing .stdRead 4 false) {}) = true ∧
    forgets (Own.drpmRead (failing .stdComp 0 false) {}) = true ∧
    forgets (Own.drpmRead (failing .stdSeek 0 false) {}) = true ∧
    forgets (Own.drpmRead (failing .zstdChunk 0) {}) = true ∧
    forgets (Own.drpmRead (failing .convert 0) {}) = true := by
  decide +kernel

/-- **C74.**  `drpm_check_sequence` against a package file gives everything back: whatever the sequence,
whatever the package, whichever calls fail, nothing is freed that is not live, and afterwards exactly
what was live before is live. -/
theorem C74_sequence_package (s : Sched) (h : Heap) (hok : h.Ok) :
    ∃ r h', Own.drpmCheckSequence false .none s h = .ok (r, h') ∧ h'.Ok ∧
      h'.live.Perm h.live := by
  obtain ⟨r, h', lk, he, hok', hl, -, -, hp⟩ :=
    (Own.drpmCheckSequence_spec s false .none nofun (.inl rfl)).run hok (base := h.live)
      (List.Perm.refl _)
  cases hp rfl rfl
  exact ⟨r, h', he, hok', hl⟩

/-- It succeeds under one schedule, and fails under others at each depth. -/
example :
    ((Own.drpmCheckSequence false .none (fun _ _ => 1) {}).okAnd fun r =>
      r.1 && r.2.live == []) = true ∧
    ((Own.drpmCheckSequence false .none (failing .call 6) {}).okAnd fun r =>
      !r.1 && r.2.live == []) = true ∧
    ((Own.drpmCheckSequence false .none (failing .call 12) {}).okAnd fun r =>
      !r.1 && r.2.live == []) = true := by
  decide +kernel

/-- **C75**, the part that holds.  For a check against the rpm database, provided the rpm header can be
exported, the copy of the NEVR can be allocated and no ELF file has a section name table that is not
one: nothing is freed that is not live.  But a check that succeeds leaves exactly one block live that
was not live before; and if moreover reading the delta and looking at ELF files does not fail at one
of the places of `ReadKept` and `elfAlloc`, no check leaves more than one. -/
theorem C75_check_partial (s : Sched) (h : Heap) (hok : h.Ok) (mode : Own.ChkMode)
    (hx : s.Passes .dbExport) (hc : s.Passes .nevrCopy) (hs : s.Passes .elfStr) :
    (∃ r h' lk, Own.drpmCheck mode s h = .ok (r, h') ∧ h'.Ok ∧ h'.live.Perm (lk ++ h.live) ∧
      (r = true → lk.length = 1) ∧
      (ReadKept s → s.Passes .elfAlloc → lk.length ≤ 1)) ∧
    (∃ r h' lk, Own.drpmCheckSequence true mode s h = .ok (r, h') ∧ h'.Ok ∧
      h'.live.Perm (lk ++ h.live) ∧
      (r = true → lk.length = 1) ∧
      (s.Passes .elfAlloc → lk.length ≤ 1)) := by
  constructor
  · obtain ⟨r, h', lk, he, hok', hl, h1, h2⟩ :=
      (Own.drpmCheck_spec s mode hs hx hc).run hok (base := h.live) (List.Perm.refl _)
    exact ⟨r, h', lk, he, hok', hl, h1,
      fun hk => h2 ⟨hk.1, hk.2.1, hk.2.2.1, hk.2.2.2.1⟩⟩
  · obtain ⟨r, h', lk, he, hok', hl, h1, h2, -⟩ :=
      (Own.drpmCheckSequence_spec s true mode (fun _ => ⟨hx, hc⟩) (.inr hs)).run hok
        (base := h.live) (List.Perm.refl _)
    exact ⟨r, h', lk, he, hok', hl, h1 rfl, fun he => h2 (.inr he)⟩

/-- **C75 is violated**: a check against the database that succeeds leaves one block behind. -/
theorem C75_violated_leak :
    ((Own.drpmCheck .full (fun _ _ => 1) {}).okAnd fun r => r.1 && r.2.live.length == 1) = true ∧
    ((Own.drpmCheckSequence true .filesizes (fun _ _ => 1) {}).okAnd fun r =>
      r.1 && r.2.live.length == 1) = true := by
  decide +kernel

/-- **C75 is violated**: each of the three excluded failures ends in the freeing of something that is
not live: a header freed by `rpm_free` and again by the database iterator; the members of a structure
that was never initialised; a pointer into the middle of a block. -/
theorem C75_violated_free :
    Own.drpmCheckSequence true .full (failing .dbExport 0) {} = .ub ∧
    Own.drpmCheckSequence true .full (failing .nevrCopy 0) {} = .ub ∧
    Own.drpmCheckSequence true .full (failing .elfStr 0) {} = .ub := by
  decide +kernel

/-- An installed file is left open when the section table cannot be allocated: two numbers stay live,
the block and the descriptor. -/
theorem C75_violated_open :
    ((Own.drpmCheckSequence true .full (failing .elfAlloc 0) {}).okAnd fun r =>
      !r.1 && r.2.live.length == 2) = true := by
  decide +kernel

end Drpm
