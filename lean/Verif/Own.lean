import Verif.Basic

/-!
# Ownership: which blocks and descriptors each call holds, under every failure

The other parts of the model are pure functions of the input bytes; they say nothing about
`malloc` returning NULL, about `free`, or about file descriptors.  This file is a second model of
the same library, at the level of *who owns what*: every block of memory, library object and file
descriptor is a number, the heap is the list of the numbers that are live, and giving back a number
that is not live (a double free, a free of a dangling pointer, a second `close`) is `Out.ub`.

Everything else a function does is a *decision* taken from a schedule: whether this allocation
succeeds, whether that read delivers the bytes, whether the comparison holds, how many files the
header lists, how often a loop runs.  A theorem about all schedules is therefore a theorem about
every input, every content of the file system and every pattern of failing calls at once.
A schedule is indexed by the place in the code (`Site`) so that a hypothesis can say "this call
does not fail"; all places that need no such hypothesis share the site `call`.
-/

namespace Drpm

/-- The places in the code at which a decision is taken.  `call` is every place not listed; the
others are the places whose failure the code does not handle correctly, and some questions that the
witnesses have to answer: whether the delta is rpm-only, whether the data are to be compressed, whether
the cache has a block or a file, whether a block or file ends, whether the copies are well formed,
whether lists of patched files are given (each is named in the definition that uses it). -/
inductive Site where
  | call
  | md5Chunk
  | nevrCopy
  | dbExport
  | growOld
  | growNew
  | hashAlloc
  | hashTable
  | addLevel
  | nodiffSeq
  | blkSelf
  | blkTable
  | blkMax
  | blkCpio
  | finishJoin
  | pageFile
  | pageWrite
  | elfStr
  | elfAlloc
  | prelinkOpen
  | stdRead
  | stdComp
  | stdSeek
  | convert
  | makeNew
  | payFmt
  | compLevel
  | optsArgs
  | cpio
  | compKnown
  | compWrite
  | compFinish
  | writeHead
  | zstdChunk
  | applyArgs
  | rpmonly
  | compressed
  | compParam
  | cached
  | boundary
  | copies
  | patches
  deriving DecidableEq, Repr

/-- A schedule: the decision taken at a place, as a function of the number of decisions taken so
far.  0 is "fails" / "no" / "none"; any other value is "succeeds" / "yes", or a count. -/
abbrev Sched := Site → Nat → Nat

/-- At no time does the call at this place fail. -/
def Sched.Passes (s : Sched) (x : Site) : Prop := ∀ t, s x t ≠ 0

/-- The answer at this place is always no. -/
def Sched.Never (s : Sched) (x : Site) : Prop := ∀ t, s x t = 0

/-- What the process holds: the live blocks, library objects and file descriptors, the next unused
number, and the number of decisions taken. -/
structure Heap where
  live : List Nat := []
  next : Nat := 0
  tick : Nat := 0
  deriving DecidableEq, Repr

/-- A piece of the code at the ownership level. -/
def Res (α : Type) : Type := Sched → Heap → Out (α × Heap)

instance : Monad Res where
  pure a := fun _ h => .ok (a, h)
  bind c f := fun s h => match c s h with
    | .ok (a, h') => f a s h'
    | .err e => .err e
    | .ub => .ub
    | .loop => .loop

/-- A number decided by the input: how many files, how many chunks. -/
def pick (x : Site) : Res Nat := fun s h => .ok (s x h.tick, { h with tick := h.tick + 1 })

/-- A test or a call that owns nothing: does it succeed? -/
def test (x : Site) : Res Bool :=
  fun s h => .ok (decide (s x h.tick ≠ 0), { h with tick := h.tick + 1 })

/-- An object that is always obtained (`rpmtdNew`, `headerNew`: rpmlib ends the process when memory
runs out). -/
def take : Res Nat :=
  fun _ h => .ok (h.next, { h with live := h.next :: h.live, next := h.next + 1 })

/-- `malloc`, `calloc`, `open`, `creat`, `headerExport`, ...: a new live number, or NULL. -/
def alloc (x : Site) : Res (Option Nat) := fun s h =>
  if s x h.tick = 0 then .ok (none, { h with tick := h.tick + 1 })
  else .ok (some h.next,
    { live := h.next :: h.live, next := h.next + 1, tick := h.tick + 1 })

/-- `free`, `close`, `headerFree`, ...: nothing for NULL; undefined behaviour for a number that is
not live. -/
def free : Option Nat → Res Unit
  | none => pure ()
  | some i => fun _ h =>
    if i ∈ h.live then .ok ((), { h with live := h.live.erase i }) else .ub

/-- `realloc`: on failure the old block stays; on success it is gone and the result is another block
(the case in which the block moves, which is the one a caller must be ready for). -/
def realloc (x : Site) (p : Option Nat) : Res (Option Nat) := do
  let q ← alloc x
  match q with
  | none => pure none
  | some i => do
    free p
    pure (some i)

/-- Using a variable that was never assigned. -/
def garbage {α : Type} : Res α := fun _ _ => .ub

/-- Free several pointers in order. -/
def freeAll : List (Option Nat) → Res Unit
  | [] => pure ()
  | p :: ps => do
    free p
    freeAll ps

/-! ## Reasoning: exactly which numbers a piece of code leaves live -/

/-- The live numbers are exactly those of `l`, which the code under consideration answers for, and
those of `base`, which belong to somebody else; no number is live twice, and the next number is
unused. -/
structure Owns (base l : List Nat) (h : Heap) : Prop where
  split : ∀ a, h.live.count a = l.count a + base.count a
  once : ∀ a, h.live.count a ≤ 1
  fresh : ∀ a, h.next ≤ a → h.live.count a = 0

/-- Run under schedule `s` and holding `l`, the code does nothing undefined, touches nobody else's
numbers, and ends with a result and holdings satisfying `Q`. -/
def Spec (s : Sched) (c : Res α) (l : List Nat) (Q : α → List Nat → Prop) : Prop :=
  ∀ base h, Owns base l h → ∃ a h' l', c s h = .ok (a, h') ∧ Q a l' ∧ Owns base l' h'

/-- Same numbers, in any order. -/
def Same (l l' : List Nat) : Prop := ∀ a, l.count a = l'.count a

theorem Same.rfl {l : List Nat} : Same l l := fun _ => Eq.refl _

theorem Same.symm {l l' : List Nat} (h : Same l l') : Same l' l := fun a => (h a).symm

theorem Same.trans {l l' l'' : List Nat} (h : Same l l') (h' : Same l' l'') : Same l l'' :=
  fun a => (h a).trans (h' a)

theorem Owns.same {base l l' : List Nat} {h : Heap} (ho : Owns base l h) (hs : Same l l') :
    Owns base l' h :=
  ⟨fun a => by rw [ho.split a, hs a], ho.once, ho.fresh⟩

theorem Spec.ret {s : Sched} {a : α} {l : List Nat} {Q : α → List Nat → Prop} (h : Q a l) :
    Spec s (pure a) l Q :=
  fun _ hp ho => ⟨a, hp, l, rfl, h, ho⟩

theorem Spec.bind {s : Sched} {c : Res α} {f : α → Res β} {l : List Nat}
    {R : α → List Nat → Prop} {Q : β → List Nat → Prop}
    (hc : Spec s c l R) (hf : ∀ a l', R a l' → Spec s (f a) l' Q) : Spec s (c >>= f) l Q := by
  intro base h ho
  obtain ⟨a, h', l', he, hr, ho'⟩ := hc base h ho
  obtain ⟨b, h'', l'', he', hq, ho''⟩ := hf a l' hr base h' ho'
  refine ⟨b, h'', l'', ?_, hq, ho''⟩
  show (match c s h with
    | .ok (a, h') => f a s h'
    | .err e => .err e
    | .ub => .ub
    | .loop => .loop) = _
  rw [he]
  exact he'

theorem Spec.same {s : Sched} {c : Res α} {l l' : List Nat} {Q : α → List Nat → Prop}
    (h : Same l l') (hc : Spec s c l' Q) : Spec s c l Q :=
  fun base hp ho => hc base hp (ho.same h)

theorem Spec.mono {s : Sched} {c : Res α} {l : List Nat} {Q R : α → List Nat → Prop}
    (hc : Spec s c l Q) (h : ∀ a l', Q a l' → R a l') : Spec s c l R := by
  intro base hp ho
  obtain ⟨a, h', l', he, hq, ho'⟩ := hc base hp ho
  exact ⟨a, h', l', he, h a l' hq, ho'⟩

/-- What the code does not hold it does not touch. -/
theorem Spec.frame {s : Sched} {c : Res α} {l : List Nat} {Q : α → List Nat → Prop}
    (hc : Spec s c l Q) (k : List Nat) :
    Spec s c (l ++ k) fun a l' => ∃ l'', Q a l'' ∧ l' = l'' ++ k := by
  intro base hp ho
  have ho' : Owns (k ++ base) l hp :=
    ⟨fun a => by rw [ho.split a]; simp only [List.count_append]; omega, ho.once, ho.fresh⟩
  obtain ⟨a, h', l', he, hq, ho''⟩ := hc _ hp ho'
  refine ⟨a, h', l' ++ k, he, ⟨l', hq, rfl⟩, ?_, ho''.once, ho''.fresh⟩
  intro a
  rw [ho''.split a]; simp only [List.count_append]; omega

/-- Calling a piece of code that holds `lc`, while holding `k` besides. -/
theorem Spec.call {s : Sched} {c : Res α} {f : α → Res β} {l lc k : List Nat}
    {R : α → List Nat → Prop} {Q : β → List Nat → Prop}
    (hc : Spec s c lc R) (hl : Same l (lc ++ k))
    (hf : ∀ a l', R a l' → Spec s (f a) (l' ++ k) Q) : Spec s (c >>= f) l Q := by
  refine Spec.same hl (Spec.bind (hc.frame k) ?_)
  rintro a _ ⟨l', hr, rfl⟩
  exact hf a l' hr

theorem Spec.pick {s : Sched} {x : Site} {f : Nat → Res β} {l : List Nat}
    {Q : β → List Nat → Prop} (hf : ∀ n, Spec s (f n) l Q) : Spec s (Drpm.pick x >>= f) l Q := by
  refine Spec.bind (R := fun _ l' => l' = l) ?_ (fun n l' h => h ▸ hf n)
  intro base h ho
  exact ⟨_, _, l, rfl, rfl, ho.split, ho.once, ho.fresh⟩

theorem Spec.test {s : Sched} {x : Site} {f : Bool → Res β} {l : List Nat}
    {Q : β → List Nat → Prop} (hf : Spec s (f false) l Q) (ht : Spec s (f true) l Q) :
    Spec s (Drpm.test x >>= f) l Q := by
  refine Spec.bind (R := fun _ l' => l' = l) ?_
    (fun b l' h => h ▸ (by cases b <;> assumption))
  intro base h ho
  exact ⟨_, _, l, rfl, rfl, ho.split, ho.once, ho.fresh⟩

/-- A test at a place that does not fail. -/
theorem Spec.testOk {s : Sched} {x : Site} {f : Bool → Res β} {l : List Nat}
    {Q : β → List Nat → Prop} (hx : s.Passes x) (ht : Spec s (f true) l Q) :
    Spec s (Drpm.test x >>= f) l Q := by
  refine Spec.bind (R := fun b l' => b = true ∧ l' = l) ?_
    (fun b l' h => by obtain ⟨rfl, rfl⟩ := h; exact ht)
  intro base h ho
  refine ⟨true, { h with tick := h.tick + 1 }, l, ?_, ⟨rfl, rfl⟩, ho.split, ho.once, ho.fresh⟩
  show Out.ok (decide (s x h.tick ≠ 0), _) = _
  rw [decide_eq_true (hx _)]

theorem Owns.take {base l : List Nat} {h : Heap} (ho : Owns base l h) (t : Nat) :
    Owns base ([h.next] ++ l) { live := h.next :: h.live, next := h.next + 1, tick := t } := by
  have h0 := ho.fresh h.next (Nat.le_refl _)
  refine ⟨?_, ?_, ?_⟩
  · intro a
    have := ho.split a
    simp only [List.count_append, List.count_cons, List.count_nil] at *
    omega
  · intro a
    have h1 := ho.once a
    simp only [List.count_cons]
    by_cases e : h.next = a
    · subst e; simp; omega
    · have : (h.next == a) = false := by simpa using e
      simp [this]; exact h1
  · intro a ha
    have h1 := ho.fresh a (by simp at ha; omega)
    simp only [List.count_cons]
    have : (h.next == a) = false := by
      simp at ha ⊢; omega
    simp [this]; exact h1

theorem Spec.take {s : Sched} {f : Nat → Res β} {l : List Nat}
    {Q : β → List Nat → Prop} (hf : ∀ i, Spec s (f i) ([i] ++ l) Q) :
    Spec s (Drpm.take >>= f) l Q := by
  refine Spec.bind (R := fun i l' => l' = [i] ++ l) ?_ (fun i l' h => h ▸ hf i)
  intro base h ho
  exact ⟨h.next, _, [h.next] ++ l, rfl, rfl, ho.take _⟩

theorem alloc_spec (s : Sched) (x : Site) (l : List Nat) :
    Spec s (alloc x) l fun p l' => l' = p.toList ++ l ∧ (s.Passes x → p ≠ none) := by
  intro base h ho
  unfold alloc
  by_cases e : s x h.tick = 0
  · rw [if_pos e]
    exact ⟨none, _, l, rfl, ⟨rfl, fun hx => absurd e (hx _)⟩, ho.split, ho.once, ho.fresh⟩
  · rw [if_neg e]
    exact ⟨some h.next, _, [h.next] ++ l, rfl, ⟨rfl, fun _ h => by cases h⟩, ho.take _⟩

theorem Spec.alloc {s : Sched} {x : Site} {f : Option Nat → Res β} {l : List Nat}
    {Q : β → List Nat → Prop} (hn : Spec s (f none) l Q)
    (hf : ∀ i, Spec s (f (some i)) ([i] ++ l) Q) : Spec s (Drpm.alloc x >>= f) l Q := by
  refine Spec.bind (alloc_spec s x l) ?_
  rintro (_ | i) l' ⟨rfl, -⟩
  · exact hn
  · exact hf i

theorem Spec.allocOk {s : Sched} {x : Site} {f : Option Nat → Res β} {l : List Nat}
    {Q : β → List Nat → Prop} (hx : s.Passes x)
    (hf : ∀ i, Spec s (f (some i)) ([i] ++ l) Q) : Spec s (Drpm.alloc x >>= f) l Q := by
  refine Spec.bind (alloc_spec s x l) ?_
  rintro (_ | i) l' ⟨rfl, h⟩
  · exact absurd rfl (h hx)
  · exact hf i

/-- A test, remembering that a failure is only possible at a place that can fail. -/
theorem Spec.testP {s : Sched} {x : Site} {f : Bool → Res β} {l : List Nat}
    {Q : β → List Nat → Prop} (hf : ¬ s.Passes x → Spec s (f false) l Q)
    (ht : Spec s (f true) l Q) : Spec s (Drpm.test x >>= f) l Q := by
  by_cases hx : s.Passes x
  · exact Spec.testOk hx ht
  · exact Spec.test (hf hx) ht

theorem Spec.allocP {s : Sched} {x : Site} {f : Option Nat → Res β} {l : List Nat}
    {Q : β → List Nat → Prop} (hn : ¬ s.Passes x → Spec s (f none) l Q)
    (hf : ∀ i, Spec s (f (some i)) ([i] ++ l) Q) : Spec s (Drpm.alloc x >>= f) l Q := by
  by_cases hx : s.Passes x
  · exact Spec.allocOk hx hf
  · exact Spec.alloc (hn hx) hf

/-- A test, remembering that "yes" is only possible at a place that is not always "no". -/
theorem Spec.testN {s : Sched} {x : Site} {f : Bool → Res β} {l : List Nat}
    {Q : β → List Nat → Prop} (hf : Spec s (f false) l Q)
    (ht : ¬ s.Never x → Spec s (f true) l Q) : Spec s (Drpm.test x >>= f) l Q := by
  refine Spec.bind (R := fun b l' => l' = l ∧ (b = true → ¬ s.Never x)) ?_
    (fun b l' h => by obtain ⟨rfl, h⟩ := h; cases b with
      | false => exact hf
      | true => exact ht (h rfl))
  intro base h ho
  refine ⟨_, _, l, rfl, ⟨rfl, fun hb hn => ?_⟩, ho.split, ho.once, ho.fresh⟩
  simp [hn h.tick] at hb

theorem free_spec (s : Sched) (p : Option Nat) (k : List Nat) :
    Spec s (free p) (p.toList ++ k) fun _ l' => l' = k := by
  cases p with
  | none => exact Spec.ret rfl
  | some i =>
    intro base h ho
    have hin : i ∈ h.live := by
      have := ho.split i
      simp only [Option.toList, List.count_append, List.count_cons, List.count_nil] at this
      exact List.count_pos_iff.mp (by simp at this; omega)
    refine ⟨(), { h with live := h.live.erase i }, k, ?_, rfl, ?_, ?_, ?_⟩
    · show (if i ∈ h.live then _ else _) = _
      rw [if_pos hin]
    · intro a
      have h1 := ho.split a
      show (h.live.erase i).count a = _
      rw [List.count_erase]
      simp only [Option.toList, List.count_append, List.count_cons, List.count_nil] at h1
      omega
    · intro a
      have h1 := ho.once a
      show (h.live.erase i).count a ≤ 1
      rw [List.count_erase]
      omega
    · intro a ha
      have h1 := ho.fresh a ha
      show (h.live.erase i).count a = 0
      rw [List.count_erase]
      omega

theorem Spec.free {s : Sched} {p : Option Nat} {f : Unit → Res β} {l k : List Nat}
    {Q : β → List Nat → Prop} (hl : Same l (p.toList ++ k)) (hf : Spec s (f ()) k Q) :
    Spec s (Drpm.free p >>= f) l Q :=
  Spec.same hl (Spec.bind (free_spec s p k) fun _ _ h => h ▸ hf)

theorem realloc_spec (s : Sched) (x : Site) (p : Option Nat) (k : List Nat) :
    Spec s (realloc x p) (p.toList ++ k) fun q l' =>
      (q = none ∧ l' = p.toList ++ k ∧ ¬ s.Passes x) ∨ ∃ i, q = some i ∧ l' = [i] ++ k := by
  refine Spec.bind (alloc_spec s x _) ?_
  rintro (_ | i) l' ⟨rfl, h⟩
  · exact Spec.ret (.inl ⟨rfl, rfl, fun hx => absurd rfl (h hx)⟩)
  · refine Spec.free (k := [i] ++ k) ?_ (Spec.ret (.inr ⟨i, rfl, rfl⟩))
    intro a
    simp only [Option.toList, List.count_append]
    omega

theorem Spec.realloc {s : Sched} {x : Site} {p : Option Nat} {f : Option Nat → Res β}
    {l k : List Nat} {Q : β → List Nat → Prop} (hl : Same l (p.toList ++ k))
    (hn : Spec s (f none) (p.toList ++ k) Q) (hf : ∀ i, Spec s (f (some i)) ([i] ++ k) Q) :
    Spec s (Drpm.realloc x p >>= f) l Q := by
  refine Spec.same hl (Spec.bind (realloc_spec s x p k) ?_)
  rintro q l' (⟨rfl, rfl, -⟩ | ⟨i, rfl, rfl⟩)
  · exact hn
  · exact hf i

theorem Spec.reallocOk {s : Sched} {x : Site} {p : Option Nat} {f : Option Nat → Res β}
    {l k : List Nat} {Q : β → List Nat → Prop} (hx : s.Passes x) (hl : Same l (p.toList ++ k))
    (hf : ∀ i, Spec s (f (some i)) ([i] ++ k) Q) :
    Spec s (Drpm.realloc x p >>= f) l Q := by
  refine Spec.same hl (Spec.bind (realloc_spec s x p k) ?_)
  rintro q l' (⟨-, -, h⟩ | ⟨i, rfl, rfl⟩)
  · exact absurd hx h
  · exact hf i

theorem Spec.reallocP {s : Sched} {x : Site} {p : Option Nat} {f : Option Nat → Res β}
    {l k : List Nat} {Q : β → List Nat → Prop} (hl : Same l (p.toList ++ k))
    (hn : ¬ s.Passes x → Spec s (f none) (p.toList ++ k) Q)
    (hf : ∀ i, Spec s (f (some i)) ([i] ++ k) Q) :
    Spec s (Drpm.realloc x p >>= f) l Q := by
  by_cases hx : s.Passes x
  · exact Spec.reallocOk hx hl hf
  · exact Spec.realloc hl (hn hx) hf

/-- The numbers of a list of pointers. -/
def ids : List (Option Nat) → List Nat
  | [] => []
  | p :: ps => p.toList ++ ids ps

@[simp] theorem ids_nil : ids [] = [] := rfl
@[simp] theorem ids_cons (p : Option Nat) (ps : List (Option Nat)) :
    ids (p :: ps) = p.toList ++ ids ps := rfl

theorem freeAll_spec (s : Sched) : ∀ (ps : List (Option Nat)) (k : List Nat),
    Spec s (freeAll ps) (ids ps ++ k) fun _ l' => l' = k
  | [], _ => Spec.ret rfl
  | p :: ps, k => by
    refine Spec.free (k := ids ps ++ k) ?_ (freeAll_spec s ps k)
    intro a
    simp only [ids_cons, List.count_append]
    omega

theorem Spec.freeAll {s : Sched} {ps : List (Option Nat)} {f : Unit → Res β} {l k : List Nat}
    {Q : β → List Nat → Prop} (hl : Same l (ids ps ++ k)) (hf : Spec s (f ()) k Q) :
    Spec s (Drpm.freeAll ps >>= f) l Q :=
  Spec.same hl (Spec.bind (freeAll_spec s ps k) fun _ _ h => h ▸ hf)

/-- A condition tested by the code. -/
theorem Spec.cond {s : Sched} {c : Prop} [Decidable c] {t e : Res β} {l : List Nat}
    {Q : β → List Nat → Prop} (ht : c → Spec s t l Q) (he : ¬ c → Spec s e l Q) :
    Spec s (if c then t else e) l Q := by
  by_cases h : c
  · rw [if_pos h]; exact ht h
  · rw [if_neg h]; exact he h

end Drpm
