import Verif.OwnApply
import Verif.OwnCheckLemmas

/-!
# Ownership: lemmas about compression streams and the block cache
-/

namespace Drpm.Own

/-- Two lists have the same numbers. -/
macro "sameb" : tactic => `(tactic| (
  try simp only [CompP.own, CompR.own, WrapP.own, ownWrap, pairs, BlksP.own, BlksR.own, StrmP.own, ownStrm, RpmP.own, ownRpm,
    FileP.own, ownFiles, DeltaP.own_empty, DeltaP.own_tgt, ids_nil, ids_cons,
    Option.toList, List.count_append, count_nil', List.nil_append, List.append_nil]
  try omega))

/-- Two lists have the same numbers, after rewriting with some facts. -/
syntax "sames" "[" term,* "]" : tactic

macro_rules
  | `(tactic| sames []) => `(tactic| (intro a; sameb))
  | `(tactic| sames [$ls,*]) => `(tactic| (intro a; simp only [CompP.own, WrapP.own, BlksP.own, BlksR.own, List.count_append, $[$ls:term],*]; sameb))

/-! ## Compression streams -/

/-- The states inside the compression library that a caller's stream has. -/
def CompR.codecs : CompR → List Nat
  | .strm st => st.codec.toList
  | _ => []

theorem compInit_spec (s : Sched) (lvl : Site) :
    Gives s (compInit lvl) [] (fun r => r.1.own)
      fun r lk => (r.2 = true ∨ s.Passes .compParam → lk = []) ∧
        (s.Never .compressed → r.1.codecs = []) ∧
        (r.2 = false → r.1.codecs = []) ∧
        (r.2 = false → s.Passes .compKnown → r.1.own = []) ∧
        (r.2 = true → ∃ st, r.1 = .strm st) ∧
        (s.Passes lvl → r.1 ≠ .unset) := by
  unfold compInit
  refine Spec.testP (fun h => Gives.ret [] (by sames []) ⟨fun _ => rfl, fun _ => rfl, fun _ => rfl, fun _ _ => rfl, nofun, fun hx => absurd hx h⟩) ?_
  refine Spec.alloc (Gives.ret [] (by sames []) ⟨fun _ => rfl, fun _ => rfl, fun _ => rfl, fun _ _ => rfl, nofun, fun _ => nofun⟩) fun i => ?_
  refine Spec.testP (fun h => Gives.ret [] (by sames []) ⟨fun _ => rfl, fun _ => rfl, fun _ => rfl, fun _ hx => absurd hx h, nofun, fun _ => nofun⟩) ?_
  refine Spec.testN (Gives.ret [] (by sames []) ⟨fun _ => rfl, fun _ => rfl, nofun, nofun, fun _ => ⟨_, rfl⟩, fun _ => nofun⟩) fun hc => ?_
  refine Spec.alloc ?_ fun c => ?_
  · exact Spec.free (k := []) (by sames []) (Gives.ret [] (by sames []) ⟨fun _ => rfl, fun _ => rfl, fun _ => rfl, fun _ _ => rfl, nofun, fun _ => nofun⟩)
  have fin : ∀ z : Bool, Gives s (do
      let param ← test .compParam
      if param then pure (CompR.strm { self := i, codec := some c, zstd := z }, true)
      else
        free (some i)
        pure (CompR.null, false)) ([c] ++ ([i] ++ [])) (fun r => r.1.own)
      fun r lk => (r.2 = true ∨ s.Passes .compParam → lk = []) ∧
        (s.Never .compressed → r.1.codecs = []) ∧
        (r.2 = false → r.1.codecs = []) ∧
        (r.2 = false → s.Passes .compKnown → r.1.own = []) ∧
        (r.2 = true → ∃ st, r.1 = .strm st) ∧
        (s.Passes lvl → r.1 ≠ .unset) := by
    intro z
    refine Spec.testP (fun h => ?_) ?_
    · refine Spec.free (k := [c]) (by sames []) (Gives.ret [c] (by sames []) ⟨?_, fun _ => rfl, fun _ => rfl, fun _ _ => rfl, nofun, fun _ => nofun⟩)
      rintro (h' | h')
      · exact nomatch h'
      · exact absurd h' h
    · exact Gives.ret [] (by sames []) ⟨fun _ => rfl, fun h => absurd h hc, nofun, nofun, fun _ => ⟨_, rfl⟩, fun _ => nofun⟩
  exact Spec.test (fin false) (fin true)

theorem compGrow_spec (s : Sched) (x : Site) : ∀ (n : Nat) (st : CompP),
    Gives s (compGrow x n st) st.own (fun r => r.1.own)
      fun r lk => lk = [] ∧ r.1.codec = st.codec ∧ (s.Passes x → r.2 = true)
  | 0, st => Gives.ret [] (by sames []) ⟨rfl, rfl, fun _ => rfl⟩
  | n + 1, st => by
    unfold compGrow
    refine Spec.testP (fun h => Gives.ret [] (by sames []) ⟨rfl, rfl, fun hx => absurd hx h⟩) ?_
    refine Spec.reallocP (k := [st.self] ++ st.codec.toList) (by sames [])
      (fun h => Gives.ret [] (by sames []) ⟨rfl, rfl, fun hx => absurd hx h⟩) fun i => ?_
    exact Gives.same (by sames []) (compGrow_spec s x n { st with data := some i })

theorem compWrite_spec (s : Sched) (st : CompP) :
    Gives s (compWrite st) st.own (fun r => r.1.own)
      fun r lk => (r.2 = true ∨ s.Passes .compWrite → lk = []) ∧ r.1.codec = st.codec := by
  unfold compWrite
  refine Spec.test (Gives.ret [] (by sames []) ⟨fun _ => rfl, rfl⟩) ?_
  refine Spec.pick fun n => ?_
  refine Spec.cond (fun _ => ?_) fun _ => ?_
  · refine Spec.alloc (Gives.ret [] (by sames []) ⟨fun _ => rfl, rfl⟩) fun b => ?_
    refine Gives.call [b] (compGrow_spec s .compWrite n st) (by sames []) ?_
    rintro ⟨st', _ | _⟩ lk ⟨rfl, hc, hz⟩
    · refine Gives.ret [b] (by sames []) ⟨?_, hc⟩
      rintro (h | h)
      · exact nomatch h
      · exact nomatch hz h
    · refine Spec.free (k := st'.own) (by sames []) ?_
      exact Spec.test (Gives.ret [] (by sames []) ⟨fun _ => rfl, hc⟩)
        (Gives.ret [] (by sames []) ⟨fun _ => rfl, hc⟩)
  · refine Gives.call [] (compGrow_spec s .call n st) (by sames []) ?_
    rintro ⟨st', _ | _⟩ lk ⟨rfl, hc, -⟩
    · exact Gives.ret [] (by sames []) ⟨fun _ => rfl, hc⟩
    · exact Spec.test (Gives.ret [] (by sames []) ⟨fun _ => rfl, hc⟩)
        (Gives.ret [] (by sames []) ⟨fun _ => rfl, hc⟩)

theorem codecFinish_spec (s : Sched) (st : CompP) :
    Gives s (codecFinish st) st.own (fun r => r.1.own)
      fun r lk => (r.2 = true ∨ s.Passes .compFinish → lk = [] ∧ r.1.codec = none) ∧
        (st.codec = none → r.1.codec = none) := by
  unfold codecFinish
  refine Spec.pick fun n => ?_
  refine Spec.cond (fun _ => ?_) fun _ => ?_
  · refine Spec.allocP (fun h => Gives.ret [] (by sames []) ⟨?_, id⟩) fun b => ?_
    · rintro (h' | h')
      · exact nomatch h'
      · exact absurd h' h
    refine Gives.call [b] (compGrow_spec s .compFinish n st) (by sames []) ?_
    rintro ⟨st', _ | _⟩ lk ⟨rfl, hc, hz⟩
    · refine Gives.ret [b] (by sames []) ⟨?_, fun h => hc.trans h⟩
      rintro (h | h)
      · exact nomatch h
      · exact nomatch hz h
    · refine Spec.free (k := st'.own) (by sames []) ?_
      exact Spec.free (k := [st'.self] ++ st'.data.toList) (by sames [])
        (Gives.ret [] (by sames []) ⟨fun _ => ⟨rfl, rfl⟩, fun _ => rfl⟩)
  · refine Gives.call [] (compGrow_spec s .call n st) (by sames []) ?_
    rintro ⟨st', b⟩ lk ⟨rfl, hc, -⟩
    exact Spec.free (k := [st'.self] ++ st'.data.toList) (by sames [])
      (Gives.ret [] (by sames []) ⟨fun _ => ⟨rfl, rfl⟩, fun _ => rfl⟩)

/-- Finishing a stream; a failure gives no copy of the data. -/
theorem compFinish_spec' (s : Sched) (st : CompP) :
    Gives s (compFinish st) st.own (fun r => r.1.own ++ r.2.1.toList)
      fun r lk => ((r.2.2 = true ∨ s.Passes .compFinish → lk = [] ∧ r.1.codec = none) ∧
        (st.codec = none → r.1.codec = none)) ∧ (r.2.2 = false → r.2.1 = none) := by
  unfold compFinish
  refine Gives.call [] (codecFinish_spec s st) (by sames []) ?_
  rintro ⟨st', _ | _⟩ lk ⟨h, hc⟩
  · refine Gives.ret lk (by sames []) ⟨⟨?_, hc⟩, fun _ => rfl⟩
    rintro (h' | h')
    · exact nomatch h'
    · exact h (.inr h')
  obtain ⟨rfl, hn⟩ := h (.inl rfl)
  refine Spec.test (Gives.ret [] (by sames []) ⟨⟨fun _ => ⟨rfl, hn⟩, fun _ => hn⟩, fun _ => rfl⟩) ?_
  refine Spec.test (Gives.ret [] (by sames []) ⟨⟨fun _ => ⟨rfl, hn⟩, fun _ => hn⟩, nofun⟩) ?_
  exact Spec.alloc (Gives.ret [] (by sames []) ⟨⟨fun _ => ⟨rfl, hn⟩, fun _ => hn⟩, fun _ => rfl⟩)
    fun i => Gives.ret [] (by sames []) ⟨⟨fun _ => ⟨rfl, hn⟩, fun _ => hn⟩, nofun⟩

theorem compFinish_spec (s : Sched) (st : CompP) :
    Gives s (compFinish st) st.own (fun r => r.1.own ++ r.2.1.toList)
      fun r lk => (r.2.2 = true ∨ s.Passes .compFinish → lk = [] ∧ r.1.codec = none) ∧
        (st.codec = none → r.1.codec = none) :=
  Spec.mono (compFinish_spec' s st) fun _ _ ⟨lk, h, hp⟩ => ⟨lk, h, hp.1⟩

/-- Destroying a stream forgets the state inside the library. -/
theorem compDestroy_spec (s : Sched) (st : CompP) :
    Gives s (compDestroy st) st.own (fun _ => []) fun _ lk => lk = st.codec.toList := by
  unfold compDestroy
  refine Spec.same (l' := ids [st.data, some st.self] ++ st.codec.toList) (by sames [])
    (Spec.mono (freeAll_spec s _ _) fun _ _ h => ⟨st.codec.toList, by rw [h]; same, rfl⟩)

/-! ## The wrapper -/

def codecsOf : Option WrapP → List Nat
  | none => []
  | some w => w.strm.codec.toList

theorem wrapInit_spec (s : Sched) :
    Gives s wrapInit [] ownWrap
      fun r lk => (r ≠ none ∨ (s.Passes .compKnown ∧ s.Passes .compParam) → lk = []) ∧
        (s.Never .compressed → codecsOf r = []) := by
  unfold wrapInit
  refine Spec.alloc (Gives.ret [] (by sames []) ⟨fun _ => rfl, fun _ => rfl⟩) fun i => ?_
  refine Spec.alloc (Spec.free (k := []) (by sames [])
    (Gives.ret [] (by sames []) ⟨fun _ => rfl, fun _ => rfl⟩)) fun u => ?_
  refine Gives.call ([u] ++ [i]) (compInit_spec s .call) (by sames []) ?_
  rintro ⟨c, b⟩ lk ⟨h1, h2, h3, h4, h5, -⟩
  cases b with
  | true =>
    obtain ⟨st, e⟩ := h5 rfl
    cases e
    cases h1 (.inl rfl)
    exact Gives.ret [] (by sames []) ⟨fun _ => rfl, fun h => h2 h⟩
  | false =>
    have : ∀ k : Res (Option WrapP), k = (do
        freeAll [some u, some i]
        pure none) → Gives s k (c.own ++ lk ++ ([u] ++ [i])) ownWrap
        fun r lk => (r ≠ none ∨ (s.Passes .compKnown ∧ s.Passes .compParam) → lk = []) ∧
          (s.Never .compressed → codecsOf r = []) := by
      rintro _ rfl
      refine Spec.freeAll (k := c.own ++ lk) (by sames []) ?_
      refine Gives.ret (c.own ++ lk) (by sames []) ⟨?_, fun _ => rfl⟩
      rintro (h | h)
      · exact absurd rfl h
      · rw [h4 rfl h.1, h1 (.inr h.2)]; rfl
    cases c <;> exact this _ rfl

theorem wrapDestroy_spec (s : Sched) (w : Option WrapP) :
    Gives s (wrapDestroy w) (ownWrap w) (fun _ => []) fun _ lk => lk = codecsOf w := by
  cases w with
  | none => exact Gives.ret [] (by sames []) rfl
  | some w =>
    unfold wrapDestroy
    refine Gives.call ([w.uncomp] ++ [w.self]) (compDestroy_spec s w.strm) (by sames []) ?_
    rintro _ _ rfl
    refine Spec.same (l' := ids [some w.uncomp, some w.self] ++ w.strm.codec.toList) (by sames [])
      (Spec.mono (freeAll_spec s _ _) fun _ _ h => ⟨w.strm.codec.toList, by rw [h]; same, rfl⟩)

theorem wrapWrite_spec (s : Sched) (w : WrapP) :
    Gives s (wrapWrite w) w.own (fun r => r.1.own)
      fun r lk => (r.2 = true ∨ s.Passes .compWrite → lk = []) ∧
        r.1.strm.codec = w.strm.codec := by
  unfold wrapWrite
  refine Spec.test (Gives.ret [] (by sames []) ⟨fun _ => rfl, rfl⟩) ?_
  refine Gives.call ([w.self] ++ [w.uncomp]) (compWrite_spec s w.strm) (by sames []) ?_
  rintro ⟨st, b⟩ lk ⟨h, hc⟩
  exact Gives.ret lk (by sames []) ⟨h, hc⟩

theorem wrapFinish_spec (s : Sched) (hj : s.Passes .finishJoin) (w : WrapP) :
    Gives s (wrapFinish w) w.own (fun r => r.1.own ++ r.2.1.toList)
      fun r lk => (r.2.2 = true ∨ s.Passes .compFinish → lk = [] ∧ r.1.strm.codec = none) ∧
        (w.strm.codec = none → r.1.strm.codec = none) := by
  unfold wrapFinish
  refine Gives.call ([w.self] ++ [w.uncomp]) (compFinish_spec s w.strm) (by sames []) ?_
  rintro ⟨st, p, _ | _⟩ lk ⟨h, hc⟩
  · exact Gives.ret lk (by sames []) ⟨h, hc⟩
  obtain ⟨rfl, hn⟩ := h (.inl rfl)
  refine Spec.reallocOk (k := st.own ++ [w.self] ++ [w.uncomp]) hj (by sames []) fun i => ?_
  exact Gives.ret [] (by sames []) ⟨fun _ => ⟨rfl, hn⟩, hc⟩

/-! ## The block cache -/

/-- The failures after which the cache must not be used, and is. -/
structure CacheSafe (s : Sched) : Prop where
  table : s.Passes .blkTable
  max : s.Passes .blkMax
  cpio : s.Passes .blkCpio
  file : s.Passes .pageFile
  write : s.Passes .pageWrite

theorem blocksCreate_spec (s : Sched) (hs : CacheSafe s) (kind : SrcKind) :
    Gives s (blocksCreate kind) [] (fun r => r.1.own)
      fun r lk => (r.2 = true ∨ s.Passes .blkSelf → lk = []) ∧
        (r.1 = .null ∨ ∃ b, r.1 = .blks b ∧ b.kind = kind) ∧ (r.2 = true → r.1 ≠ .null) := by
  unfold blocksCreate
  refine Spec.test (Gives.ret [] (by sames []) ⟨fun _ => rfl, .inl rfl, nofun⟩) ?_
  have rest : ∀ src : Option Nat, Gives s (if kind ≠ .standard ∧ src = none then
      pure (BlksR.null, false)
    else do
      let self ← alloc .blkSelf
      match self with
      | none => pure (.null, false)
      | some self => do
        let table ← alloc .blkTable
        match table with
        | none => do
          free (some self)
          pure (.dangling, false)
        | some table => do
          let max ← alloc .blkMax
          match max with
          | none => do
            freeAll [some self, some table]
            pure (.dangling, false)
          | some max => do
            let cpio ← alloc .blkCpio
            match cpio with
            | none => do
              freeAll [some self, some table, some max]
              pure (.dangling, false)
            | some cpio =>
              pure (.blks { kind := kind, self := self, src := src, table := table, max := max,
                            cpio := cpio }, true)) src.toList (fun r => r.1.own)
      fun r lk => (r.2 = true ∨ s.Passes .blkSelf → lk = []) ∧
        (r.1 = .null ∨ ∃ b, r.1 = .blks b ∧ b.kind = kind) ∧ (r.2 = true → r.1 ≠ .null) := by
    intro src
    refine Spec.cond (fun h => Gives.ret [] (by sames [h.2]) ⟨fun _ => rfl, .inl rfl, nofun⟩)
      fun _ => ?_
    refine Spec.allocP (fun h => Gives.ret src.toList (by sames []) ⟨?_, .inl rfl, nofun⟩)
      fun i => ?_
    · rintro (h' | h')
      · exact nomatch h'
      · exact absurd h' h
    refine Spec.allocOk hs.table fun t => Spec.allocOk hs.max fun m => Spec.allocOk hs.cpio fun c => ?_
    exact Gives.ret [] (by sames []) ⟨fun _ => rfl, .inr ⟨_, rfl, rfl⟩, fun _ => nofun⟩
  cases kind with
  | standard => exact Gives.same (by sames []) (rest none)
  | rpmonly =>
    refine Gives.call [] (exportHdr_spec s .call) (by sames []) ?_
    rintro p lk ⟨rfl, -⟩
    exact Gives.same (by sames []) (rest p)
  | filesystem => exact Spec.alloc (Gives.same (by sames []) (rest none)) fun i => Gives.same (by sames []) (rest (some i))

theorem freePairs_spec (s : Sched) : ∀ ps : List (Nat × Nat),
    Gives s (freePairs ps) (pairs ps) (fun _ => []) fun _ lk => lk = []
  | [] => Gives.ret [] (by sames []) rfl
  | p :: ps => by
    unfold freePairs
    exact Spec.freeAll (k := pairs ps) (by sames []) (freePairs_spec s ps)

theorem freeList_spec (s : Sched) : ∀ l : List Nat,
    Gives s (freeList l) l (fun _ => []) fun _ lk => lk = []
  | [] => Gives.ret [] (by sames []) rfl
  | i :: is => by
    unfold freeList
    exact Spec.free (k := is) Same.rfl (freeList_spec s is)

theorem blocksDestroy_spec (s : Sched) (b : BlksR) (hb : b ≠ .dangling) :
    Gives s (blocksDestroy b) b.own (fun _ => []) fun _ lk => lk = [] := by
  cases b with
  | null => exact Gives.ret [] (by sames []) rfl
  | dangling => exact absurd rfl hb
  | blks b =>
    unfold blocksDestroy
    refine Gives.call ([b.self] ++ b.src.toList ++ [b.table] ++ [b.max] ++ [b.cpio] ++ pairs b.core
      ++ b.page ++ b.pageFd.toList) (freePairs_spec s b.files) (by sames []) ?_
    rintro _ _ rfl
    refine Spec.free (k := [b.self] ++ [b.table] ++ [b.max] ++ [b.cpio] ++ pairs b.core
      ++ b.page ++ b.pageFd.toList) (by sames []) ?_
    refine Gives.call ([b.self] ++ [b.table] ++ [b.max] ++ [b.cpio]
      ++ b.page ++ b.pageFd.toList) (freePairs_spec s b.core) (by sames []) ?_
    rintro _ _ rfl
    refine Gives.call ([b.self] ++ [b.table] ++ [b.max] ++ [b.cpio] ++ b.pageFd.toList)
      (freeList_spec s b.page) (by sames []) ?_
    rintro _ _ rfl
    refine Spec.same (l' := ids [b.pageFd, some b.table, some b.max, some b.cpio, some b.self] ++ [])
      (by sames []) (Spec.mono (freeAll_spec s _ _) fun _ _ h => ⟨[], by rw [h]; same, rfl⟩)

/-- Using the cache keeps everything in it. -/
abbrev Keeps (s : Sched) (c : Res (BlksP × Bool)) (b : BlksP) : Prop :=
  Gives s c b.own (fun r => r.1.own) fun r lk => lk = [] ∧ r.1.kind = b.kind

theorem newCore_spec (s : Sched) (b : BlksP) : Keeps s (newCore b) b := by
  unfold newCore
  refine Spec.alloc (Gives.ret [] (by sames []) ⟨rfl, rfl⟩) fun n => ?_
  refine Spec.alloc ?_ fun d => ?_
  · exact Spec.free (k := b.own) (by sames []) (Gives.ret [] (by sames []) ⟨rfl, rfl⟩)
  · exact Gives.ret [] (by sames []) ⟨rfl, rfl⟩

theorem pageOut_spec (s : Sched) (hs : CacheSafe s) (n : Nat) (b : BlksP) :
    Keeps s (pageOut n b) b := by
  unfold pageOut
  exact Spec.testOk hs.write (Gives.ret [] (by sames []) ⟨rfl, rfl⟩)

theorem count_cons' (a n : Nat) (l : List Nat) :
    List.count a (n :: l) = List.count a [n] + List.count a l := by
  rw [← List.count_append]; rfl

theorem writePage_spec (s : Sched) (hs : CacheSafe s) (b : BlksP) : Keeps s (writePage b) b := by
  unfold writePage
  refine Spec.test ?_ (Gives.ret [] (by sames []) ⟨rfl, rfl⟩)
  refine Spec.pick fun j => ?_
  cases b.page[j]? with
  | some n => exact pageOut_spec s hs n b
  | none =>
    refine Spec.alloc (Gives.ret [] (by sames []) ⟨rfl, rfl⟩) fun n => ?_
    cases hf : b.pageFd with
    | some fd =>
      refine Gives.same ?_ (pageOut_spec s hs n { b with page := n :: b.page, pageFd := some fd })
      sames [count_cons' _ n b.page, hf]
    | none =>
      refine Spec.allocOk hs.file fun fd => ?_
      refine Gives.same ?_ (pageOut_spec s hs n { b with page := n :: b.page, pageFd := some fd })
      sames [count_cons' _ n b.page, hf]

theorem pushBlock_spec (s : Sched) (hs : CacheSafe s) (b : BlksP) : Keeps s (pushBlock b) b := by
  unfold pushBlock
  refine Spec.test ?_ (Gives.ret [] (by sames []) ⟨rfl, rfl⟩)
  refine Spec.test ?_ (newCore_spec s b)
  exact Spec.test (Gives.ret [] (by sames []) ⟨rfl, rfl⟩) (writePage_spec s hs b)

theorem fillStandard_spec (s : Sched) (hs : CacheSafe s) : ∀ (n : Nat) (nb : Option Nat) (b : BlksP),
    Gives s (fillStandard n nb b) (nb.toList ++ b.own) (fun r => r.1.own)
      fun r lk => lk = [] ∧ r.1.kind = b.kind
  | 0, nb, b => by
    unfold fillStandard
    exact Spec.test (Spec.free (k := b.own) (by sames []) (Gives.ret [] (by sames []) ⟨rfl, rfl⟩))
      (Spec.free (k := b.own) (by sames []) (Gives.ret [] (by sames []) ⟨rfl, rfl⟩))
  | n + 1, nb, b => by
    unfold fillStandard
    have out : Gives s (do
        free nb
        pure (b, false)) (nb.toList ++ b.own) (fun r => r.1.own)
        fun r lk => lk = [] ∧ r.1.kind = b.kind :=
      Spec.free (k := b.own) (by sames []) (Gives.ret [] (by sames []) ⟨rfl, rfl⟩)
    refine Spec.test out ?_
    refine Spec.test ?_ ?_
    · refine Spec.test (Gives.same (by sames []) (fillStandard_spec s hs n nb b)) ?_
      refine Gives.call nb.toList (pushBlock_spec s hs b) (by sames []) ?_
      rintro ⟨b', _ | _⟩ lk ⟨rfl, hk⟩
      · exact Spec.free (k := b'.own) (by sames []) (Gives.ret [] (by sames []) ⟨rfl, hk⟩)
      · dsimp only at hk
        rw [← hk]
        exact Gives.same (by sames []) (fillStandard_spec s hs n nb b')
    · refine Spec.realloc (k := b.own) (by sames []) out fun i => ?_
      exact Gives.same (by sames []) (fillStandard_spec s hs n (some i) b)

theorem fillRpmonly_spec (s : Sched) (hs : CacheSafe s) : ∀ (n : Nat) (b : BlksP),
    Keeps s (fillRpmonly n b) b
  | 0, b => Spec.test (Gives.ret [] (by sames []) ⟨rfl, rfl⟩)
      (Gives.ret [] (by sames []) ⟨rfl, rfl⟩)
  | n + 1, b => by
    unfold fillRpmonly
    refine Spec.test (Gives.ret [] (by sames []) ⟨rfl, rfl⟩) ?_
    refine Spec.test (fillRpmonly_spec s hs n b) ?_
    refine Gives.call [] (pushBlock_spec s hs b) (by sames []) ?_
    rintro ⟨b', _ | _⟩ lk ⟨rfl, hk⟩
    · exact Gives.ret [] (by sames []) ⟨rfl, hk⟩
    · dsimp only at hk
      show Gives s (fillRpmonly n b') _ _ fun r lk => lk = [] ∧ r.1.kind = b.kind
      rw [← hk]
      exact Gives.same (by sames []) (fillRpmonly_spec s hs n b')

theorem pairs_append : ∀ l m : List (Nat × Nat), pairs (l ++ m) = pairs l ++ pairs m
  | [], _ => rfl
  | p :: l, m => by
    rw [List.cons_append, pairs, pairs, pairs_append l m]
    simp only [List.append_assoc]

theorem pairs_move : ∀ (j : Nat) (l : List (Nat × Nat)),
    Same (pairs (l.eraseIdx j ++ l[j]?.toList)) (pairs l)
  | _, [] => Same.rfl
  | 0, p :: l => by
    intro a
    rw [pairs_append]
    show List.count a (pairs l ++ pairs [p]) = _
    simp only [pairs, List.count_append, count_nil']
    omega
  | j + 1, p :: l => by
    intro a
    have := pairs_move j l a
    rw [pairs_append] at *
    show List.count a (pairs (p :: l.eraseIdx j) ++ pairs l[j]?.toList) = _
    simp only [pairs, List.count_append] at *
    omega

theorem getOpen_own (j : Nat) (b : BlksP) : Same b.own (getOpen j b).own := by
  intro a
  have := pairs_move j b.files a
  simp only [BlksP.own, getOpen, List.count_append] at *
  omega

theorem openNew_spec (s : Sched) (he : s.Passes .elfStr) (b : BlksP) :
    Gives s (openNew b) b.own (fun r => r.1.own) fun r lk => lk = [] ∧ r.1.kind = b.kind := by
  unfold openNew
  refine Spec.alloc (Gives.ret [] (by sames []) ⟨rfl, rfl⟩) fun fd => ?_
  have rest : ∀ p : Bool × Bool, Gives s (if p.1 then
      if p.2 then do
        free (some fd)
        pure (b, true, true)
      else if b.files.length < 50 then do
        let n ← alloc .call
        match n with
        | none => do
          free (some fd)
          pure (b, false, false)
        | some n => pure ({ b with files := b.files ++ [(n, fd)] }, true, false)
      else
        match b.files with
        | [] => garbage
        | h :: rest => do
          free (some h.2)
          pure ({ b with files := rest ++ [(h.1, fd)] }, true, false)
    else do
      free (some fd)
      pure (b, false, false)) ([fd] ++ b.own) (fun r => r.1.own)
      fun r lk => lk = [] ∧ r.1.kind = b.kind := by
    intro p
    refine Spec.cond (fun _ => Spec.cond (fun _ => ?_) fun _ => Spec.cond (fun _ => ?_) fun hn => ?_)
      fun _ => ?_
    · exact Spec.free (k := b.own) (by sames []) (Gives.ret [] (by sames []) ⟨rfl, rfl⟩)
    · refine Spec.alloc ?_ fun n => ?_
      · exact Spec.free (k := b.own) (by sames []) (Gives.ret [] (by sames []) ⟨rfl, rfl⟩)
      · exact Gives.ret [] (by sames [pairs_append]) ⟨rfl, rfl⟩
    · cases hf : b.files with
      | nil => simp [hf] at hn
      | cons h rest =>
        refine Spec.free (k := [fd] ++ [b.self] ++ b.src.toList ++ [b.table] ++ [b.max] ++ [b.cpio]
          ++ pairs b.core ++ b.page ++ b.pageFd.toList ++ [h.1] ++ pairs rest)
          (by sames [hf]) ?_
        exact Gives.ret [] (by sames [pairs_append]) ⟨rfl, rfl⟩
    · exact Spec.free (k := b.own) (by sames []) (Gives.ret [] (by sames []) ⟨rfl, rfl⟩)
  refine Spec.test (Gives.same (by sames []) (rest (true, false))) ?_
  refine Gives.call ([fd] ++ b.own) (isPrelinked_spec s he) (by sames []) ?_
  rintro p lk ⟨rfl, -⟩
  exact Gives.same (by sames []) (rest p)

theorem prelinkBack_spec (s : Sched) (he : s.Passes .elfStr) : ∀ n : Nat,
    Gives s (prelinkBack n) [] (fun r => r.1.toList) fun _ lk => lk = []
  | 0 => Gives.ret [] (by sames []) rfl
  | n + 1 => by
    unfold prelinkBack
    refine Spec.test ?_ (Gives.ret [] (by sames []) rfl)
    refine Spec.alloc (Gives.ret [] (by sames []) rfl) fun fd => ?_
    refine Spec.test ?_ (Gives.ret [] (by sames []) rfl)
    refine Gives.call [fd] (isPrelinked_spec s he) (by sames []) ?_
    rintro ⟨_ | _, p⟩ lk ⟨rfl, -⟩
    · exact Gives.ret [] (by sames []) rfl
    cases p with
    | false => exact Gives.ret [] (by sames []) rfl
    | true => exact Spec.free (k := []) (by sames []) (prelinkBack_spec s he n)

theorem prelinkNext_spec (s : Sched) (he : s.Passes .elfStr) (hp : s.Passes .prelinkOpen) :
    Gives s prelinkNext [] (fun r => r.1.toList) fun _ lk => lk = [] := by
  unfold prelinkNext
  refine Spec.alloc (Gives.ret [] (by sames []) rfl) fun fd => ?_
  refine Spec.test (Gives.ret [] (by sames []) rfl) ?_
  refine Gives.call [fd] (isPrelinked_spec s he) (by sames []) ?_
  rintro ⟨_ | _, p⟩ lk ⟨rfl, -⟩
  · exact Gives.ret [] (by sames []) rfl
  cases p with
  | false => exact Gives.ret [] (by sames []) rfl
  | true =>
    refine Spec.free (k := []) (by sames []) ?_
    refine Gives.call [] (prelinkOpen_spec s .prelinkOpen) (by sames []) ?_
    rintro (_ | q) lk ⟨rfl, hn⟩
    · exact absurd rfl (hn hp)
    · exact Gives.ret [] (by sames []) rfl

theorem prelinkLoop_spec (s : Sched) (hs : CacheSafe s) (he : s.Passes .elfStr)
    (hp : s.Passes .prelinkOpen) : ∀ (n : Nat) (fd : Option Nat) (b : BlksP),
    Gives s (prelinkLoop n fd b) (fd.toList ++ b.own) (fun r => r.1.toList ++ r.2.1.own)
      fun r lk => lk = [] ∧ r.2.1.kind = b.kind
  | 0, fd, b => Spec.test (Gives.ret [] (by sames []) ⟨rfl, rfl⟩)
      (Gives.ret [] (by sames []) ⟨rfl, rfl⟩)
  | n + 1, fd, b => by
    unfold prelinkLoop
    have ih := fun fd b => prelinkLoop_spec s hs he hp n fd b
    refine Spec.test ?_ ?_
    · refine Spec.test ?_ ?_
      · have read : ∀ o : Option Nat × Bool, Gives s (if o.2 then do
            let read ← test .call
            if read then
              let eof ← test .call
              if eof then
                free o.1
                prelinkLoop n none b
              else prelinkLoop n o.1 b
            else pure (o.1, b, false)
          else pure (o.1, b, false)) (o.1.toList ++ b.own) (fun r => r.1.toList ++ r.2.1.own)
            fun r lk => lk = [] ∧ r.2.1.kind = b.kind := by
          intro o
          refine Spec.cond (fun _ => ?_) fun _ => Gives.ret [] (by sames []) ⟨rfl, rfl⟩
          refine Spec.test (Gives.ret [] (by sames []) ⟨rfl, rfl⟩) ?_
          refine Spec.test (ih o.1 b) ?_
          exact Spec.free (k := b.own) (by sames []) (Gives.same (by sames []) (ih none b))
        cases fd with
        | some fd => exact Gives.same (by sames []) (read (some fd, true))
        | none =>
          refine Gives.call b.own (prelinkNext_spec s he hp) (by sames []) ?_
          rintro o lk rfl
          exact Gives.same (by sames []) (read o)
      · exact Spec.free (k := b.own) (by sames []) (Gives.same (by sames []) (ih none b))
    · refine Gives.call fd.toList (pushBlock_spec s hs b) (by sames []) ?_
      rintro ⟨b', _ | _⟩ lk ⟨rfl, hk⟩
      · exact Gives.ret [] (by sames []) ⟨rfl, hk⟩
      · dsimp only at hk
        rw [← hk]
        exact Gives.same (by sames []) (ih fd b')

theorem fillPrelink_spec (s : Sched) (hs : CacheSafe s) (he : s.Passes .elfStr)
    (hp : s.Passes .prelinkOpen) (b : BlksP) : Keeps s (fillPrelink b) b := by
  unfold fillPrelink
  refine Spec.pick fun k => ?_
  refine Gives.call b.own (prelinkBack_spec s he k) (by sames []) ?_
  rintro ⟨fd, _ | _⟩ lk rfl
  · exact Spec.free (k := b.own) (by sames []) (Gives.ret [] (by sames []) ⟨rfl, rfl⟩)
  refine Spec.test
    (Spec.free (k := b.own) (by sames []) (Gives.ret [] (by sames []) ⟨rfl, rfl⟩)) ?_
  refine Spec.pick fun n => ?_
  refine Gives.call [] (prelinkLoop_spec s hs he hp n fd b) (by sames []) ?_
  rintro r lk ⟨rfl, hk⟩
  exact Spec.free (k := r.2.1.own) (by sames []) (Gives.ret [] (by sames []) ⟨rfl, hk⟩)

theorem fillFilesystem_spec (s : Sched) (hs : CacheSafe s) (he : s.Passes .elfStr)
    (hp : s.Passes .prelinkOpen) : ∀ (n : Nat) (b : BlksP), Keeps s (fillFilesystem n b) b
  | 0, b => Spec.test (Gives.ret [] (by sames []) ⟨rfl, rfl⟩)
      (Gives.ret [] (by sames []) ⟨rfl, rfl⟩)
  | n + 1, b => by
    unfold fillFilesystem
    refine Spec.pick fun j => ?_
    have read : ∀ b' : BlksP, b'.kind = b.kind → Gives s (do
        let read ← test .call
        if read then fillFilesystem n (getOpen j b') else pure (getOpen j b', false)) b'.own
        (fun r => r.1.own) fun r lk => lk = [] ∧ r.1.kind = b.kind := by
      intro b' hk
      rw [← hk]
      refine Gives.same (getOpen_own j b') ?_
      exact Spec.test (Gives.ret [] (by same) ⟨rfl, rfl⟩)
        (fillFilesystem_spec s hs he hp n (getOpen j b'))
    refine Spec.test ?_ (read b rfl)
    refine Gives.call [] (openNew_spec s he b) (by sames []) ?_
    rintro ⟨b', _ | _, p⟩ lk ⟨rfl, hk⟩
    · exact Gives.ret [] (by sames []) ⟨rfl, hk⟩
    cases p with
    | false => exact Gives.same (by sames []) (read b' hk)
    | true =>
      dsimp only at hk
      show Gives s (fillPrelink b') _ _ fun r lk => lk = [] ∧ r.1.kind = b.kind
      rw [← hk]
      exact Gives.same (by sames []) (fillPrelink_spec s hs he hp b')

/-- Files of the installed package are used only if that is where the data come from. -/
abbrev FilesSafe (s : Sched) (kind : SrcKind) : Prop :=
  kind = .filesystem → s.Passes .elfStr ∧ s.Passes .prelinkOpen

theorem getBlock_spec (s : Sched) (hs : CacheSafe s) (b : BlksP) (hf : FilesSafe s b.kind) :
    Keeps s (getBlock b) b := by
  unfold getBlock
  refine Gives.call [] (pushBlock_spec s hs b) (by sames []) ?_
  rintro ⟨b', _ | _⟩ lk ⟨rfl, hk⟩
  · exact Gives.ret [] (by sames []) ⟨rfl, hk⟩
  refine Spec.test ?_
    (Spec.test (Gives.ret [] (by sames []) ⟨rfl, hk⟩) (Gives.ret [] (by sames []) ⟨rfl, hk⟩))
  refine Spec.pick fun n => ?_
  dsimp only at hk
  have e : ∀ c : Res (BlksP × Bool), Keeps s c b' →
      Gives s c (b'.own ++ [] ++ []) (fun r => r.1.own) fun r lk => lk = [] ∧ r.1.kind = b.kind := by
    intro c hc
    rw [← hk]
    exact Gives.same (by sames []) hc
  cases h : b.kind with
  | standard =>
    rw [h] at e
    exact e _ (Gives.same (by sames []) (fillStandard_spec s hs n none b'))
  | rpmonly =>
    rw [h] at e
    exact e _ (fillRpmonly_spec s hs n b')
  | filesystem =>
    rw [h] at e
    exact e _ (fillFilesystem_spec s hs (hf h).1 (hf h).2 n b')

theorem blocksNext_spec (s : Sched) (hs : CacheSafe s) (b : BlksP) (hf : FilesSafe s b.kind) :
    Keeps s (blocksNext b) b := by
  unfold blocksNext
  exact Spec.test (getBlock_spec s hs b hf) (Gives.ret [] (by sames []) ⟨rfl, rfl⟩)

end Drpm.Own
