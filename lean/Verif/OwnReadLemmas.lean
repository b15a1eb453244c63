import Verif.OwnRead

/-!
# Ownership: lemmas about packages, streams and reading a delta
-/

namespace Drpm.Own

/-- The code ends holding what its result owns, and `lk` besides. -/
def Gives (s : Sched) (c : Res α) (l : List Nat) (own : α → List Nat)
    (P : α → List Nat → Prop) : Prop :=
  Spec s c l fun a l' => ∃ lk, Same l' (own a ++ lk) ∧ P a lk

theorem Gives.call {s : Sched} {c : Res α} {f : α → Res β} {l lc : List Nat} (k : List Nat)
    {own : α → List Nat} {P : α → List Nat → Prop} {Q : β → List Nat → Prop}
    (hc : Gives s c lc own P) (hl : Same l (lc ++ k))
    (hf : ∀ a lk, P a lk → Spec s (f a) (own a ++ lk ++ k) Q) : Spec s (c >>= f) l Q := by
  refine Spec.call hc hl ?_
  rintro a l' ⟨lk, hs, hp⟩
  refine Spec.same ?_ (hf a lk hp)
  intro x
  have := hs x
  simp only [List.count_append] at *
  omega

theorem Gives.ret {s : Sched} {a : α} {l : List Nat} {own : α → List Nat}
    {P : α → List Nat → Prop} (lk : List Nat) (hs : Same l (own a ++ lk)) (hp : P a lk) :
    Gives s (pure a) l own P :=
  Spec.ret ⟨lk, hs, hp⟩

/-- The last call of a piece of code. -/
theorem Gives.last {s : Sched} {c : Res α} {l lc : List Nat} (k : List Nat)
    {own : α → List Nat} {P : α → List Nat → Prop}
    {own' : α → List Nat} {P' : α → List Nat → Prop}
    (hc : Gives s c lc own P) (hl : Same l (lc ++ k))
    (hf : ∀ a lk, P a lk → ∃ lk', Same (own a ++ lk ++ k) (own' a ++ lk') ∧ P' a lk') :
    Gives s c l own' P' := by
  refine Spec.same hl (Spec.mono (Spec.frame hc k) ?_)
  rintro a _ ⟨l', ⟨lk, hs, hp⟩, rfl⟩
  obtain ⟨lk', hs', hp'⟩ := hf a lk hp
  refine ⟨lk', ?_, hp'⟩
  intro x
  have h1 := hs x
  have h2 := hs' x
  simp only [List.count_append] at *
  omega

theorem Gives.same {s : Sched} {c : Res α} {l l' : List Nat} {own : α → List Nat}
    {P : α → List Nat → Prop} (h : Same l l') (hc : Gives s c l' own P) : Gives s c l own P :=
  Spec.same h hc

theorem count_nil' (a : Nat) : List.count a ([] : List Nat) = 0 := rfl

theorem DeltaP.own_empty : ({} : DeltaP).own = [] := rfl

theorem DeltaP.own_tgt (r : Option RpmP) : ({ tgtRpm := r } : DeltaP).own = ownRpm r ++ [] := rfl

macro "same" : tactic => `(tactic| (
  intro a
  try simp only [StrmP.own, ownStrm, RpmP.own, ownRpm, FileP.own, ownFiles, ownDrpm, DrpmP.own, DeltaP.own_empty, DeltaP.own_tgt, ids_nil, ids_cons,
    Option.toList, List.count_append, count_nil', List.nil_append, List.append_nil]
  try omega))

/-! ## Streams -/

theorem strmInit_spec (s : Sched) :
    Gives s strmInit [] ownStrm fun _ lk => lk = [] := by
  unfold strmInit
  refine Spec.test (Gives.ret [] (by same) rfl) ?_
  refine Spec.alloc (Gives.ret [] (by same) rfl) fun i => ?_
  refine Spec.test (Gives.ret [] (by same) rfl) ?_
  refine Spec.alloc ?_ fun c => ?_
  · exact Spec.free (k := []) (by same) (Gives.ret [] (by same) rfl)
  · exact Spec.test (Gives.ret [] (by same) rfl) (Gives.ret [] (by same) rfl)

theorem strmGrow_spec (s : Sched) (x : Site) : ∀ (n : Nat) (st : StrmP),
    Gives s (strmGrow x n st) st.own (fun r => r.1.own)
      fun r lk => lk = [] ∧ (s.Passes x → r.2 = true) ∧ r.1.zstd = st.zstd
  | 0, st => Gives.ret [] (by same) ⟨rfl, fun _ => rfl, rfl⟩
  | n + 1, st => by
    unfold strmGrow
    refine Spec.testP (fun h => Gives.ret [] (by same) ⟨rfl, fun hx => absurd hx h, rfl⟩) ?_
    refine Spec.reallocP (k := [st.self] ++ st.codec.toList) (by same)
      (fun h => Gives.ret [] (by same) ⟨rfl, fun hx => absurd hx h, rfl⟩) fun i => ?_
    exact Gives.same (by same) (strmGrow_spec s x n { st with data := some i })

/-- What a stream leaves behind. -/
def StrmPost (s : Sched) (r : StrmP × Bool) (lk : List Nat) : Prop :=
  ((r.2 = true ∨ s.Passes .zstdChunk) → lk = []) ∧ (r.1.zstd = false → lk = [])

/-- A chunk: only the failure of a zstd stream leaves something behind. -/
theorem strmChunk_spec (s : Sched) (st : StrmP) :
    Gives s (strmChunk st) st.own (fun r => r.1.own) (StrmPost s) := by
  unfold strmChunk
  refine Spec.test (Gives.ret [] (by same) ⟨fun _ => rfl, fun _ => rfl⟩) ?_
  refine Spec.pick fun n => ?_
  refine Spec.cond (fun hz => ?_) fun _ => ?_
  · refine Spec.alloc (Gives.ret [] (by same) ⟨fun _ => rfl, fun _ => rfl⟩) fun b => ?_
    refine Gives.call [b] (strmGrow_spec s .zstdChunk n st) (by same) ?_
    rintro ⟨st', _ | _⟩ lk ⟨rfl, hg, he⟩
    · refine Gives.ret [b] (by same) ⟨?_, fun h => nomatch (he.trans hz).symm.trans h⟩
      rintro (h | h)
      · exact nomatch h
      · exact nomatch hg h
    · refine Spec.testP (fun hn => Gives.ret [b] (by same)
        ⟨?_, fun h => nomatch (he.trans hz).symm.trans h⟩) ?_
      · rintro (h | h)
        · exact nomatch h
        · exact absurd h hn
      · exact Spec.free (k := st'.own) (by same) (Gives.ret [] (by same) ⟨fun _ => rfl, fun _ => rfl⟩)
  · refine Gives.call [] (strmGrow_spec s .call n st) (by same) ?_
    rintro ⟨st', _ | _⟩ lk ⟨rfl, -⟩
    · exact Gives.ret [] (by same) ⟨fun _ => rfl, fun _ => rfl⟩
    · exact Spec.test (Gives.ret [] (by same) ⟨fun _ => rfl, fun _ => rfl⟩)
        (Gives.ret [] (by same) ⟨fun _ => rfl, fun _ => rfl⟩)

theorem strmChunks_spec (s : Sched) : ∀ (n : Nat) (st : StrmP),
    Gives s (strmChunks n st) st.own (fun r => r.1.own) (StrmPost s)
  | 0, st => Gives.ret [] (by same) ⟨fun _ => rfl, fun _ => rfl⟩
  | n + 1, st => by
    unfold strmChunks
    refine Gives.call [] (strmChunk_spec s st) (by same) ?_
    rintro ⟨st', _ | _⟩ lk h
    · exact Gives.ret lk (by same) h
    · cases h.1 (.inl rfl)
      exact Gives.same (by same) (strmChunks_spec s n st')

theorem strmRead_spec' (s : Sched) (st : StrmP) :
    Gives s (strmRead st) st.own (fun r => r.1.own) (StrmPost s) :=
  Spec.pick fun n => strmChunks_spec s n st

theorem strmRead_spec (s : Sched) (st : StrmP) :
    Gives s (strmRead st) st.own (fun r => r.1.own)
      fun r lk => (r.2 = true ∨ s.Passes .zstdChunk) → lk = [] :=
  Spec.mono (strmRead_spec' s st) fun _ _ ⟨lk, h, hp⟩ => ⟨lk, h, hp.1⟩

theorem strmUntilEof_spec (s : Sched) (st : StrmP) :
    Gives s (strmUntilEof st) st.own (fun r => r.1.own ++ r.2.1.toList)
      fun r lk => (r.2.2 = true ∨ s.Passes .zstdChunk) → lk = [] := by
  unfold strmUntilEof
  refine Gives.call [] (strmRead_spec' s st) (by same) ?_
  rintro ⟨st', b⟩ lk h
  have key : ∀ f : Bool, Gives s (if b = true ∨ (f = true ∧ st'.zstd = false) then (do
      let p ← alloc .call
      pure (st', p, p.isSome)) else pure (st', none, false)) (st'.own ++ lk ++ [])
      (fun r : StrmP × Option Nat × Bool => r.1.own ++ r.2.1.toList)
      fun r lk => (r.2.2 = true ∨ s.Passes .zstdChunk) → lk = [] := by
    intro f
    refine Spec.cond (fun hc => ?_) fun _ => Gives.ret lk (by same) ?_
    · have hn : lk = [] := hc.elim (fun hb => h.1 (.inl hb)) fun hz => h.2 hz.2
      cases hn
      exact Spec.alloc (Gives.ret [] (by same) fun _ => rfl)
        fun i => Gives.ret [] (by same) fun _ => rfl
    · rintro (h' | h')
      · exact nomatch h'
      · exact h.1 (.inr h')
  exact Spec.test (key false) (key true)

theorem strmDestroy_spec (s : Sched) (st : Option StrmP) :
    Gives s (strmDestroy st) (ownStrm st) (fun _ => []) fun _ lk => lk = [] := by
  cases st with
  | none => exact Gives.ret [] (by same) rfl
  | some st =>
    unfold strmDestroy
    refine Spec.same (l' := ids [st.codec, st.data, some st.self] ++ []) ?_
      (Spec.mono (freeAll_spec s _ []) fun _ _ h => ⟨[], by rw [h]; same, rfl⟩)
    same

/-! ## Packages -/

theorem rpmFree_spec (s : Sched) (r : RpmP) :
    Gives s (rpmFree r) r.own RpmP.own fun r' lk => lk = [] ∧ r' = { self := r.self } := by
  unfold rpmFree
  exact Spec.freeAll (k := [r.self]) (by same) (Gives.ret [] (by same) ⟨rfl, rfl⟩)

theorem rpmDestroy_spec (s : Sched) (r : Option RpmP) :
    Gives s (rpmDestroy r) (ownRpm r) (fun _ => []) fun _ lk => lk = [] := by
  cases r with
  | none => exact Gives.ret [] (by same) rfl
  | some r =>
    unfold rpmDestroy
    refine Gives.call [] (rpmFree_spec s r) (by same) ?_
    rintro _ _ ⟨rfl, rfl⟩
    refine Spec.same (l' := (some r.self).toList ++ []) (by same)
      (Spec.mono (free_spec s _ _) fun _ _ h => ⟨[], by rw [h]; same, rfl⟩)

theorem exportHdr_spec (s : Sched) (x : Site) :
    Gives s (exportHdr x) [] (fun p => p.toList)
      fun p lk => lk = [] ∧ (s.Passes x → p ≠ none) := by
  unfold exportHdr
  refine Spec.allocP (fun h => Gives.ret [] (by same) ⟨rfl, fun hx => absurd hx h⟩) fun e => ?_
  refine Spec.allocP (fun h => ?_) fun p => ?_
  · exact Spec.free (k := []) (by same) (Gives.ret [] (by same) ⟨rfl, fun hx => absurd hx h⟩)
  · exact Spec.free (k := [p]) (by same) (Gives.ret [] (by same) ⟨rfl, fun _ => nofun⟩)

theorem rpmHead_spec (s : Sched) (x : Site) (i : Nat) :
    Gives s (rpmHead x { self := i }) [i] (fun r => r.1.own)
      fun r lk => lk = [] ∧ r.1.arch = none ∧ (s.Passes x → r.2 = true) := by
  unfold rpmHead
  refine Spec.testP (fun h => Gives.ret [] (by same) ⟨rfl, rfl, fun hx => absurd hx h⟩) ?_
  refine Spec.allocP (fun h => Gives.ret [] (by same) ⟨rfl, rfl, fun hx => absurd hx h⟩) fun j => ?_
  refine Spec.testP (fun h => Gives.ret [] (by same) ⟨rfl, rfl, fun hx => absurd hx h⟩) ?_
  refine Spec.allocP (fun h => Gives.ret [] (by same) ⟨rfl, rfl, fun hx => absurd hx h⟩) fun k => ?_
  exact Gives.ret [] (by same) ⟨rfl, rfl, fun _ => rfl⟩

theorem rpmDigests_spec (s : Sched) (x : Site) (seq full : Bool) :
    Gives s (rpmDigests x seq full) [] (fun r => r.1.toList ++ r.2.1.toList)
      fun r lk => lk = [] ∧ (s.Passes x → r.2.2 = true) := by
  unfold rpmDigests
  have out : ∀ (c d : Option Nat) (l : List Nat), ¬ s.Passes x → Same l (c.toList ++ d.toList) →
      Gives s (pure (c, d, false)) l (fun r => r.1.toList ++ r.2.1.toList)
        fun r lk => lk = [] ∧ (s.Passes x → r.2.2 = true) := fun c d l h hs =>
    Gives.ret [] (by intro a; have := hs a; simpa using this) ⟨rfl, fun hx => absurd hx h⟩
  refine Spec.cond (fun _ => ?_) fun _ => Spec.cond (fun _ => ?_) fun _ =>
    Gives.ret [] (by same) ⟨rfl, fun _ => rfl⟩
  · refine Gives.call [] (exportHdr_spec s x) (by same) ?_
    rintro (_ | hb) lk ⟨rfl, h⟩
    · exact out none none _ (fun hx => h hx rfl) (by same)
    refine Spec.testP (fun h => out (some hb) none _ h (by same)) ?_
    refine Spec.cond (fun _ => ?_) fun h => absurd rfl h
    refine Spec.cond (fun _ => ?_) fun _ => Gives.ret [] (by same) ⟨rfl, fun _ => rfl⟩
    refine Gives.call [hb] (exportHdr_spec s x) (by same) ?_
    rintro (_ | sb) lk ⟨rfl, h⟩
    · exact out (some hb) none _ (fun hx => h hx rfl) (by same)
    exact Spec.testP (fun h => out (some hb) (some sb) _ h (by same))
      (Gives.ret [] (by same) ⟨rfl, fun _ => rfl⟩)
  · refine Gives.call [] (exportHdr_spec s x) (by same) ?_
    rintro (_ | sb) lk ⟨rfl, h⟩
    · exact out none none _ (fun hx => h hx rfl) (by same)
    refine Gives.call [sb] (exportHdr_spec s x) (by same) ?_
    rintro (_ | hb) lk ⟨rfl, h⟩
    · exact out none (some sb) _ (fun hx => h hx rfl) (by same)
    exact Spec.testP (fun h => out (some hb) (some sb) _ h (by same))
      (Gives.ret [] (by same) ⟨rfl, fun _ => rfl⟩)

theorem arcUncomp_spec (s : Sched) (x : Site) (hm : s.Passes .md5Chunk) :
    ∀ (n : Nat) (r : RpmP), Gives s (arcUncomp x n r) r.own (fun r => r.1.own)
      fun _ lk => lk = []
  | 0, r => Spec.test (Gives.ret [] (by same) rfl) (Gives.ret [] (by same) rfl)
  | n + 1, r => by
    unfold arcUncomp
    refine Spec.realloc (k := [r.self] ++ r.sig.toList ++ r.hdr.toList) (by same)
      (Gives.ret [] (by same) rfl) fun i => ?_
    exact Spec.testOk hm (Gives.same (by same) (arcUncomp_spec s x hm n { r with arch := some i }))

theorem arcDecomp_spec (s : Sched) (r : RpmP) (ha : r.arch = none) :
    Gives s (arcDecomp r) r.own (fun r => r.1.own)
      fun r lk => (r.2 = true ∨ s.Passes .zstdChunk) → lk = [] := by
  unfold arcDecomp
  refine Gives.call r.own (strmInit_spec s) (by same) ?_
  rintro (_ | st) lk rfl
  · exact Gives.ret [] (by same) fun _ => rfl
  refine Gives.call r.own (strmUntilEof_spec s st) (by same) ?_
  rintro ⟨st', p, b⟩ lk h
  refine Gives.call (r.own ++ p.toList ++ lk) (strmDestroy_spec s (some st')) (by same) ?_
  rintro _ _ rfl
  refine Gives.ret lk ?_ h
  cases r
  cases ha
  same

theorem rpmArchive_spec (s : Sched) (x : Site) (mode : ArcMode)
    (hm : mode = .uncomp → s.Passes .md5Chunk) (hd : mode ≠ .dontRead) (r : RpmP)
    (ha : r.arch = none) :
    Gives s (rpmArchive x mode r) r.own (fun r => r.1.own)
      fun r lk => (r.2 = true ∨ s.Passes .zstdChunk) → lk = [] := by
  unfold rpmArchive
  refine Spec.alloc (Gives.ret [] (by same) fun _ => rfl) fun fd => ?_
  refine Spec.test (Spec.free (k := r.own) (by same) (Gives.ret [] (by same) fun _ => rfl)) ?_
  cases mode with
  | dontRead => exact absurd rfl hd
  | decomp =>
    refine Gives.call [fd] (arcDecomp_spec s r ha) (by same) ?_
    rintro q lk h
    exact Spec.free (k := q.1.own ++ lk) (by same) (Gives.ret lk (by same) h)
  | uncomp =>
    refine Gives.call [fd] (P := fun _ lk => lk = [])
      (Spec.pick fun n => arcUncomp_spec s x (hm rfl) n r) (by same) ?_
    rintro q lk rfl
    exact Spec.free (k := q.1.own) (by same) (Gives.ret [] (by same) fun _ => rfl)

theorem rpmBody_spec (s : Sched) (x : Site) (mode : ArcMode) (seq full : Bool)
    (hm : mode = .uncomp → s.Passes .md5Chunk) (i : Nat) :
    Gives s (rpmBody x mode seq full { self := i }) [i]
      (fun r => r.1.own ++ r.2.1.toList ++ r.2.2.1.toList)
      fun r lk => (r.2.2.2 = true ∨ s.Passes .zstdChunk ∨ mode = .dontRead → lk = []) ∧
        (mode = .dontRead → s.Passes x → r.2.2.2 = true) := by
  unfold rpmBody
  refine Gives.call [] (rpmHead_spec s x i) (by same) ?_
  rintro ⟨r, _ | _⟩ lk ⟨rfl, ha, hx⟩
  · exact Gives.ret [] (by same) ⟨fun _ => rfl, fun _ h => nomatch hx h⟩
  refine Gives.call r.own (rpmDigests_spec s x seq full) (by same) ?_
  rintro ⟨hb, sb, _ | _⟩ lk ⟨rfl, hx'⟩
  · exact Gives.ret [] (by same) ⟨fun _ => rfl, fun _ h => nomatch hx' h⟩
  refine Spec.cond (fun _ => ?_) fun h => absurd rfl h
  refine Spec.cond (fun _ => Gives.ret [] (by same) ⟨fun _ => rfl, fun _ _ => rfl⟩) fun hd => ?_
  refine Spec.test (Gives.ret [] (by same) ⟨fun _ => rfl, fun h => absurd h hd⟩) ?_
  refine Gives.call (hb.toList ++ sb.toList) (rpmArchive_spec s x mode hm hd r ha) (by same) ?_
  rintro ⟨r', _ | _⟩ lk hz
  · refine Gives.ret lk (by same) ⟨?_, fun h => absurd h hd⟩
    rintro (h | h | h)
    · exact nomatch h
    · exact hz (.inr h)
    · exact absurd h hd
  · cases hz (.inl rfl)
    exact Spec.test
      (Gives.ret [] (by same) ⟨fun _ => rfl, fun h => absurd h hd⟩)
      (Gives.ret [] (by same) ⟨fun _ => rfl, fun h => absurd h hd⟩)

/-- Reading a package; a failure leaves at most the structure with the caller. -/
theorem rpmRead_spec' (s : Sched) (x : Site) (mode : ArcMode) (seq full : Bool)
    (hm : mode = .uncomp → s.Passes .md5Chunk) :
    Gives s (rpmRead x mode seq full) [] (fun r => ownRpm r.1)
      fun r lk => ((r.2 = true ∨ s.Passes .zstdChunk ∨ mode = .dontRead → lk = []) ∧
        (mode = .dontRead → s.Passes x → r.2 = true)) ∧
        (r.2 = false → (ownRpm r.1).length ≤ 1) ∧ (r.2 = true → ∃ p, r.1 = some p) := by
  unfold rpmRead
  refine Spec.allocP (fun h => Gives.ret [] (by same) ⟨⟨fun _ => rfl, fun _ hx => absurd hx h⟩,
    fun _ => Nat.zero_le _, nofun⟩) fun i => ?_
  refine Spec.allocP (fun h => Gives.ret [] (by same) ⟨⟨fun _ => rfl, fun _ hx => absurd hx h⟩,
    fun _ => Nat.le_refl _, nofun⟩) fun fd => ?_
  refine Gives.call [fd] (rpmBody_spec s x mode seq full hm i) (by same) ?_
  rintro ⟨r, hb, sb, _ | _⟩ lk ⟨hz, hx⟩
  · refine Gives.call (hb.toList ++ sb.toList ++ lk ++ [fd]) (rpmFree_spec s r) (by same) ?_
    rintro _ _ ⟨rfl, rfl⟩
    exact Spec.freeAll (k := [r.self] ++ lk) (by same)
      (Gives.ret lk (by same) ⟨⟨hz, fun hd h => nomatch hx hd h⟩, fun _ => Nat.le_refl _, nofun⟩)
  · exact Spec.freeAll (k := r.own ++ lk) (by same)
      (Gives.ret lk (by same) ⟨⟨hz, fun _ _ => rfl⟩, nofun, fun _ => ⟨r, rfl⟩⟩)

theorem rpmRead_spec (s : Sched) (x : Site) (mode : ArcMode) (seq full : Bool)
    (hm : mode = .uncomp → s.Passes .md5Chunk) :
    Gives s (rpmRead x mode seq full) [] (fun r => ownRpm r.1)
      fun r lk => (r.2 = true ∨ s.Passes .zstdChunk ∨ mode = .dontRead → lk = []) ∧
        (mode = .dontRead → s.Passes x → r.2 = true) :=
  Spec.mono (rpmRead_spec' s x mode seq full hm) fun _ _ ⟨lk, h, hp⟩ => ⟨lk, h, hp.1⟩

theorem fetchLeadSig_spec (s : Sched) :
    Gives s fetchLeadSig [] (fun p => p.toList) fun _ lk => lk = [] := by
  unfold fetchLeadSig
  refine Gives.call [] (exportHdr_spec s .call) (by same) ?_
  rintro (_ | e) lk ⟨rfl, -⟩
  · exact Gives.ret [] (by same) rfl
  · exact Spec.alloc (Spec.free (k := []) (by same) (Gives.ret [] (by same) rfl))
      fun p => Spec.free (k := [p]) (by same) (Gives.ret [] (by same) rfl)

theorem patchFormat_spec (s : Sched) (r : RpmP) :
    Gives s (patchFormat r) r.own (fun r => r.1.own) fun _ lk => lk = [] := by
  unfold patchFormat
  refine Spec.take fun td => ?_
  refine Spec.test ?_ ?_
  · refine Spec.free (k := r.own) (by same) ?_
    refine Spec.test (Gives.ret [] (by same) rfl) ?_
    refine Spec.free (k := [r.self] ++ r.sig.toList ++ r.arch.toList) (by same) ?_
    exact Spec.alloc (Gives.ret [] (by same) rfl) fun h => Gives.ret [] (by same) rfl
  · refine Spec.free (k := [td] ++ [r.self] ++ r.sig.toList ++ r.arch.toList) (by same) ?_
    refine Spec.take fun new => Spec.take fun copy => ?_
    refine Spec.bind (alloc_spec s .call _) ?_
    rintro imp l' ⟨rfl, -⟩
    refine Spec.freeAll (k := [new] ++ [r.self] ++ r.sig.toList ++ r.arch.toList) (by same) ?_
    refine Spec.test (Gives.ret [] (by same) rfl) ?_
    refine Spec.free (k := [r.self] ++ r.sig.toList ++ r.arch.toList) (by same) ?_
    exact Spec.alloc (Gives.ret [] (by same) rfl) fun h => Gives.ret [] (by same) rfl

theorem findOffset_spec (s : Sched) :
    Gives s findOffset [] (fun _ => []) fun _ lk => lk = [] := by
  unfold findOffset
  refine Gives.call [] (exportHdr_spec s .call) (by same) ?_
  rintro (_ | e) lk ⟨rfl, -⟩
  · exact Gives.ret [] (by same) rfl
  · exact Spec.test (Spec.free (k := []) (by same) (Gives.ret [] (by same) rfl))
      (Spec.free (k := []) (by same) (Gives.ret [] (by same) rfl))

theorem getTag_spec (s : Sched) : Gives s getTag [] (fun _ => []) fun _ lk => lk = [] := by
  unfold getTag
  refine Spec.take fun td => Spec.bind (alloc_spec s .call _) ?_
  rintro d l' ⟨rfl, -⟩
  exact Spec.test (Spec.freeAll (k := []) (by same) (Gives.ret [] (by same) rfl))
    (Spec.freeAll (k := []) (by same) (Gives.ret [] (by same) rfl))

theorem replaceSig_spec (s : Sched) (r : RpmP) :
    Gives s (replaceSig r) r.own (fun r => r.1.own) fun _ lk => lk = [] := by
  unfold replaceSig
  refine Spec.test (Gives.ret [] (by same) rfl) ?_
  refine Spec.free (k := [r.self] ++ r.hdr.toList ++ r.arch.toList) (by same) ?_
  exact Spec.alloc (Gives.ret [] (by same) rfl) fun i => Gives.ret [] (by same) rfl

theorem rpmWrite_spec (s : Sched) (x : Site) :
    Gives s (rpmWrite x) [] (fun _ => []) fun _ lk => lk = [] := by
  unfold rpmWrite
  refine Spec.alloc (Gives.ret [] (by same) rfl) fun fd => ?_
  refine Gives.call [fd] (exportHdr_spec s x) (by same) ?_
  rintro (_ | sb) lk ⟨rfl, -⟩
  · exact Spec.free (k := []) (by same) (Gives.ret [] (by same) rfl)
  refine Gives.call [fd, sb] (exportHdr_spec s x) (by intro a; simp [List.count_cons]; omega) ?_
  rintro (_ | hb) lk ⟨rfl, -⟩
  · exact Spec.freeAll (k := []) (by intro a; simp [List.count_cons, Option.toList]; try omega)
      (Gives.ret [] (by same) rfl)
  · exact Spec.test
      (Spec.freeAll (k := []) (by intro a; simp [List.count_cons, Option.toList]; try omega)
        (Gives.ret [] (by same) rfl))
      (Spec.freeAll (k := []) (by intro a; simp [List.count_cons, Option.toList]; try omega)
        (Gives.ret [] (by same) rfl))

/-! ## File information -/

theorem freeFiles_spec (s : Sched) : ∀ fs : List FileP,
    Gives s (freeFiles fs) (ownFiles fs) (fun _ => []) fun _ lk => lk = []
  | [] => Gives.ret [] (by same) rfl
  | f :: fs => by
    unfold freeFiles
    exact Spec.freeAll (k := ownFiles fs) (by same) (freeFiles_spec s fs)

theorem ownFiles_replicate : ∀ n : Nat, ownFiles (List.replicate n {}) = []
  | 0 => rfl
  | n + 1 => by rw [List.replicate_succ, ownFiles, ownFiles_replicate n]; rfl

theorem fillFiles_spec (s : Sched) : ∀ n : Nat,
    Gives s (fillFiles n) [] (fun r => ownFiles r.1) fun _ lk => lk = []
  | 0 => Gives.ret [] (by same) rfl
  | n + 1 => by
    have h0 := ownFiles_replicate (n + 1)
    have h1 := ownFiles_replicate n
    unfold fillFiles
    refine Spec.test (Gives.ret [] (by rw [h0]; same) rfl) ?_
    refine Spec.alloc (Gives.ret [] (by rw [h0]; same) rfl) fun i => ?_
    refine Spec.alloc (Gives.ret [] (by rw [ownFiles, h1]; same) rfl) fun j => ?_
    refine Spec.alloc (Gives.ret [] (by rw [ownFiles, h1]; same) rfl) fun k => ?_
    refine Gives.call ([i] ++ [j] ++ [k]) (fillFiles_spec s n) (by same) ?_
    rintro ⟨fs, b⟩ lk rfl
    exact Gives.ret [] (by same) rfl

/-- What `getFileInfo` leaves: nothing besides its result, and no result when it fails. -/
def InfoPost (r : Option Nat × List FileP × Bool) (lk : List Nat) : Prop :=
  lk = [] ∧ (r.2.2 = false → r.1 = none ∧ r.2.1 = [])

theorem fileInfoBody_spec (s : Sched) :
    Gives s fileInfoBody [] (fun r => r.1.toList ++ ownFiles r.2.1) InfoPost := by
  unfold fileInfoBody
  refine Spec.test (Gives.ret [] (by same) ⟨rfl, nofun⟩) ?_
  refine Spec.test (Gives.ret [] (by same) ⟨rfl, fun _ => ⟨rfl, rfl⟩⟩) ?_
  refine Spec.pick fun n => ?_
  refine Spec.alloc (Gives.ret [] (by same) ⟨rfl, fun _ => ⟨rfl, rfl⟩⟩) fun i => ?_
  refine Gives.call [i] (fillFiles_spec s n) (by same) ?_
  rintro ⟨fs, _ | _⟩ lk rfl
  · refine Gives.call [i] (freeFiles_spec s fs) (by same) ?_
    rintro _ _ rfl
    exact Spec.free (k := []) (by same) (Gives.ret [] (by same) ⟨rfl, fun _ => ⟨rfl, rfl⟩⟩)
  · exact Gives.ret [] (by same) ⟨rfl, nofun⟩

theorem newTds_spec (s : Sched) : ∀ n : Nat,
    Gives s (newTds n) [] ids fun _ lk => lk = []
  | 0 => Gives.ret [] (by same) rfl
  | n + 1 => by
    unfold newTds
    refine Spec.take fun td => Spec.bind (alloc_spec s .call _) ?_
    rintro d l' ⟨rfl, -⟩
    refine Gives.call (d.toList ++ [td]) (newTds_spec s n) (by same) ?_
    rintro r lk rfl
    exact Gives.ret [] (by same) rfl

theorem getFileInfo_spec' (s : Sched) :
    Gives s getFileInfo [] (fun r => r.1.toList ++ ownFiles r.2.1) InfoPost := by
  unfold getFileInfo
  refine Gives.call [] (newTds_spec s 9) (by same) ?_
  rintro tds lk rfl
  refine Gives.call (ids tds) (fileInfoBody_spec s) (by same) ?_
  rintro r lk ⟨rfl, h⟩
  exact Spec.freeAll (k := r.1.toList ++ ownFiles r.2.1) (by same)
    (Gives.ret [] (by same) ⟨rfl, h⟩)

theorem getFileInfo_spec (s : Sched) :
    Gives s getFileInfo [] (fun r => r.1.toList ++ ownFiles r.2.1) fun _ lk => lk = [] :=
  Spec.mono (getFileInfo_spec' s) fun _ _ ⟨lk, h, hp⟩ => ⟨lk, h, hp.1⟩

/-! ## The rpm database -/

/-- What a lookup leaves behind: the exported copy of the header, if it came that far. -/
theorem dbLookup_spec (s : Sched) (hx : s.Passes .dbExport) (i j : Nat) :
    Gives s (dbLookup i j) ([i] ++ [j]) (fun r => ownRpm r.1)
      fun r lk => lk.length ≤ 1 ∧ (r.2 = true → lk.length = 1 ∧ r.1 ≠ none) ∧
        (r.2 = false → r.1 = none) := by
  unfold dbLookup
  have out : ∀ (f : RpmP → Res (Option RpmP × Bool)) (l k : List Nat) (Q : _ → List Nat → Prop),
      Same l ([i] ++ k) → Spec s (f { self := i }) ([i] ++ k) Q →
      Spec s (rpmFree { self := i } >>= f) l Q := by
    intro f l k Q hl hf
    refine Gives.call k (rpmFree_spec s { self := i }) (hl.trans (by same)) ?_
    rintro _ _ ⟨rfl, rfl⟩
    exact Spec.same (by same) hf
  refine Spec.test ?_ ?_
  · refine out _ _ [j] _ (by same) ?_
    exact Spec.free (k := [j]) (by same) (Spec.free (k := []) (by same)
      (Gives.ret [] (by same) ⟨Nat.zero_le _, nofun, fun _ => rfl⟩))
  refine Spec.take fun trans => Spec.take fun iter => ?_
  refine Spec.test ?_ ?_
  · refine out _ _ ([j] ++ [trans] ++ [iter]) _ (by same) ?_
    exact Spec.free (k := [j] ++ [trans] ++ [iter]) (by same) (Spec.freeAll (k := []) (by same)
      (Gives.ret [] (by same) ⟨Nat.zero_le _, nofun, fun _ => rfl⟩))
  refine Spec.take fun h => ?_
  refine Gives.call ([h] ++ [iter] ++ [trans] ++ [i] ++ [j]) (exportHdr_spec s .dbExport)
    (by same) ?_
  rintro (_ | e) lk ⟨rfl, hn⟩
  · exact absurd rfl (hn hx)
  refine Spec.alloc ?_ fun h' => ?_
  · refine out _ _ ([h] ++ [iter] ++ [trans] ++ [j] ++ [e]) _ (by same) ?_
    exact Spec.free (k := [h] ++ [iter] ++ [trans] ++ [j] ++ [e]) (by same)
      (Spec.freeAll (k := [e]) (by same)
        (Gives.ret [e] (by same) ⟨Nat.le_refl _, nofun, fun _ => rfl⟩))
  · exact Spec.freeAll (k := [i] ++ [h'] ++ [e]) (by same)
      (Gives.ret [e] (by same) ⟨Nat.le_refl _, fun _ => ⟨rfl, nofun⟩, nofun⟩)

theorem readHeader_spec (s : Sched) (hx : s.Passes .dbExport) (hc : s.Passes .nevrCopy) :
    Gives s readHeader [] (fun r => ownRpm r.1)
      fun r lk => lk.length ≤ 1 ∧ (r.2 = true → lk.length = 1 ∧ r.1 ≠ none) ∧
        (r.2 = false → r.1 = none) := by
  unfold readHeader
  refine Spec.alloc (Gives.ret [] (by same) ⟨Nat.zero_le _, nofun, fun _ => rfl⟩) fun i => ?_
  refine Spec.allocOk hc fun j => ?_
  exact Gives.same (by same) (dbLookup_spec s hx i j)

/-! ## Deltas -/

theorem DeltaP.own_rpmonly {d : DeltaP} (h : d.rpmonly = true) :
    d.own = d.tgtNevr.toList ++ ids d.ptrs := by
  simp [DeltaP.own, h]

theorem DeltaP.own_standard {d : DeltaP} (h : d.rpmonly = false) :
    d.own = ownRpm d.tgtRpm ++ ids d.ptrs := by
  simp [DeltaP.own, h]

theorem freeDelta_spec (s : Sched) (d : DeltaP) :
    Gives s (freeDelta d) d.own DeltaP.own fun d' lk => lk = [] ∧ d' = {} := by
  unfold freeDelta
  cases h : d.rpmonly with
  | true =>
    rw [d.own_rpmonly h]
    refine Spec.free (k := ids d.ptrs) (by same) ?_
    exact Spec.freeAll (k := []) (by same) (Gives.ret [] (by same) ⟨rfl, rfl⟩)
  | false =>
    rw [d.own_standard h]
    refine Gives.call (ids d.ptrs) (rpmDestroy_spec s d.tgtRpm) (by same) ?_
    rintro _ _ rfl
    exact Spec.freeAll (k := []) (by same) (Gives.ret [] (by same) ⟨rfl, rfl⟩)

/-- Storing a block in a field that was empty. -/
theorem DeltaP.own_set (d : DeltaP) (f : Fld) (i : Nat) (h : d.blk f = none) :
    Same ([i] ++ d.own) (d.set f (some i)).own := by
  intro a
  have e : ∀ g, (d.set f (some i)).blk g = if g = f then some i else d.blk g := fun _ => rfl
  have r : (d.set f (some i)).rpmonly = d.rpmonly := rfl
  have t : (d.set f (some i)).tgtRpm = d.tgtRpm := rfl
  have n : (d.set f (some i)).tgtNevr = d.tgtNevr := rfl
  simp only [DeltaP.own, DeltaP.ptrs, e, r, t, n, ids_cons, ids_nil, List.count_append]
  cases f <;> simp [h] <;> omega

/-- The fields still to be read are empty, and so stays every other field. -/
def Empty (fs : List (Bool × Fld)) (d : DeltaP) : Prop := ∀ x ∈ fs, d.blk x.2 = none ∨
  (x.2 = .addData ∧ d.rpmonly = true)

theorem readFld_spec (s : Sched) (opt : Bool) (f : Fld) (st : StrmP) (d : DeltaP)
    (he : d.blk f = none ∨ (f = .addData ∧ d.rpmonly = true)) :
    Gives s (readFld opt f st d) (st.own ++ d.own) (fun r => r.1.own ++ r.2.1.own)
      fun r lk => ((r.2.2 = true ∨ s.Passes .zstdChunk) → lk = []) ∧
        r.2.1.rpmonly = d.rpmonly ∧ ∀ g, g ≠ f → r.2.1.blk g = d.blk g := by
  unfold readFld
  refine Gives.call d.own (strmRead_spec s st) (by same) ?_
  rintro ⟨st', _ | _⟩ lk h
  · exact Gives.ret lk (by same) ⟨h, rfl, fun _ _ => rfl⟩
  cases h (.inl rfl)
  refine Spec.test (Gives.ret [] (by same) ⟨fun _ => rfl, rfl, fun _ _ => rfl⟩) ?_
  refine Spec.cond (fun _ => ?_) fun h => absurd rfl h
  have key : ∀ absent : Bool, Gives s (if opt = true ∧ absent = true then pure (st', d, true)
      else if f = Fld.addData ∧ d.rpmonly = true then pure (st', d, false)
      else (do
        let p ← alloc .call
        match p with
        | none => pure (st', d, false)
        | some i => do
          let q ← strmRead st'
          pure (q.1, d.set f (some i), q.2))) (st'.own ++ [] ++ d.own)
      (fun r => r.1.own ++ r.2.1.own)
      fun r lk => ((r.2.2 = true ∨ s.Passes .zstdChunk) → lk = []) ∧
        r.2.1.rpmonly = d.rpmonly ∧ ∀ g, g ≠ f → r.2.1.blk g = d.blk g := by
    intro absent
    refine Spec.cond (fun _ => Gives.ret [] (by same) ⟨fun _ => rfl, rfl, fun _ _ => rfl⟩)
      fun _ => ?_
    refine Spec.cond (fun _ => Gives.ret [] (by same) ⟨fun _ => rfl, rfl, fun _ _ => rfl⟩)
      fun hn => ?_
    refine Spec.alloc (Gives.ret [] (by same) ⟨fun _ => rfl, rfl, fun _ _ => rfl⟩) fun i => ?_
    refine Gives.call ([i] ++ d.own) (strmRead_spec s st') (by same) ?_
    rintro ⟨st'', b⟩ lk h
    refine Gives.ret lk ?_ ⟨h, rfl, fun g hg => if_neg hg⟩
    intro a
    have := d.own_set f i (he.resolve_right hn) a
    simp only [List.count_append] at *
    omega
  exact Spec.test (key false) (key true)

theorem readFlds_spec (s : Sched) : ∀ (fs : List (Bool × Fld)) (st : StrmP) (d : DeltaP),
    (fs.map Prod.snd).Nodup → Empty fs d →
    Gives s (readFlds fs st d) (st.own ++ d.own) (fun r => r.1.own ++ r.2.1.own)
      fun r lk => ((r.2.2 = true ∨ s.Passes .zstdChunk) → lk = []) ∧ r.2.1.rpmonly = d.rpmonly
  | [], st, d, _, _ => Gives.ret [] (by same) ⟨fun _ => rfl, rfl⟩
  | (opt, f) :: fs, st, d, hn, he => by
    unfold readFlds
    refine Gives.call [] (readFld_spec s opt f st d (he (opt, f) (List.mem_cons_self ..)))
      (by same) ?_
    rintro ⟨st', d', _ | _⟩ lk ⟨hz, hr, hb⟩
    · exact Gives.ret lk (by same) ⟨hz, hr⟩
    cases hz (.inl rfl)
    rw [List.map_cons, List.nodup_cons] at hn
    dsimp only at hb hr
    rw [← hr]
    refine Gives.same (by same) (readFlds_spec s fs st' d' hn.2 ?_)
    intro x hx
    have hne : x.2 ≠ f := fun e => hn.1 (List.mem_map.mpr ⟨x, hx, e⟩)
    rw [hb x.2 hne, hr]
    exact he x (List.mem_cons_of_mem _ hx)

theorem readRest_spec (s : Sched) (d : DeltaP) (he : Empty restParts d) :
    Gives s (readRest d) d.own (fun r => r.1.own)
      fun r lk => ((r.2 = true ∨ s.Passes .zstdChunk) → lk = []) ∧ r.1.rpmonly = d.rpmonly := by
  unfold readRest
  refine Gives.call d.own (strmInit_spec s) (by same) ?_
  rintro (_ | st) lk rfl
  · exact Gives.ret [] (by same) ⟨fun _ => rfl, rfl⟩
  refine Gives.call [] (readFlds_spec s restParts st d (by decide) he) (by same) ?_
  rintro ⟨st', d', _ | _⟩ lk ⟨hz, hr⟩
  · refine Gives.call (d'.own ++ lk) (strmDestroy_spec s (some st')) (by same) ?_
    rintro _ _ rfl
    exact Gives.ret lk (by same) ⟨hz, hr⟩
  · cases hz (.inl rfl)
    refine Spec.test ?_ ?_ <;>
    · refine Gives.call d'.own (strmDestroy_spec s (some st')) (by same) ?_
      rintro _ _ rfl
      exact Gives.ret [] (by same) ⟨fun _ => rfl, hr⟩

theorem readRpmonly_spec (s : Sched) :
    Gives s (readRpmonly { rpmonly := true }) [] (fun r => r.1.own)
      fun r lk => lk = [] ∧ Empty restParts r.1 := by
  have e0 : Empty restParts { rpmonly := true } := fun x _ => .inl rfl
  unfold readRpmonly
  refine Spec.test (Gives.ret [] (by same; rfl) ⟨rfl, e0⟩) ?_
  refine Spec.alloc (Gives.ret [] (by same; rfl) ⟨rfl, e0⟩) fun i => ?_
  have e1 : Empty restParts { rpmonly := true, tgtNevr := some i } := fun x _ => .inl rfl
  refine Spec.test (Gives.ret [] (by same; rfl) ⟨rfl, e1⟩) ?_
  refine Spec.alloc (Gives.ret [] (by same; rfl) ⟨rfl, e1⟩) fun j => ?_
  have e2 : Empty restParts
      ({ rpmonly := true, tgtNevr := some i : DeltaP }.set .addData (some j)) := by
    intro x _
    by_cases h : x.2 = .addData
    · exact .inr ⟨h, rfl⟩
    · exact .inl (if_neg h)
  have hs : Same ([j] ++ ([i] ++ []))
      (({ rpmonly := true, tgtNevr := some i : DeltaP }.set .addData (some j)).own ++ []) := by
    intro a
    simp [DeltaP.own, DeltaP.ptrs, DeltaP.set, List.count_cons]
    omega
  exact Spec.test (Gives.ret [] hs ⟨rfl, e2⟩) (Gives.ret [] hs ⟨rfl, e2⟩)

theorem readStandard_spec (s : Sched) :
    Gives s (readStandard {}) [] (fun r => r.1.own)
      fun r lk => ((r.2 = true ∨ (s.Passes .stdRead ∧ s.Passes .stdComp ∧ s.Passes .stdSeek)) →
        lk = []) ∧ Empty restParts r.1 ∧ r.1.rpmonly = false := by
  have e0 : Empty restParts {} := fun x _ => .inl rfl
  have o0 : ∀ l : List Nat, Same l (({} : DeltaP).own ++ l) := fun l => by same
  unfold readStandard
  refine Gives.call [] (rpmRead_spec s .stdRead .dontRead false false nofun) (by same) ?_
  rintro ⟨r, _ | _⟩ lk ⟨hz, hx⟩
  · refine Gives.ret _ (o0 _) ⟨?_, e0, rfl⟩
    rintro (h | h)
    · exact nomatch h
    · exact nomatch hx rfl h.1
  cases hz (.inr (.inr rfl))
  refine Spec.testP (fun h => Gives.ret _ (o0 _) ⟨?_, e0, rfl⟩) ?_
  · rintro (h' | h')
    · exact nomatch h'
    · exact absurd h'.2.1 h
  refine Spec.testP (fun h => Gives.ret _ (o0 _) ⟨?_, e0, rfl⟩) ?_
  · rintro (h' | h')
    · exact nomatch h'
    · exact absurd h'.2.2 h
  exact Gives.ret [] (by same) ⟨fun _ => rfl, fun x _ => .inl rfl, rfl⟩

/-- The places at which reading a delta forgets a block when the call fails. -/
def ReadLeakFree (s : Sched) : Prop :=
  s.Passes .stdRead ∧ s.Passes .stdComp ∧ s.Passes .stdSeek ∧ s.Passes .zstdChunk

theorem readDeltarpm_spec (s : Sched) :
    Gives s readDeltarpm [] (fun r => r.1.own)
      fun r lk => (r.2 = true ∨ ReadLeakFree s → lk = []) ∧ (r.2 = false → r.1 = {}) ∧
        (r.1.rpmonly = true → ¬ s.Never .rpmonly) := by
  unfold readDeltarpm
  refine Spec.alloc (Gives.ret [] (by same) ⟨fun _ => rfl, fun _ => rfl, nofun⟩) fun fd => ?_
  have fin : ∀ (d : DeltaP) (lk l : List Nat), (ReadLeakFree s → lk = []) →
      Same l (d.own ++ ([fd] ++ lk)) →
      Gives s (do
        let d ← freeDelta d
        free (some fd)
        pure (d, false)) l (fun r => r.1.own)
        fun r lk => (r.2 = true ∨ ReadLeakFree s → lk = []) ∧ (r.2 = false → r.1 = {}) ∧
        (r.1.rpmonly = true → ¬ s.Never .rpmonly) := by
    intro d lk l hl hs
    refine Gives.call ([fd] ++ lk) (freeDelta_spec s d) hs ?_
    rintro _ _ ⟨rfl, rfl⟩
    refine Spec.free (k := lk ++ ({} : DeltaP).own) (by same) (Gives.ret lk (by same) ?_)
    exact ⟨fun h => hl (h.resolve_left nofun), fun _ => rfl, nofun⟩
  refine Spec.test (fin {} [] _ (fun _ => rfl) (by same)) ?_
  have body : ∀ (c : Res (DeltaP × Bool)), Gives s c [] (fun r => r.1.own)
      (fun r lk => (r.2 = true ∨ ReadLeakFree s → lk = []) ∧ Empty restParts r.1 ∧
        (r.1.rpmonly = true → ¬ s.Never .rpmonly)) →
      Gives s (do
        let h ← c
        if h.2 then
          let r ← readRest h.1
          if r.2 then
            free (some fd)
            pure (r.1, true)
          else
            let d ← freeDelta r.1
            free (some fd)
            pure (d, false)
        else
          let d ← freeDelta h.1
          free (some fd)
          pure (d, false)) ([fd] ++ []) (fun r => r.1.own)
        fun r lk => (r.2 = true ∨ ReadLeakFree s → lk = []) ∧ (r.2 = false → r.1 = {}) ∧
        (r.1.rpmonly = true → ¬ s.Never .rpmonly) := by
    intro c hc
    refine Gives.call [fd] hc (by same) ?_
    rintro ⟨d, _ | _⟩ lk ⟨hl, he, hr⟩
    · exact fin d lk _ (fun h => hl (.inr h)) (by same)
    cases hl (.inl rfl)
    refine Gives.call [fd] (readRest_spec s d he) (by same) ?_
    rintro ⟨d', _ | _⟩ lk ⟨hz, hr'⟩
    · exact fin d' lk _ (fun h => hz (.inr h.2.2.2)) (by same)
    · cases hz (.inl rfl)
      exact Spec.free (k := d'.own) (by same) (Gives.ret [] (by same) ⟨fun _ => rfl, nofun, fun h => hr (hr' ▸ h)⟩)
  refine Spec.testN ?_ fun hn => ?_
  · refine body _ (Spec.mono (readStandard_spec s) ?_)
    rintro r l' ⟨lk, hs, hl, he, hr⟩
    exact ⟨lk, hs, fun h => hl (h.imp id fun h => ⟨h.1, h.2.1, h.2.2.1⟩), he, fun h => nomatch hr ▸ h⟩
  · refine body _ (Spec.mono (readRpmonly_spec s) ?_)
    rintro r l' ⟨lk, hs, hl, he⟩
    exact ⟨lk, hs, fun _ => hl, he, fun _ => hn⟩

theorem convFields_spec (s : Sched) (x : Site) : ∀ os : List Bool,
    Gives s (convFields x os) [] (fun r => ids r.1)
      fun r lk => lk = [] ∧ (s.Passes x → r.2 = true)
  | [] => Gives.ret [] (by same) ⟨rfl, fun _ => rfl⟩
  | opt :: os => by
    unfold convFields
    have ih := convFields_spec s x os
    have key : ∀ absent : Bool, Gives s (if opt = true ∧ absent = true then (do
          let r ← convFields x os
          pure (none :: r.1, r.2))
        else (do
          let p ← alloc x
          match p with
          | none => pure ([], false)
          | some i => do
            let r ← convFields x os
            pure (some i :: r.1, r.2))) [] (fun r => ids r.1)
        fun r lk => lk = [] ∧ (s.Passes x → r.2 = true) := by
      intro absent
      refine Spec.cond (fun _ => ?_) fun _ => ?_
      · refine Gives.call [] ih (by same) ?_
        rintro ⟨r, b⟩ lk ⟨rfl, h⟩
        exact Gives.ret [] (by same) ⟨rfl, h⟩
      · refine Spec.allocP (fun h => Gives.ret [] (by same) ⟨rfl, fun hx => absurd hx h⟩)
          fun i => ?_
        refine Gives.call [i] ih (by same) ?_
        rintro ⟨r, b⟩ lk ⟨rfl, h⟩
        exact Gives.ret [] (by same) ⟨rfl, h⟩
    exact Spec.test (key false) (key true)

theorem convert_spec (s : Sched) :
    Gives s convert [] (fun r => ids r.1)
      fun r lk => lk = [] ∧ (s.Passes .convert → r.2 = true) ∧ (r.2 = false → r.1 = []) := by
  unfold convert
  refine Gives.call [] (convFields_spec s .convert _) (by same) ?_
  rintro ⟨r, _ | _⟩ lk ⟨rfl, h⟩
  · exact Spec.freeAll (k := []) (by same)
      (Gives.ret [] (by same) ⟨rfl, fun hx => (nomatch h hx), fun _ => rfl⟩)
  · exact Gives.ret [] (by same) ⟨rfl, fun _ => rfl, nofun⟩

/-- `drpm_read`: nothing invalid is freed; the result owns everything that was allocated and not given
back, except for what is forgotten when one of five calls fails. -/
theorem drpmRead_spec (s : Sched) :
    Gives s drpmRead [] ownDrpm
      fun r lk => (r ≠ none ∨ (ReadLeakFree s ∧ s.Passes .convert)) → lk = [] := by
  unfold drpmRead
  have fin : ∀ (d : DeltaP) (o : Option DrpmP) (lk l : List Nat),
      (o ≠ none ∨ (ReadLeakFree s ∧ s.Passes .convert) → lk = []) →
      Same l (d.own ++ (ownDrpm o ++ lk)) →
      Gives s (do
        let _ ← freeDelta d
        pure o) l ownDrpm
        fun r lk => (r ≠ none ∨ (ReadLeakFree s ∧ s.Passes .convert)) → lk = [] := by
    intro d o lk l hl hs
    refine Gives.call (ownDrpm o ++ lk) (freeDelta_spec s d) hs ?_
    rintro _ _ ⟨rfl, rfl⟩
    exact Gives.ret lk (by same) hl
  refine Gives.call [] (readDeltarpm_spec s) (by same) ?_
  rintro ⟨d, _ | _⟩ lk ⟨hl, -, -⟩
  · exact fin d none lk _ (fun h => hl (.inr (h.resolve_left (fun h => h rfl)).1)) (by same)
  cases hl (.inl rfl)
  refine Spec.alloc (fin d none [] _ (fun _ => rfl) (by same)) fun i => ?_
  refine Gives.call (d.own ++ [i]) (convert_spec s) (by same) ?_
  rintro ⟨fs, _ | _⟩ lk ⟨rfl, hc, hn⟩
  · cases hn rfl
    refine fin d none [i] _ ?_ (by same)
    intro h
    exact nomatch hc (h.resolve_left (fun h => h rfl)).2
  · exact fin d (some { self := i, fields := fs }) [] _ (fun _ => rfl) (by
      same)

theorem drpmDestroy_spec (s : Sched) (o : DrpmP) :
    Gives s (drpmDestroy o) o.own (fun _ => []) fun _ lk => lk = [] := by
  unfold drpmDestroy
  refine Spec.freeAll (k := [o.self]) (by same) ?_
  exact Spec.same (l' := (some o.self).toList ++ []) (by same)
    (Spec.mono (free_spec s _ _) fun _ _ h => ⟨[], by rw [h]; same, rfl⟩)

end Drpm.Own
