import Verif.OwnCheck
import Verif.OwnReadLemmas

/-!
# Ownership: lemmas about checking
-/

namespace Drpm.Own

theorem isPrelinked_spec (s : Sched) (hs : s.Passes .elfStr) :
    Gives s isPrelinked [] (fun _ => [])
      fun r lk => lk = [] ∧ (s.Passes .elfAlloc → r.1 = true) := by
  unfold isPrelinked
  refine Spec.test (Gives.ret [] (by same) ⟨rfl, fun _ => rfl⟩) ?_
  refine Spec.allocP (fun h => Gives.ret [] (by same) ⟨rfl, fun hx => absurd hx h⟩) fun i => ?_
  refine Spec.test (Spec.free (k := []) (by same) (Gives.ret [] (by same) ⟨rfl, fun _ => rfl⟩)) ?_
  refine Spec.testOk hs ?_
  refine Spec.allocP (fun h => ?_) fun j => ?_
  · exact Spec.free (k := []) (by same) (Gives.ret [] (by same) ⟨rfl, fun hx => absurd hx h⟩)
  · exact Spec.test
      (Spec.freeAll (k := []) (by same) (Gives.ret [] (by same) ⟨rfl, fun _ => rfl⟩))
      (Spec.freeAll (k := []) (by same) (Gives.ret [] (by same) ⟨rfl, fun _ => rfl⟩))

theorem prelinkOpen_spec (s : Sched) (x : Site) :
    Gives s (prelinkOpen x) [] (fun p => p.toList)
      fun p lk => lk = [] ∧ (s.Passes x → p ≠ none) := by
  unfold prelinkOpen
  refine Spec.testP (fun h => Gives.ret [] (by same) ⟨rfl, fun hx => absurd hx h⟩) ?_
  refine Spec.allocP (fun h => Gives.ret [] (by same) ⟨rfl, fun hx => absurd hx h⟩) fun i => ?_
  refine Spec.free (k := []) (by same) ?_
  refine Spec.testP (fun h => Gives.ret [] (by same) ⟨rfl, fun hx => absurd hx h⟩) ?_
  refine Spec.mono (alloc_spec s x []) ?_
  rintro p l' ⟨rfl, h⟩
  exact ⟨[], by same, rfl, h⟩

theorem checkPrelink_spec (s : Sched) :
    Gives s checkPrelink [] (fun _ => []) fun _ lk => lk = [] := by
  unfold checkPrelink
  refine Gives.call [] (prelinkOpen_spec s .call) (by same) ?_
  rintro (_ | fd) lk ⟨rfl, -⟩
  · exact Gives.ret [] (by same) rfl
  · exact Spec.test (Spec.free (k := []) (by same) (Gives.ret [] (by same) rfl))
      (Spec.free (k := []) (by same) (Gives.ret [] (by same) rfl))

/-- A check leaves a file open only when the failure of an allocation makes it fail. -/
abbrev ChkPost (s : Sched) (ok : Bool) (lk : List Nat) : Prop :=
  (ok = true ∨ s.Passes .elfAlloc) → lk = []

theorem checkFilesize_spec (s : Sched) (hs : s.Passes .elfStr) :
    Gives s checkFilesize [] (fun _ => []) fun r lk => ChkPost s r lk := by
  unfold checkFilesize
  refine Spec.test (Gives.ret [] (by same) fun _ => rfl) ?_
  refine Spec.test ?_ (Gives.ret [] (by same) fun _ => rfl)
  refine Spec.test (Gives.ret [] (by same) fun _ => rfl) ?_
  refine Spec.alloc (Gives.ret [] (by same) fun _ => rfl) fun fd => ?_
  refine Spec.test
    (Spec.free (k := []) (by same) (Gives.ret [] (by same) fun _ => rfl)) ?_
  refine Gives.call [fd] (isPrelinked_spec s hs) (by same) ?_
  rintro ⟨_ | _, p⟩ lk ⟨rfl, h⟩
  · refine Gives.ret [fd] (by same) ?_
    rintro (h' | h')
    · exact nomatch h'
    · exact nomatch h h'
  · cases p with
    | false => exact Spec.free (k := []) (by same) (Gives.ret [] (by same) fun _ => rfl)
    | true =>
      refine Spec.free (k := []) (by same) (Gives.last [] (checkPrelink_spec s) (by same) ?_)
      rintro a lk rfl
      exact ⟨[], by same, fun _ => rfl⟩

theorem checkFull_spec (s : Sched) (hs : s.Passes .elfStr) :
    Gives s checkFull [] (fun _ => []) fun r lk => ChkPost s r lk := by
  unfold checkFull
  refine Spec.alloc (Gives.ret [] (by same) fun _ => rfl) fun fd => ?_
  have fin : ∀ b : Bool, Gives s (do
      free (some fd)
      pure b) ([fd] ++ []) (fun _ => []) fun r lk => ChkPost s r lk := fun b =>
    Spec.free (k := []) (by same) (Gives.ret [] (by same) fun _ => rfl)
  refine Spec.test (fin false) ?_
  refine Spec.test (Spec.test (fin false) (fin true)) ?_
  refine Gives.call [fd] (isPrelinked_spec s hs) (by same) ?_
  rintro ⟨_ | _, p⟩ lk ⟨rfl, h⟩
  · refine Gives.ret [fd] (by same) ?_
    rintro (h' | h')
    · exact nomatch h'
    · exact nomatch h h'
  · cases p with
    | false => exact Spec.test (Gives.same (by same) (fin false)) (Gives.same (by same) (fin true))
    | true =>
      refine Spec.free (k := []) (by same) (Gives.last [] (checkPrelink_spec s) (by same) ?_)
      rintro a lk rfl
      exact ⟨[], by same, fun _ => rfl⟩

theorem seqFile_spec (s : Sched) (mode : ChkMode) (hs : mode = .none ∨ s.Passes .elfStr) :
    Gives s (seqFile mode) [] (fun _ => [])
      fun r lk => ChkPost s r.2 lk ∧ (mode = .none → lk = [] ∧ r.2 = true) := by
  unfold seqFile
  refine Spec.test (Gives.ret [] (by same) ⟨fun _ => rfl, fun _ => ⟨rfl, rfl⟩⟩) ?_
  refine Spec.test (Gives.ret [] (by same) ⟨fun _ => rfl, fun _ => ⟨rfl, rfl⟩⟩) ?_
  cases mode with
  | none => exact Gives.ret [] (by same) ⟨fun _ => rfl, fun _ => ⟨rfl, rfl⟩⟩
  | full =>
    refine Gives.call [] (checkFull_spec s (hs.resolve_left nofun)) (by same) ?_
    exact fun b lk h => Gives.ret lk (by same) ⟨h, nofun⟩
  | filesizes =>
    refine Gives.call [] (checkFilesize_spec s (hs.resolve_left nofun)) (by same) ?_
    exact fun b lk h => Gives.ret lk (by same) ⟨h, nofun⟩

theorem seqLoop_spec (s : Sched) (mode : ChkMode) (hs : mode = .none ∨ s.Passes .elfStr) :
    ∀ n : Nat, Gives s (seqLoop mode n) [] (fun _ => [])
      fun r lk => ChkPost s r.2 lk ∧ (mode = .none → lk = [] ∧ r.2 = true)
  | 0 => Spec.test (Gives.ret [] (by same) ⟨fun _ => rfl, fun _ => ⟨rfl, rfl⟩⟩)
      (Gives.ret [] (by same) ⟨fun _ => rfl, fun _ => ⟨rfl, rfl⟩⟩)
  | n + 1 => by
    unfold seqLoop
    refine Gives.call [] (seqFile_spec s mode hs) (by same) ?_
    rintro r lk h
    refine Spec.cond (fun hc => ?_) fun _ => Gives.ret lk (by same) h
    cases h.1 (.inl hc.2)
    exact Gives.same (by same) (seqLoop_spec s mode hs n)

/-- `expand_sequence`: only a failing check leaves something behind. -/
theorem expandSeq_spec (s : Sched) (want : Bool) (mode : ChkMode)
    (hs : mode = .none ∨ s.Passes .elfStr) (hw : want = false ∨ mode = .none) :
    Gives s (expandSeq want mode) [] (fun r => r.1.toList)
      fun r lk => ChkPost s r.2 lk ∧ (mode = .none → lk = []) ∧ (want = false → r.1 = none) := by
  unfold expandSeq
  refine Spec.alloc (Gives.ret [] (by same) ⟨fun _ => rfl, fun _ => rfl, fun _ => rfl⟩) fun pos => ?_
  refine Spec.test
    (Spec.free (k := []) (by same) (Gives.ret [] (by same) ⟨fun _ => rfl, fun _ => rfl, fun _ => rfl⟩)) ?_
  have body : ∀ (idx : Option Nat), (want = false → idx = none) → Gives s (do
      let n ← pick .call
      let r ← seqLoop mode n
      if r.1 ∧ r.2 then
        free (some pos)
        pure (idx, true)
      else if r.1 then
        free (some pos)
        pure (none, false)
      else
        freeAll [idx, some pos]
        pure (none, false)) (idx.toList ++ [pos]) (fun r => r.1.toList)
      fun r lk => ChkPost s r.2 lk ∧ (mode = .none → lk = []) ∧ (want = false → r.1 = none) := by
    intro idx hi
    refine Spec.pick fun n => ?_
    refine Gives.call (idx.toList ++ [pos]) (seqLoop_spec s mode hs n) (by same) ?_
    rintro ⟨b, c⟩ lk ⟨h, hm⟩
    refine Spec.cond (fun hc => ?_) fun hc => Spec.cond (fun hb => ?_) fun hb => ?_
    · cases h (.inl hc.2)
      exact Spec.free (k := idx.toList) (by same)
        (Gives.ret [] (by same) ⟨fun _ => rfl, fun _ => rfl, hi⟩)
    · have hm' : mode ≠ .none := fun e => hc ⟨hb, (hm e).2⟩
      cases hi (hw.resolve_right hm')
      refine Spec.free (k := lk) (by same) (Gives.ret lk (by same) ⟨?_, fun e => absurd e hm', fun _ => rfl⟩)
      rintro (h' | h')
      · exact nomatch h'
      · exact h (.inr h')
    · refine Spec.freeAll (k := lk) (by same) (Gives.ret lk (by same) ⟨?_, fun e => (hm e).1, fun _ => rfl⟩)
      rintro (h' | h')
      · exact nomatch h'
      · exact h (.inr h')
  cases want with
  | false => exact Gives.same (by same) (body none fun _ => rfl)
  | true =>
    refine Spec.alloc ?_ fun i => ?_
    · exact Spec.free (k := []) (by same)
        (Gives.ret [] (by same) ⟨fun _ => rfl, fun _ => rfl, fun _ => rfl⟩)
    · refine Spec.cond (fun h => nomatch h.2) fun _ => ?_
      exact Gives.same (by same) (body (some i) nofun)

theorem cmpNevr_spec (s : Sched) :
    Gives s cmpNevr [] (fun r => r.1.toList) fun _ lk => lk = [] := by
  unfold cmpNevr
  refine Spec.alloc (Gives.ret [] (by same) rfl) fun i => ?_
  exact Spec.test (Gives.ret [] (by same) rfl) (Gives.ret [] (by same) rfl)

theorem checkFiles_spec (s : Sched) (mode : ChkMode) (hs : mode = .none ∨ s.Passes .elfStr) :
    Gives s (checkFiles mode) [] (fun r => r.1.toList ++ ownFiles r.2.1)
      fun r lk => ChkPost s r.2.2 lk ∧ (mode = .none → lk = []) := by
  unfold checkFiles
  refine Gives.call [] (getFileInfo_spec s) (by same) ?_
  rintro ⟨p, fs, _ | _⟩ lk rfl
  · exact Gives.ret [] (by same) ⟨fun _ => rfl, fun _ => rfl⟩
  refine Gives.call (p.toList ++ ownFiles fs) (getTag_spec s) (by same) ?_
  rintro (_ | _) lk rfl
  · exact Gives.ret [] (by same) ⟨fun _ => rfl, fun _ => rfl⟩
  refine Gives.call (p.toList ++ ownFiles fs) (expandSeq_spec s false mode hs (.inl rfl))
    (by same) ?_
  rintro ⟨q, b⟩ lk ⟨h, hm, hq⟩
  cases hq rfl
  exact Gives.ret lk (by same) ⟨h, hm⟩

theorem checkEnd_spec (s : Sched) (f : Option Nat × List FileP) (old : Option RpmP)
    (n : Option Nat) :
    Gives s (checkEnd f old n) (f.1.toList ++ ownFiles f.2 ++ ownRpm old ++ n.toList)
      (fun _ => []) fun _ lk => lk = [] := by
  unfold checkEnd
  refine Gives.call (f.1.toList ++ ownRpm old ++ n.toList) (freeFiles_spec s f.2) (by same) ?_
  rintro _ _ rfl
  refine Spec.free (k := ownRpm old ++ n.toList) (by same) ?_
  refine Gives.call n.toList (rpmDestroy_spec s old) (by same) ?_
  rintro _ _ rfl
  exact Spec.same (l' := n.toList ++ []) (by same)
    (Spec.mono (free_spec s _ _) fun _ _ h => ⟨[], by rw [h]; same, rfl⟩)

/-- What `drpm_check` leaves behind: at most one block, except where the failure of a call is not
handled; exactly one block when it succeeds. -/
theorem drpmCheck_spec (s : Sched) (mode : ChkMode) (hs : s.Passes .elfStr)
    (hx : s.Passes .dbExport) (hc : s.Passes .nevrCopy) :
    Gives s (drpmCheck mode) [] (fun _ => [])
      fun r lk => (r = true → lk.length = 1) ∧
        (ReadLeakFree s → s.Passes .elfAlloc → lk.length ≤ 1) := by
  unfold drpmCheck
  have fin : ∀ (d : DeltaP) (f : Option Nat × List FileP) (old : Option RpmP) (n : Option Nat)
      (b : Bool) (lk l : List Nat),
      Same l (d.own ++ (f.1.toList ++ ownFiles f.2 ++ ownRpm old ++ n.toList ++ lk)) →
      ((b = true → lk.length = 1) ∧ (ReadLeakFree s → s.Passes .elfAlloc → lk.length ≤ 1)) →
      Gives s (do
        let _ ← freeDelta d
        checkEnd f old n
        pure b) l (fun _ => [])
        fun r lk => (r = true → lk.length = 1) ∧
          (ReadLeakFree s → s.Passes .elfAlloc → lk.length ≤ 1) := by
    intro d f old n b lk l hsm hp
    refine Gives.call _ (freeDelta_spec s d) hsm ?_
    rintro _ _ ⟨rfl, rfl⟩
    refine Gives.call lk (checkEnd_spec s f old n) (by same) ?_
    rintro _ _ rfl
    exact Gives.ret lk (by same) hp
  refine Gives.call [] (readDeltarpm_spec s) (by same) ?_
  rintro ⟨d, _ | _⟩ lk ⟨hl, -⟩
  · refine fin d (none, []) none none false lk _ (by same) ⟨nofun, fun h _ => ?_⟩
    cases hl (.inr h)
    exact Nat.zero_le _
  cases hl (.inl rfl)
  refine Gives.call d.own (readHeader_spec s hx hc) (by same) ?_
  rintro ⟨old, _ | _⟩ lk ⟨hl, h1, h0⟩
  · exact fin d (none, []) old none false lk _ (by same) ⟨nofun, fun _ _ => hl⟩
  refine Gives.call (d.own ++ ownRpm old ++ lk) (cmpNevr_spec s) (by same) ?_
  rintro ⟨n, _ | _⟩ lk' rfl
  · exact fin d (none, []) old n false lk _ (by same) ⟨nofun, fun _ _ => hl⟩
  refine Spec.cond (fun _ => ?_) fun h => absurd rfl h
  refine Spec.cond (fun _ => ?_) fun _ => ?_
  · exact fin d (none, []) old n true lk _ (by same) ⟨fun _ => (h1 rfl).1, fun _ _ => hl⟩
  · refine Gives.call (d.own ++ ownRpm old ++ lk ++ n.toList) (checkFiles_spec s mode (.inr hs))
      (by same) ?_
    rintro ⟨p, fs, b⟩ lk' ⟨hk, -⟩
    refine fin d (p, fs) old n b (lk ++ lk') _ (by same) ⟨?_, ?_⟩
    · rintro rfl
      cases hk (.inl rfl)
      simpa using (h1 rfl).1
    · intro _ he
      cases hk (.inr he)
      simpa using hl

/-- The database: one block stays when the package was found; a file: nothing stays. -/
theorem seqPackage_spec (s : Sched) (installed : Bool)
    (hx : installed = true → s.Passes .dbExport ∧ s.Passes .nevrCopy) :
    Gives s (seqPackage installed) [] (fun r => ownRpm r.1)
      fun r lk => lk.length ≤ 1 ∧ (installed = true → r.2.2 = true → lk.length = 1) ∧
        (installed = false → lk = []) := by
  unfold seqPackage
  refine Spec.cond (fun h => ?_) fun h => ?_
  · refine Gives.call [] (readHeader_spec s (hx h).1 (hx h).2) (by same) ?_
    rintro ⟨r, b⟩ lk ⟨hl, h1, -⟩
    exact Gives.ret lk (by same) ⟨hl, fun _ hb => (h1 hb).1, fun e => by simp_all⟩
  · refine Gives.call [] (rpmRead_spec s .call .dontRead false false nofun) (by same) ?_
    rintro ⟨r, _ | _⟩ lk ⟨hl, -⟩
    · cases hl (.inr (.inr rfl))
      exact Gives.ret [] (by same) ⟨Nat.zero_le _, fun e => absurd e h, fun _ => rfl⟩
    cases hl (.inr (.inr rfl))
    refine Gives.call (ownRpm r) (getTag_spec s) (by same) ?_
    rintro (_ | _) lk rfl
    · exact Gives.ret [] (by same) ⟨Nat.zero_le _, fun e => absurd e h, fun _ => rfl⟩
    · exact Spec.test
        (Gives.ret [] (by same) ⟨Nat.zero_le _, fun e => absurd e h, fun _ => rfl⟩)
        (Gives.ret [] (by same) ⟨Nat.zero_le _, fun e => absurd e h, fun _ => rfl⟩)

theorem drpmCheckSequence_spec (s : Sched) (installed : Bool) (mode : ChkMode)
    (hx : installed = true → s.Passes .dbExport ∧ s.Passes .nevrCopy)
    (hs : mode = .none ∨ s.Passes .elfStr) :
    Gives s (drpmCheckSequence installed mode) [] (fun _ => [])
      fun r lk => (installed = true → r = true → lk.length = 1) ∧
        ((mode = .none ∨ s.Passes .elfAlloc) → lk.length ≤ 1) ∧
        (installed = false → mode = .none → lk = []) := by
  unfold drpmCheckSequence
  have nil : ∀ l : List Nat, Same l [] → Gives s (pure false) l (fun _ => [])
      fun r lk => (installed = true → r = true → lk.length = 1) ∧
        ((mode = .none ∨ s.Passes .elfAlloc) → lk.length ≤ 1) ∧
        (installed = false → mode = .none → lk = []) := fun l hl =>
    Gives.ret [] (hl.trans (by same)) ⟨fun _ => nofun, fun _ => Nat.zero_le _, fun _ _ => rfl⟩
  refine Spec.test (nil _ (by same)) ?_
  refine Spec.alloc (nil _ (by same)) fun nv => ?_
  refine Spec.alloc (Spec.free (k := []) (by same) (nil _ (by same))) fun sq => ?_
  refine Spec.test (Spec.freeAll (k := []) (by same) (nil _ (by same))) ?_
  have fin : ∀ (f : Option Nat × List FileP) (old : Option RpmP) (n : Option Nat)
      (b : Bool) (lk l : List Nat),
      Same l ([nv] ++ [sq] ++ (f.1.toList ++ ownFiles f.2 ++ ownRpm old ++ n.toList ++ lk)) →
      ((installed = true → b = true → lk.length = 1) ∧
        ((mode = .none ∨ s.Passes .elfAlloc) → lk.length ≤ 1) ∧
        (installed = false → mode = .none → lk = [])) →
      Gives s (do
        freeAll [some nv, some sq]
        checkEnd f old n
        pure b) l (fun _ => [])
        fun r lk => (installed = true → r = true → lk.length = 1) ∧
          ((mode = .none ∨ s.Passes .elfAlloc) → lk.length ≤ 1) ∧
          (installed = false → mode = .none → lk = []) := by
    intro f old n b lk l hsm hp
    refine Spec.freeAll (k := f.1.toList ++ ownFiles f.2 ++ ownRpm old ++ n.toList ++ lk)
      (hsm.trans (by same)) ?_
    refine Gives.call lk (checkEnd_spec s f old n) (by same) ?_
    rintro _ _ rfl
    exact Gives.ret lk (by same) hp
  refine Gives.call ([nv] ++ [sq]) (seqPackage_spec s installed hx) (by same) ?_
  rintro ⟨old, ro, _ | _⟩ lk ⟨hl, h1, h0⟩
  · exact fin (none, []) old none false lk _ (by same) ⟨fun _ => nofun, fun _ => hl, fun h _ => h0 h⟩
  refine Gives.call ([nv] ++ [sq] ++ ownRpm old ++ lk) (cmpNevr_spec s) (by same) ?_
  rintro ⟨n, _ | _⟩ lk' rfl
  · exact fin (none, []) old n false lk _ (by same) ⟨fun _ => nofun, fun _ => hl, fun h _ => h0 h⟩
  cases ro with
  | true =>
    exact fin (none, []) old n true lk _ (by same)
      ⟨fun h _ => h1 h rfl, fun _ => hl, fun h _ => h0 h⟩
  | false =>
    refine Gives.call ([nv] ++ [sq] ++ ownRpm old ++ lk ++ n.toList) (checkFiles_spec s mode hs)
      (by same) ?_
    rintro ⟨p, fs, b⟩ lk' ⟨hk, hm⟩
    refine fin (p, fs) old n b (lk ++ lk') _ (by same) ⟨?_, ?_, ?_⟩
    · rintro hi rfl
      cases hk (.inl rfl)
      simpa using h1 hi rfl
    · rintro (hm' | he)
      · cases hm hm'
        simpa using hl
      · cases hk (.inr he)
        simpa using hl
    · intro hi hm'
      cases hm hm'
      cases h0 hi
      rfl

end Drpm.Own
