import Verif.OwnMake
import Verif.OwnBlockLemmas

/-!
# Ownership: lemmas about making a delta
-/

namespace Drpm.Own

/-- Two lists have the same numbers, after rewriting with some equations, because some others have. -/
syntax "samem" "[" term,* "]" "[" term,* "]" : tactic

macro_rules
  | `(tactic| samem [$ls,*] [$ts,*]) => do
    let hs ← ts.getElems.mapM fun t => `(tactic| (have e := $t a; revert e))
    let ls ← ls.getElems.mapM fun t => `(Lean.Parser.Tactic.simpLemma| $t:term)
    `(tactic| (intro a; ($[$hs:tactic];*); simp only [MakeP.own, CpioP.own, CompP.own, CompR.own, RpmP.own,
      ownRpm, ownFiles, ids_nil, ids_cons, Option.toList, List.count_append, count_nil', List.nil_append,
      List.append_nil, $ls,*]; (try intros); (try omega)))

/-! ## The archive of the old package -/

theorem growBuf_spec (s : Sched) (b : Buf) (c : CpioP) :
    Gives s (growBuf b c) c.own (fun r => r.1.own)
      fun r lk => (r.2 = true → lk = []) ∧ (lk ++ r.1.seq.toList).length ≤ 1 := by
  have one : ∀ p : Option Nat, ([] ++ p.toList).length ≤ 1 := fun p => by cases p <;> simp
  cases b with
  | cpio =>
    refine Spec.realloc (k := c.name.toList ++ c.offadj.toList ++ c.seq.toList)
      (by samem [] []) ?_ fun i => ?_
    · exact Gives.ret [] (by samem [] []) ⟨nofun, one _⟩
    · exact Gives.ret [] (by samem [] []) ⟨fun _ => rfl, one _⟩
  | name =>
    refine Spec.realloc (k := c.cpio.toList ++ c.offadj.toList ++ c.seq.toList)
      (by samem [] []) ?_ fun i => ?_
    · exact Gives.ret [] (by samem [] []) ⟨nofun, one _⟩
    · exact Gives.ret [] (by samem [] []) ⟨fun _ => rfl, one _⟩
  | offadj =>
    refine Spec.realloc (k := c.cpio.toList ++ c.name.toList ++ c.seq.toList)
      (by samem [] []) ?_ fun i => ?_
    · exact Gives.ret [] (by samem [] []) ⟨nofun, one _⟩
    · exact Gives.ret [] (by samem [] []) ⟨fun _ => rfl, one _⟩
  | seq =>
    refine Spec.realloc (k := c.cpio.toList ++ c.name.toList ++ c.offadj.toList)
      (by samem [] []) ?_ fun i => ?_
    · exact Gives.ret c.seq.toList (by samem [] []) ⟨nofun, by cases c.seq <;> simp⟩
    · exact Gives.ret [] (by samem [] []) ⟨fun _ => rfl, one _⟩

theorem cpioLoop_spec (s : Sched) (v3 : Bool) : ∀ (n : Nat) (c : CpioP),
    Gives s (cpioLoop v3 n c) c.own (fun r => r.1.own)
      fun r lk => (r.2 = true → lk = []) ∧ (lk ++ r.1.seq.toList).length ≤ 1
  | 0, c => by
    have one : ([] ++ c.seq.toList).length ≤ 1 := by cases c.seq <;> simp
    exact Spec.test (Gives.ret [] (by same) ⟨nofun, one⟩) (Gives.ret [] (by same) ⟨fun _ => rfl, one⟩)
  | n + 1, c => by
    have one : ([] ++ c.seq.toList).length ≤ 1 := by cases c.seq <;> simp
    unfold cpioLoop
    refine Spec.test (Gives.ret [] (by same) ⟨nofun, one⟩) ?_
    refine Spec.pick fun w => ?_
    have rest : ∀ r : Res (CpioP × Bool),
        Gives s r c.own (fun r => r.1.own)
          (fun r lk => (r.2 = true → lk = []) ∧ (lk ++ r.1.seq.toList).length ≤ 1) →
        Gives s (r >>= fun r => if r.2 then cpioLoop v3 n r.1 else pure (r.1, false)) c.own
          (fun r => r.1.own)
          fun r lk => (r.2 = true → lk = []) ∧ (lk ++ r.1.seq.toList).length ≤ 1 := by
      intro r hr
      refine Gives.call [] hr (by same) ?_
      rintro ⟨c', _ | _⟩ lk ⟨h, hl⟩
      · exact Gives.ret lk (by same) ⟨nofun, hl⟩
      · cases h rfl
        exact Gives.same (by same) (cpioLoop_spec s v3 n c')
    match w with
    | 0 => exact rest _ (growBuf_spec s .cpio c)
    | 1 => exact rest _ (growBuf_spec s .name c)
    | 2 =>
      cases v3 with
      | true => exact rest _ (growBuf_spec s .offadj c)
      | false => exact rest _ (Gives.ret [] (by same) ⟨fun _ => rfl, one⟩)
    | _ + 3 => exact rest _ (growBuf_spec s .seq c)

/-- Building the archive leaves nothing behind on success, at most one block on failure. -/
theorem parseCpio_spec (s : Sched) (v3 : Bool) :
    Gives s (parseCpio v3) [] (fun r => r.1.toList ++ r.2.1.toList ++ r.2.2.1.toList)
      fun r lk => (r.2.2.2 = true → lk = []) ∧ lk.length ≤ 1 := by
  unfold parseCpio
  refine Gives.call [] (getFileInfo_spec' s) (by same) ?_
  rintro ⟨p, fs, _ | _⟩ lk ⟨rfl, hf⟩
  · obtain ⟨hp, hfs⟩ := hf rfl
    cases hp
    cases hfs
    exact Gives.ret [] (by same) ⟨nofun, Nat.zero_le _⟩
  refine Gives.call (p.toList ++ ownFiles fs) (getTag_spec s) (by same) ?_
  rintro (_ | _) lk rfl
  · refine Gives.call p.toList (freeFiles_spec s fs) (by same) ?_
    rintro _ _ rfl
    exact Spec.free (k := []) (by same) (Gives.ret [] (by same) ⟨nofun, Nat.zero_le _⟩)
  refine Spec.pick fun n => ?_
  refine Gives.call (p.toList ++ ownFiles fs) (cpioLoop_spec s v3 n {}) (by samem [] []) ?_
  rintro ⟨c, _ | _⟩ lk ⟨hk, hl⟩
  · refine Spec.freeAll (k := p.toList ++ ownFiles fs ++ c.name.toList ++ c.seq.toList ++ lk)
      (by samem [] []) ?_
    refine Gives.call (p.toList ++ c.name.toList ++ c.seq.toList ++ lk) (freeFiles_spec s fs)
      (by same) ?_
    rintro _ _ rfl
    refine Spec.freeAll (k := lk ++ c.seq.toList) (by same)
      (Gives.ret (lk ++ c.seq.toList) (by same) ⟨nofun, hl⟩)
  cases hk rfl
  have bad : ∀ l, Same l (c.own ++ (p.toList ++ ownFiles fs)) → Gives s (do
      freeAll [c.cpio, none, c.offadj]
      freeFiles fs
      freeAll [p, c.name, c.seq]
      pure (none, none, none, false)) l
      (fun r : Option Nat × Option Nat × Option Nat × Bool => r.1.toList ++ r.2.1.toList ++ r.2.2.1.toList)
      fun r lk => (r.2.2.2 = true → lk = []) ∧ lk.length ≤ 1 := by
    intro l hl
    refine Gives.same hl ?_
    refine Spec.freeAll (k := p.toList ++ ownFiles fs ++ c.name.toList ++ c.seq.toList)
      (by samem [] []) ?_
    refine Gives.call (p.toList ++ c.name.toList ++ c.seq.toList) (freeFiles_spec s fs) (by same) ?_
    rintro _ _ rfl
    exact Spec.freeAll (k := []) (by same) (Gives.ret [] (by same) ⟨nofun, Nat.zero_le _⟩)
  refine Spec.test (bad _ (by same)) ?_
  refine Spec.alloc (bad _ (by same)) fun i => ?_
  refine Gives.call (c.own ++ p.toList ++ [i]) (freeFiles_spec s fs) (by same) ?_
  rintro _ _ rfl
  exact Spec.freeAll (k := c.cpio.toList ++ c.offadj.toList ++ [i]) (by samem [] [])
    (Gives.ret [] (by same) ⟨fun _ => rfl, Nat.zero_le _⟩)

/-! ## The difference -/

/-- What making a delta must not do for its failures to leave at most one block behind. -/
structure MakeKept (s : Sched) : Prop where
  payFmt : s.Passes .payFmt
  compLevel : s.Passes .compLevel
  write : s.Passes .compWrite
  finish : s.Passes .compFinish
  param : s.Passes .compParam
  head : s.Passes .writeHead
  zstd : s.Passes .zstdChunk

/-- The stream of the add block, if there is one. -/
def ownComp : Option CompP → List Nat
  | none => []
  | some st => st.own

def codecOf : Option CompP → List Nat
  | none => []
  | some st => st.codec.toList

theorem codecOf_le (st : Option CompP) : (codecOf st).length ≤ 1 := by
  cases st with
  | none => exact Nat.zero_le _
  | some st => cases h : st.codec <;> simp [codecOf, h]

theorem diffLoop_spec (s : Sched) : ∀ (n : Nat) (p : Option Nat) (st : Option CompP),
    Gives s (diffLoop n p st) (p.toList ++ ownComp st) (fun r => r.1.toList ++ ownComp r.2.1)
      fun r lk => (r.2.2 = true ∨ s.Passes .compWrite → lk = []) ∧ codecOf r.2.1 = codecOf st
  | 0, p, st => Gives.ret [] (by same) ⟨fun _ => rfl, rfl⟩
  | n + 1, p, st => by
    unfold diffLoop
    refine Spec.test ?_ ?_
    · cases st with
      | none => exact diffLoop_spec s n p none
      | some c =>
        refine Gives.call p.toList (compWrite_spec s c) (by samem [ownComp] []) ?_
        rintro ⟨c', _ | _⟩ lk ⟨h, hc⟩
        · exact Gives.ret lk (by samem [ownComp] []) ⟨h, by rw [codecOf, codecOf]; exact congrArg _ hc⟩
        · cases h (.inl rfl)
          refine Spec.mono (Gives.same (by samem [ownComp] []) (diffLoop_spec s n p (some c'))) ?_
          rintro r l' ⟨lk, hs, hl, hd⟩
          exact ⟨lk, hs, hl, hd.trans (by rw [codecOf, codecOf]; exact congrArg _ hc)⟩
    · refine Spec.realloc (k := ownComp st) (by same) ?_ fun i => ?_
      · exact Gives.ret [] (by same) ⟨fun _ => rfl, rfl⟩
      · exact Gives.same (by same) (diffLoop_spec s n (some i) st)

theorem copiesLoop_spec (s : Sched) : ∀ (n : Nat) (e i : Option Nat),
    Gives s (copiesLoop n e i) (e.toList ++ i.toList) (fun r => r.1.toList ++ r.2.1.toList)
      fun _ lk => lk = []
  | 0, e, i => Gives.ret [] (by same) rfl
  | n + 1, e, i => by
    unfold copiesLoop
    refine Spec.test ?_ ?_
    · refine Spec.realloc (p := i) (k := e.toList) (by same) ?_ fun j => ?_
      · exact Gives.ret [] (by same) rfl
      · exact Gives.same (by same) (copiesLoop_spec s n e (some j))
    · refine Spec.realloc (p := e) (k := i.toList) (by same) ?_ fun j => ?_
      · exact Gives.ret [] (by same) rfl
      · exact Gives.same (by same) (copiesLoop_spec s n (some j) i)

theorem createCopies_spec (s : Sched) :
    Gives s createCopies [] (fun r => r.1.toList ++ r.2.1.toList)
      fun r lk => lk = [] ∧ (r.2.2 = false → r.1 = none ∧ r.2.1 = none) := by
  unfold createCopies
  refine Spec.pick fun n => ?_
  refine Gives.call [] (copiesLoop_spec s n none none) (by same) ?_
  rintro ⟨e, i, _ | _⟩ lk rfl
  · exact Spec.freeAll (k := []) (by same) (Gives.ret [] (by same) ⟨rfl, fun _ => ⟨rfl, rfl⟩⟩)
  · exact Gives.ret [] (by same) ⟨rfl, nofun⟩

/-! ### Deltas being filled -/

/-- No field of the delta outside the list has been filled. -/
def Only (fs : List Fld) (d : DeltaP) : Prop := ∀ f, f ∉ fs → d.blk f = none

theorem Only.set {fs : List Fld} {d : DeltaP} (h : Only fs d) (f : Fld) (p : Option Nat) :
    Only (f :: fs) (d.set f p) := by
  intro g hg
  rw [List.mem_cons, not_or] at hg
  show (if g = f then p else d.blk g) = none
  rw [if_neg hg.1]
  exact h g hg.2

theorem Only.set_none {fs : List Fld} {d : DeltaP} (h : Only fs d) (f : Fld) :
    Only fs (d.set f none) := by
  intro g hg
  show (if g = f then none else d.blk g) = none
  split
  · rfl
  · exact h g hg

theorem Only.mono {fs gs : List Fld} {d : DeltaP} (h : Only fs d) (hs : ∀ f ∈ fs, f ∈ gs) :
    Only gs d := fun f hf => h f fun h' => hf (hs f h')

/-- Storing a pointer, which may be NULL, in a field that was empty. -/
theorem DeltaP.own_store (d : DeltaP) (f : Fld) (p : Option Nat) (h : d.blk f = none) :
    Same (p.toList ++ d.own) (d.set f p).own := by
  cases p with
  | some i => exact d.own_set f i h
  | none =>
    have e : (d.set f none) = d := by
      cases d
      unfold DeltaP.set
      congr
      funext g
      dsimp only at h ⊢
      split
      · next e => rw [e, h]
      · rfl
    rw [e]
    exact Same.rfl

theorem Only.store {fs : List Fld} {d : DeltaP} (h : Only fs d) (f : Fld) (p : Option Nat)
    (hf : f ∉ fs := by decide) : Same (p.toList ++ d.own) (d.set f p).own :=
  d.own_store f p (h f hf)

/-- The last parts of the difference. -/
theorem diffParts_spec (s : Sched) (st : Option CompP) (d : DeltaP)
    (hd : Only [.leadsig, .srcNevr, .offadj, .sequence] d) :
    Gives s (diffParts st d) (ownComp st ++ d.own) (fun r => ownComp r.1 ++ r.2.1.own)
      fun r lk => (r.2.2 = true ∨ s.Passes .compFinish → lk = []) ∧
        (r.2.2 = true → codecOf r.1 = []) ∧
        (codecOf st = [] → codecOf r.1 = []) ∧
        r.2.1.rpmonly = d.rpmonly ∧ r.2.1.tgtRpm = d.tgtRpm := by
  unfold diffParts
  refine Gives.call (ownComp st ++ d.own) (createCopies_spec s) (by same) ?_
  rintro ⟨e, i, _ | _⟩ lk ⟨rfl, h⟩
  · obtain ⟨he, hi⟩ := h rfl
    cases he
    cases hi
    exact Gives.ret [] (by samem [] []) ⟨fun _ => rfl, nofun, id, rfl, rfl⟩
  have h1 := hd.store .extCopies e
  have hd1 := hd.set .extCopies e
  have h2 := hd1.store .intCopies i
  have hd2 := hd1.set .intCopies i
  refine Spec.alloc ?_ fun a => ?_
  · exact Gives.ret [] (by samem [] [h1, h2]) ⟨fun _ => rfl, nofun, id, rfl, rfl⟩
  have h3 := hd2.store .intData (some a)
  have hd3 := hd2.set .intData (some a)
  cases st with
  | none =>
    exact Gives.ret [] (by samem [] [h1, h2, h3]) ⟨fun _ => rfl, fun _ => rfl, fun _ => rfl, rfl, rfl⟩
  | some c =>
    refine Gives.call (((d.set .extCopies e).set .intCopies i).set .intData (some a)).own
      (compFinish_spec' s c) (by samem [ownComp] [h1, h2, h3]) ?_
    rintro ⟨c', p, ok⟩ lk ⟨⟨hl, hc⟩, hp⟩
    have hcod : codecOf (some c) = [] → codecOf (some c') = [] := by
      intro h
      have hn : c.codec = none := by
        cases hcc : c.codec with
        | none => rfl
        | some i => rw [codecOf, hcc] at h; exact nomatch h
      have := hc hn
      dsimp only at this
      rw [codecOf, this]; rfl
    cases ok with
    | false =>
      cases hp rfl
      refine Spec.free (k := ownComp (some c') ++ lk ++
        (((d.set .extCopies e).set .intCopies i).set .intData (some a)).own) (by samem [ownComp] []) ?_
      refine Gives.ret lk (by samem [] [hd3.store .addData none]) ⟨?_, nofun, hcod, rfl, rfl⟩
      rintro (h | h)
      · exact nomatch h
      · exact (hl (.inr h)).1
    | true =>
      obtain ⟨rfl, hn⟩ := hl (.inl rfl)
      dsimp only at hn
      refine Gives.ret [] (by samem [ownComp] [hd3.store .addData p])
        ⟨fun _ => rfl, fun _ => by rw [codecOf, hn]; rfl, hcod, rfl, rfl⟩

/-- What `make_diff` and `write_deltarpm` leave: nothing on success; on failure at most one state of the
compression library, none if nothing is compressed. -/
structure DiffPost (s : Sched) (d : DeltaP) (r : DeltaP × Bool) (lk : List Nat) : Prop where
  ok : r.2 = true → lk = []
  few : MakeKept s → lk.length ≤ 1
  plain : MakeKept s → s.Never .compressed → lk = []
  rpmonly : r.1.rpmonly = d.rpmonly

theorem compDestroyO_spec (s : Sched) (st : Option CompP) :
    Gives s (compDestroyO st) (ownComp st) (fun _ => []) fun _ lk => lk = codecOf st := by
  cases st with
  | none => exact Gives.ret [] (by samem [ownComp] []) rfl
  | some st => exact compDestroy_spec s st

theorem makeDiff_spec (s : Sched) (ha : s.Passes .hashAlloc) (ht : s.Passes .hashTable)
    (addblk : Bool) (hl : addblk = true → s.Passes .addLevel) (d : DeltaP)
    (hd : Only [.leadsig, .srcNevr, .offadj, .sequence] d) :
    Gives s (makeDiff addblk d) d.own (fun r => r.1.own)
      fun r lk => DiffPost s d r lk ∧ r.1.tgtRpm = d.tgtRpm := by
  unfold makeDiff
  refine Spec.allocOk ha fun h => Spec.allocOk ht fun t => ?_
  have init : Gives s (if addblk then compInit .addLevel else pure (.null, true)) []
      (fun r => r.1.own) fun r lk => (r.2 = true ∨ s.Passes .compParam → lk = []) ∧
        (s.Never .compressed → r.1.codecs = []) ∧ (r.2 = false → r.1.codecs = []) ∧
        (r.2 = true → r.1.own = ownComp r.1.get) ∧ r.1 ≠ .unset := by
    cases addblk with
    | false => exact Gives.ret [] (by samem [] []) ⟨fun _ => rfl, fun _ => rfl, nofun, fun _ => rfl, nofun⟩
    | true =>
      refine Spec.mono (compInit_spec s .addLevel) ?_
      rintro r l' ⟨lk, hs, h1, h2, h3, -, h5, h6⟩
      refine ⟨lk, hs, h1, h2, h3, fun hr => ?_, h6 (hl rfl)⟩
      obtain ⟨st, e⟩ := h5 hr
      rw [e]
      rfl
  refine Gives.call ([h] ++ [t] ++ d.own) init (by same) ?_
  rintro ⟨c, ok⟩ lk ⟨hk, hn, hf, ho, hu⟩
  cases ok with
  | false =>
    refine Spec.freeAll (k := c.own ++ lk ++ d.own) (by samem [] []) ?_
    have hcc := hf rfl
    have few : MakeKept s → lk = [] := fun hm => hk (.inr hm.param)
    have post : DiffPost s d (d, false) lk :=
      ⟨nofun, fun hm => by rw [few hm]; exact Nat.zero_le _, fun hm _ => few hm, rfl⟩
    cases c with
    | unset => exact absurd rfl hu
    | null =>
      exact Gives.ret lk (by samem [] []) ⟨post, rfl⟩
    | strm st =>
      refine Gives.call (lk ++ d.own) (compDestroy_spec s st) (by samem [] []) ?_
      rintro _ _ rfl
      have : st.codec.toList = [] := hcc
      rw [this]
      exact Gives.ret lk (by samem [] []) ⟨post, rfl⟩
  | true =>
    cases hk (.inl rfl)
    refine Spec.pick fun n => ?_
    have ho := ho rfl
    dsimp only at ho
    have hn0 : s.Never .compressed → codecOf c.get = [] := fun h => by
      have := hn h
      cases c <;> exact this
    dsimp only
    rw [ho]
    refine Gives.call ([h] ++ [t] ++ d.own) (diffLoop_spec s n none c.get) (by same) ?_
    rintro ⟨p, st, _ | _⟩ lk ⟨hw, hc⟩
    · refine Spec.freeAll (k := ownComp st ++ lk ++ d.own) (by same) ?_
      refine Gives.call (lk ++ d.own) (compDestroyO_spec s st) (by same) ?_
      rintro _ _ rfl
      refine Gives.ret (codecOf st ++ lk) (by same) ⟨⟨nofun, fun hm => ?_, fun hm h => ?_, rfl⟩, rfl⟩
      · rw [hw (.inr hm.write), List.append_nil]; exact codecOf_le st
      · rw [hw (.inr hm.write), List.append_nil]; exact hc.trans (hn0 h)
    · cases hw (.inl rfl)
      refine Gives.call ([h] ++ [t] ++ p.toList) (diffParts_spec s st d hd) (by same) ?_
      rintro ⟨st', d', ok⟩ lk ⟨h1, h2, h3, h4, h5⟩
      refine Spec.freeAll (k := ownComp st' ++ d'.own ++ lk) (by same) ?_
      refine Gives.call (lk ++ d'.own) (compDestroyO_spec s st') (by same) ?_
      rintro _ _ rfl
      refine Gives.ret (codecOf st' ++ lk) (by same)
        ⟨⟨fun hok => ?_, fun hm => ?_, fun hm h => ?_, h4⟩, h5⟩
      · rw [h1 (.inl hok), List.append_nil]; exact h2 hok
      · rw [h1 (.inr hm.finish), List.append_nil]; exact codecOf_le st'
      · rw [h1 (.inr hm.finish), List.append_nil]; exact h3 (hc.trans (hn0 h))

/-! ## Writing the delta -/

theorem compWrites_spec (s : Sched) : ∀ (n : Nat) (st : CompP),
    Gives s (compWrites n st) st.own (fun r => r.1.own)
      fun r lk => (r.2 = true ∨ s.Passes .compWrite → lk = []) ∧ r.1.codec = st.codec
  | 0, st => Spec.test (Gives.ret [] (by samem [] []) ⟨fun _ => rfl, rfl⟩)
      (Gives.ret [] (by samem [] []) ⟨fun _ => rfl, rfl⟩)
  | n + 1, st => by
    unfold compWrites
    refine Gives.call [] (compWrite_spec s st) (by same) ?_
    rintro ⟨st', _ | _⟩ lk ⟨h, hc⟩
    · exact Gives.ret lk (by same) ⟨h, hc⟩
    · cases h (.inl rfl)
      refine Spec.mono (Gives.same (by same) (compWrites_spec s n st')) ?_
      rintro r l' ⟨lk, hs, hl, hd⟩
      exact ⟨lk, hs, hl, hd.trans hc⟩

theorem newSignature_spec (s : Sched) (r : RpmP) :
    Gives s (newSignature r) r.own (fun r => r.1.own)
      fun r lk => lk = [] ∧ (s.Passes .writeHead → r.2 = true) := by
  unfold newSignature
  refine Spec.free (k := [r.self] ++ r.hdr.toList ++ r.arch.toList) (by same) ?_
  refine Spec.take fun g => Spec.take fun td => ?_
  refine Spec.testP (fun h => ?_) ?_
  · exact Spec.free (k := [g] ++ ([r.self] ++ r.hdr.toList ++ r.arch.toList)) (by same)
      (Gives.ret [] (by same) ⟨rfl, fun hx => absurd hx h⟩)
  refine Spec.free (k := [g] ++ ([r.self] ++ r.hdr.toList ++ r.arch.toList)) (by same) ?_
  refine Spec.cond (fun _ => ?_) fun h => absurd rfl h
  refine Spec.take fun td' => ?_
  refine Spec.testP (fun h => ?_) ?_
  · exact Spec.free (k := [g] ++ ([r.self] ++ r.hdr.toList ++ r.arch.toList)) (by same)
      (Gives.ret [] (by same) ⟨rfl, fun hx => absurd hx h⟩)
  refine Spec.free (k := [g] ++ ([r.self] ++ r.hdr.toList ++ r.arch.toList)) (by same) ?_
  refine Spec.cond (fun _ => ?_) fun h => absurd rfl h
  refine Spec.free (k := [r.self] ++ r.hdr.toList ++ r.arch.toList) (by same) ?_
  exact Spec.alloc (Gives.ret [] (by same) ⟨rfl, fun _ => rfl⟩)
    fun i => Gives.ret [] (by same) ⟨rfl, fun _ => rfl⟩

theorem rpmWrite_specP (s : Sched) (x : Site) :
    Gives s (rpmWrite x) [] (fun _ => []) fun b lk => lk = [] ∧ (s.Passes x → b = true) := by
  unfold rpmWrite
  refine Spec.allocP (fun h => Gives.ret [] (by same) ⟨rfl, fun hx => absurd hx h⟩) fun fd => ?_
  refine Gives.call [fd] (exportHdr_spec s x) (by same) ?_
  rintro (_ | sb) lk ⟨rfl, h⟩
  · exact Spec.free (k := []) (by same) (Gives.ret [] (by same) ⟨rfl, fun hx => absurd rfl (h hx)⟩)
  refine Gives.call ([fd] ++ [sb]) (exportHdr_spec s x) (by same) ?_
  rintro (_ | hb) lk ⟨rfl, h⟩
  · exact Spec.freeAll (k := []) (by same)
      (Gives.ret [] (by same) ⟨rfl, fun hx => absurd rfl (h hx)⟩)
  refine Spec.testP (fun h => ?_) ?_
  · exact Spec.freeAll (k := []) (by same) (Gives.ret [] (by same) ⟨rfl, fun hx => absurd hx h⟩)
  · exact Spec.freeAll (k := []) (by same) (Gives.ret [] (by same) ⟨rfl, fun _ => rfl⟩)

theorem writeStdHead_spec (s : Sched) (t : RpmP) :
    Gives s (writeStdHead t) t.own (fun r => r.1.own ++ r.2.1.toList ++ r.2.2.toList)
      fun r lk => lk = [] ∧ (s.Passes .writeHead → r.2.2 ≠ none) := by
  unfold writeStdHead
  refine Gives.call t.own (exportHdr_spec s .writeHead) (by same) ?_
  rintro (_ | h) lk ⟨rfl, he⟩
  · exact Gives.ret [] (by same) ⟨rfl, fun hx => absurd rfl (he hx)⟩
  refine Spec.testP (fun hn => Gives.ret [] (by same) ⟨rfl, fun hx => absurd hx hn⟩) ?_
  refine Gives.call [h] (newSignature_spec s t) (by same) ?_
  rintro ⟨t', _ | _⟩ lk ⟨rfl, hp⟩
  · exact Gives.ret [] (by same) ⟨rfl, fun hx => nomatch hp hx⟩
  refine Gives.call ([h] ++ t'.own) (rpmWrite_specP s .writeHead) (by same) ?_
  rintro (_ | _) lk ⟨rfl, hp⟩
  · exact Gives.ret [] (by same) ⟨rfl, fun hx => nomatch hp hx⟩
  refine Spec.allocP (fun hn => Gives.ret [] (by same) ⟨rfl, fun hx => absurd hx hn⟩) fun fd => ?_
  exact Gives.ret [] (by same) ⟨rfl, fun _ => nofun⟩

theorem writeDelta_spec (s : Sched) (d : DeltaP) (hd : d.rpmonly = false → ∃ t, d.tgtRpm = some t) :
    Gives s (writeDelta d) d.own (fun r => r.1.own) (DiffPost s d) := by
  unfold writeDelta
  refine Gives.call d.own (compInit_spec s .call) (by same) ?_
  rintro ⟨c, ok⟩ lk ⟨hk, hn, hf, -, hst, -⟩
  have few : MakeKept s → lk = [] := fun hm => hk (.inr hm.param)
  have post : ∀ ok, (ok = true → lk = []) → DiffPost s d (d, ok) lk := fun ok h =>
    ⟨h, fun hm => by rw [few hm]; exact Nat.zero_le _, fun hm _ => few hm, rfl⟩
  cases ok with
  | false =>
    cases c with
    | unset => exact Gives.ret lk (by samem [] []) (post _ nofun)
    | null => exact Gives.ret lk (by samem [] []) (post _ nofun)
    | strm st =>
      refine Gives.call (lk ++ d.own) (compDestroy_spec s st) (by samem [] []) ?_
      rintro _ _ rfl
      have : st.codec.toList = [] := hf rfl
      rw [this]
      exact Gives.ret lk (by samem [] []) (post _ nofun)
  | true =>
    obtain ⟨st, e⟩ := hst rfl
    dsimp only at e
    subst e
    cases hk (.inl rfl)
    have hn : s.Never .compressed → st.codec.toList = [] := hn
    have one : ∀ p : Option Nat, p.toList.length ≤ 1 := fun p => by cases p <;> simp
    refine Spec.pick fun n => ?_
    refine Gives.call d.own (compWrites_spec s n st) (by samem [] []) ?_
    rintro ⟨st1, _ | _⟩ lk ⟨hw, hc⟩
    · refine Gives.call (lk ++ d.own) (compDestroy_spec s st1) (by same) ?_
      rintro _ _ rfl
      dsimp only at hc
      refine Gives.ret (st1.codec.toList ++ lk) (by same) ⟨nofun, fun hm => ?_, fun hm h => ?_, rfl⟩
      · rw [hw (.inr hm.write), List.append_nil]; exact one _
      · rw [hw (.inr hm.write), List.append_nil, hc]; exact hn h
    cases hw (.inl rfl)
    refine Gives.call d.own (compFinish_spec' s st1) (by same) ?_
    rintro ⟨st2, p, ok⟩ lk ⟨⟨hl, -⟩, hp⟩
    cases ok with
    | false =>
      cases hp rfl
      refine Gives.call (lk ++ d.own) (compDestroy_spec s st2) (by same) ?_
      rintro _ _ rfl
      refine Spec.free (k := st2.codec.toList ++ lk ++ d.own) (by same) ?_
      have hl : MakeKept s → lk = [] ∧ st2.codec = none := fun hm => hl (.inr hm.finish)
      refine Gives.ret (st2.codec.toList ++ lk) (by same) ⟨nofun, fun hm => ?_, fun hm _ => ?_, rfl⟩
      · obtain ⟨rfl, e⟩ := hl hm
        rw [e]; exact Nat.zero_le _
      · obtain ⟨rfl, e⟩ := hl hm
        rw [e]; rfl
    | true =>
      obtain ⟨rfl, e⟩ := hl (.inl rfl)
      dsimp only at e
      have bad : ∀ d', ¬ s.Passes .writeHead → d'.rpmonly = d.rpmonly → ∀ lk,
          DiffPost s d (d', false) lk := fun d' h hr lk =>
        ⟨nofun, fun hm => absurd hm.head h, fun hm _ => absurd hm.head h, hr⟩
      cases hr : d.rpmonly with
      | true =>
        refine Spec.allocP (fun h => ?_) fun fd => ?_
        · exact Gives.ret (st2.own ++ p.toList) (by same) (bad d h rfl _)
        have fin : ∀ good : Bool, Gives s (do
            compDestroy st2
            freeAll [none, p, some fd]
            pure (d, good)) ([fd] ++ (st2.own ++ p.toList ++ [] ++ d.own)) (fun r => r.1.own)
            (DiffPost s d) := by
          intro good
          refine Gives.call ([fd] ++ p.toList ++ d.own) (compDestroy_spec s st2) (by same) ?_
          rintro _ _ rfl
          rw [e]
          refine Spec.freeAll (k := d.own) (by same) (Gives.ret [] (by same)
            ⟨fun _ => rfl, fun _ => Nat.zero_le _, fun _ _ => rfl, rfl⟩)
        exact Spec.test (fin false) (fin true)
      | false =>
        obtain ⟨t, ht⟩ := hd hr
        simp only [ht]
        have hds := d.own_standard hr
        rw [ht] at hds
        have hdn : ∀ t' : RpmP, ({ d with tgtRpm := some t' } : DeltaP).own = ownRpm (some t') ++ ids d.ptrs :=
          fun t' => DeltaP.own_standard (d := { d with tgtRpm := some t' }) hr
        simp only [hr] at hdn ⊢
        refine Gives.call (st2.own ++ p.toList ++ ids d.ptrs) (writeStdHead_spec s t)
          (by samem [hds] []) ?_
        rintro ⟨t', h, _ | fd⟩ lk ⟨rfl, hx⟩
        · have hx' : ¬ s.Passes .writeHead := fun h => hx h rfl
          exact Gives.ret (st2.own ++ p.toList ++ h.toList) (by samem [hdn] []) (bad _ hx' hr.symm _)
        have fin : ∀ good : Bool, Gives s (do
            compDestroy st2
            freeAll [h, p, some fd]
            pure (({ d with rpmonly := false, tgtRpm := some t' } : DeltaP), good))
            (t'.own ++ h.toList ++ [fd] ++ [] ++ (st2.own ++ p.toList ++ ids d.ptrs)) (fun r => r.1.own)
            (DiffPost s d) := by
          intro good
          refine Gives.call ([fd] ++ h.toList ++ p.toList ++ t'.own ++ ids d.ptrs)
            (compDestroy_spec s st2) (by same) ?_
          rintro _ _ rfl
          rw [e]
          refine Spec.freeAll (k := t'.own ++ ids d.ptrs) (by same) (Gives.ret [] (by samem [hdn] [])
            ⟨fun _ => rfl, fun _ => Nat.zero_le _, fun _ _ => rfl, hr.symm⟩)
        exact Spec.test (fin false) (fin true)

theorem writeSeq_spec (s : Sched) : Gives s writeSeq [] (fun _ => []) fun _ lk => lk = [] := by
  unfold writeSeq
  refine Spec.alloc (Gives.ret [] (by same) rfl) fun f => ?_
  exact Spec.alloc (Spec.freeAll (k := []) (by same) (Gives.ret [] (by same) rfl))
    fun i => Spec.freeAll (k := []) (by same) (Gives.ret [] (by same) rfl)

/-! ## `drpm_make` -/

/-- The package that a failing `drpm_make` forgets: for a standard delta, the new package as long as it
is not part of the delta. -/
def stray (o : Bool) (m : MakeP) : List Nat := if o then [] else ownRpm m.tgt

/-- What a step of making a delta of type `o` leaves besides its variables. -/
structure MPost (s : Sched) (o : Bool) (r : MakeP × Bool) (lk : List Nat) : Prop where
  typ : r.1.delta.rpmonly = o
  ok : r.2 = true → lk = []
  few : MakeKept s → r.2 = false → (lk ++ stray o r.1).length ≤ 1
  plain : MakeKept s → s.Never .compressed → o = true → lk = []

/-- A step of making a delta. -/
def MStep (s : Sched) (o : Bool) (Pre : MakeP → Prop) (f : MakeP → Res (MakeP × Bool))
    (After : MakeP → Prop) : Prop :=
  ∀ m, m.delta.rpmonly = o → Pre m → Gives s (f m) m.own (fun r => r.1.own)
    fun r lk => MPost s o r lk ∧ (r.2 = true → After r.1)

theorem MStep.seq {s : Sched} {o : Bool} {P Q R : MakeP → Prop} {f g : MakeP → Res (MakeP × Bool)}
    (hf : MStep s o P f Q) (hg : MStep s o Q g R) : MStep s o P (seqMake f g) R := by
  intro m ho hm
  unfold seqMake
  refine Gives.call [] (hf m ho hm) (by same) ?_
  rintro ⟨m', _ | _⟩ lk ⟨hp, hq⟩
  · exact Gives.ret lk (by same) ⟨hp, nofun⟩
  · cases hp.ok rfl
    exact Gives.same (by same) (hg m' hp.typ (hq rfl))

/-- No archive and no header yet. -/
structure NoArch (m : MakeP) : Prop where
  oldCpio : m.oldCpio = none
  newCpio : m.newCpio = none
  oldHdr : m.oldHdr = none
  newHdr : m.newHdr = none

/-- The new package of a standard delta is part of it. -/
def InDelta (o : Bool) (m : MakeP) : Prop := o = false → m.tgt = none ∧ ∃ t, m.delta.tgtRpm = some t

theorem InDelta.stray {o : Bool} {m : MakeP} (h : InDelta o m) : stray o m = [] := by
  cases o with
  | true => rfl
  | false => rw [Own.stray, (h rfl).1]; rfl

structure MakeStart (m : MakeP) : Prop extends NoArch m where
  only : Only [] m.delta
  tgtRpm : m.delta.tgtRpm = none
  tgtNevr : m.delta.tgtNevr = none
  old : m.old = none
  tgt : m.tgt = none

/-- The sequence of an rpm-only delta is there from the beginning. -/
def early (o : Bool) : List Fld := if o then [.sequence] else []

structure HasRead (o : Bool) (m : MakeP) : Prop extends NoArch m where
  only : Only (early o) m.delta
  tgtRpm : m.delta.tgtRpm = none
  tgtNevr : m.delta.tgtNevr = none
  tgt : ∃ t, m.tgt = some t

structure HasInfo (o : Bool) (m : MakeP) : Prop extends NoArch m where
  only : Only (early o) m.delta
  tgtNevr : m.delta.tgtNevr = none
  moved : InDelta o m

structure HasNames (o : Bool) (m : MakeP) : Prop extends NoArch m where
  only : Only (.leadsig :: .srcNevr :: early o) m.delta
  moved : InDelta o m

structure HasArchives (o : Bool) (m : MakeP) : Prop where
  only : Only [.leadsig, .srcNevr, .offadj, .sequence] m.delta
  moved : InDelta o m

/-- A step that ends without forgetting anything. -/
theorem mstep_ret {s : Sched} {o ok : Bool} {m : MakeP} {l : List Nat} {After : MakeP → Prop}
    (hs : Same l m.own) (ht : m.delta.rpmonly = o) (hf : ok = false → (stray o m).length ≤ 1)
    (hq : ok = true → After m) :
    Gives s (pure (m, ok)) l (fun r => r.1.own)
      fun r lk => MPost s o r lk ∧ (r.2 = true → After r.1) :=
  Gives.ret [] (by intro a; have := hs a; simpa using this)
    ⟨⟨ht, fun _ => rfl, fun _ h => hf h, fun _ _ _ => rfl⟩, hq⟩

theorem makePatches_spec (s : Sched) (o : Bool) (hp : o = false → s.Never .patches) :
    MStep s o MakeStart makePatches MakeStart := by
  intro m ho hm
  have h0 : (stray o m).length ≤ 1 := by
    cases o with
    | true => exact Nat.zero_le _
    | false => rw [stray, hm.tgt]; exact Nat.zero_le _
  unfold makePatches
  have no : Gives s (pure (m, true)) m.own (fun r => r.1.own)
      fun r lk => MPost s o r lk ∧ (r.2 = true → MakeStart r.1) :=
    mstep_ret Same.rfl ho nofun fun _ => hm
  cases o with
  | true =>
    simp only [ho]
    exact Spec.test no no
  | false =>
    simp only [ho]
    exact Spec.testN no fun h => absurd (hp rfl) h

theorem makeRead_spec (s : Sched) (o alone : Bool) (hc : ¬ (alone = true ∧ o = true)) :
    MStep s o MakeStart (makeRead alone) (HasRead o) := by
  intro m ho hm
  have st0 : ∀ m' : MakeP, m'.tgt = none → (stray o m').length ≤ 1 := fun m' h => by
    cases o with
    | true => exact Nat.zero_le _
    | false => rw [stray, h]; exact Nat.zero_le _
  unfold makeRead
  cases alone with
  | true =>
    have ho' : o = false := by
      cases o with
      | true => exact absurd ⟨rfl, rfl⟩ hc
      | false => rfl
    subst ho'
    refine Gives.call m.own (rpmRead_spec' s .makeNew .decomp false true nofun) (by same) ?_
    rintro ⟨r, ok⟩ lk ⟨⟨hz, -⟩, hf, ht⟩
    refine Gives.ret lk (by samem [hm.tgt] []) ⟨⟨ho, fun h => hz (.inl h), fun hk h => ?_, nofun⟩, fun h => ?_⟩
    · rw [hz (.inr (.inl hk.zstd))]
      exact hf h
    · exact ⟨⟨hm.oldCpio, hm.newCpio, hm.oldHdr, hm.newHdr⟩, hm.only, hm.tgtRpm, hm.tgtNevr, ht h⟩
  | false =>
    have main : ∀ (q : Option Nat) (l : List Nat), Same l (q.toList ++ m.own) →
        (q ≠ none → o = true) → Gives s (do
        let r ← rpmRead .call .decomp m.delta.rpmonly false
        if r.2 then
          let t ← rpmRead .makeNew .decomp false true
          pure ({ m with delta := m.delta.set .sequence q, old := r.1, tgt := t.1 }, t.2)
        else pure ({ m with delta := m.delta.set .sequence q, old := r.1 }, false)) l
        (fun r => r.1.own) fun r lk => MPost s o r lk ∧ (r.2 = true → HasRead o r.1) := by
      intro q l hl hq
      have h1 := hm.only.store .sequence q
      have he : Only (early o) (m.delta.set .sequence q) := by
        cases o with
        | true => exact hm.only.set .sequence q
        | false =>
          cases q with
          | none => exact hm.only.set_none .sequence
          | some i => exact nomatch hq nofun
      refine Gives.same hl ?_
      refine Gives.call (q.toList ++ m.own) (rpmRead_spec' s .call .decomp m.delta.rpmonly false nofun)
        (by same) ?_
      rintro ⟨r, _ | _⟩ lk ⟨⟨hz, -⟩, -, -⟩
      · refine Gives.ret lk (by samem [hm.old] [h1]) ⟨⟨ho, nofun, fun hk _ => ?_, fun hk _ _ => ?_⟩, nofun⟩
        · rw [hz (.inr (.inl hk.zstd))]
          exact st0 _ hm.tgt
        · exact hz (.inr (.inl hk.zstd))
      cases hz (.inl rfl)
      refine Gives.call (ownRpm r ++ q.toList ++ m.own)
        (rpmRead_spec' s .makeNew .decomp false true nofun) (by same) ?_
      rintro ⟨t, ok⟩ lk ⟨⟨hz, -⟩, hf, ht⟩
      refine Gives.ret lk (by samem [hm.old, hm.tgt] [h1]) ⟨⟨ho, fun h => hz (.inl h), fun hk h => ?_,
        fun hk _ _ => hz (.inr (.inl hk.zstd))⟩, fun h => ?_⟩
      · rw [hz (.inr (.inl hk.zstd))]
        cases o with
        | true => exact Nat.zero_le _
        | false => exact hf h
      · exact ⟨⟨hm.oldCpio, hm.newCpio, hm.oldHdr, hm.newHdr⟩, he, hm.tgtRpm, hm.tgtNevr, ht h⟩
    cases o with
    | true =>
      simp only [ho] at main ⊢
      refine Spec.alloc ?_ fun q => ?_
      · exact mstep_ret (by same) ho (fun _ => st0 _ hm.tgt) nofun
      · exact main (some q) _ (by same) fun _ => trivial
    | false =>
      simp only [ho] at main ⊢
      exact main none _ (by same) fun h => absurd rfl h

theorem makeInfo_spec (s : Sched) (o : Bool) : MStep s o (HasRead o) makeInfo (HasInfo o) := by
  intro m ho hm
  unfold makeInfo
  have bad : ∀ {x : Site}, ¬ s.Passes x → (MakeKept s → s.Passes x) →
      Gives s (pure (m, false)) m.own (fun r => r.1.own)
        fun r lk => MPost s o r lk ∧ (r.2 = true → HasInfo o r.1) := fun hx hk =>
    Gives.ret [] (by same) ⟨⟨ho, fun _ => rfl, fun h => absurd (hk h) hx, fun _ _ _ => rfl⟩, nofun⟩
  refine Spec.testP (fun h => bad h (·.payFmt)) ?_
  refine Spec.testP (fun h => bad h (·.compLevel)) ?_
  refine Spec.cond (fun _ => ?_) fun h => absurd rfl h
  cases o with
  | true =>
    simp only [ho]
    exact mstep_ret Same.rfl ho nofun fun _ => ⟨hm.toNoArch, hm.only, hm.tgtNevr, nofun⟩
  | false =>
    simp only [ho]
    have h1 := DeltaP.own_standard (d := m.delta) ho
    have h2 := DeltaP.own_standard (d := { m.delta with tgtRpm := m.tgt, rpmonly := false }) rfl
    have h3 : ids ({ m.delta with tgtRpm := m.tgt, rpmonly := false } : DeltaP).ptrs = ids m.delta.ptrs := rfl
    refine mstep_ret (by samem [h1, h2, h3, hm.tgtRpm] []) rfl nofun fun _ => ?_
    exact ⟨⟨hm.oldCpio, hm.newCpio, hm.oldHdr, hm.newHdr⟩, hm.only, hm.tgtNevr, fun _ => ⟨rfl, hm.tgt⟩⟩

theorem makeNames_spec (s : Sched) (o : Bool) : MStep s o (HasInfo o) makeNames (HasNames o) := by
  intro m ho hm
  have st0 : ∀ d : DeltaP, d.tgtRpm = m.delta.tgtRpm → (stray o { m with delta := d }).length ≤ 1 :=
    fun d hd => by
      rw [InDelta.stray (o := o) (m := { m with delta := d })
        (fun h => ⟨(hm.moved h).1, by rw [hd]; exact (hm.moved h).2⟩)]
      exact Nat.zero_le _
  unfold makeNames
  refine Spec.alloc (mstep_ret Same.rfl ho (fun _ => st0 m.delta rfl) nofun) fun i => ?_
  have ho1 : .srcNevr ∉ early o := by cases o <;> decide
  have h1 := hm.only.store .srcNevr (some i) ho1
  have hd1 := hm.only.set .srcNevr (some i)
  have ho2 : .leadsig ∉ (.srcNevr :: early o) := by cases o <;> decide
  have main : ∀ (q : Option Nat) (l : List Nat), (o = false → q = none) →
      Same l (q.toList ++ ([i] ++ m.own)) → Gives s (do
      let ls ← fetchLeadSig
      pure ({ m with delta := { m.delta.set .srcNevr (some i) with tgtNevr := q }.set .leadsig ls },
        ls.isSome)) l (fun r => r.1.own)
      fun r lk => MPost s o r lk ∧ (r.2 = true → HasNames o r.1) := by
    intro q l hq hl
    refine Gives.same hl ?_
    have hd2 : Only (.srcNevr :: early o) { m.delta.set .srcNevr (some i) with tgtNevr := q } := hd1
    have h2 : Same (q.toList ++ (m.delta.set .srcNevr (some i)).own)
        ({ m.delta.set .srcNevr (some i) with tgtNevr := q } : DeltaP).own := by
      cases o with
      | true =>
        have e1 := DeltaP.own_rpmonly (d := m.delta.set .srcNevr (some i)) ho
        have e2 := DeltaP.own_rpmonly (d := { m.delta.set .srcNevr (some i) with tgtNevr := q }) ho
        have e3 : (m.delta.set .srcNevr (some i)).tgtNevr = none := hm.tgtNevr
        have e4 : ids ({ m.delta.set .srcNevr (some i) with tgtNevr := q } : DeltaP).ptrs
          = ids (m.delta.set .srcNevr (some i)).ptrs := rfl
        samem [e1, e2, e3, e4] []
      | false =>
        rw [hq rfl, DeltaP.own_standard (d := m.delta.set .srcNevr (some i)) ho,
          DeltaP.own_standard (d := { m.delta.set .srcNevr (some i) with tgtNevr := none }) ho]
        exact Same.rfl
    refine Gives.call (q.toList ++ ([i] ++ m.own)) (fetchLeadSig_spec s) (by same) ?_
    rintro ls lk rfl
    have h3 := hd2.store .leadsig ls ho2
    refine mstep_ret (by samem [] [h1, h2, h3]) ho (fun _ => st0 _ rfl) fun _ => ?_
    exact ⟨⟨hm.oldCpio, hm.newCpio, hm.oldHdr, hm.newHdr⟩, hd2.set .leadsig ls,
      fun h => ⟨(hm.moved h).1, (hm.moved h).2⟩⟩
  cases o with
  | true =>
    simp only [ho]
    refine Spec.alloc ?_ fun j => ?_
    · exact mstep_ret (by samem [] [h1]) ho (fun _ => st0 _ rfl) nofun
    · exact main (some j) _ nofun (by same)
  | false =>
    simp only [ho]
    exact main none _ (fun _ => rfl) (by same)

theorem makeOnly_spec (s : Sched) (hg : s.Passes .growNew) :
    MStep s true (HasNames true) makeOnly (HasArchives true) := by
  intro m ho hm
  have h0 : ∀ m' : MakeP, (stray true m').length ≤ 1 := fun _ => Nat.zero_le _
  unfold makeOnly
  refine Gives.call m.own (exportHdr_spec s .call) (by same) ?_
  rintro (_ | oh) lk ⟨rfl, -⟩
  · exact mstep_ret (by same) ho (fun _ => h0 _) nofun
  refine Gives.call ([oh] ++ m.own) (exportHdr_spec s .call) (by same) ?_
  rintro (_ | nh) lk ⟨rfl, -⟩
  · exact mstep_ret (by samem [hm.oldHdr] []) ho (fun _ => h0 _) nofun
  refine Spec.alloc ?_ fun oc => ?_
  · exact mstep_ret (by samem [hm.oldHdr, hm.newHdr] []) ho (fun _ => h0 _) nofun
  refine Spec.alloc ?_ fun nc => ?_
  · exact mstep_ret (by samem [hm.oldHdr, hm.newHdr, hm.oldCpio] []) ho (fun _ => h0 _) nofun
  refine Spec.realloc (k := [nc] ++ [nh] ++ [oh] ++ m.own) (by same) ?_ fun o' => ?_
  · exact mstep_ret (by samem [hm.oldHdr, hm.newHdr, hm.oldCpio, hm.newCpio] []) ho (fun _ => h0 _) nofun
  refine Spec.reallocOk (k := [o'] ++ [nh] ++ [oh] ++ m.own) hg (by same) fun n' => ?_
  refine mstep_ret (by samem [hm.oldHdr, hm.newHdr, hm.oldCpio, hm.newCpio] []) ho nofun fun _ => ?_
  exact ⟨hm.only.mono (by decide), nofun⟩

theorem makeStd_spec (s : Sched) : MStep s false (HasNames false) makeStd (HasArchives false) := by
  intro m ho hm
  obtain ⟨htgt, t, ht⟩ := hm.moved rfl
  have st0 : ∀ (m' : MakeP) (lk : List Nat), m'.tgt = none → lk.length ≤ 1 →
      (lk ++ stray false m').length ≤ 1 := fun m' lk h hl => by
    rw [stray, h]
    simpa [ownRpm] using hl
  unfold makeStd
  have key : ∀ v3 : Bool, Gives s (do
      let r ← parseCpio v3
      let m := { m with oldCpio := r.1,
                        delta := (m.delta.set .sequence r.2.1).set .offadj r.2.2.1 }
      if r.2.2.2 then
        let nc ← alloc .call
        match nc with
        | none => pure (m, false)
        | some nc =>
          match m.delta.tgtRpm with
          | none => garbage
          | some t => do
            let p ← patchFormat t
            pure ({ m with newCpio := some nc, delta := { m.delta with tgtRpm := some p.1 } }, p.2)
      else pure (m, false)) m.own (fun r => r.1.own)
      fun r lk => MPost s false r lk ∧ (r.2 = true → HasArchives false r.1) := by
    intro v3
    refine Gives.call m.own (parseCpio_spec s v3) (by same) ?_
    rintro ⟨c, q, a, ok⟩ lk ⟨hok, hl⟩
    have h1 := hm.only.store .sequence q
    have hd1 := hm.only.set .sequence q
    have h2 := hd1.store .offadj a
    have hd2 := hd1.set .offadj a
    cases ok with
    | false =>
      refine Gives.ret lk (by samem [hm.oldCpio] [h1, h2]) ⟨⟨ho, nofun, fun _ _ => st0 _ _ htgt hl, nofun⟩, nofun⟩
    | true =>
      cases hok rfl
      refine Spec.alloc ?_ fun nc => ?_
      · exact mstep_ret (by samem [hm.oldCpio] [h1, h2]) ho
          (fun _ => st0 _ [] htgt (Nat.zero_le _)) nofun
      have ht' : ((m.delta.set .sequence q).set .offadj a).tgtRpm = some t := ht
      simp only [ht']
      have e1 := DeltaP.own_standard (d := (m.delta.set .sequence q).set .offadj a) ho
      rw [ht'] at e1
      have e2 : ∀ t' : RpmP, ({ (m.delta.set .sequence q).set .offadj a with tgtRpm := some t' } : DeltaP).own
          = ownRpm (some t') ++ ids ((m.delta.set .sequence q).set .offadj a).ptrs := fun t' =>
        DeltaP.own_standard (d := { (m.delta.set .sequence q).set .offadj a with tgtRpm := some t' }) ho
      refine Gives.call ([nc] ++ c.toList ++ ids ((m.delta.set .sequence q).set .offadj a).ptrs ++
          { m with delta := {} }.own) (patchFormat_spec s t)
        (by samem [e1, DeltaP.own_empty] [h1, h2]) ?_
      rintro ⟨t', ok⟩ lk rfl
      refine mstep_ret (by samem [e2, hm.oldCpio, hm.newCpio, DeltaP.own_empty] []) ho
        (fun _ => st0 _ [] htgt (Nat.zero_le _)) fun _ => ?_
      exact ⟨(Only.mono (gs := [.leadsig, .srcNevr, .offadj, .sequence]) hd2 (by decide)),
        fun _ => ⟨htgt, _, rfl⟩⟩
  exact Spec.test (key false) (key true)

theorem makeArchives_spec (s : Sched) (o : Bool) (hg : o = true → s.Passes .growNew) :
    MStep s o (HasNames o) (fun m => if m.delta.rpmonly then makeOnly m else makeStd m)
      (HasArchives o) := by
  intro m ho hm
  cases o with
  | true =>
    simp only [ho]
    exact makeOnly_spec s (hg rfl) m ho hm
  | false =>
    simp only [ho]
    exact makeStd_spec s m ho hm

/-- What making a delta must not do for all its frees to be valid. -/
structure DiffSafe (s : Sched) (addblk : Bool) : Prop where
  hashAlloc : s.Passes .hashAlloc
  hashTable : s.Passes .hashTable
  addLevel : addblk = true → s.Passes .addLevel

theorem makeData_spec (s : Sched) (o addblk : Bool) (hs : DiffSafe s addblk) :
    MStep s o (HasArchives o) (makeData addblk) (InDelta o) := by
  intro m ho hm
  unfold makeData
  refine Gives.call m.own (findOffset_spec s) (by same) ?_
  rintro (_ | _) lk rfl
  · exact mstep_ret (by same) ho (fun _ => by rw [hm.moved.stray]; exact Nat.zero_le _) nofun
  refine Gives.call ({ m with delta := {} }.own) (makeDiff_spec s hs.hashAlloc hs.hashTable addblk
    hs.addLevel m.delta hm.only) (by samem [DeltaP.own_empty] []) ?_
  rintro ⟨d, ok⟩ lk ⟨hp, ht⟩
  have hi : InDelta o { m with delta := d } := fun h =>
    ⟨(hm.moved h).1, by dsimp only at ht; rw [ht]; exact (hm.moved h).2⟩
  refine Gives.ret lk (by samem [DeltaP.own_empty] []) ⟨⟨hp.rpmonly.trans ho, hp.ok, fun hk _ => ?_,
    fun hk hn _ => hp.plain hk hn⟩, fun _ => hi⟩
  rw [hi.stray, List.append_nil]
  exact hp.few hk

theorem fillNodiff_spec (s : Sched) (hq : s.Passes .nodiffSeq) (hm5 : s.Passes .md5Chunk) :
    MStep s true MakeStart fillNodiff (InDelta true) := by
  intro m ho hm
  have h0 : ∀ m' : MakeP, (stray true m').length ≤ 1 := fun _ => Nat.zero_le _
  unfold fillNodiff
  refine Spec.allocOk hq fun q => ?_
  have h1 := hm.only.store .sequence (some q)
  have hd1 := hm.only.set .sequence (some q)
  refine Gives.call ([q] ++ m.own) (rpmRead_spec' s .call .uncomp true true fun _ => hm5) (by same) ?_
  rintro ⟨r, _ | _⟩ lk ⟨⟨hz, -⟩, -, -⟩
  · refine Gives.call (lk ++ [q] ++ m.own) (rpmDestroy_spec s r) (by same) ?_
    rintro _ _ rfl
    refine Gives.ret lk (by samem [] [h1]) ⟨⟨ho, nofun, fun hk _ => ?_, fun hk _ _ => ?_⟩, nofun⟩
    · rw [hz (.inr (.inl hk.zstd))]
      exact Nat.zero_le _
    · exact hz (.inr (.inl hk.zstd))
  cases hz (.inl rfl)
  refine Gives.call (ownRpm r ++ [q] ++ m.own) (fetchLeadSig_spec s) (by same) ?_
  rintro ls lk rfl
  have h2 := hd1.store .leadsig ls
  have hd2 := hd1.set .leadsig ls
  have e1 : ∀ src tgt : Option Nat,
      Same (tgt.toList ++ (((m.delta.set .sequence (some q)).set .leadsig ls).set .srcNevr src).own)
        ({ ((m.delta.set .sequence (some q)).set .leadsig ls).set .srcNevr src with tgtNevr := tgt } : DeltaP).own := by
    intro src tgt
    have e1 := DeltaP.own_rpmonly (d := ((m.delta.set .sequence (some q)).set .leadsig ls).set .srcNevr src) ho
    have e2 := DeltaP.own_rpmonly (d := { ((m.delta.set .sequence (some q)).set .leadsig ls).set .srcNevr src with tgtNevr := tgt }) ho
    have e3 : (((m.delta.set .sequence (some q)).set .leadsig ls).set .srcNevr src).tgtNevr = none := hm.tgtNevr
    have e4 : ids ({ ((m.delta.set .sequence (some q)).set .leadsig ls).set .srcNevr src with tgtNevr := tgt } : DeltaP).ptrs
        = ids (((m.delta.set .sequence (some q)).set .leadsig ls).set .srcNevr src).ptrs := rfl
    samem [e1, e2, e3, e4] []
  have fin : ∀ (nevr src tgt : Option Nat) (l : List Nat),
      Same l (tgt.toList ++ src.toList ++ nevr.toList ++ ls.toList ++ ownRpm r ++ [q] ++ m.own) →
      Gives s (do
        free nevr
        rpmDestroy r
        pure ({ m with delta := { ((m.delta.set .sequence (some q)).set .leadsig ls).set .srcNevr src with
          tgtNevr := tgt } }, tgt.isSome)) l (fun r => r.1.own)
      fun r lk => MPost s true r lk ∧ (r.2 = true → InDelta true r.1) := by
    intro nevr src tgt l hl
    refine Gives.same hl ?_
    refine Spec.free (k := tgt.toList ++ src.toList ++ ls.toList ++ ownRpm r ++ [q] ++ m.own)
      (by same) ?_
    refine Gives.call (tgt.toList ++ src.toList ++ ls.toList ++ [q] ++ m.own) (rpmDestroy_spec s r)
      (by same) ?_
    rintro _ _ rfl
    have h3 := hd2.store .srcNevr src
    exact mstep_ret (by samem [] [h1, h2, h3, e1 src tgt]) ho (fun _ => h0 _) fun _ => nofun
  cases ls with
  | none => exact fin none none none _ (by same)
  | some ls =>
    refine Spec.alloc (fin none none none _ (by same)) fun nevr => ?_
    refine Spec.alloc (fin (some nevr) none none _ (by same)) fun src => ?_
    exact Spec.alloc (fin (some nevr) (some src) none _ (by same))
      fun tgt => fin (some nevr) (some src) (some tgt) _ (by same)

/-- What making a delta of type `o` must not do for all its frees to be valid. -/
structure MakeSafe (s : Sched) (o alone addblk : Bool) : Prop where
  patches : o = false → s.Never .patches
  nodiff : o = true → alone = true → s.Passes .nodiffSeq ∧ s.Passes .md5Chunk
  growNew : o = true → alone = false → s.Passes .growNew
  diff : ¬ (alone = true ∧ o = true) → DiffSafe s addblk

theorem makeBody_spec (s : Sched) (o alone addblk : Bool) (hs : MakeSafe s o alone addblk) :
    MStep s o MakeStart (makeBody alone addblk) (InDelta o) := by
  intro m ho hm
  unfold makeBody
  by_cases hc : alone = true ∧ o = true
  · obtain ⟨rfl, rfl⟩ := hc
    rw [if_pos ⟨rfl, ho⟩]
    exact fillNodiff_spec s (hs.nodiff rfl rfl).1 (hs.nodiff rfl rfl).2 m ho hm
  · rw [if_neg (by rw [ho]; exact hc)]
    have hg : o = true → s.Passes .growNew := fun h => hs.growNew h (by
      cases alone with
      | false => rfl
      | true => exact absurd ⟨rfl, h⟩ hc)
    exact ((makePatches_spec s o hs.patches).seq <| (makeRead_spec s o alone hc).seq <|
      (makeInfo_spec s o).seq <| (makeNames_spec s o).seq <|
      (makeArchives_spec s o hg).seq (makeData_spec s o addblk (hs.diff hc))) m ho hm

theorem makeWrite_spec (s : Sched) (o : Bool) :
    MStep s o (InDelta o) makeWrite (fun m => m.tgt = none ∨ o = true) := by
  intro m ho hm
  have after : ∀ d : DeltaP, m.tgt = none ∨ o = true := fun _ => by
    cases o with
    | true => exact .inr rfl
    | false => exact .inl (hm rfl).1
  have st : ∀ d : DeltaP, stray o { m with delta := d } = [] := fun d => by
    rcases after d with h | h
    · cases o with
      | true => rfl
      | false => show ownRpm m.tgt = []; rw [h]; rfl
    · rw [h]; rfl
  unfold makeWrite
  refine Gives.call ({ m with delta := {} }.own) (writeDelta_spec s m.delta fun h =>
    (hm (ho.symm.trans h)).2) (by samem [DeltaP.own_empty] []) ?_
  rintro ⟨d, _ | _⟩ lk hp
  · refine Gives.ret lk (by samem [DeltaP.own_empty] []) ⟨⟨hp.rpmonly.trans ho, nofun, fun hk _ => ?_,
      fun hk hn _ => hp.plain hk hn⟩, nofun⟩
    rw [st, List.append_nil]
    exact hp.few hk
  cases hp.ok rfl
  refine Spec.cond (fun _ => ?_) fun h => absurd rfl h
  dsimp only
  split
  · exact mstep_ret (m := { m with delta := d }) (After := fun m => m.tgt = none ∨ o = true) (by samem [DeltaP.own_empty] []) (hp.rpmonly.trans ho) nofun fun _ => after d
  · refine Gives.call ({ m with delta := d }.own) (writeSeq_spec s) (by samem [DeltaP.own_empty] []) ?_
    rintro w lk rfl
    exact mstep_ret (m := { m with delta := d }) (After := fun m => m.tgt = none ∨ o = true) (by same) (hp.rpmonly.trans ho)
      (fun _ => by rw [st]; exact Nat.zero_le _) fun _ => after d

theorem makeEnd_spec (s : Sched) (o : Bool) (m : MakeP) (ho : m.delta.rpmonly = o) :
    Gives s (makeEnd m) m.own (fun _ => []) fun _ lk => lk = stray o m := by
  unfold makeEnd
  refine Gives.call ({ m with delta := {} }.own) (freeDelta_spec s m.delta)
    (by samem [DeltaP.own_empty] []) ?_
  rintro _ _ ⟨rfl, rfl⟩
  refine Gives.call ({ m with delta := {}, old := none }.own) (rpmDestroy_spec s m.old)
    (by samem [DeltaP.own_empty] []) ?_
  rintro _ _ rfl
  have last : ∀ l, Same l (ids [m.oldCpio, m.newCpio, m.oldHdr, m.newHdr, m.seqfile, m.rpmprint, m.patchrpm]
      ++ stray o m) → Gives s
      (freeAll [m.oldCpio, m.newCpio, m.oldHdr, m.newHdr, m.seqfile, m.rpmprint, m.patchrpm]) l
      (fun _ => []) fun _ lk => lk = stray o m := fun l hl =>
    Spec.same hl (Spec.mono (freeAll_spec s _ _) fun _ _ h => ⟨stray o m, by rw [h]; exact Same.rfl, rfl⟩)
  cases o with
  | true =>
    simp only [ho]
    refine Gives.call ({ m with delta := {}, old := none, tgt := none }.own) (rpmDestroy_spec s m.tgt)
      (by samem [DeltaP.own_empty] []) ?_
    rintro _ _ rfl
    have : stray true m = [] := rfl
    exact last _ (by samem [DeltaP.own_empty, this] [])
  | false =>
    simp only [ho]
    refine last _ ?_
    have : stray false m = ownRpm m.tgt := rfl
    samem [DeltaP.own_empty, this] []

/-- `drpm_make`. -/
theorem drpmMake_spec (s : Sched) (o alone addblk : Bool) (hs : MakeSafe s o alone addblk) :
    Gives s (drpmMake o alone addblk) [] (fun _ => [])
      fun b lk => (b = true → lk = []) ∧
        (MakeKept s → (o = true → s.Passes .optsArgs) → lk.length ≤ 1 ∧
          (o = true → s.Never .compressed → lk = [])) := by
  unfold drpmMake
  refine Spec.bind (alloc_spec s .call _) ?_
  rintro p1 l' ⟨rfl, -⟩
  refine Spec.bind (alloc_spec s .call _) ?_
  rintro p2 l' ⟨rfl, -⟩
  refine Spec.bind (alloc_spec s .call _) ?_
  rintro p3 l' ⟨rfl, -⟩
  have main : Gives s (do
      let r ← (seqMake (makeBody alone addblk) makeWrite)
        { seqfile := p1, rpmprint := p2, patchrpm := p3, delta := { rpmonly := o } }
      makeEnd r.1
      pure r.2) (p3.toList ++ (p2.toList ++ (p1.toList ++ []))) (fun _ => [])
      fun b lk => (b = true → lk = []) ∧
        (MakeKept s → (o = true → s.Passes .optsArgs) → lk.length ≤ 1 ∧
          (o = true → s.Never .compressed → lk = [])) := by
    have e0 : ({ rpmonly := o } : DeltaP).own = [] := by cases o <;> rfl
    refine Gives.call [] (((makeBody_spec s o alone addblk hs).seq (makeWrite_spec s o))
      { seqfile := p1, rpmprint := p2, patchrpm := p3, delta := { rpmonly := o } } rfl
      ⟨⟨rfl, rfl, rfl, rfl⟩, fun _ _ => rfl, rfl, rfl, rfl, rfl⟩) (by samem [e0] []) ?_
    rintro ⟨m, ok⟩ lk ⟨hp, ha⟩
    refine Gives.call lk (makeEnd_spec s o m hp.typ) (by same) ?_
    rintro _ _ rfl
    have st : ok = true → stray o m = [] := fun h => by
      rcases ha h with h | h
      · cases o with
        | true => rfl
        | false => rw [stray, h]; rfl
      · rw [h]; rfl
    refine Gives.ret (lk ++ stray o m) (by same) ⟨fun h => ?_, fun hk _ => ⟨?_, fun ho hn => ?_⟩⟩
    · rw [hp.ok h, st h]; rfl
    · cases ok with
      | true => rw [hp.ok rfl, st rfl]; exact Nat.zero_le _
      | false => exact hp.few hk rfl
    · rw [hp.plain hk hn ho, ho]; rfl
  cases o with
  | false => exact Spec.test main main
  | true =>
    refine Spec.testP (fun h => ?_) main
    exact Gives.ret (p3.toList ++ (p2.toList ++ (p1.toList ++ []))) (by same)
      ⟨nofun, fun _ hx => absurd (hx rfl) h⟩

end Drpm.Own
