import Verif.OrderLemmas
import Verif.SafeLemmas
/-!
# Properties C15, C16, C17: the compressed file order
-/

namespace Drpm

/-! ## C15 -/

/-- C15: every list of file indices below the file count (at most as many as there are files)
    can be encoded, and expanding the encoded bytes against that file count gives the list back. -/
theorem C15_roundtrip (fileCount : Nat) (hfc : fileCount < 2^32) (idxs : List Nat)
    (hi : ∀ i ∈ idxs, i < fileCount) (hlen : idxs.length ≤ fileCount) :
    ∃ bs, encodeSeq idxs = .ok bs ∧ decodeSeq fileCount bs = .ok idxs :=
  encode_decode fileCount hfc idxs hi hlen

example : ∃ bs, encodeSeq [3, 4, 5, 0, 1, 9] = .ok bs ∧ decodeSeq 10 bs = .ok [3, 4, 5, 0, 1, 9] :=
  C15_roundtrip 10 (by decide) _ (by decide) (by decide)
example : encodeSeq [3, 4, 5, 0, 1, 9] = .ok [0x03, 0x30, 0x02, 0x71] := by decide +kernel

/-! ## C16 -/

theorem C16_foldl (idxs : List Nat) (s : SeqSt) (ns : List Nat) (h : Holds s ns)
    (hi : ∀ i ∈ idxs, i < 2^32) : ∃ s' ns', idxs.foldlM seqAdd s = .ok s' ∧ Holds s' ns' := by
  have hrun : ∀ (s : SeqSt) ns, Holds s ns → ∃ s' ns', flushRun s = .ok s' ∧ Holds s' ns' := by
    intro s ns h
    unfold flushRun
    have : runLen s < 2^32 := by unfold runLen u32OfInt; omega
    split
    · obtain ⟨s', e, h', _⟩ := seqAppend_holds _ s ns h this
      exact ⟨s', _, e, h'⟩
    · exact ⟨s, ns, rfl, h⟩
  induction idxs generalizing s ns with
  | nil => exact ⟨s, ns, rfl, h⟩
  | cons i rest ih =>
    have hrest : ∀ j ∈ rest, j < 2^32 := fun j hj => hi j (by simp [hj])
    rw [List.foldlM_cons]
    unfold seqAdd
    split
    · exact ih _ ns ⟨h.idx, h.len, h.alloc, h.nib, h.small⟩ hrest
    · obtain ⟨s1, ns1, e1, h1⟩ := hrun s ns h
      rw [e1, Out.bind_ok]
      unfold addJump
      split
      · obtain ⟨s2, e2, h2, _⟩ := seqAppend_holds (u32OfInt ((i : Int) - (s1.last + 1))) s1 ns1 h1
          (by unfold u32OfInt; omega)
        rw [e2, Out.bind_ok, Out.bind_ok]
        exact ih _ _ ⟨h2.idx, h2.len, h2.alloc, h2.nib, h2.small⟩ hrest
      · obtain ⟨s2, e2, h2, _⟩ := seqAppend_holds 0 s1 ns1 h1 (by omega)
        obtain ⟨s3, e3, h3, _⟩ := seqAppend_holds i s2 _ h2 (hi i (by simp))
        simp only [e2, Out.bind_ok, e3]
        exact ih _ _ ⟨h3.idx, h3.len, h3.alloc, h3.nib, h3.small⟩ hrest

/-- C16: encoding any list of 32-bit file indices, of any length and in any order, never writes
    outside the buffer (the outcome is a result, not undefined behaviour). -/
theorem C16_encode_in_bounds (idxs : List Nat) (hi : ∀ i ∈ idxs, i < 2^32) :
    ∃ bs, encodeSeq idxs = .ok bs := by
  obtain ⟨s, ns, e, h⟩ := C16_foldl idxs SeqSt.init [] holds_init hi
  unfold encodeSeq seqFinal
  rw [e, Out.bind_ok]
  unfold flushRun
  split
  · obtain ⟨s', e', _⟩ := seqAppend_holds (runLen s) s ns h (by unfold runLen u32OfInt; omega)
    rw [e']; exact ⟨_, rfl⟩
  · exact ⟨_, rfl⟩

example : ∃ bs, encodeSeq [4294967295, 0, 4294967295, 7] = .ok bs :=
  C16_encode_in_bounds _ (by decide)

/-! ## C17

The full statement `∀ fileCount bs, decodeSeq fileCount bs ≠ .ub` is false. -/

/-- C17 is violated: one file too many is stored past the end of the table (already for an empty
    package: a table of zero elements is written). -/
theorem C17_violated_write : decodeSeq 0 [0x10] = .ub ∧ decodeSeq 2 [0x30] = .ub := by decide +kernel

/-- C17 is violated: the decoder can hand out the index `file_count`, which `expand_sequence` then
    uses to read past the end of the file list (here index 1 of a list with one file). -/
theorem C17_violated_read : decodeSeq 1 [0x01, 0x10] = .ok [1] := by decide +kernel

/-- C17 is violated for every package: a run of 22 continuation nibbles shifts by 64 or more. -/
theorem C17_violated_shift (fileCount : Nat) :
    decodeSeq fileCount (List.replicate 12 0x88) = .ub := by rfl

/-- The decoder with the bounds test that was intended: `>=` instead of `>`. -/
def pushRunChecked (fileCount : Nat) : Nat → Nat → List Nat → Out (List Nat × Nat)
  | 0, pos, ps => .ok (ps, pos)
  | n + 1, pos, ps =>
    if ps.length ≥ fileCount ∨ pos ≥ fileCount then .err .format
    else pushRunChecked fileCount n (pos + 1) (ps ++ [pos])

/-- A position list that is safe to use. -/
def SafePositions (fileCount : Nat) (ps : List Nat) : Prop :=
  ps.length ≤ fileCount ∧ ∀ p ∈ ps, p < fileCount

theorem pushRun_of_checked (fc n pos : Nat) (ps : List Nat) (r : List Nat × Nat)
    (h : pushRunChecked fc n pos ps = .ok r) (hs : SafePositions fc ps) :
    pushRun fc n pos ps = .ok r ∧ SafePositions fc r.1 := by
  induction n generalizing pos ps with
  | zero =>
    simp only [pushRunChecked, Out.ok.injEq] at h
    subst h; exact ⟨rfl, hs⟩
  | succ n ih =>
    simp only [pushRunChecked] at h
    split at h
    · simp at h
    · rename_i hc
      rw [pushRun, if_neg (by omega), if_neg (by omega)]
      apply ih _ _ h
      refine ⟨by simp; omega, ?_⟩
      intro p hp
      rw [List.mem_append, List.mem_singleton] at hp
      rcases hp with hp | rfl
      · exact hs.2 p hp
      · omega

/-- What a caller can rely on after a run: only a run that the intended test accepts is stored. -/
def RunsChecked (fc : Nat) (s : DecSt) (number : Nat) : Prop :=
  s.jump = false → number ≠ 0 → s.toggle = true →
    ∃ r, pushRunChecked fc number s.pos s.positions = .ok r

/-- C17 (partial): as long as every run that is expanded fits the file list (the test the code
    meant to make) and no number uses more than 21 nibbles, one decoding step is defined and
    keeps the positions inside the file list. Missing for the full property: the code does not
    enforce either condition. -/
theorem C17_step_partial (fc : Nat) (s : DecSt) (nib : Nat)
    (hshift : s.shift < 64) (hs : SafePositions fc s.positions)
    (hrun : ∀ b, RunsChecked fc s (s.num ||| b)) :
    ∃ s', decStep fc s nib = .ok s' ∧ SafePositions fc s'.positions := by
  unfold decStep
  simp only [shl64, if_neg (by omega : ¬ s.shift ≥ 64), Out.bind_ok]
  split
  · exact ⟨_, rfl, hs⟩
  · split
    · exact ⟨_, rfl, hs⟩
    · split
      · exact ⟨_, rfl, hs⟩
      · split
        · exact ⟨_, rfl, hs⟩
        · rename_i h1 h2 h3 h4
          obtain ⟨r, hr⟩ := hrun (nib <<< s.shift % 2 ^ 64) (by simpa using h2) h3 (by simpa using h4)
          obtain ⟨e, hs'⟩ := pushRun_of_checked fc _ _ _ _ hr hs
          rw [e, Out.bind_ok]
          exact ⟨_, rfl, hs'⟩

/-- C17 (partial), for whole sequences: whatever the input, a sequence that expands successfully
    never yields more positions than files, and no position beyond `file_count`. (The bound on a
    position is `≤`, not `<`: see `C17_violated_read`.) -/
theorem C17_accepted_partial (fc : Nat) (bs : Bytes) (ps : List Nat)
    (h : decodeSeq fc bs = .ok ps) : ps.length ≤ fc ∧ ∀ p ∈ ps, p ≤ fc := by
  have hpush : ∀ n pos ps r, pushRun fc n pos ps = .ok r →
      (ps.length ≤ fc ∧ ∀ p ∈ ps, p ≤ fc) → (r.1.length ≤ fc ∧ ∀ p ∈ r.1, p ≤ fc) := by
    intro n
    induction n with
    | zero => intro pos ps r h hs; simp only [pushRun, Out.ok.injEq] at h; subst h; exact hs
    | succ n ih =>
      intro pos ps r h hs
      simp only [pushRun] at h
      split at h
      · simp at h
      · split at h
        · simp at h
        · apply ih _ _ _ h
          refine ⟨by simp; omega, ?_⟩
          intro p hp
          rw [List.mem_append, List.mem_singleton] at hp
          rcases hp with hp | rfl
          · exact hs.2 p hp
          · omega
  have hstep : ∀ s nib s', decStep fc s nib = .ok s' →
      (s.positions.length ≤ fc ∧ ∀ p ∈ s.positions, p ≤ fc) →
      (s'.positions.length ≤ fc ∧ ∀ p ∈ s'.positions, p ≤ fc) := by
    intro s nib s' h hs
    unfold decStep at h
    split at h
    · obtain ⟨b, _, h⟩ := Out.bind_eq_ok.1 h
      simp only [Out.ok.injEq] at h; subst h; exact hs
    · obtain ⟨b, _, h⟩ := Out.bind_eq_ok.1 h
      simp only at h
      split at h
      · simp only [Out.ok.injEq] at h; subst h; exact hs
      · split at h
        · simp only [Out.ok.injEq] at h; subst h; exact hs
        · split at h
          · simp only [Out.ok.injEq] at h; subst h; exact hs
          · obtain ⟨r, hr, h⟩ := Out.bind_eq_ok.1 h
            simp only [Out.ok.injEq] at h; subst h
            exact hpush _ _ _ _ hr hs
  have hfold : ∀ (ns : List Nat) s s', ns.foldlM (decStep fc) s = .ok s' →
      (s.positions.length ≤ fc ∧ ∀ p ∈ s.positions, p ≤ fc) →
      (s'.positions.length ≤ fc ∧ ∀ p ∈ s'.positions, p ≤ fc) := by
    intro ns
    induction ns with
    | nil => intro s s' h hs; simp at h; subst h; exact hs
    | cons n ns ih =>
      intro s s' h hs
      rw [List.foldlM_cons] at h
      obtain ⟨s1, h1, h⟩ := Out.bind_eq_ok.1 h
      exact ih _ _ h (hstep _ _ _ h1 hs)
  unfold decodeSeq at h
  obtain ⟨s, hs, h⟩ := Out.bind_eq_ok.1 h
  split at h
  · simp at h
  · simp only [Out.ok.injEq] at h
    subst h
    exact hfold _ _ _ hs (by simp [DecSt.init])

/-- C17 (partial): every sequence made by the encoder for this file list expands without
    undefined behaviour, to indices inside the file list. -/
theorem C17_made_partial (fc : Nat) (hfc : fc < 2^32) (idxs : List Nat)
    (hi : ∀ i ∈ idxs, i < fc) (hlen : idxs.length ≤ fc) (bs : Bytes) (h : encodeSeq idxs = .ok bs) :
    ∃ ps, decodeSeq fc bs = .ok ps ∧ SafePositions fc ps := by
  obtain ⟨bs', e, d⟩ := C15_roundtrip fc hfc idxs hi hlen
  rw [h] at e; simp only [Out.ok.injEq] at e; subst e
  exact ⟨idxs, d, hlen, hi⟩

example : decodeSeq 10 [0x03, 0x30, 0x02, 0x71] = .ok [3, 4, 5, 0, 1, 9] := by decide +kernel

/-! ### C17, exactly: what becomes of every order -/

/-- C17 (exact, accepted): an order whose numbers have at most 22 digits is accepted if and only if no
    number is incomplete and every run is kept; the result are the files of its runs, in order. -/
theorem C17_accepts (fc : Nat) (bs : Bytes) (h : ShortNumbers bs) (ps : List Nat) :
    decodeSeq fc bs = .ok ps ↔
      orderLeft bs = [] ∧ ps = filesOf (runsOf bs) ∧ ∀ (k : Nat) r, (runsOf bs)[k]? = some r → RunKept fc (runsOf bs) k r := by
  obtain ⟨h1, _, _⟩ := storeRuns_exact fc (runsOf bs) [] (orderRuns_pos _ _ _) (Nat.zero_le _)
  simp only [List.length_nil, Nat.zero_add, List.nil_append] at h1
  rw [decodeSeq_runs fc bs h, Out.bind_eq_ok]
  constructor
  · rintro ⟨qs, q1, q2⟩
    split at q2
    · cases q2
    · rename_i hl
      cases q2
      exact ⟨Decidable.not_not.mp hl, (h1 ps).mp q1⟩
  · rintro ⟨hl, h2⟩
    exact ⟨ps, (h1 ps).mpr h2, by rw [if_neg (not_not_intro hl)]⟩

/-- C17 (exact, harmful): an order whose numbers have at most 22 digits writes beyond the table of
    positions if and only if some run overflows it. It never hangs. -/
theorem C17_overflows (fc : Nat) (bs : Bytes) (h : ShortNumbers bs) :
    (decodeSeq fc bs = .ub ↔ ∃ (k : Nat) (r : Nat × Nat), (runsOf bs)[k]? = some r ∧ RunOverflows fc (runsOf bs) k r) ∧
    decodeSeq fc bs ≠ .loop := by
  obtain ⟨_, h2, h3⟩ := storeRuns_exact fc (runsOf bs) [] (orderRuns_pos _ _ _) (Nat.zero_le _)
  simp only [List.length_nil, Nat.zero_add] at h2
  rw [decodeSeq_runs fc bs h]
  refine ⟨?_, ?_⟩
  · refine Iff.trans ?_ h2
    cases hs : storeRuns fc [] (runsOf bs) with
    | ok qs => rw [Out.bind_ok]; split <;> simp
    | err e => simp
    | ub => simp
    | loop => simp
  · cases hs : storeRuns fc [] (runsOf bs) with
    | ok qs => rw [Out.bind_ok]; split <;> simp
    | err e => simp
    | ub => simp
    | loop => exact absurd hs h3

/-- C17 (exact): for an order whose numbers have at most 22 digits, expanding it is harmless (it is refused,
    or gives files of the package only) if and only if it is tame. -/
theorem C17_tame (fc : Nat) (bs : Bytes) (h : ShortNumbers bs) :
    ((decodeSeq fc bs).Defined ∧ ∀ ps, decodeSeq fc bs = .ok ps → ∀ p ∈ ps, p < fc) ↔ OrderTame fc bs := by
  have hmem : ∀ p, p ∈ filesOf (runsOf bs) ↔ ∃ r ∈ runsOf bs, r.1 ≤ p ∧ p < r.1 + r.2 := by
    intro p
    unfold filesOf
    rw [List.mem_flatMap]
    exact exists_congr fun r => and_congr_right fun _ => List.mem_range'_1
  obtain ⟨o1, o2⟩ := C17_overflows fc bs h
  constructor
  · rintro ⟨hd, hin⟩
    refine ⟨h, fun k r hr ho => ?_, fun hk hl r hr => ?_⟩
    · have := o1.mpr ⟨k, r, hr, ho⟩
      rw [this] at hd
      exact hd.1 rfl
    · have hok := (C17_accepts fc bs h _).mpr ⟨hl, rfl, hk⟩
      have hr0 : 0 < r.2 := orderRuns_pos _ _ _ r hr
      have := hin _ hok (r.1 + r.2 - 1) ((hmem _).mpr ⟨r, hr, by omega, by omega⟩)
      omega
  · intro ht
    refine ⟨⟨fun hu => ?_, o2⟩, fun ps hps p hp => ?_⟩
    · obtain ⟨k, r, hr, ho⟩ := o1.mp hu
      exact ht.room k r hr ho
    · obtain ⟨a1, a2, a3⟩ := (C17_accepts fc bs h ps).mp hps
      subst a2
      obtain ⟨r, hr, b1, b2⟩ := (hmem p).mp hp
      have := ht.inside a3 a1 r hr
      omega

/-- A tame order, in the form in which it is used. -/
theorem OrderTame.good {fc : Nat} {bs : Bytes} (h : OrderTame fc bs) :
    (decodeSeq fc bs).Good (fun ps => (∀ p ∈ ps, p < fc) ∧ ps = filesOf (runsOf bs)) := by
  obtain ⟨hd, hin⟩ := (C17_tame fc bs h.short).mpr h
  refine hd.good.mono (fun ps hps => ⟨hin ps hps, ?_⟩)
  exact ((C17_accepts fc bs h.short ps).mp hps).2.1

/-- Orders that are all accepted are tame. -/
theorem orderTame_of {fc : Nat} {bs : Bytes} (hs : (∀ g ∈ orderDigits bs, g.length ≤ 22) ∧ (orderLeft bs).length ≤ 22)
    (h : ∀ k, k < (runsOf bs).length → ∀ r, (runsOf bs)[k]? = some r → filesBefore (runsOf bs) k + r.2 ≤ fc ∧ r.1 + r.2 ≤ fc) :
    OrderTame fc bs := by
  have h' : ∀ (k : Nat) r, (runsOf bs)[k]? = some r → filesBefore (runsOf bs) k + r.2 ≤ fc ∧ r.1 + r.2 ≤ fc :=
    fun k r hr => h k (List.getElem?_eq_some_iff.mp hr).1 r hr
  refine ⟨hs, fun k r hr ho => ?_, fun _ _ r hr => ?_⟩
  · have := (h' k r hr).1
    have := ho.2.2.2
    omega
  · obtain ⟨k, hk⟩ := List.getElem?_of_mem hr
    exact (h' k r hk).2

/-- Files 3 to 5, files 0 and 1, file 9: tame for ten files, refused for four. -/
example : runsOf [0x03, 0x30, 0x02, 0x71] = [(3, 3), (0, 2), (9, 1)] ∧ OrderTame 10 [0x03, 0x30, 0x02, 0x71] ∧
    decodeSeq 4 [0x03, 0x30, 0x02, 0x71] = .err .format := by
  refine ⟨by decide +kernel, orderTame_of (by decide +kernel) ?_, by decide +kernel⟩
  have : runsOf [0x03, 0x30, 0x02, 0x71] = [(3, 3), (0, 2), (9, 1)] := by decide +kernel
  rw [this]
  intro k hk r hr
  match k, hr with
  | 0, hr => cases hr; decide
  | 1, hr => cases hr; decide
  | 2, hr => cases hr; decide

/-- Three files from the first one on: overflows a package of two. -/
example : RunOverflows 2 (runsOf [0x30]) 0 (0, 3) ∧ (runsOf [0x30])[0]? = some (0, 3) :=
  ⟨⟨fun j q hj => absurd hj (Nat.not_lt_zero j), by decide +kernel, by decide +kernel, by decide +kernel⟩, by decide +kernel⟩

end Drpm
