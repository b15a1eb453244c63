import Verif.DeltaLemmas
/-!
# Lemmas for C92: the reconstruction loop against `Rebuilds`
-/

namespace Drpm

/-- The words of a copy in a delta. -/
def wordsOf (exts : List (Int × Nat)) : List (Nat × Nat) := exts.map fun c => (u32OfInt c.1, c.2)

theorem reconLoop_copy {σ : Type} (next : BlockProvider σ) (ua : Bool) (k m : Nat) (ints : List (Nat × Nat)) (w n : Nat)
    (ext : List (Nat × Nat)) (data : Bytes) (s : ReconSt σ) (hk : k ≤ ext.length) :
    reconLoop next ua ((k + 1, m) :: ints) ((w, n) :: ext) data s =
      (extCopyLoop next ua (n + 1) n (blockId (addS32 s.extOff w)) { s with extOff := addS32 s.extOff w } >>= fun s1 =>
        reconLoop next ua ((k, m) :: ints) ext data { s1 with done := s1.done + 1 }) := by
  rw [reconLoop, if_neg (by rw [List.length_cons]; omega)]
  rw [List.take_succ_cons, List.drop_succ_cons, extCopies]
  rw [bind_assoc]
  refine congrArg _ (funext fun s1 => ?_)
  rw [reconLoop, if_neg (by omega)]

/-- The next piece of own data. -/
theorem reconLoop_own {σ : Type} (next : BlockProvider σ) (ua : Bool) (piece : Bytes) (ints : List (Nat × Nat))
    (ext : List (Nat × Nat)) (data : Bytes) (s : ReconSt σ) :
    reconLoop next ua ((0, piece.length) :: ints) ext (piece ++ data) s =
      reconLoop next ua ints ext data { s with out := s.out ++ [piece] } := by
  rw [reconLoop, if_neg (by omega), List.take_zero, List.drop_zero, extCopies, Out.bind_ok,
    rdBlk_ok (by rw [List.length_append]; omega), Out.bind_ok, List.drop_left]
  have : slice (piece ++ data) 0 piece.length = piece := by
    unfold slice
    rw [List.drop_zero, List.take_left]
  rw [this]

/-- What a delta rebuilds according to the specification, the loop writes. -/
theorem reconLoop_rebuilds {old : Bytes} (hold : old.length < 2^63) {p : Nat} {add : Option Bytes} {exts : List (Int × Nat)}
    {ints : List (Nat × Nat)} {data out : Bytes} (h : Rebuilds old p add exts ints data out) :
    (∀ c ∈ exts, -2^31 < c.1 ∧ c.1 < 2^31) → ∀ s : ReconSt Unit, s.extOff = p → s.add = add.getD [] →
    (∀ k m rest, ints = (k, m) :: rest → k ≤ exts.length) ∧
    ∃ s', reconLoop (flatNext old) add.isSome ints (wordsOf exts) data s = .ok s' ∧
      s'.out.flatten = s.out.flatten ++ out := by
  induction h with
  | done => intro _ s _ _; exact ⟨fun _ _ _ h => (by cases h), s, rfl, by simp⟩
  | own piece h ih =>
    intro hx s h1 h2
    obtain ⟨_, s', k1, k2⟩ := ih hx { s with out := s.out ++ [piece] } h1 h2
    refine ⟨fun k m rest h => (by cases h; omega), s', ?_, ?_⟩
    · rw [reconLoop_own]; exact k1
    · rw [k2]; simp
  | @copy p exts k m ints data out z n q hq hn h ih =>
    intro hx s h1 h2
    have hz := hx (z, n) List.mem_cons_self
    have e : addS32 s.extOff (u32OfInt z) = q := by
      refine addS32_nat _ _ _ ?_ (by omega)
      rw [s32_u32OfInt _ (Int.le_of_lt hz.1) hz.2, h1, hq]
    obtain ⟨s1, a1, a2, a3, a4, a5⟩ := extCopyLoop_flat old false (n + 1) n { s with extOff := q } (by omega) hn hold
      (fun h => by cases h)
    obtain ⟨b0, s', b1, b2⟩ := ih (fun c hc => hx c (List.mem_cons_of_mem _ hc)) { s1 with done := s1.done + 1 } a2
      (by show s1.add = _; rw [a4]; exact h2)
    have hk := b0 k m ints rfl
    refine ⟨fun k' m' rest h => (by cases h; rw [List.length_cons]; omega), s', ?_, ?_⟩
    · show reconLoop _ false _ ((u32OfInt z, n) :: wordsOf exts) _ _ = _
      rw [reconLoop_copy _ _ _ _ _ _ _ _ _ _ (by unfold wordsOf; rw [List.length_map]; exact hk), e, a1, Out.bind_ok]
      exact b1
    · rw [b2, a5]
      simp [extBytes]
  | @copyAdd p add exts k m ints data out z q a hq hn h ih =>
    intro hx s h1 h2
    have h2 : s.add = a ++ add := h2
    have hz := hx (z, a.length) List.mem_cons_self
    have e : addS32 s.extOff (u32OfInt z) = q := by
      refine addS32_nat _ _ _ ?_ (by omega)
      rw [s32_u32OfInt _ (Int.le_of_lt hz.1) hz.2, h1, hq]
    obtain ⟨s1, a1, a2, a3, a4, a5⟩ := extCopyLoop_flat old true (a.length + 1) a.length { s with extOff := q } (by omega) hn hold
      (fun _ => by show _ ≤ s.add.length; rw [h2, List.length_append]; omega)
    obtain ⟨b0, s', b1, b2⟩ := ih (fun c hc => hx c (List.mem_cons_of_mem _ hc)) { s1 with done := s1.done + 1 } a2
      (by show s1.add = add; rw [a4]; show s.add.drop a.length = add; rw [h2, List.drop_left])
    have hk := b0 k m ints rfl
    refine ⟨fun k' m' rest h => (by cases h; rw [List.length_cons]; omega), s', ?_, ?_⟩
    · show reconLoop _ true _ ((u32OfInt z, a.length) :: wordsOf exts) _ _ = _
      rw [reconLoop_copy _ _ _ _ _ _ _ _ _ _ (by unfold wordsOf; rw [List.length_map]; exact hk), e, a1, Out.bind_ok]
      exact b1
    · rw [b2, a5]
      show (s.out.flatten ++ List.zipWith _ (slice old q a.length) (s.add.take a.length)) ++ out = _
      rw [h2, List.take_left, List.append_assoc]

theorem reconWrites_rebuilds {old : Bytes} (hold : old.length < 2^63) {add : Option Bytes} {exts : List (Int × Nat)}
    {ints : List (Nat × Nat)} {data out : Bytes} (h : Rebuilds old 0 add exts ints data out)
    (hx : ∀ c ∈ exts, -2^31 < c.1 ∧ c.1 < 2^31) :
    ∃ ws, reconWrites (flatNext old) () add.isSome (wordsOf exts) ints data (add.getD []) = .ok ws ∧ ws.flatten = out := by
  obtain ⟨_, s', h1, h2⟩ := reconLoop_rebuilds hold h hx ⟨(), 0, 0, add.getD [], []⟩ rfl rfl
  refine ⟨s'.out, ?_, ?_⟩
  · unfold reconWrites
    rw [h1, Out.bind_ok]
  · rw [h2]; rfl

/-! ## The other direction -/

/-- A copy that succeeds had enough of the add block. -/
theorem extCopyLoop_enough (old : Bytes) (fuel len : Nat) (s s' : ReconSt Unit) (hb : s.extOff + len ≤ old.length)
    (hsz : old.length < 2^63) (h : extCopyLoop (flatNext old) true fuel len (blockId s.extOff) s = .ok s') :
    len ≤ s.add.length := by
  induction fuel generalizing len s with
  | zero => cases h
  | succ fuel ih =>
    unfold extCopyLoop at h
    split at h
    · rename_i hpos
      obtain ⟨n, hn⟩ : ∃ n, min (blockSize * (blockId s.extOff + 1) - s.extOff) len = n := ⟨_, rfl⟩
      have hbs : 0 < blockSize * (blockId s.extOff + 1) - s.extOff := by
        unfold blockId blockSize; omega
      have hnext : flatNext old s.blk s.extOff len s.done (blockId s.extOff) =
          .ok (slice old s.extOff n, ()) := by
        unfold flatNext
        simp only [hn]
        rw [if_pos ⟨trivial, by omega⟩]
      rw [hnext, Out.bind_ok] at h
      simp only at h
      unfold applyAdd at h
      simp only [if_true, slice_length (by omega : s.extOff + n ≤ old.length)] at h
      split at h
      · rename_i hle
        rw [Out.bind_ok] at h
        simp only at h
        have e1 : (len + 2^64 - n) % 2^64 = len - n := by omega
        have e2 : (s.extOff + n) % 2^64 = s.extOff + n := by omega
        rw [e1, e2] at h
        by_cases hend : n = len
        · omega
        · have hblk : blockId s.extOff + 1 = blockId (s.extOff + n) := by
            unfold blockId blockSize at *; omega
          rw [hblk] at h
          have := ih (len - n) ⟨(), s.extOff + n, s.done, s.add.drop n, _⟩ (by show s.extOff + n + (len - n) ≤ _; omega) h
          have : len - n ≤ (s.add.drop n).length := this
          rw [List.length_drop] at this
          omega
      · cases h
    · omega

theorem rebuilds_of_loop {old : Bytes} (hold : old.length < 2^63) (ua : Bool) : ∀ (ints : List (Nat × Nat))
    (ext : List (Nat × Nat)) (data : Bytes) (p : Nat) (s s' : ReconSt Unit),
    CopiesInside old.length p ext → p ≤ old.length → s.extOff = p → data.length = (ints.map (·.2)).sum →
    reconLoop (flatNext old) ua ints ext data s = .ok s' →
    ∃ out, Rebuilds old p (if ua then some s.add else none) (ext.map fun c => (s32 c.1, c.2)) ints data out ∧
      s'.out.flatten = s.out.flatten ++ out := by
  intro ints
  induction ints with
  | nil =>
    intro ext data p s s' _ _ _ hd h
    cases h
    obtain rfl := List.length_eq_zero_iff.1 hd
    exact ⟨[], .done, by simp⟩
  | cons x ints ih =>
    obtain ⟨k, m⟩ := x
    induction k with
    | zero =>
      intro ext data p s s' hc hp hs hd h
      rw [List.map_cons, List.sum_cons] at hd
      have hd : data.length = m + (ints.map (·.2)).sum := hd
      have hlen : (data.take m).length = m := by rw [List.length_take]; omega
      have e := reconLoop_own (flatNext old) ua (data.take m) ints ext (data.drop m) s
      rw [List.take_append_drop, hlen] at e
      rw [e] at h
      obtain ⟨out, h1, h2⟩ := ih ext (data.drop m) p { s with out := s.out ++ [data.take m] } s' hc hp hs
        (by rw [List.length_drop]; omega) h
      refine ⟨data.take m ++ out, ?_, ?_⟩
      · have := Rebuilds.own (data.take m) h1
        rw [List.take_append_drop, hlen] at this
        exact this
      · rw [h2]; simp
    | succ k ihk =>
      intro ext data p s s' hc hp hs hd h
      cases ext with
      | nil => rw [reconLoop, if_pos (by simp)] at h; cases h
      | cons x ext =>
        obtain ⟨w, n⟩ := x
        obtain ⟨q, q1, q2, q3⟩ := hc
        by_cases hk : k ≤ ext.length
        · have e : addS32 s.extOff w = q := addS32_nat _ _ _ (by rw [hs, ← q1]) (by omega)
          rw [reconLoop_copy _ _ _ _ _ _ _ _ _ _ hk, e, Out.bind_eq_ok] at h
          obtain ⟨s1, h1, h⟩ := h
          have hen : ua = true → n ≤ s.add.length := by
            rintro rfl
            exact extCopyLoop_enough old (n + 1) n { s with extOff := q } s1 q2 hold h1
          obtain ⟨s2, a1, a2, a3, a4, a5⟩ := extCopyLoop_flat old ua (n + 1) n { s with extOff := q } (by omega) q2 hold hen
          have : s1 = s2 := by
            have a1' : extCopyLoop (flatNext old) ua (n + 1) n (blockId q) { s with extOff := q } = .ok s2 := a1
            rw [a1'] at h1; cases h1; rfl
          subst this
          obtain ⟨out, b1, b2⟩ := ihk ext data (q + n) { s1 with done := s1.done + 1 } s' q3 q2 a2 hd h
          have b1 : Rebuilds old (q + n) (if ua then some s1.add else none) _ _ _ _ := b1
          rw [a4] at b1
          cases ua with
          | false =>
            refine ⟨slice old q n ++ out, Rebuilds.copy (s32 w) n q q1 q2 b1, ?_⟩
            rw [b2, a5]
            simp [extBytes]
          | true =>
            have hn := hen rfl
            have b1 : Rebuilds old (q + n) (some (s.add.drop n)) _ _ _ _ := b1
            have hl : (s.add.take n).length = n := by rw [List.length_take]; omega
            have := Rebuilds.copyAdd (old := old) (s32 w) q (s.add.take n) q1 (by rw [hl]; exact q2) (by rw [hl]; exact b1)
            rw [List.take_append_drop, hl] at this
            refine ⟨_, this, ?_⟩
            rw [b2, a5]
            simp [extBytes]
        · rw [reconLoop, if_pos (by rw [List.length_cons]; omega)] at h
          cases h

theorem rebuilds_of_writes {old : Bytes} (hold : old.length < 2^63) {ua : Bool} {ext ints : List (Nat × Nat)}
    {data add : Bytes} {ws : List Bytes} (hc : CopiesInside old.length 0 ext) (hd : data.length = (ints.map (·.2)).sum)
    (h : reconWrites (flatNext old) () ua ext ints data add = .ok ws) :
    Rebuilds old 0 (if ua then some add else none) (ext.map fun c => (s32 c.1, c.2)) ints data ws.flatten := by
  unfold reconWrites at h
  rw [Out.bind_eq_ok] at h
  obtain ⟨s', h1, h⟩ := h
  cases h
  obtain ⟨out, h2, h3⟩ := rebuilds_of_loop hold ua ints ext data 0 _ _ hc (by omega) rfl hd h1
  rw [h3]
  exact h2

end Drpm
