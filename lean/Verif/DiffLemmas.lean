import Verif.ReconLemmas
/-! Helper lemmas: the main loop of `make_diff` records regions that describe the new payload. -/

namespace Drpm

/-- What a search may return: end of input, or a real match behind `scan`. -/
def GoodMatch (old new : Bytes) (scan : Nat) (r : Nat × Nat × Nat) : Prop :=
  r = (new.length, 0, 0) ∨
  (scan ≤ r.1 ∧ 32 ≤ r.2.2 ∧ r.1 + r.2.2 ≤ new.length ∧ r.2.1 + r.2.2 ≤ old.length ∧
    slice old r.2.1 r.2.2 = slice new r.1 r.2.2)

/-- A search function that always returns, with a good match. -/
def SearchOK (old new : Bytes) (search : Nat → Nat → Out (Nat × Nat × Nat)) : Prop :=
  ∀ lastOff scan, scan ≤ new.length → ∃ r, search lastOff scan = .ok r ∧ GoodMatch old new scan r

theorem fwdAdd_ok (old new : Bytes) (op np n i count best lf : Nat)
    (ho : op + i + n ≤ old.length) (hn : np + i + n ≤ new.length) (hlf : lf ≤ i) :
    ∃ r, fwdAdd old new op np n i count best lf = .ok r ∧ r ≤ i + n := by
  induction n generalizing i count best lf with
  | zero => exact ⟨lf, rfl, by omega⟩
  | succ n ih =>
    unfold fwdAdd
    rw [rd_ok (by omega : op + i < old.length), rd_ok (by omega : np + i < new.length)]
    simp only [Out.bind_ok]
    split
    · split
      · obtain ⟨r, e, h⟩ := ih (i + 1) (count + 1) (2 * (count + 1) - (i + 1)) (i + 1) (by omega) (by omega) (by omega)
        exact ⟨r, e, by omega⟩
      · obtain ⟨r, e, h⟩ := ih (i + 1) (count + 1) best lf (by omega) (by omega) (by omega)
        exact ⟨r, e, by omega⟩
    · obtain ⟨r, e, h⟩ := ih (i + 1) count best lf (by omega) (by omega) (by omega)
      exact ⟨r, e, by omega⟩

theorem slice_succ (a : List α) (i n : Nat) (h : i + n < a.length) :
    slice a i (n + 1) = slice a i n ++ [a[i + n]] := by
  rw [← slice_append_slice]
  congr 1
  simp [slice, List.take_one, List.head?_drop, List.getElem?_eq_getElem h]

theorem fwdExact_ok (old new : Bytes) (op np n i : Nat)
    (ho : op + i + n ≤ old.length) (hn : np + i + n ≤ new.length)
    (heq : slice old op i = slice new np i) :
    ∃ r, fwdExact old new op np n i = .ok r ∧ r ≤ i + n ∧ slice old op r = slice new np r := by
  induction n generalizing i with
  | zero => exact ⟨i, rfl, by omega, heq⟩
  | succ n ih =>
    unfold fwdExact
    rw [rd_ok (by omega : op + i < old.length), rd_ok (by omega : np + i < new.length)]
    simp only [Out.bind_ok]
    split
    · exact ⟨i, rfl, by omega, heq⟩
    · rename_i he
      obtain ⟨r, e, h1, h2⟩ := ih (i + 1) (by omega) (by omega)
        (by rw [slice_succ _ _ _ (by omega), slice_succ _ _ _ (by omega), heq]; simp at he; rw [he])
      exact ⟨r, e, by omega, h2⟩

theorem backAdd_ok (old new : Bytes) (op np n i count best lb : Nat) (hi : 1 ≤ i)
    (ho : i + n ≤ op + 1) (hn : i + n ≤ np + 1) (hol : op ≤ old.length) (hnl : np ≤ new.length)
    (hlb : lb < i) :
    ∃ r, backAdd old new op np n i count best lb = .ok r ∧ r < i + n := by
  induction n generalizing i count best lb with
  | zero => exact ⟨lb, rfl, by omega⟩
  | succ n ih =>
    unfold backAdd
    rw [rd_ok (by omega : op - i < old.length), rd_ok (by omega : np - i < new.length)]
    simp only [Out.bind_ok]
    split
    · split
      · obtain ⟨r, e, h⟩ := ih (i + 1) (count + 1) (2 * (count + 1) - i) i (by omega) (by omega) (by omega) (by omega)
        exact ⟨r, e, by omega⟩
      · obtain ⟨r, e, h⟩ := ih (i + 1) (count + 1) best lb (by omega) (by omega) (by omega) (by omega)
        exact ⟨r, e, by omega⟩
    · obtain ⟨r, e, h⟩ := ih (i + 1) count best lb (by omega) (by omega) (by omega) (by omega)
      exact ⟨r, e, by omega⟩

theorem splitLoop_ok (old new : Bytes) (of nf ob nb n i cf cb best split : Nat)
    (h1 : of + i + n ≤ old.length) (h2 : nf + i + n ≤ new.length) (h3 : ob + i + n ≤ old.length)
    (h4 : nb + i + n ≤ new.length) (hs : split ≤ i) :
    ∃ r, splitLoop old new of nf ob nb n i cf cb best split = .ok r ∧ r ≤ i + n := by
  induction n generalizing i cf cb best split with
  | zero => exact ⟨split, rfl, by omega⟩
  | succ n ih =>
    unfold splitLoop
    rw [rd_ok (by omega : of + i < old.length), rd_ok (by omega : nf + i < new.length),
      rd_ok (by omega : ob + i < old.length), rd_ok (by omega : nb + i < new.length)]
    simp only [Out.bind_ok]
    generalize (if old[of + i] = new[nf + i] then cf + 1 else cf) = cf'
    generalize (if old[ob + i] = new[nb + i] then cb + 1 else cb) = cb'
    split
    · obtain ⟨r, e, h⟩ := ih (i + 1) cf' cb' (cf' - cb') (i + 1) (by omega) (by omega) (by omega) (by omega) (by omega)
      exact ⟨r, e, by omega⟩
    · obtain ⟨r, e, h⟩ := ih (i + 1) cf' cb' best split (by omega) (by omega) (by omega) (by omega) (by omega)
      exact ⟨r, e, by omega⟩

theorem zipWith_append_len {f : α → β → γ} (l1 l2 : List α) (m1 m2 : List β) (h : l1.length = m1.length) :
    List.zipWith f (l1 ++ l2) (m1 ++ m2) = List.zipWith f l1 m1 ++ List.zipWith f l2 m2 :=
  List.zipWith_append h

theorem addBlockWrites_ok (old new : Bytes) (fuel op np len : Nat) (hf : len ≤ fuel)
    (ho : op + len ≤ old.length) (hn : np + len ≤ new.length) :
    ∃ ws, addBlockWrites old new fuel op np len = .ok ws ∧
      ws.flatten = List.zipWith (fun n o => n - o) (slice new np len) (slice old op len) ∧
      ∀ w ∈ ws, 0 < w.length ∧ w.length ≤ 4096 := by
  induction fuel generalizing op np len with
  | zero =>
    have : len = 0 := by omega
    subst this
    exact ⟨[], rfl, by simp, nofun⟩
  | succ fuel ih =>
    unfold addBlockWrites
    split
    · obtain ⟨w, hw⟩ : ∃ w, min len 4096 = w := ⟨_, rfl⟩
      obtain ⟨ws, e, h, hl⟩ := ih (op + w) (np + w) (len - w) (by omega) (by omega) (by omega)
      simp only [hw]
      rw [rdBlk_ok (by omega), rdBlk_ok (by omega)]
      simp only [Out.bind_ok, e]
      refine ⟨_, rfl, ?_, ?_⟩
      · rw [List.flatten_cons, h, ← zipWith_append_len _ _ _ _ (by rw [slice_length (by omega), slice_length (by omega)]),
          slice_append_slice, slice_append_slice, show w + (len - w) = len by omega]
      · intro x hx
        simp only [List.mem_cons] at hx
        rcases hx with rfl | hx
        · simp [slice_length (by omega : np + w ≤ new.length), slice_length (by omega : op + w ≤ old.length)]
          omega
        · exact hl x hx
    · have : len = 0 := by omega
      subst this
      exact ⟨[], rfl, by simp, nofun⟩

theorem lenForward_ok (old new : Bytes) (addblk : Bool) (op np newPos : Nat)
    (ho : op ≤ old.length) (hn : np ≤ newPos) (hnl : newPos ≤ new.length) :
    ∃ r, lenForward old new addblk op np newPos = .ok r ∧ op + r ≤ old.length ∧ np + r ≤ newPos ∧
      (addblk = false → slice old op r = slice new np r) := by
  unfold lenForward
  cases addblk with
  | true =>
    obtain ⟨r, e, h⟩ := fwdAdd_ok old new op np (min (old.length - op) (newPos - np)) 0 0 0 0
      (by omega) (by omega) (by omega)
    exact ⟨r, e, by omega, by omega, nofun⟩
  | false =>
    obtain ⟨r, e, h, h2⟩ := fwdExact_ok old new op np (min (old.length - op) (newPos - np)) 0
      (by omega) (by omega) (by simp)
    exact ⟨r, e, by omega, by omega, fun _ => h2⟩

theorem lenBack_ok (old new : Bytes) (addblk : Bool) (oldPos newPos np : Nat)
    (ho : oldPos ≤ old.length) (hnl : newPos ≤ new.length) :
    ∃ r, lenBack old new addblk oldPos newPos np = .ok r ∧ r ≤ oldPos ∧ r ≤ newPos - np ∧
      (addblk = false → r = 0) ∧ (newPos = new.length → r = 0) := by
  unfold lenBack
  split
  · rename_i h
    obtain ⟨r, e, h2⟩ := backAdd_ok old new oldPos newPos (min oldPos (newPos - np)) 1 0 0 0
      (by omega) (by omega) (by omega) ho hnl (by omega)
    exact ⟨r, e, by omega, by omega, (by intro h'; rw [h'] at h; simp at h), by omega⟩
  · exact ⟨0, rfl, by omega, by omega, fun _ => rfl, fun _ => rfl⟩

theorem splitOverlap_ok (old new : Bytes) (op np oldPos newPos lf lb : Nat)
    (h1 : op + lf ≤ old.length) (h2 : np + lf ≤ newPos) (h3 : lb ≤ oldPos) (h4 : lb ≤ newPos - np)
    (h5 : oldPos ≤ old.length) (h6 : newPos ≤ new.length) :
    ∃ lf' lb', splitOverlap old new op np oldPos newPos lf lb = .ok (lf', lb') ∧ lf' ≤ lf ∧ lb' ≤ lb ∧
      np + lf' ≤ newPos - lb' ∧ (lb = 0 → lf' = lf) := by
  unfold splitOverlap
  split
  · rename_i h
    obtain ⟨r, e, hr⟩ := splitLoop_ok old new (op + lf - ((np + lf) - (newPos - lb)))
      (np + lf - ((np + lf) - (newPos - lb))) (oldPos - lb) (newPos - lb) ((np + lf) - (newPos - lb)) 0 0 0 0 0
      (by omega) (by omega) (by omega) (by omega) (by omega)
    simp only [e, Out.bind_ok]
    exact ⟨_, _, rfl, by omega, by omega, by omega, by omega⟩
  · exact ⟨_, _, rfl, by omega, by omega, by omega, fun _ => rfl⟩

theorem slice_prefix_eq (a b : Bytes) (i j n m : Nat) (h : slice a i n = slice b j n) (hm : m ≤ n) :
    slice a i m = slice b j m := by
  rw [← slice_take a i n m hm, ← slice_take b j n m hm, h]

/-- Invariant of the main loop. -/
def DiffInv (old new : Bytes) (s : DiffSt) : Prop :=
  s.oldPrev ≤ old.length ∧ s.newPrev ≤ s.newPos ∧ s.newPos + s.len ≤ new.length

theorem diffStep_ok (search : Nat → Nat → Out (Nat × Nat × Nat)) (old new : Bytes) (addblk : Bool)
    (hs : SearchOK old new search) (s : DiffSt) (hinv : DiffInv old new s) :
    ∃ c adds s', diffStep search old new addblk s = .ok (c, adds, s') ∧ DiffInv old new s' ∧
      c.newOff = s.newPrev + c.oldLen ∧ c.oldOff + c.oldLen ≤ old.length ∧
      c.newOff + c.newLen = s'.newPrev ∧ s'.newPrev ≤ new.length ∧
      (if addblk then adds.flatten = List.zipWith (fun n o => n - o) (slice new s.newPrev c.oldLen)
          (slice old c.oldOff c.oldLen)
        else adds = [] ∧ slice old c.oldOff c.oldLen = slice new s.newPrev c.oldLen) ∧
      (s'.newPrev = new.length ∨ s.newPos + s.len + 32 ≤ s'.newPos + s'.len) := by
  obtain ⟨i1, i2, i3⟩ := hinv
  unfold diffStep
  obtain ⟨r, e, hr⟩ := hs (if addblk then (s.oldPrev + 2^64 - s.newPrev) % 2^64 else old.length)
    (s.newPos + s.len) i3
  obtain ⟨newPos, oldPos, len⟩ := r
  simp only [e, Out.bind_ok]
  have hb : s.newPrev ≤ newPos ∧ newPos + len ≤ new.length ∧ oldPos + len ≤ old.length ∧
      ((newPos = new.length) ∨ s.newPos + s.len + 32 ≤ newPos + len) := by
    rcases hr with h | ⟨h1, h2, h3, h4, _⟩
    · simp only [Prod.mk.injEq] at h
      obtain ⟨rfl, rfl, rfl⟩ := h
      refine ⟨by omega, by omega, by omega, Or.inl rfl⟩
    · simp only at h1 h2 h3 h4
      exact ⟨by omega, by omega, by omega, Or.inr (by omega)⟩
  obtain ⟨hb1, hb2, hb3, hb4⟩ := hb
  obtain ⟨lf, f1, f2, f3, f4⟩ := lenForward_ok old new addblk s.oldPrev s.newPrev newPos i1 hb1 (by omega)
  obtain ⟨lb, g1, g2, g3, g4, g5⟩ := lenBack_ok old new addblk oldPos newPos s.newPrev (by omega) (by omega)
  obtain ⟨lf', lb', k1, k2, k3, k4, k5⟩ := splitOverlap_ok old new s.oldPrev s.newPrev oldPos newPos lf lb
    f2 f3 g2 g3 (by omega) (by omega)
  simp only [f1, g1, k1, Out.bind_ok]
  have hend : newPos = new.length → lb' = 0 := fun h => by have := g5 h; omega
  cases addblk with
  | true =>
    obtain ⟨ws, w1, w2, _⟩ := addBlockWrites_ok old new lf' s.oldPrev s.newPrev lf' (Nat.le_refl _)
      (by omega) (by omega)
    simp only [if_true, w1, Out.bind_ok]
    refine ⟨_, _, _, rfl, ⟨?_, ?_, ?_⟩, rfl, ?_, ?_, ?_, ?_, ?_⟩
    · simp only; omega
    · simp only; omega
    · simp only; omega
    · simp only; omega
    · simp only; omega
    · simp only; omega
    · simpa using w2
    · simp only
      rcases hb4 with h | h
      · left; have := hend h; omega
      · right; omega
  | false =>
    have hlb : lb = 0 := g4 rfl
    have hlf : lf' = lf := k5 hlb
    subst hlf
    simp only [Bool.false_eq_true, if_false]
    refine ⟨_, _, _, rfl, ⟨?_, ?_, ?_⟩, rfl, ?_, ?_, ?_, ?_, ?_⟩
    · simp only; omega
    · simp only; omega
    · simp only; omega
    · simp only; omega
    · simp only; omega
    · simp only; omega
    · exact ⟨rfl, f4 rfl⟩
    · simp only
      rcases hb4 with h | h
      · left; have := hend h; omega
      · right; omega

theorem diffLoop_ok (search : Nat → Nat → Out (Nat × Nat × Nat)) (old new : Bytes) (addblk : Bool)
    (hs : SearchOK old new search) (fuel : Nat) (s : DiffSt) (hinv : DiffInv old new s)
    (hf : (if s.newPrev = new.length then 1 else new.length - (s.newPos + s.len) + 2) ≤ fuel) :
    ∃ cs adds, diffLoop search old new addblk fuel s = .ok (cs, adds) ∧
      RegionsOK old new addblk cs adds.flatten s.newPrev := by
  induction fuel generalizing s with
  | zero => split at hf <;> omega
  | succ fuel ih =>
    unfold diffLoop
    have hinv' := hinv
    obtain ⟨i1, i2, i3⟩ := hinv
    split
    · rename_i hlt
      obtain ⟨c, adds, s', e, hi', c1, c2, c3, c4, c5, c6⟩ := diffStep_ok search old new addblk hs s hinv'
      rw [if_neg (by omega)] at hf
      obtain ⟨cs, rest, e2, hR⟩ := ih s' hi' (by
        split
        · omega
        · rcases c6 with h | h
          · contradiction
          · have := hi'.2.2; omega)
      rw [e, Out.bind_ok]
      simp only
      rw [e2, Out.bind_ok]
      refine ⟨_, _, rfl, c1, c2, by omega, rest.flatten, ?_, by rw [c3]; exact hR⟩
      cases addblk with
      | true => simp only [if_true] at c5 ⊢; simp [c5]
      | false =>
        simp only [Bool.false_eq_true, if_false] at c5 ⊢
        exact ⟨by simp [c5.1], c5.2⟩
    · exact ⟨[], [], rfl, by unfold RegionsOK; exact ⟨by omega, rfl⟩⟩

theorem makeDiffWith_ok (search : Nat → Nat → Out (Nat × Nat × Nat)) (old new : Bytes)
    (addblk : Bool) (hs : SearchOK old new search) :
    ∃ cs adds, diffLoop search old new addblk (diffFuel new.length) ⟨0, 0, 0, 0, 0⟩ = .ok (cs, adds) ∧
      RegionsOK old new addblk cs adds.flatten 0 :=
  diffLoop_ok search old new addblk hs _ _ ⟨by simp, by simp, by simp⟩
    (by simp only [diffFuel]; split <;> omega)

end Drpm
