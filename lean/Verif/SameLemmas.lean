import Verif.WalkLemmas
/-! Helper lemmas: a new payload that is the beginning of the old one is found there as a whole. -/

namespace Drpm

/-- The new payload is the beginning of the old one. -/
structure Begins (old new : Bytes) : Prop where
  le : new.length ≤ old.length
  eq : ∀ i (h : i < new.length), old[i]'(Nat.lt_of_lt_of_le h le) = new[i]

theorem begins_of_prefix {old new : Bytes} (h : new <+: old) : Begins old new := by
  obtain ⟨t, rfl⟩ := h
  exact ⟨by simp, fun i hi => List.getElem_append_left hi⟩

theorem Begins.slice {old new : Bytes} (h : Begins old new) (i n : Nat) (hn : i + n ≤ new.length) : slice old i n = slice new i n := by
  have hle := h.le
  unfold Drpm.slice
  apply List.ext_getElem
  · simp only [List.length_take, List.length_drop]
    omega
  · intro k h1 h2
    simp only [List.length_take, List.length_drop] at h1 h2
    simp only [List.getElem_take, List.getElem_drop]
    exact h.eq (i + k) (by omega)

theorem fwdAdd_same {old new : Bytes} (h : Begins old new) (n i : Nat) (hn : i + n ≤ new.length) :
    fwdAdd old new 0 0 n i i i i = .ok (i + n) := by
  have hle := h.le
  induction n generalizing i with
  | zero => rfl
  | succ n ih =>
    unfold fwdAdd
    rw [Nat.zero_add, rd_ok (by omega : i < old.length), rd_ok (by omega : i < new.length)]
    simp only [Out.bind_ok]
    rw [if_pos (h.eq i (by omega)), if_pos (by omega), show 2 * (i + 1) - (i + 1) = i + 1 by omega, ih (i + 1) (by omega)]
    congr 1
    omega

theorem fwdExact_same {old new : Bytes} (h : Begins old new) (n i : Nat) (hn : i + n ≤ new.length) :
    fwdExact old new 0 0 n i = .ok (i + n) := by
  have hle := h.le
  induction n generalizing i with
  | zero => rfl
  | succ n ih =>
    unfold fwdExact
    rw [Nat.zero_add, rd_ok (by omega : i < old.length), rd_ok (by omega : i < new.length)]
    simp only [Out.bind_ok]
    rw [if_neg (by rw [h.eq i (by omega)]; simp), ih (i + 1) (by omega)]
    congr 1
    omega

theorem lenForward_same {old new : Bytes} (h : Begins old new) (addblk : Bool) : lenForward old new addblk 0 0 new.length = .ok new.length := by
  unfold lenForward
  have := h.le
  rw [show min (old.length - 0) (new.length - 0) = new.length by omega]
  simp only
  split
  · rw [fwdAdd_same h _ _ (by omega), Nat.zero_add]
  · rw [fwdExact_same h _ _ (by omega), Nat.zero_add]

/-- The last pass of the main loop: nothing more is found, and everything from the start is copied. -/
theorem diffStep_same {old new : Bytes} (h : Begins old new) (addblk : Bool) (search : Nat → Nat → Out (Nat × Nat × Nat)) (s : DiffSt)
    (hs : s.oldPrev = 0 ∧ s.newPrev = 0)
    (hr : search (if addblk then (s.oldPrev + 2^64 - s.newPrev) % 2^64 else old.length) (s.newPos + s.len) = .ok (new.length, 0, 0)) :
    ∃ adds, diffStep search old new addblk s = .ok (⟨0, new.length, new.length, 0⟩, adds, ⟨0, new.length, 0, new.length, 0⟩) ∧
      adds.flatten = if addblk then List.replicate new.length 0 else [] := by
  have hle := h.le
  have hb : lenBack old new addblk 0 new.length s.newPrev = .ok 0 := by
    unfold lenBack
    rw [if_neg (by omega)]
  have ho : splitOverlap old new 0 0 0 new.length new.length 0 = .ok (new.length, 0) := by
    unfold splitOverlap
    rw [if_neg (by omega)]
  unfold diffStep
  simp only
  rw [hr, Out.bind_ok]
  simp only
  rw [hb]
  rw [hs.1, hs.2, lenForward_same h, Out.bind_ok, Out.bind_ok, ho, Out.bind_ok]
  simp only [Nat.zero_add, Nat.sub_zero, Nat.sub_self]
  cases addblk with
  | true =>
    obtain ⟨ws, w1, w2, _⟩ := addBlockWrites_ok old new new.length 0 0 new.length (Nat.le_refl _) (by omega) (by omega)
    simp only [if_true, w1, Out.bind_ok]
    refine ⟨ws, rfl, ?_⟩
    rw [w2, h.slice 0 new.length (by omega)]
    apply List.ext_getElem
    · simp [slice]
    · intro k h1 h2
      simp
  | false => exact ⟨[], rfl, rfl⟩

/-! ## With an add block -/

theorem predicted_same {old new : Bytes} (h : Begins old new) (hb : old.length < 2^64) (m : Nat) (hm : m < new.length) :
    predicted old new 0 m = .ok true := by
  have := h.le
  unfold predicted
  rw [Nat.add_zero, Nat.mod_eq_of_lt (by omega), if_pos (by omega), rd_ok (by omega : m < old.length), rd_ok hm]
  simp [h.eq m hm]

theorem scoreLoop_same {old new : Bytes} (h : Begins old new) (hb : old.length < 2^64) (n m sc : Nat) (hm : m + n ≤ new.length)
    (hsc : sc + n < 2^64) : scoreLoop old new 0 n m sc = .ok (sc + n) := by
  induction n generalizing m sc with
  | zero => rfl
  | succ n ih =>
    unfold scoreLoop
    rw [predicted_same h hb m (by omega), Out.bind_ok, if_pos rfl, Nat.mod_eq_of_lt (by omega), ih _ _ (by omega) (by omega)]
    congr 1
    omega

theorem rescore_same {old new : Bytes} (h : Begins old new) (hb : old.length < 2^64) (s : SearchSt) (hs : s.score = s.scoreNum)
    (hl : s.scoreNum < 2^64) (scan len : Nat) (hm : scan + len ≤ new.length) :
    ∃ start, rescore old new 0 s scan len = .ok (len, len, start) := by
  have hle := h.le
  unfold rescore
  split
  · rw [scoreLoop_same h hb len scan 0 hm (by omega), Out.bind_ok]
    exact ⟨scan, by rw [Nat.zero_add]⟩
  · rename_i hc
    have c1 : s.scoreStart + 1 = scan := by omega
    have c2 : s.scoreNum ≠ 0 := by omega
    have c3 : s.scoreNum - 1 ≤ len := by omega
    rw [hs]
    by_cases hlt : s.scoreStart < new.length
    · rw [predicted_same h hb _ hlt, Out.bind_ok]
      simp only [if_true]
      rw [show (s.scoreNum + 2^64 - 1) % 2^64 = s.scoreNum - 1 by omega]
      rw [scoreLoop_same h hb _ _ _ (by omega) (by omega), Out.bind_ok]
      exact ⟨s.scoreStart + 1, by rw [show s.scoreNum - 1 + (len - (s.scoreNum - 1)) = len by omega]⟩
    · omega

/-- The score is always full. -/
theorem gotIt_same {old new : Bytes} (h : Begins old new) (hb : old.length < 2^64) (s0 : Nat) (s : SearchSt) (hi : SearchInv old new s0 s)
    (hl : 32 ≤ s.lastLen) (hs : s.score = s.scoreNum ∧ s.scoreNum < 2^64) :
    ∃ s', gotIt old new 0 s = .ok (.cont s') ∧ s'.score = s'.scoreNum ∧ s'.scoreNum < 2^64 := by
  have hle := h.le
  obtain ⟨h1, h2, ha⟩ := hi.last (by omega)
  have hb2 := ha.2.1
  unfold gotIt
  split
  · obtain ⟨w, e, _⟩ := rehash_ok new (s.lastScan + s.lastLen) s.prekey
    simp only [e, Out.bind_ok]
    exact ⟨_, rfl, hs⟩
  · obtain ⟨sc, p, l, e, k1, k2, k3, k4⟩ := backExt_ok old new (s.lastScan - s.scanStart) s.lastScan s.lastPos s.lastLen ha
    rw [e, Out.bind_ok]
    simp only
    obtain ⟨st, e2⟩ := rescore_same h hb s hs.1 hs.2 sc l (by omega)
    rw [e2, Out.bind_ok]
    simp only
    rw [if_neg (by omega)]
    obtain ⟨w, e3, _⟩ := rehash_ok new (nextScan sc l s.lastScan) s.prekey
    rw [e3, Out.bind_ok]
    exact ⟨_, rfl, rfl, by show l < 2^64; omega⟩

theorem scanNext_same {old new : Bytes} (h : Begins old new) (hb : old.length < 2^64) (s0 : Nat) (s : SearchSt) (hi : SearchInv old new s0 s)
    (hlt : s.scan + 16 < new.length) (hs : s.score = s.scoreNum ∧ s.scoreNum < 2^64) :
    ∃ s', scanNext old new 0 s = .ok (.cont s') ∧ s'.score = s'.scoreNum ∧ s'.scoreNum < 2^64 := by
  unfold scanNext
  split
  · rename_i hc
    exact gotIt_same h hb s0 s hi hc.1 hs
  · rw [rd_ok (by simp only [hsize]; omega : s.scan + hsize < new.length), rd_ok (by omega : s.scan < new.length)]
    simp only [Out.bind_ok]
    exact ⟨_, rfl, hs⟩

theorem searchStep_same {old new : Bytes} (h : Begins old new) (hb : old.length < 2^64) (ht : Hash) (hk : HashOK old ht) (hn : 16 ≤ new.length)
    (s0 : Nat) (s : SearchSt) (hi : SearchInv old new s0 s) (hs : s.score = s.scoreNum ∧ s.scoreNum < 2^64) :
    ∃ r, searchStep ht old new 0 s = .ok r ∧
      match r with
      | .cont s' => s'.score = s'.scoreNum ∧ s'.scoreNum < 2^64
      | .done scan _ _ => new.length - 16 ≤ scan := by
  have hle := h.le
  unfold searchStep
  rw [lenMinusH_eq hn (by omega)]
  split
  · rename_i hge
    split
    · rename_i hl
      obtain ⟨s', e, hs'⟩ := gotIt_same h hb s0 s hi hl hs
      exact ⟨_, e, hs'⟩
    · exact ⟨_, rfl, hge⟩
  · obtain ⟨r, e, hr⟩ := candidate_ok ht old new s.scan s.prekey hk (by omega)
    rw [e, Out.bind_ok]
    cases r with
    | none =>
      obtain ⟨s', e, hs'⟩ := scanNext_same h hb s0 s hi (by omega) hs
      exact ⟨_, e, hs'⟩
    | some pos =>
      simp only
      obtain ⟨p, l, e2, h1, h2⟩ := bestMatch_ok ht old new s.scan pos hk (hr _ rfl)
      rw [e2, Out.bind_ok]
      obtain ⟨k1, k2, k3⟩ := remember_inv old new s0 s p l hi h2
      obtain ⟨s', e, hs'⟩ := scanNext_same h hb s0 _ k1 (by rw [k2]; omega) (by unfold remember; split <;> exact hs)
      exact ⟨_, e, hs'⟩

theorem searchLoop_same {old new : Bytes} (h : Begins old new) (hb : old.length < 2^64) (ht : Hash) (hk : HashOK old ht) (hn : 16 ≤ new.length)
    (s0 : Nat) (fuel : Nat) (s : SearchSt) (hi : SearchInv old new s0 s) (hs : s.score = s.scoreNum ∧ s.scoreNum < 2^64)
    (r : Nat × Nat × Nat) (hr : searchLoop ht old new 0 fuel s = .ok r) : new.length - 16 ≤ r.1 := by
  have hle := h.le
  induction fuel generalizing s with
  | zero => cases hr
  | succ fuel ih =>
    unfold searchLoop at hr
    obtain ⟨x, e, hx⟩ := searchStep_same h hb ht hk hn s0 s hi hs
    obtain ⟨x', e', hx'⟩ := searchStep_ok ht old new 0 s0 s hk hn (by omega) hi
    rw [e] at e'
    cases e'
    rw [e, Out.bind_ok] at hr
    cases x with
    | done a b c =>
      cases hr
      exact hx
    | cont s' => exact ih s' hx'.1 hx hr

theorem hashSearch_same {old new : Bytes} (h : Begins old new) (hb : old.length < 2^64) (ht : Hash) (hk : HashOK old ht) (hn : 16 ≤ new.length) :
    hashSearch ht old new 0 0 = .ok (new.length, 0, 0) := by
  have hle := h.le
  obtain ⟨r, hr, _⟩ := hashSearch_ok ht old new 0 0 hk hn (by omega) (by omega)
  have hr0 := hr
  unfold hashSearch at hr
  obtain ⟨pk, hpk, hr⟩ := Out.bind_eq_ok.mp hr
  obtain ⟨⟨a, b, c⟩, hl, hr⟩ := Out.bind_eq_ok.mp hr
  have hpk' : 0 + 16 < new.length → pk = buzhash (slice new 0 16) := by
    intro hlt
    unfold startHash at hpk
    rw [if_pos (Nat.zero_le _), rdBlk_ok (by simp only [hsize]; omega)] at hpk
    cases hpk
    rfl
  have := searchLoop_same h hb ht hk hn 0 _ _ ⟨Nat.le_refl _, Nat.le_refl _, Nat.zero_le _, by simp, hpk'⟩ ⟨rfl, by show 0 < 2^64; omega⟩ _ hl
  simp only at hr this
  rw [lenMinusH_eq hn (by omega), if_pos this] at hr
  rw [hr0, ← hr]

/-! ## Without an add block -/

theorem hashInsert_keep {old : Bytes} {h h' : Hash} {off k : Nat} (hr : hashInsert old h off = .ok h') (hk : h.table k ≠ 0) :
    h'.table k = h.table k ∧ h'.htLen = h.htLen := by
  unfold hashInsert at hr
  obtain ⟨blk, _, hr⟩ := Out.bind_eq_ok.mp hr
  obtain ⟨e, he, hr⟩ := Out.bind_eq_ok.mp hr
  have hset : ∀ {j v : Nat} {g : Hash}, h.set j v = .ok g → h.table j = 0 → g.table k = h.table k ∧ g.htLen = h.htLen := by
    intro j v g hs hz
    unfold Hash.set at hs
    split at hs
    · cases hs
      refine ⟨?_, rfl⟩
      show (if k = j then v else h.table k) = _
      rw [if_neg (fun e : k = j => hk (e ▸ hz))]
    · cases hs
  have hget : ∀ {j v : Nat}, h.get j = .ok v → v = h.table j := by
    intro j v hs
    unfold Hash.get at hs
    split at hs
    · cases hs
      rfl
    · cases hs
  split at hr
  · obtain ⟨e2, he2, hr⟩ := Out.bind_eq_ok.mp hr
    split at hr
    · cases hr
      exact ⟨rfl, rfl⟩
    · rename_i h0
      obtain ⟨o, _, hr⟩ := Out.bind_eq_ok.mp hr
      split at hr
      · cases hr
        exact ⟨rfl, rfl⟩
      · exact hset hr (by rw [← hget he2]; omega)
  · exact hset hr (by rw [← hget he]; omega)

theorem hashFill_keep {old : Bytes} (n : Nat) {off : Nat} {h h' : Hash} {k : Nat} (hr : hashFill old n off h = .ok h') (hk : h.table k ≠ 0) :
    h'.table k = h.table k ∧ h'.htLen = h.htLen := by
  induction n generalizing off h with
  | zero =>
    cases hr
    exact ⟨rfl, rfl⟩
  | succ n ih =>
    unfold hashFill at hr
    obtain ⟨g, hg, hr⟩ := Out.bind_eq_ok.mp hr
    obtain ⟨a, b⟩ := hashInsert_keep hg hk
    obtain ⟨c, d⟩ := ih hr (by rw [a]; exact hk)
    exact ⟨c.trans a, d.trans b⟩

/-- The first block is in the table, in its own slot. -/
theorem hashCreate_first {old : Bytes} {h : Hash} (hr : hashCreate old = .ok h) (hl : 16 ≤ old.length) :
    h.table ((buzhash (slice old 0 16)).toNat % h.htLen) = 1 := by
  unfold hashCreate at hr
  obtain ⟨n, hn⟩ : ∃ n, old.length / hsize = n + 1 := ⟨old.length / hsize - 1, by simp only [hsize]; omega⟩
  rw [hn] at hr
  unfold hashFill at hr
  obtain ⟨g, hg, hr⟩ := Out.bind_eq_ok.mp hr
  unfold hashInsert at hg
  rw [rdBlk_ok (by simp only [hsize]; omega)] at hg
  simp only [Out.bind_ok] at hg
  have hp := hashTableLen_pos old.length
  have hkey := Nat.mod_lt (buzhash (slice old 0 hsize)).toNat hp
  rw [Hash.get, if_pos hkey] at hg
  simp only [Out.bind_ok, ne_eq, not_true_eq_false, if_false] at hg
  rw [Hash.set, if_pos hkey] at hg
  cases hg
  obtain ⟨a, b⟩ := hashFill_keep (k := (buzhash (slice old 0 hsize)).toNat % hashTableLen old.length) n hr (by simp)
  rw [b]
  refine Eq.trans a ?_
  simp

theorem matchLen_go_same {old new : Bytes} (h : Begins old new) (o k i : Nat) (hk : o + i + k ≤ new.length) :
    matchLen.go old o new o k i = .ok (i + k) := by
  have hle := h.le
  induction k generalizing i with
  | zero => rfl
  | succ k ih =>
    unfold matchLen.go
    rw [rd_ok (by omega : o + i < old.length), rd_ok (by omega : o + i < new.length)]
    simp only [Out.bind_ok]
    rw [if_neg (by rw [h.eq (o + i) (by omega)]; simp), ih (i + 1) (by omega)]
    congr 1
    omega

theorem candidate_first {old new : Bytes} (h : Begins old new) {ht : Hash} (hr : hashCreate old = .ok ht) (hk : HashOK old ht)
    (hn : 16 ≤ new.length) : candidate ht old new 0 (buzhash (slice new 0 16)) = .ok (some 0) := by
  have hle := h.le
  have h1 := hashCreate_first hr (by omega)
  rw [h.slice 0 16 (by omega)] at h1
  unfold candidate
  simp only
  rw [Hash.get, if_pos (Nat.mod_lt _ hk.1), Out.bind_ok, h1, if_neg (by omega)]
  rw [rdBlk_ok (by simp only [hsize]; omega), rdBlk_ok (by simp only [hsize]; omega)]
  simp only [Out.bind_ok]
  rw [if_pos (show slice old (1 - 1) hsize = slice new 0 hsize from h.slice 0 16 (by omega))]

theorem bestMatch_first {old new : Bytes} (h : Begins old new) {ht : Hash} (hk : HashOK old ht)
    (hn : 16 ≤ new.length) : bestMatch ht old new 0 0 = .ok (0, new.length) := by
  have hle := h.le
  have ha : Agree old new 0 0 16 := ⟨by omega, by omega, h.slice 0 16 (by omega)⟩
  unfold bestMatch
  unfold matchLen
  rw [Nat.zero_add, show min (old.length - 0 - hsize) (new.length - 0 - hsize) = new.length - 16 by simp only [hsize]; omega]
  rw [matchLen_go_same h _ _ _ (by simp only [hsize]; omega)]
  simp only [Out.bind_ok]
  rw [show 0 + (new.length - 16) + hsize = new.length by simp only [hsize]; omega]
  split
  · rename_i hfar
    obtain ⟨f, f1, f2⟩ := farEntry_ok ht old new 0 hk (by simp only [hsize] at hfar; omega)
    rw [f1, Out.bind_ok]
    split
    · rename_i hgt
      split
      · have hfb := f2.resolve_left (by simp only [hsize] at hgt; omega)
        obtain ⟨l2, e2, hl2⟩ := matchLen_ok old new (f - (1 + 3 * hsize)) 0
          (by simp only [hsize] at *; omega) (by omega)
        have := hl2.2.1
        unfold matchLen at e2
        rw [e2, Out.bind_ok, if_neg (by omega)]
      · rfl
    · rfl
  · rfl

/-- The whole new payload has been found at the beginning of the old one. -/
structure FoundAll (new : Bytes) (s : SearchSt) : Prop where
  len : s.lastLen = new.length
  scan : s.lastScan = 0
  pos : s.lastPos = 0
  start : s.scanStart = 0
  num : s.scoreNum = 0

theorem scoreLoop_none {old new : Bytes} (hb : old.length < 2^63) (hn : new.length < 2^63) (n m sc : Nat) (hm : m + n ≤ new.length) :
    scoreLoop old new old.length n m sc = .ok sc := by
  induction n generalizing m with
  | zero => rfl
  | succ n ih =>
    unfold scoreLoop predicted
    rw [Nat.mod_eq_of_lt (by omega), if_neg (by omega), Out.bind_ok]
    exact ih _ (by omega)

def AllRes (new : Bytes) : SearchRes → Prop
  | .cont s => FoundAll new s
  | .done scan pos len => new.length - 16 ≤ scan ∨ (scan = 0 ∧ pos = 0 ∧ len = new.length)

theorem gotIt_all {old new : Bytes} (h : Begins old new) (hb : old.length < 2^63) (hn : 16 ≤ new.length) {s : SearchSt} (hs : FoundAll new s)
    (hl : 32 ≤ s.lastLen) : gotIt old new old.length s = .ok (.done 0 0 new.length) := by
  have hle := h.le
  have hm : ¬ (0 + old.length) % 2^64 = 0 := by omega
  have hback : backExt old new (0 - 0) 0 0 new.length = .ok (0, 0, new.length) := rfl
  have hres : rescore old new old.length s 0 new.length = .ok (0, new.length, 0) := by
    unfold rescore
    rw [if_pos (by omega : s.scoreStart + 1 ≠ 0 ∨ s.scoreNum = 0 ∨ s.scoreNum - 1 > new.length),
      scoreLoop_none hb (by omega) _ _ _ (by omega), Out.bind_ok]
  unfold gotIt
  rw [hs.scan, hs.pos, hs.start, hs.len, if_neg hm, hback, Out.bind_ok]
  simp only
  rw [hres, Out.bind_ok]
  simp only
  have hl2 := hs.len
  rw [if_pos (by omega)]

theorem scanNext_all {old new : Bytes} (h : Begins old new) (hb : old.length < 2^63) (hn : 16 ≤ new.length) {s : SearchSt} (hs : FoundAll new s)
    {r : SearchRes} (hr : scanNext old new old.length s = .ok r) : AllRes new r := by
  unfold scanNext at hr
  split at hr
  · rename_i hc
    rw [gotIt_all h hb hn hs hc.1] at hr
    cases hr
    exact Or.inr ⟨rfl, rfl, rfl⟩
  · obtain ⟨a, _, hr⟩ := Out.bind_eq_ok.mp hr
    obtain ⟨b, _, hr⟩ := Out.bind_eq_ok.mp hr
    cases hr
    exact ⟨hs.len, hs.scan, hs.pos, hs.start, hs.num⟩

theorem searchStep_all {old new : Bytes} (h : Begins old new) (hb : old.length < 2^63) (ht : Hash) (hk : HashOK old ht) (hn : 16 ≤ new.length)
    {s : SearchSt} (hs : FoundAll new s) {r : SearchRes} (hr : searchStep ht old new old.length s = .ok r) : AllRes new r := by
  have hle := h.le
  unfold searchStep at hr
  rw [lenMinusH_eq hn (by omega)] at hr
  split at hr
  · rename_i hge
    split at hr
    · rename_i hl
      rw [gotIt_all h hb hn hs hl] at hr
      cases hr
      exact Or.inr ⟨rfl, rfl, rfl⟩
    · cases hr
      exact Or.inl hge
  · obtain ⟨c, e, hc⟩ := candidate_ok ht old new s.scan s.prekey hk (by omega)
    rw [e, Out.bind_ok] at hr
    cases c with
    | none => exact scanNext_all h hb hn hs hr
    | some pos =>
      simp only at hr
      obtain ⟨p, l, e2, h1, h2⟩ := bestMatch_ok ht old new s.scan pos hk (hc _ rfl)
      rw [e2, Out.bind_ok] at hr
      have := h2.2.1
      have := hs.len
      unfold remember at hr
      rw [if_neg (by omega)] at hr
      exact scanNext_all h hb hn hs hr

theorem searchLoop_all {old new : Bytes} (h : Begins old new) (hb : old.length < 2^63) (ht : Hash) (hk : HashOK old ht) (hn : 16 ≤ new.length)
    (fuel : Nat) {s : SearchSt} (hs : FoundAll new s) {r : Nat × Nat × Nat} (hr : searchLoop ht old new old.length fuel s = .ok r) :
    new.length - 16 ≤ r.1 ∨ r = (0, 0, new.length) := by
  induction fuel generalizing s with
  | zero => cases hr
  | succ fuel ih =>
    unfold searchLoop at hr
    obtain ⟨x, e, hr⟩ := Out.bind_eq_ok.mp hr
    have hx := searchStep_all h hb ht hk hn hs e
    cases x with
    | done a b c =>
      cases hr
      rcases hx with hx | ⟨rfl, rfl, rfl⟩
      · exact Or.inl hx
      · exact Or.inr rfl
    | cont s' => exact ih hx hr

theorem hashSearch_all {old new : Bytes} (h : Begins old new) (hb : old.length < 2^63) {ht : Hash} (hc : hashCreate old = .ok ht) (hk : HashOK old ht)
    (hn : 16 ≤ new.length) :
    hashSearch ht old new old.length 0 = .ok (new.length, 0, 0) ∨ hashSearch ht old new old.length 0 = .ok (0, 0, new.length) := by
  have hle := h.le
  obtain ⟨r, hr, _⟩ := hashSearch_ok ht old new old.length 0 hk hn (by omega) (by omega)
  rw [hr]
  unfold hashSearch at hr
  obtain ⟨pk, hpk, hr⟩ := Out.bind_eq_ok.mp hr
  obtain ⟨⟨a, b, c⟩, hl, hlast⟩ := Out.bind_eq_ok.mp hr
  have hpk' : pk = buzhash (slice new 0 16) := by
    unfold startHash at hpk
    rw [if_pos (Nat.zero_le _), rdBlk_ok (by simp only [hsize]; omega)] at hpk
    cases hpk
    rfl
  subst hpk'
  have key : new.length - 16 ≤ a ∨ (a, b, c) = (0, 0, new.length) := by
    obtain ⟨f, hf⟩ : ∃ f, searchFuel new.length = f + 1 := ⟨searchFuel new.length - 1, by
      have : 0 < searchFuel new.length := Nat.mul_pos (by omega) (by omega)
      omega⟩
    rw [hf] at hl
    unfold searchLoop at hl
    obtain ⟨x, e, hl⟩ := Out.bind_eq_ok.mp hl
    unfold searchStep at e
    rw [lenMinusH_eq hn (by omega)] at e
    simp only at e
    split at e
    · rename_i hge
      rw [if_neg (by omega)] at e
      cases e
      cases hl
      exact Or.inl hge
    · rw [candidate_first h hc hk hn, Out.bind_ok] at e
      simp only at e
      rw [bestMatch_first h hk hn, Out.bind_ok] at e
      unfold remember at e
      rw [if_pos (by show new.length > 0; omega)] at e
      have hx := scanNext_all h hb hn (s := ⟨0, 0, buzhash (slice new 0 16), 0, 0, new.length, 0, 0, 0⟩) ⟨rfl, rfl, rfl, rfl, rfl⟩ e
      cases x with
      | done a' b' c' =>
        cases hl
        rcases hx with hx | ⟨rfl, rfl, rfl⟩
        · exact Or.inl hx
        · exact Or.inr rfl
      | cont s' => exact searchLoop_all h hb ht hk hn f hx hl
  clear hpk hl
  rw [lenMinusH_eq hn (by omega)] at hlast
  dsimp only at hlast
  by_cases hge : a ≥ new.length - 16
  · rw [if_pos hge] at hlast
    exact Or.inl hlast.symm
  · rw [if_neg hge] at hlast
    rcases key with key | key
    · exact absurd key hge
    · rw [key] at hlast
      exact Or.inr hlast.symm

/-! ## The difference -/

theorem diffLoop_end {search : Nat → Nat → Out (Nat × Nat × Nat)} {old new : Bytes} {addblk : Bool} (fuel : Nat) (a b c : Nat) :
    diffLoop search old new addblk (fuel + 1) ⟨a, b, c, new.length, 0⟩ = .ok ([], []) := by
  unfold diffLoop
  rw [if_neg (by simp)]

/-- The regions found: one copy of everything, perhaps after an empty one. -/
theorem diffLoop_same {old new : Bytes} (h : Begins old new) (hb : old.length < 2^63) (addblk : Bool) {ht : Hash} (hc : hashCreate old = .ok ht)
    (hk : HashOK old ht) (hn : 16 ≤ new.length) :
    ∃ pre adds, diffLoop (hashSearch ht old new) old new addblk (diffFuel new.length) ⟨0, 0, 0, 0, 0⟩ =
        .ok (pre ++ [⟨0, new.length, new.length, 0⟩], adds) ∧ (pre = [] ∨ pre = [⟨0, 0, 0, 0⟩]) ∧
      adds.flatten = if addblk then List.replicate new.length 0 else [] := by
  have hle := h.le
  have one : ∀ s : DiffSt, s.oldPrev = 0 ∧ s.newPrev = 0 →
      hashSearch ht old new (if addblk then (s.oldPrev + 2^64 - s.newPrev) % 2^64 else old.length) (s.newPos + s.len) = .ok (new.length, 0, 0) →
      ∀ fuel, ∃ adds, diffLoop (hashSearch ht old new) old new addblk (fuel + 2) s = .ok ([⟨0, new.length, new.length, 0⟩], adds) ∧
        adds.flatten = if addblk then List.replicate new.length 0 else [] := by
    intro s h0 hs fuel
    obtain ⟨adds, e, ha⟩ := diffStep_same h addblk _ s h0 hs
    refine ⟨adds, ?_, ha⟩
    unfold diffLoop
    rw [if_pos (by omega), e, Out.bind_ok]
    simp only
    rw [diffLoop_end, Out.bind_ok]
    simp
  cases addblk with
  | true =>
    obtain ⟨adds, e, ha⟩ := one ⟨0, 0, 0, 0, 0⟩ ⟨rfl, rfl⟩ (hashSearch_same h (by omega) ht hk hn) (new.length + 1)
    exact ⟨[], adds, e, Or.inl rfl, ha⟩
  | false =>
    rcases hashSearch_all h hb hc hk hn with hs | hs
    · obtain ⟨adds, e, ha⟩ := one ⟨0, 0, 0, 0, 0⟩ ⟨rfl, rfl⟩ hs (new.length + 1)
      exact ⟨[], adds, e, Or.inl rfl, ha⟩
    · obtain ⟨r, hr, hg⟩ := hashSearch_ok ht old new old.length new.length hk hn (by omega) (Nat.le_refl _)
      have hr' : r = (new.length, 0, 0) := by
        rcases hg with hg | hg
        · exact hg
        · omega
      subst hr'
      obtain ⟨adds, e, ha⟩ := one ⟨0, 0, 0, 0, new.length⟩ ⟨rfl, rfl⟩ (by simpa using hr) new.length
      refine ⟨[⟨0, 0, 0, 0⟩], adds, ?_, Or.inr rfl, ha⟩
      unfold diffFuel diffLoop
      rw [if_pos (by show 0 < new.length; omega)]
      have hstep : diffStep (hashSearch ht old new) old new false ⟨0, 0, 0, 0, 0⟩ = .ok (⟨0, 0, 0, 0⟩, [], ⟨0, 0, 0, 0, new.length⟩) := by
        unfold diffStep
        simp only [Bool.false_eq_true, if_false, Nat.add_zero]
        rw [hs, Out.bind_ok]
        simp [lenForward, fwdExact, lenBack, splitOverlap]
      rw [hstep, Out.bind_ok]
      simp only
      rw [e, Out.bind_ok]
      rfl

theorem copiesLoop_nolit (cs : List DiffCopy) (h : ∀ c ∈ cs, c.newLen = 0) (off p : Nat) {r : List (Nat × Nat) × List (Nat × Nat)}
    (hr : copiesLoop cs off p = .ok r) : ∀ x ∈ r.2, x.2 = 0 := by
  induction cs generalizing off p r with
  | nil =>
    unfold copiesLoop at hr
    cases hr
    intro x hx
    simp only at hx
    split at hx
    · simp only [List.mem_singleton] at hx
      rw [hx]
    · cases hx
  | cons c cs ih =>
    unfold copiesLoop at hr
    obtain ⟨⟨e, o⟩, _, hr⟩ := Out.bind_eq_ok.mp hr
    simp only at hr
    obtain ⟨⟨i, p'⟩, hi, hr⟩ := Out.bind_eq_ok.mp hr
    simp only at hr
    obtain ⟨⟨e', i'⟩, ht, hr⟩ := Out.bind_eq_ok.mp hr
    cases hr
    unfold intStep at hi
    rw [if_neg (by simp [h c (by simp)])] at hi
    cases hi
    intro x hx
    exact ih (fun c hc => h c (by simp [hc])) _ _ ht x (by simpa using hx)

theorem intDataLoop_nolit (new : Bytes) (ints : List (Nat × Nat)) (h : ∀ x ∈ ints, x.2 = 0) (cs : List DiffCopy) (off left : Nat) {r : List Bytes}
    (hr : intDataLoop new ints cs off left = .ok r) : r.flatten = [] := by
  induction ints generalizing cs off left r with
  | nil =>
    unfold intDataLoop at hr
    cases hr
    rfl
  | cons x ints ih =>
    obtain ⟨a, t⟩ := x
    have ht : t = 0 := h (a, t) (by simp)
    subst ht
    unfold intDataLoop at hr
    obtain ⟨⟨l, o, c⟩, _, hr⟩ := Out.bind_eq_ok.mp hr
    simp only at hr
    obtain ⟨d, hd, hr⟩ := Out.bind_eq_ok.mp hr
    obtain ⟨rest, hrest, hr⟩ := Out.bind_eq_ok.mp hr
    cases hr
    have hd' : d = [] := by
      unfold rdBlk at hd
      split at hd
      · cases hd
        simp
      · cases hd
    rw [List.flatten_cons, hd', ih (fun x hx => h x (by simp [hx])) _ _ _ hrest]
    rfl

/-- A new payload that is the beginning of the old one is not stored in the delta. -/
theorem makeDiff_same {old new : Bytes} (h : new <+: old) (hb : old.length < 2^63) (hn : 16 ≤ new.length) (addblk : Bool) :
    ∃ d, makeDiff old new addblk = .ok d ∧ d.intData.flatten = [] ∧
      d.addWrites.flatten = if addblk then List.replicate new.length 0 else [] := by
  have hB := begins_of_prefix h
  have hle := hB.le
  obtain ⟨d, hd, _, h2, h3⟩ := makeDiff_spec old new addblk hn (by omega)
  refine ⟨d, hd, ?_⟩
  obtain ⟨ht, hc, hk⟩ := hashCreate_ok old
  obtain ⟨pre, adds, e, hp, ha⟩ := diffLoop_same hB hb addblk hc hk hn
  unfold makeDiff makeDiffWith at hd
  rw [hc, Out.bind_ok, e, Out.bind_ok] at hd
  simp only at hd
  obtain ⟨⟨x, y⟩, hxy, hd⟩ := Out.bind_eq_ok.mp hd
  simp only at hd
  obtain ⟨z, hz, hd⟩ := Out.bind_eq_ok.mp hd
  cases hd
  refine ⟨?_, ha⟩
  apply intDataLoop_nolit _ _ (copiesLoop_nolit _ ?_ _ _ hxy) _ _ _ hz
  intro c hc
  rw [List.mem_append] at hc
  rcases hc with hc | hc
  · rcases hp with rfl | rfl
    · cases hc
    · simp only [List.mem_singleton] at hc
      rw [hc]
  · simp only [List.mem_singleton] at hc
    rw [hc]

end Drpm
