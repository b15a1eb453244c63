import Verif.WalkLemmas
/-! Helper lemmas for C97: how much there is in a computed difference. -/

namespace Drpm

/-- Every pass of the main loop but the last takes up 32 bytes of the new payload. -/
theorem diffLoop_few (search : Nat → Nat → Out (Nat × Nat × Nat)) (old new : Bytes) (addblk : Bool)
    (hs : SearchOK old new search) : ∀ (fuel : Nat) (s : DiffSt) (cs : List DiffCopy) (adds : List Bytes),
      DiffInv old new s → diffLoop search old new addblk fuel s = .ok (cs, adds) →
      32 * cs.length ≤ if s.newPrev = new.length then 0 else 32 + (new.length - (s.newPos + s.len)) := by
  intro fuel
  induction fuel with
  | zero => intro s cs adds _ h; cases h
  | succ fuel ih =>
    intro s cs adds hi h
    rw [diffLoop] at h
    split at h
    · rename_i hlt
      obtain ⟨c, a, s', e, hi', c1, c2, c3, c4, c5, c6⟩ := diffStep_ok search old new addblk hs s hi
      rw [e, Out.bind_ok, Out.bind_eq_ok] at h
      obtain ⟨⟨cs', rest⟩, h2, h⟩ := h
      cases h
      have hcs := ih s' cs' rest hi' h2
      have := hi'.2.2
      have := hi.2.2
      rw [if_neg (by omega)]
      simp only [List.length_cons]
      split at hcs <;> omega
    · cases h
      simp

/-- The lengths of the external copies of a region make up the region, and there are few of them. -/
theorem extCopiesOf_size : ∀ (fuel oldOff oldLen offset : Nat) (cs : List (Nat × Nat)) (off : Nat), oldLen < 2^31 →
    extCopiesOf fuel oldOff oldLen offset = .ok (cs, off) →
    (cs.map (·.2)).sum = oldLen ∧ off = oldOff + oldLen ∧
      (cs.length - 1) * 2147483647 ≤ (if oldOff ≤ offset then offset - oldOff else oldOff - offset) := by
  intro fuel
  induction fuel with
  | zero => intro _ _ _ _ _ _ h; cases h
  | succ fuel ih =>
    intro oldOff oldLen offset cs off hl h
    have hM : int32Max = 2147483647 := rfl
    unfold extCopiesOf at h
    generalize twosComplement32 int32Max = T at h
    generalize int32Max = M at hM h
    split at h
    · rename_i hc
      rw [Out.bind_eq_ok] at h
      obtain ⟨⟨cs', off'⟩, h1, h⟩ := h
      cases h
      obtain ⟨i1, i2, i3⟩ := ih _ _ _ _ _ hl h1
      refine ⟨by simpa using i1, i2, ?_⟩
      rw [List.length_cons, Nat.add_sub_cancel, ← hM]
      rw [← hM] at i3
      have : cs'.length * M ≤ (cs'.length - 1) * M + M := by
        rw [← Nat.succ_mul]
        exact Nat.mul_le_mul_right _ (by omega)
      generalize (cs'.length - 1) * M = A at i3 this
      generalize cs'.length * M = B at this ⊢
      split at i3 <;> split <;> omega
    · split at h
      · rename_i hc
        rw [Out.bind_eq_ok] at h
        obtain ⟨⟨cs', off'⟩, h1, h⟩ := h
        cases h
        obtain ⟨i1, i2, i3⟩ := ih _ _ _ _ _ hl h1
        refine ⟨by simpa using i1, i2, ?_⟩
        rw [List.length_cons, Nat.add_sub_cancel, ← hM]
        rw [← hM] at i3
        have : cs'.length * M ≤ (cs'.length - 1) * M + M := by
          rw [← Nat.succ_mul]
          exact Nat.mul_le_mul_right _ (by omega)
        generalize (cs'.length - 1) * M = A at i3 this
        generalize cs'.length * M = B at this ⊢
        split at i3 <;> split <;> omega
      · simp only at h
        rw [if_neg (by omega)] at h
        cases h
        simp

/-- The same for the internal copies. -/
theorem intCopiesOf_size : ∀ (fuel pending newLen : Nat) (is : List (Nat × Nat)),
    intCopiesOf fuel pending newLen = .ok is →
    (is.map (·.2)).sum = newLen ∧ (is.length - 1) * 2147483647 ≤ newLen ∧ 1 ≤ is.length := by
  intro fuel
  induction fuel with
  | zero => intro _ _ _ h; cases h
  | succ fuel ih =>
    intro pending newLen is h
    have hM : int32Max = 2147483647 := rfl
    unfold intCopiesOf at h
    generalize int32Max = M at hM h
    split at h
    · rw [Out.bind_eq_ok] at h
      obtain ⟨cs', h1, h⟩ := h
      cases h
      obtain ⟨i1, i2, i3⟩ := ih _ _ _ h1
      simp only [List.map_cons, List.sum_cons, List.length_cons, i1]
      omega
    · cases h
      simp

/-- Copy lists of any regions shorter than 2 GiB inside `n` bytes of old payload: their lengths make up
    the regions, and how many there are. -/
theorem copiesLoop_size (n : Nat) : ∀ (rs : List DiffCopy) (offset pending : Nat) (ext int : List (Nat × Nat)),
    (∀ r ∈ rs, r.oldLen < 2^31 ∧ r.oldOff + r.oldLen ≤ n) → offset ≤ n →
    copiesLoop rs offset pending = .ok (ext, int) →
    (ext.map (·.2)).sum = (rs.map (·.oldLen)).sum ∧ (int.map (·.2)).sum = (rs.map (·.newLen)).sum ∧
      ext.length ≤ rs.length * (n / 2147483647 + 1) ∧
      (int.length - (rs.length + 1)) * 2147483647 ≤ (rs.map (·.newLen)).sum := by
  intro rs
  induction rs with
  | nil =>
    intro offset pending ext int _ _ h
    simp only [copiesLoop, Out.ok.injEq, Prod.mk.injEq] at h
    obtain ⟨rfl, rfl⟩ := h
    split <;> simp
  | cons r rs ih =>
    intro offset pending ext int hr ho h
    obtain ⟨r1, r2⟩ := hr r (by simp)
    rw [copiesLoop, Out.bind_eq_ok] at h
    obtain ⟨⟨e, off⟩, h1, h⟩ := h
    rw [Out.bind_eq_ok] at h
    obtain ⟨⟨is, pend⟩, h2, h⟩ := h
    rw [Out.bind_eq_ok] at h
    obtain ⟨⟨e', i'⟩, h3, h⟩ := h
    cases h
    have k1 : (e.map (·.2)).sum = r.oldLen ∧ off ≤ n ∧ e.length ≤ n / 2147483647 + 1 := by
      unfold extStep at h1
      split at h1
      · obtain ⟨j1, j2, j3⟩ := extCopiesOf_size _ _ _ _ _ _ r1 h1
        refine ⟨j1, by omega, ?_⟩
        have : (e.length - 1) * 2147483647 ≤ n := by
          split at j3 <;> omega
        omega
      · cases h1
        simp
        omega
    have k2 : (is.map (·.2)).sum = r.newLen ∧ (is.length - 1) * 2147483647 ≤ r.newLen := by
      unfold intStep at h2
      split at h2
      · rw [Out.bind_eq_ok] at h2
        obtain ⟨is', h4, h2⟩ := h2
        cases h2
        have := intCopiesOf_size _ _ _ _ h4
        exact ⟨this.1, this.2.1⟩
      · cases h2
        simp
        omega
    obtain ⟨i1, i2, i3, i4⟩ := ih off pend e' i' (fun x hx => hr x (by simp [hx])) k1.2.1 h3
    simp only [List.length_append, List.length_cons, List.map_append, List.sum_append, List.map_cons, List.sum_cons, k1.1, k2.1, i1, i2]
    refine ⟨trivial, trivial, ?_, ?_⟩
    · rw [Nat.add_mul, Nat.one_mul]
      omega
    · refine Nat.le_trans (Nat.mul_le_mul_right _ (show _ ≤ (is.length - 1) + (i'.length - (rs.length + 1)) by omega)) ?_
      rw [Nat.add_mul]
      exact Nat.add_le_add k2.2 i4

/-- The regions make up the new payload, and with an add block those of the old payload make up the
    add block. -/
theorem RegionsOK.sizes {old new : Bytes} {addblk : Bool} : ∀ {cs : List DiffCopy} {add : Bytes} {p : Nat},
    RegionsOK old new addblk cs add p → p + (cs.map (·.oldLen)).sum + (cs.map (·.newLen)).sum = new.length ∧
      add.length = if addblk then (cs.map (·.oldLen)).sum else 0 := by
  intro cs
  induction cs with
  | nil =>
    intro add p h
    obtain ⟨rfl, rfl⟩ := h
    simp
  | cons c cs ih =>
    intro add p h
    obtain ⟨h1, h2, h3, rest, h4, h5⟩ := h
    obtain ⟨i1, i2⟩ := ih h5
    simp only [List.map_cons, List.sum_cons]
    refine ⟨by omega, ?_⟩
    cases addblk with
    | true =>
      simp only [if_true] at h4 i2 ⊢
      rw [h4, List.length_append, List.length_zipWith, slice_length (by omega), slice_length (by omega), i2]
      omega
    | false =>
      simp only [Bool.false_eq_true, if_false] at h4 i2 ⊢
      rw [h4.1, i2]

theorem intDataLoop_length (new : Bytes) : ∀ (ints : List (Nat × Nat)) (cs : List DiffCopy) (offset left : Nat) (d : List Bytes),
    intDataLoop new ints cs offset left = .ok d → d.flatten.length = (ints.map (·.2)).sum := by
  intro ints
  induction ints with
  | nil => intro cs offset left d h; cases h; rfl
  | cons i ints ih =>
    intro cs offset left d h
    obtain ⟨a, todo⟩ := i
    rw [intDataLoop] at h
    obtain ⟨o, x, l, cs', rest, h1, h2, rfl⟩ : ∃ o x l cs' rest, rdBlk new o todo = .ok x ∧
        intDataLoop new ints cs' (o + todo) l = .ok rest ∧ d = x :: rest := by
      split at h
      all_goals
        rw [Out.bind_eq_ok] at h
        obtain ⟨⟨l, o, cs'⟩, _, h⟩ := h
        simp only at h
        rw [Out.bind_eq_ok] at h
        obtain ⟨x, h1, h⟩ := h
        rw [Out.bind_eq_ok] at h
        obtain ⟨rest, h2, h⟩ := h
        cases h
        exact ⟨_, _, _, _, _, h1, h2, rfl⟩
    have hx : x.length = todo := by
      unfold rdBlk at h1
      split at h1
      · rename_i hle
        cases h1
        exact slice_length hle
      · cases h1
    simp only [List.flatten_cons, List.length_append, List.map_cons, List.sum_cons, hx, ih _ _ _ _ h2]

/-- How much there is in a computed difference. -/
theorem makeDiff_size {old new : Bytes} {addblk : Bool} {df : Diff} (hn : 16 ≤ new.length) (hnew : new.length < 2^63)
    (hsmall : old.length < 2^31 ∨ new.length < 2^31) (h : makeDiff old new addblk = .ok df) :
    df.intData.flatten.length + (df.ext.map (·.2)).sum = new.length ∧
      df.addWrites.flatten.length = (if addblk then (df.ext.map (·.2)).sum else 0) ∧
      df.ext.length ≤ (new.length / 32 + 1) * (old.length / 2147483647 + 1) ∧
      df.int.length ≤ new.length / 32 + new.length / 2147483647 + 2 := by
  obtain ⟨d', e', hR, e2, e3⟩ := makeDiff_spec old new addblk hn hnew
  rw [h] at e'
  cases e'
  have hb := hR.bounds
  obtain ⟨s1, s2, s3, s4⟩ := copiesLoop_size old.length df.regions 0 0 df.ext df.int
    (fun r hr => by have := hb r hr; omega) (by omega) e2
  obtain ⟨z1, z2⟩ := hR.sizes
  have hd := intDataLoop_length _ _ _ _ _ _ e3
  have hcount : df.regions.length ≤ new.length / 32 + 1 := by
    obtain ⟨hh, hh1, hk⟩ := hashCreate_ok old
    unfold makeDiff at h
    rw [hh1, Out.bind_ok] at h
    unfold makeDiffWith at h
    rw [Out.bind_eq_ok] at h
    obtain ⟨⟨rs, ads⟩, h1, h⟩ := h
    rw [Out.bind_eq_ok] at h
    obtain ⟨⟨x, y⟩, _, h⟩ := h
    rw [Out.bind_eq_ok] at h
    obtain ⟨w, _, h⟩ := h
    cases h
    have := diffLoop_few _ old new addblk (hashSearch_SearchOK hh old new hk hn (by omega)) _ _ _ _
      ⟨by simp, by simp, by simp⟩ h1
    simp only at this
    rw [if_neg (by omega)] at this
    show rs.length ≤ _
    omega
  refine ⟨by omega, by rw [z2, s1], ?_, ?_⟩
  · exact Nat.le_trans s3 (Nat.mul_le_mul_right _ hcount)
  · omega

end Drpm
