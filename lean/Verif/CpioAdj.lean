import Verif.CpioMake
/-!
# Lemmas about offset adjustments
-/

namespace Drpm

/-- What offset adjustments say about a position: the first number of each pair is the distance from
    the position of the previous pair, the second number is the (signed) change of the displacement
    from there on. The displacement at `pos` is the sum of the changes at or before `pos`. -/
def dispAt : Nat → List (Nat × Nat) → Nat → Int
  | _, [], _ => 0
  | start, (a, b) :: rest, pos => (if start + a ≤ pos then s32 b else 0) + dispAt (start + a) rest pos

def sumFst (l : List (Nat × Nat)) : Nat := (l.map (fun p => p.1)).sum

theorem dispAt_append : ∀ (x y : List (Nat × Nat)) (s pos : Nat),
    dispAt s (x ++ y) pos = dispAt s x pos + dispAt (s + sumFst x) y pos := by
  intro x
  induction x with
  | nil => intro y s pos; simp [dispAt, sumFst]
  | cons p x ih =>
    intro y s pos
    obtain ⟨a, b⟩ := p
    rw [List.cons_append, dispAt, dispAt, ih]
    have : s + a + sumFst x = s + sumFst ((a, b) :: x) := by simp [sumFst]; omega
    rw [this]
    omega

theorem sumFst_append (x y : List (Nat × Nat)) : sumFst (x ++ y) = sumFst x + sumFst y := by
  simp [sumFst]

theorem dispAt_const : ∀ (x : List (Nat × Nat)) (s p q : Nat), s + sumFst x ≤ p → s + sumFst x ≤ q →
    dispAt s x p = dispAt s x q := by
  intro x
  induction x with
  | nil => intro s p q _ _; rfl
  | cons c x ih =>
    intro s p q hp hq
    obtain ⟨a, b⟩ := c
    have : s + sumFst ((a, b) :: x) = s + a + sumFst x := by simp [sumFst]; omega
    rw [this] at hp hq
    rw [dispAt, dispAt, if_pos (by omega), if_pos (by omega), ih _ p q hp hq]

theorem s32_twos {x : Nat} (h : x < 2^31) : s32 (twosComplement32 x) = -(x : Int) := by
  unfold s32 twosComplement32
  by_cases h0 : x = 0
  · subst h0; decide
  · rw [if_neg (by omega)]
    omega

theorem s32_small {x : Nat} (h : x < 2^31) : s32 x = x := by
  unfold s32
  rw [if_pos (by omega)]
  omega

theorem offadjLoop_spec : ∀ (fuel len prev pos : Nat) (adjs adjs' : List (Nat × Nat)) (prev' : Nat),
    prev ≤ len → len < 2^32 → offadjLoop len fuel prev pos adjs = .ok (adjs', prev') →
    ∃ new, adjs' = adjs ++ new ∧ prev' = len ∧ prev + sumFst new = len ∧
      ∀ p, dispAt prev new p = if len ≤ p then (pos : Int) - len else 0 := by
  intro fuel
  induction fuel with
  | zero => intro len prev pos adjs adjs' prev' _ _ h; cases h
  | succ fuel ih =>
    intro len prev pos adjs adjs' prev' hp hl h
    have hgap : (len + 2^64 - prev) % 2^64 % 2^32 = len - prev := by omega
    rw [offadjLoop] at h
    simp only [hgap] at h
    by_cases c1 : len - prev ≥ 2^31
    · rw [if_pos c1] at h
      have : (prev + (2^31 - 1)) % 2^64 = prev + (2^31 - 1) := by omega
      rw [this] at h
      obtain ⟨new, n1, n2, n3, n4⟩ := ih len (prev + (2^31 - 1)) pos _ _ _ (by omega) hl h
      refine ⟨(2^31 - 1, 0) :: new, by rw [n1]; simp, n2, ?_, ?_⟩
      · have : sumFst ((2^31 - 1, 0) :: new) = 2^31 - 1 + sumFst new := by simp [sumFst]
        omega
      · intro p
        rw [dispAt, n4]
        have : s32 0 = 0 := by decide
        rw [this]
        split <;> simp
    · rw [if_neg c1] at h
      have hsum : prev + (len - prev) = len := by omega
      by_cases c2 : pos < len
      · rw [if_pos c2] at h
        by_cases c3 : len - pos ≥ 2^31
        · rw [if_pos c3] at h
          obtain ⟨new, n1, n2, n3, n4⟩ := ih len len (pos + (2^31 - 1)) _ _ _ (by omega) hl h
          refine ⟨(len - prev, twosComplement32 (2^31 - 1)) :: new, by rw [n1]; simp, n2, ?_, ?_⟩
          · have : sumFst ((len - prev, twosComplement32 (2^31 - 1)) :: new) = len - prev + sumFst new := by simp [sumFst]
            omega
          · intro p
            rw [dispAt, hsum, n4, s32_twos (by decide)]
            split <;> omega
        · rw [if_neg c3] at h
          cases h
          refine ⟨_, rfl, rfl, by simp [sumFst]; omega, ?_⟩
          intro p
          rw [dispAt, hsum, s32_twos (by omega), dispAt]
          split <;> omega
      · rw [if_neg c2] at h
        by_cases c3 : pos - len ≥ 2^31
        · rw [if_pos c3] at h
          obtain ⟨new, n1, n2, n3, n4⟩ := ih len len (pos - (2^31 - 1)) _ _ _ (by omega) hl h
          refine ⟨(len - prev, 2^31 - 1) :: new, by rw [n1]; simp, n2, ?_, ?_⟩
          · have : sumFst ((len - prev, 2^31 - 1) :: new) = len - prev + sumFst new := by simp [sumFst]
            omega
          · intro p
            rw [dispAt, hsum, n4, s32_small (by decide)]
            split <;> omega
        · rw [if_neg c3] at h
          cases h
          refine ⟨_, rfl, rfl, by simp [sumFst]; omega, ?_⟩
          intro p
          rw [dispAt, hsum, s32_small (by omega), dispAt]
          split <;> omega

/-- The loop ends. -/
theorem offadjLoop_ends : ∀ (fuel len prev pos : Nat) (adjs : List (Nat × Nat)),
    prev ≤ len → len < 2^32 → (len - prev) + (len - pos) + (pos - len) < fuel * (2^31 - 1) →
    ∃ r, offadjLoop len fuel prev pos adjs = .ok r := by
  intro fuel
  induction fuel with
  | zero => intro len prev pos adjs _ _ h; omega
  | succ fuel ih =>
    intro len prev pos adjs hp hl h
    have hgap : (len + 2^64 - prev) % 2^64 % 2^32 = len - prev := by omega
    rw [offadjLoop]
    simp only [hgap]
    split
    · have : (prev + (2^31 - 1)) % 2^64 = prev + (2^31 - 1) := by omega
      rw [this]
      exact ih _ _ _ _ (by omega) hl (by omega)
    · split
      · split
        · exact ih _ _ _ _ (by omega) hl (by omega)
        · exact ⟨_, rfl⟩
      · split
        · exact ih _ _ _ _ (by omega) hl (by omega)
        · exact ⟨_, rfl⟩

theorem adjust_spec {m : MakeIn} (ho : m.offadj = true) {st : MkSt} {pos : Nat} {adjs' : List (Nat × Nat)} {prev' : Nat}
    (hp : st.lenPrev ≤ st.cpio.data.length) (hl : st.cpio.data.length < 2^32)
    (h : adjust m st pos = .ok (adjs', prev')) :
    ∃ new, adjs' = st.offadjs ++ new ∧ prev' = st.lenPrev + sumFst new ∧ prev' ≤ st.cpio.data.length ∧
      ∀ p, dispAt st.lenPrev new p = if st.cpio.data.length ≤ p then (pos : Int) - st.cpio.data.length else 0 := by
  unfold adjust at h
  by_cases hc : st.cpio.data.length = pos
  · rw [if_neg (by simp [hc])] at h
    cases h
    refine ⟨[], by simp, by simp [sumFst], hp, ?_⟩
    intro p
    rw [dispAt, hc]
    split <;> omega
  · rw [if_pos ⟨hc, ho⟩] at h
    obtain ⟨new, n1, n2, n3, n4⟩ := offadjLoop_spec _ _ _ _ _ _ _ hp hl h
    exact ⟨new, n1, by omega, by omega, n4⟩

/-- The bytes of kept entries in the altered archive. -/
def keptBytes (archive : Bytes) (ks : List (Nat × FileInfo × AEnt)) : Bytes :=
  (ks.map (fun (_, f, e) => alteredHeader f ++ alteredContent archive f e)).flatten

theorem alteredEntries_eq (m : MakeIn) (es : List AEnt) : alteredEntries m es = keptBytes m.archive (kept m es) := rfl

theorem keptBytes_cons (archive : Bytes) (i : Nat) (f : FileInfo) (e : AEnt) (ks : List (Nat × FileInfo × AEnt)) :
    keptBytes archive ((i, f, e) :: ks) = alteredHeader f ++ alteredContent archive f e ++ keptBytes archive ks := by
  simp [keptBytes]

theorem alteredHeader_pos (f : FileInfo) : 0 < (alteredHeader f).length := by
  unfold alteredHeader
  simp only [List.length_append, cpioHeaderWrite_length]
  omega

theorem run_adj {m : MakeIn} (ho : m.offadj = true) (hf : FilesFit m) {st st' : MkSt} {es : List AEnt}
    (h : Run m st es st') :
    (st.cpio.data ++ alteredEntries m es).length < 2^32 → st.lenPrev = sumFst st.offadjs →
    st.lenPrev ≤ st.cpio.data.length →
    (st.cpioPos : Int) + dispAt 0 st.offadjs st.cpio.data.length = st.arcOff →
    ∃ new, st'.offadjs = st.offadjs ++ new ∧
      (∀ p, p < st.cpio.data.length → dispAt st.lenPrev new p = 0) ∧
      ∀ xs i f e ys, kept m es = xs ++ (i, f, e) :: ys →
        ((st.cpio.data.length + (keptBytes m.archive xs).length : Nat) : Int) +
          dispAt 0 (st.offadjs ++ new) (st.cpio.data.length + (keptBytes m.archive xs).length) = e.at_ := by
  induction h with
  | done h1 h2 h3 h4 =>
    intro _ _ _ _
    refine ⟨[], by rw [h4]; simp, fun _ _ => rfl, ?_⟩
    intro xs i f e ys hk
    simp [kept] at hk
  | @step st st1 st' e es hat hs hdata _ ih =>
    intro hlen hprev hle hinv
    have hstop : st.arcOff ≤ e.stop := by unfold AEnt.stop; omega
    cases hk : keepFile m e.name e.size with
    | none =>
      obtain ⟨s1, s2, s3, s4, s5, s6⟩ := hs.skip hk
      have hkept : kept m (e :: es) = kept m es := by rw [kept_cons, hk]
      rw [alteredEntries_eq, hkept, ← alteredEntries_eq] at hlen
      rw [hkept]
      rw [s1, s4, s5, s6, hs.arcOff] at ih
      refine ih hlen hprev hle ?_
      omega
    | some p =>
      obtain ⟨i, f⟩ := p
      obtain ⟨s1, _, _, ⟨stx, x1, x2, x3, x4⟩, s6⟩ := hs.keep i f hk (keepFile_fits hf hk)
      have hkept : kept m (e :: es) = (i, f, e) :: kept m es := by rw [kept_cons, hk]
      rw [alteredEntries_eq, hkept, keptBytes_cons, ← alteredEntries_eq] at hlen
      have hA : st.cpio.data.length < 2^32 := by
        rw [List.length_append] at hlen; omega
      obtain ⟨n1, a1, a2, a3, a4⟩ := adjust_spec ho (by rw [x1, x2]; exact hle) (by rw [x1]; exact hA) x4
      rw [x1] at a3 a4
      rw [x2] at a2 a4
      rw [x3] at a1
      have hpos := alteredHeader_pos f
      have hL : st1.cpio.data.length = st.cpio.data.length + (alteredHeader f ++ alteredContent m.archive f e).length := by
        rw [s1, List.length_append]
      have hL' : st.cpio.data.length < st1.cpio.data.length := by
        rw [hL, List.length_append]; omega
      have hd1 : ∀ p, st.cpio.data.length ≤ p → dispAt 0 (st.offadjs ++ n1) p = (st.arcOff : Int) - st.cpio.data.length := by
        intro p hp
        rw [dispAt_append, Nat.zero_add, ← hprev, a4, if_pos hp,
          dispAt_const st.offadjs 0 p st.cpio.data.length (by omega) (by omega)]
        omega
      obtain ⟨new, b1, b2, b3⟩ := ih (by rw [s1]; simpa using hlen) (by rw [a2, a1, sumFst_append, hprev])
        (by omega) (by
          rw [a1, hd1 _ (by omega), s6, hs.arcOff]
          omega)
      refine ⟨n1 ++ new, by rw [b1, a1, List.append_assoc], ?_, ?_⟩
      · intro p hp
        rw [dispAt_append, a4, if_neg (by omega), ← a2, b2 p (by omega)]
        rfl
      · intro xs i' f' e' ys hx
        rw [hkept] at hx
        rw [← List.append_assoc, ← a1]
        cases xs with
        | nil =>
          simp only [List.nil_append, List.cons.injEq, Prod.mk.injEq] at hx
          obtain ⟨⟨rfl, rfl, rfl⟩, _⟩ := hx
          have : (keptBytes m.archive []).length = 0 := rfl
          rw [this, Nat.add_zero, dispAt_append, a1, hd1 _ (by omega), ← a1]
          have hz : 0 + sumFst st1.offadjs = st1.lenPrev := by rw [a2, a1, sumFst_append, hprev]; omega
          rw [hz, b2 _ hL', hat]
          omega
        | cons q xs =>
          simp only [List.cons_append, List.cons.injEq] at hx
          obtain ⟨rfl, hx⟩ := hx
          have := b3 xs i' f' e' ys hx
          rw [hL] at this
          rw [keptBytes_cons]
          have e2 : st.cpio.data.length + (alteredHeader f ++ alteredContent m.archive f e ++ keptBytes m.archive xs).length =
            st.cpio.data.length + (alteredHeader f ++ alteredContent m.archive f e).length + (keptBytes m.archive xs).length := by
            rw [List.length_append]; omega
          rw [e2]
          exact this

end Drpm
