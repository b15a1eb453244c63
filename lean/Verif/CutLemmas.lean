import Verif.FormatLemmas

/-!
# Reading a prefix

What the reader of deltas does with a prefix of something it accepts: if all that was used is there, the
same; otherwise it stops with an error.
-/

namespace Drpm

/-- A reader that uses the front of its input: with the same front it does the same whatever follows, and
    with less than the front it stops with `DRPM_ERR_FORMAT`. -/
def Tight {α : Type} (p : P α) : Prop :=
  ∀ s a r, p s = .ok (a, r) → ∃ c, s = c ++ r ∧ (∀ t, p (c ++ t) = .ok (a, t)) ∧
    ∀ c' x, c = c' ++ x → x ≠ [] → p c' = .err .format

namespace Tight

theorem pure {α : Type} (a : α) : Tight (Pure.pure a : P α) := by
  intro s b r h
  rw [P.pure_run] at h
  cases h
  refine ⟨[], rfl, fun t => rfl, fun c' x h hx => ?_⟩
  exact absurd (List.append_eq_nil_iff.mp h.symm).2 hx

theorem fail {α : Type} (e : Err) : Tight (P.fail e : P α) := by
  intro s b r h; cases h

theorem ub {α : Type} : Tight (P.ub : P α) := by
  intro s b r h; cases h

theorem bind {α β : Type} {p : P α} {f : α → P β} (hp : Tight p) (hf : ∀ a, Tight (f a)) : Tight (p >>= f) := by
  intro s b r h
  rw [P.bind_run, Out.bind_eq_ok] at h
  obtain ⟨⟨a, r1⟩, h1, h2⟩ := h
  obtain ⟨c1, e1, f1, g1⟩ := hp s a r1 h1
  obtain ⟨c2, e2, f2, g2⟩ := hf a r1 b r h2
  refine ⟨c1 ++ c2, by rw [e1, e2, List.append_assoc], fun t => ?_, fun c' x hc hx => ?_⟩
  · rw [P.bind_run, List.append_assoc, f1, Out.bind_ok]
    exact f2 t
  · rw [P.bind_run]
    rcases List.append_eq_append_iff.mp hc with ⟨m, k1, k2⟩ | ⟨m, k1, k2⟩
    · rw [k1, f1, Out.bind_ok]
      exact g2 m x k2 hx
    · by_cases hm : m = []
      · subst hm
        rw [List.append_nil] at k1
        rw [List.nil_append] at k2
        subst k1
        rw [show c1 = c1 ++ [] by simp, f1, Out.bind_ok]
        exact g2 [] x (by rw [k2]; rfl) hx
      · rw [g1 c' m k1 hm, Out.bind_err]

/-- A value that does not depend on the input. -/
theorem lift {α : Type} (o : Out α) : Tight (fun s => o >>= fun v => .ok (v, s) : P α) := by
  cases o with
  | ok a => exact Tight.pure a
  | err e => exact Tight.fail e
  | ub => exact Tight.ub
  | loop => intro s b r h; cases h

theorem ite {α : Type} {c : Prop} [Decidable c] {p q : P α} (hp : Tight p) (hq : Tight q) :
    Tight (if c then p else q) := by
  split
  · exact hp
  · exact hq

end Tight

theorem tight_rdN (n : Nat) : Tight (rdN n) := by
  intro s a r h
  unfold rdN at h
  split at h
  · rename_i hn
    cases h
    refine ⟨s.take n, (List.take_append_drop n s).symm, fun t => ?_, fun c' x hc hx => ?_⟩
    · have hl : (s.take n).length = n := by rw [List.length_take]; omega
      unfold rdN
      rw [if_pos (by rw [List.length_append]; omega), List.take_append_of_le_length (by omega),
        List.take_of_length_le (by omega), List.drop_append_of_le_length (by omega),
        List.drop_of_length_le (by omega), List.nil_append]
    · have hl := congrArg List.length hc
      rw [List.length_take, List.length_append] at hl
      have := List.length_pos_iff.mpr hx
      unfold rdN
      rw [if_neg (by omega)]
  · cases h

theorem tight_rdBe32 : Tight rdBe32 :=
  Tight.bind (f := fun b s => be32At b >>= fun v => .ok (v, s)) (tight_rdN 4) (fun b => Tight.lift _)

theorem tight_rdBe64 : Tight rdBe64 :=
  Tight.bind (f := fun b s => be64At b >>= fun v => .ok (v, s)) (tight_rdN 8) (fun b => Tight.lift _)

theorem tight_rdInto (cap n : Nat) : Tight (rdInto cap n) :=
  (tight_rdN n).bind (fun b => Tight.ite (Tight.pure b) Tight.ub)

theorem tight_rdNevr (len : Nat) : Tight (rdNevr len) :=
  (tight_rdInto _ len).bind (fun b => Tight.ite (Tight.pure _) Tight.ub)

theorem tight_rdElems (cap : Nat) (conv : Nat → Nat) : ∀ n i, Tight (rdElems cap conv n i)
  | 0, _ => Tight.pure _
  | n + 1, i => tight_rdBe32.bind fun v => (Tight.ite (Tight.pure ()) Tight.ub).bind fun _ =>
      (tight_rdElems cap conv n (i + 2)).bind fun rest => Tight.pure _

theorem tight_rdPairs (count : Nat) (a b : Nat → Nat) : Tight (rdPairs count a b) :=
  (tight_rdElems _ _ _ _).bind fun _ => (tight_rdElems _ _ _ _).bind fun _ => Tight.pure _

theorem tight_rdBuf : Tight rdBuf := tight_rdBe32.bind fun n => tight_rdInto n n

theorem tight_rdV3 (d : Delta) : Tight (rdV3 d) :=
  Tight.ite (tight_rdBe32.bind fun _ => tight_rdBe32.bind fun _ => (tight_rdPairs _ _ _).bind fun _ => Tight.pure _)
    (Tight.pure _)

theorem tight_rdTgtComp (c : Nat) : Tight (rdTgtComp c) := by
  unfold rdTgtComp
  split
  · exact Tight.fail _
  · exact Tight.pure _

theorem tight_rdV2 (d : Delta) : Tight (rdV2 d) :=
  Tight.ite (tight_rdBe32.bind fun _ => tight_rdBe32.bind fun _ => (tight_rdTgtComp _).bind fun _ =>
    tight_rdBuf.bind fun _ => tight_rdV3 _) (Tight.pure _)

theorem tight_rdVersion (t : DType) : Tight (rdVersion t) :=
  tight_rdBe32.bind fun _ => Tight.ite (Tight.fail _) (Tight.ite (Tight.fail _) (Tight.pure _))

theorem tight_rdSequence (t : DType) : Tight (rdSequence t) :=
  tight_rdBe32.bind fun _ => Tight.ite (Tight.fail _) (tight_rdInto _ _)

theorem tight_rdLeadsig : Tight rdLeadsig :=
  tight_rdBe32.bind fun _ => Tight.ite (Tight.fail _) (tight_rdInto _ _)

theorem tight_rdLen (v : Nat) : Tight (rdLen v) := Tight.ite tight_rdBe64 tight_rdBe32

theorem tight_rdAdd (t : DType) (keep : Bytes) : Tight (rdAdd t keep) :=
  tight_rdBe32.bind fun _ => Tight.ite (Tight.ite (Tight.fail _) (tight_rdInto _ _)) (Tight.pure _)

theorem tight_rdChecks (d : Delta) : Tight (rdChecks d) :=
  Tight.ite (Tight.ite (Tight.pure _) (Tight.fail _)) (Tight.fail _)

theorem tight_rdPart1 (d : Delta) : Tight (rdPart1 d) :=
  (tight_rdVersion _).bind fun _ => tight_rdBe32.bind fun _ => (tight_rdNevr _).bind fun _ =>
    (tight_rdSequence _).bind fun _ => (tight_rdInto _ _).bind fun _ => Tight.pure _

theorem tight_rdPart3 (d : Delta) : Tight (rdPart3 d) :=
  (Tight.ite (Tight.fail _) (Tight.pure _) : Tight (rdHeaderGuard d)).bind fun _ => tight_rdLeadsig.bind fun _ =>
    tight_rdBe32.bind fun _ => tight_rdBe32.bind fun _ => tight_rdBe32.bind fun _ =>
      (tight_rdPairs _ _ _).bind fun _ => (tight_rdPairs _ _ _).bind fun _ => Tight.pure _

theorem tight_rdPart4 (d : Delta) : Tight (rdPart4 d) :=
  (tight_rdLen _).bind fun _ => (tight_rdAdd _ _).bind fun _ => (tight_rdLen _).bind fun _ =>
    (tight_rdInto _ _).bind fun _ => Tight.pure _

theorem tight_rdRest (d : Delta) : Tight (rdRest d) :=
  (tight_rdPart1 d).bind fun _ => (tight_rdV2 _).bind fun _ => (tight_rdPart3 _).bind fun _ =>
    (tight_rdPart4 _).bind fun _ => tight_rdChecks _

theorem tight_sysRead (cap n : Nat) : Tight (sysRead cap n) := by
  intro s a r h
  unfold sysRead at h
  split at h
  · cases h
  rename_i h1
  split at h
  · cases h
  rename_i h2
  have h2 := Classical.byContradiction h2
  cases h
  refine ⟨s.take n, (List.take_append_drop n s).symm, fun t => ?_, fun c' x hc hx => ?_⟩
  · have hl : (s.take n).length = n := by rw [List.length_take]; omega
    unfold sysRead
    rw [List.length_append, if_neg (by omega), if_neg (by omega), List.take_append_of_le_length (by omega),
      List.take_of_length_le (by omega), List.drop_append_of_le_length (by omega),
      List.drop_of_length_le (by omega), List.nil_append]
  · have hl := congrArg List.length hc
    rw [List.length_take, List.length_append] at hl
    have := List.length_pos_iff.mpr hx
    unfold sysRead
    rw [if_neg (by omega), if_pos (by omega)]

theorem tight_fileBe32 : Tight fileBe32 :=
  Tight.bind (f := fun b s => be32At b >>= fun v => .ok (v, s)) (tight_sysRead 4 4) (fun b => Tight.lift _)

theorem tight_fileNevr (len : Nat) : Tight (fileNevr len) :=
  (tight_sysRead _ len).bind (fun b => Tight.ite (Tight.pure _) Tight.ub)

theorem tight_rdRpmonlyHead (d : Delta) : Tight (rdRpmonlyHead d) :=
  (tight_fileBe32.bind fun _ => Tight.ite (Tight.fail _) (Tight.pure _) : Tight fileVersion).bind fun _ =>
    tight_fileBe32.bind fun _ => (tight_fileNevr _).bind fun _ => tight_fileBe32.bind fun _ =>
      (tight_sysRead _ _).bind fun _ => Tight.pure _

/-- A prefix of what a tight reader accepts is refused or gives the same value; in the second case what is
    left of the prefix is a prefix of what was left. -/
theorem Tight.prefix {α : Type} {p : P α} (hp : Tight p) {s s' r : Bytes} {a : α} (h : p s = .ok (a, r)) (hs : s' <+: s) :
    (s'.length < s.length - r.length ∧ p s' = .err .format) ∨
      (s.length - r.length ≤ s'.length ∧ ∃ r', r' <+: r ∧ s'.length + r.length = s.length + r'.length ∧ p s' = .ok (a, r')) := by
  obtain ⟨c, e, f, g⟩ := hp s a r h
  obtain ⟨x, hx⟩ := hs
  rw [e] at hx
  have hl : s.length - r.length = c.length := by rw [e, List.length_append]; omega
  rcases List.append_eq_append_iff.mp hx with ⟨m, k1, k2⟩ | ⟨m, k1, k2⟩
  · by_cases hm : m = []
    · subst hm
      rw [List.append_nil] at k1
      subst k1
      exact Or.inr ⟨by omega, [], List.nil_prefix, by rw [e, List.length_append, List.length_nil]; omega,
        by have := f []; rwa [List.append_nil] at this⟩
    · have := List.length_pos_iff.mpr hm
      have hc := congrArg List.length k1
      rw [List.length_append] at hc
      exact Or.inl ⟨by omega, g s' m k1 hm⟩
  · refine Or.inr ⟨by rw [hl, k1, List.length_append]; omega, m, ⟨x, k2.symm⟩, by rw [k1, e, List.length_append, List.length_append]; omega, ?_⟩
    rw [k1]
    exact f m

end Drpm
