import Verif.DiffWrap
/-!
# C03: positions and lengths never wrap around while two payloads are compared
-/

namespace Drpm

/-- C03: carried out in the arithmetic of a 64-bit `size_t`, in which a difference below zero or a
    sum of 2^64 and more would silently become another number, the comparison of any two payloads
    yields exactly what it yields over the natural numbers, about which the other theorems speak.
    A new payload has at least 16 bytes (`C03_violated`) and memory objects have less than 2^63. -/
theorem C03_no_wraparound (old new : Bytes) (addblk : Bool) (hn : 16 ≤ new.length)
    (hnew : new.length < 2^63) (hold : old.length < 2^63) :
    makeDiffW old new addblk = makeDiff old new addblk := by
  unfold makeDiffW makeDiff makeDiffWith
  obtain ⟨h, hh, hk⟩ := hashCreate_ok old
  rw [hh, Out.bind_ok, Out.bind_ok]
  rw [diffLoopW_eq _ old new addblk (hashSearch_SearchOK h old new hk hn (by omega)) _ _
    ⟨by simp, by simp, by simp⟩ hold hnew]

/-- C03: for an empty new payload nothing is searched and nothing is recorded, in either
    arithmetic; together with the other theorems this settles every length. -/
theorem C03_empty (old : Bytes) (addblk : Bool) :
    makeDiff old [] addblk = .ok ⟨[], [], [], [], []⟩ ∧ makeDiffW old [] addblk = makeDiff old [] addblk := by
  unfold makeDiffW makeDiff makeDiffWith
  obtain ⟨h, hh, _⟩ := hashCreate_ok old
  have e1 : diffLoop (hashSearch h old []) old [] addblk (diffFuel 0) ⟨0, 0, 0, 0, 0⟩ = .ok ([], []) := by
    unfold diffFuel diffLoop; simp
  have e2 : diffLoopW (hashSearch h old []) old [] addblk (diffFuel 0) ⟨0, 0, 0, 0, 0⟩ = .ok ([], []) := by
    unfold diffFuel diffLoopW; simp
  rw [hh, Out.bind_ok, Out.bind_ok]
  simp only [List.length_nil, e1, e2, Out.bind_ok]
  exact ⟨rfl, trivial⟩

/-- The arithmetic does differ where a difference goes below zero. -/
example : sub64 3 5 = 2^64 - 2 ∧ sub64 5 3 = 2 ∧ add64 (2^64 - 1) 2 = 1 := by decide

/-- The hypotheses hold for a comparison with an empty old payload and with a longer one. -/
example : 16 ≤ (List.replicate 40 (7 : UInt8)).length ∧
    (List.replicate 40 (7 : UInt8)).length < 2^63 ∧ (List.replicate 100 (7 : UInt8)).length < 2^63 := by
  decide

end Drpm
