import Verif.Check
/-! Helper lemmas about the file checks. -/

namespace Drpm

theorem readStep_some {rest : Bytes} {cap : Nat} {r : Option Nat} {b : Bytes} (h : readStep rest cap r = some b) :
    ∃ n, b = rest.take n ∧ n ≤ cap ∧ (0 < cap → 1 ≤ n) := by
  unfold readStep at h
  cases r with
  | none => cases h
  | some k =>
    simp only [Option.map_some, Option.some.injEq] at h
    exact ⟨min cap (max 1 k), h.symm, by omega, by omega⟩

/-- What the loop hashes. -/
theorem hashLoop_spec (reads : Nat → Option Nat) : ∀ fuel k rest filesize acc, filesize < fuel →
    ∃ p failed, hashLoop reads fuel k rest filesize acc = .ok (acc ++ p, failed) ∧ p <+: rest.take filesize ∧
      (failed = false → p = rest.take filesize) ∧ ((∀ j, reads j ≠ none) → failed = false) := by
  intro fuel
  induction fuel with
  | zero => intro k rest fs acc h; omega
  | succ fuel ih =>
    intro k rest fs acc hf
    rw [hashLoop]
    by_cases h0 : fs > 0
    rotate_left
    · rw [if_neg h0]
      have : fs = 0 := by omega
      subst this
      exact ⟨[], false, by simp, by simp, fun _ => by simp, fun _ => rfl⟩
    · rw [if_pos h0]
      rcases hr : readStep rest bufferSize (reads k) with _ | b
      · refine ⟨[], true, by simp, by simp, (fun h => by cases h), fun h => ?_⟩
        exfalso
        unfold readStep at hr
        rw [Option.map_eq_none_iff] at hr
        exact h k hr
      · obtain ⟨n, hb, hn1, hn2⟩ := readStep_some hr
        have hn2 := hn2 (by decide)
        simp only
        by_cases hlen : b.length > 0
        · rw [if_pos hlen]
          have hbl : b.length = min n rest.length := by rw [hb, List.length_take]
          generalize hm : (if b.length > fs then fs else b.length) = m
          have hme : m = min fs b.length := by rw [← hm]; split <;> omega
          have hbt : b.take m = rest.take m := by
            rw [hb, List.take_take]; congr 1; omega
          obtain ⟨p, failed, e1, e2, e3, e4⟩ := ih (k + 1) (rest.drop b.length) (fs - m) (acc ++ b.take m) (by omega)
          have hsplit : rest.take fs = rest.take m ++ (rest.drop b.length).take (fs - m) := by
            by_cases hc : b.length ≤ fs
            · have : m = b.length := by omega
              rw [this, show fs = b.length + (fs - b.length) by omega, List.take_add]
              simp
            · have : m = fs := by omega
              rw [this]; simp
          refine ⟨b.take m ++ p, failed, ?_, ?_, ?_, e4⟩
          · rw [e1, List.append_assoc]
          · rw [hsplit, hbt]
            exact List.prefix_append_right_inj _ |>.mpr e2
          · intro hfail
            rw [e3 hfail, hsplit, hbt]
        · rw [if_neg hlen]
          have hb0 : b = [] := List.length_eq_zero_iff.mp (by omega)
          have hrest : rest = [] := by
            rw [hb0] at hb
            cases rest with
            | nil => rfl
            | cons x xs => cases n with
              | zero => omega
              | succ n => simp at hb
          refine ⟨[], false, by simp, by simp, fun _ => by simp [hrest], fun _ => rfl⟩

theorem fullRest_spec (sys : Sys) (name : Bytes) (algo : Nat) (digest : Bytes) (n k : Nat) (rest : Bytes) (filesize : Nat)
    (acc : Bytes) : ∃ p, fullRest sys name algo digest n k rest filesize acc = compareDigest sys algo digest (acc ++ p) n ∧
      p <+: rest.take filesize ∧ ((∀ j, sys.reads name j ≠ none) → p = rest.take filesize) := by
  obtain ⟨p, failed, e1, e2, e3, e4⟩ := hashLoop_spec (sys.reads name) (filesize + 1) k rest filesize acc (by omega)
  refine ⟨p, ?_, e2, fun h => e3 (e4 h)⟩
  unfold fullRest
  rw [e1, Out.bind_ok]

theorem compareDigest_eq {sys : Sys} {algo n : Nat} {digest : Bytes} (data : Bytes) (hd : digest.length = n)
    (hs : (sys.digest algo data).length = n) :
    compareDigest sys algo digest data n = if sys.digest algo data = digest then .ok () else .err .mismatch := by
  unfold compareDigest
  rw [rdBlk_ok (by omega), Out.bind_ok, List.take_of_length_le (by omega)]
  have : slice digest 0 n = digest := by rw [← hd]; exact slice_all digest
  rw [this]
  by_cases h : sys.digest algo data = digest
  · rw [if_neg (by simp [h]), if_pos h]
  · rw [if_pos h, if_neg h]

theorem isPrelinked_not_elf {file : Bytes} (n : Nat) (h : file.take 4 ≠ [0x7F, 0x45, 0x4C, 0x46]) :
    isPrelinked file (file.take n) = .ok false := by
  unfold isPrelinked
  rw [if_pos]
  by_cases hn : n < 4
  · left; rw [List.length_take]; omega
  · right
    rw [List.take_take, show min 4 n = 4 by omega]
    exact h

end Drpm
