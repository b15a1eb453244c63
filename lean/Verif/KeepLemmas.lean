import Verif.KeepSpec
import Verif.CpioMake
/-!
# The decision of drpm_make about each entry is that of the specification
-/

namespace Drpm

theorem hasInfix_iff (needle : Bytes) : ∀ hay : Bytes, hasInfix needle hay = true ↔ Occurs needle hay := by
  intro hay
  induction hay with
  | nil =>
    unfold hasInfix
    constructor
    · intro h
      rw [List.isEmpty_iff] at h
      exact ⟨[], [], by simp [h]⟩
    · rintro ⟨a, b, h⟩
      have := congrArg List.length h
      simp only [List.length_nil, List.length_append] at this
      rw [List.isEmpty_iff, ← List.length_eq_zero_iff]
      omega
  | cons c rest ih =>
    unfold hasInfix
    rw [Bool.or_eq_true, List.isPrefixOf_iff_prefix, ih]
    constructor
    · rintro (⟨t, h⟩ | ⟨a, b, h⟩)
      · exact ⟨[], t, by simpa using h.symm⟩
      · exact ⟨c :: a, b, by simp [h]⟩
    · rintro ⟨a, b, h⟩
      cases a with
      | nil => exact Or.inl ⟨b, by simpa using h.symm⟩
      | cons x a =>
        simp only [List.cons_append, List.cons.injEq] at h
        exact Or.inr ⟨a, b, h.2⟩

theorem inMultilibDir_iff (path : Bytes) : inMultilibDir path = true ↔ InLibDir path := by
  unfold inMultilibDir InLibDir
  rw [Bool.or_eq_true, Bool.or_eq_true, hasInfix_iff, hasInfix_iff, hasInfix_iff, or_assoc]

theorem and_bit (x i : Nat) : x &&& 2^i = 0 ↔ x.testBit i = false := by
  constructor
  · intro h
    have := congrArg (fun n => n.testBit i) h
    simpa [Nat.testBit_and, Nat.testBit_two_pow_self] using this
  · intro h
    apply Nat.eq_of_testBit_eq
    intro j
    rw [Nat.testBit_and, Nat.testBit_two_pow, Nat.zero_testBit]
    by_cases hj : i = j
    · subst hj; rw [h]; rfl
    · simp [hj]

theorem or_zero (x y : Nat) : x ||| y = 0 ↔ x = 0 ∧ y = 0 := by
  constructor
  · intro h
    exact ⟨by have := Nat.left_le_or (n := x) (m := y); omega, by have := Nat.right_le_or (n := x) (m := y); omega⟩
  · rintro ⟨rfl, rfl⟩; rfl

theorem flags_iff (x : Nat) : x &&& 73 = 0 ↔ x.testBit 0 = false ∧ x.testBit 3 = false ∧ x.testBit 6 = false := by
  rw [show (73 : Nat) = 2^0 ||| (2^3 ||| 2^6) from by decide, Nat.and_or_distrib_left, Nat.and_or_distrib_left, or_zero, or_zero,
    and_bit, and_bit, and_bit]

theorem color_iff (x : Nat) : x &&& 3 = 0 ↔ x.testBit 0 = false ∧ x.testBit 1 = false := by
  rw [show (3 : Nat) = 2^0 ||| 2^1 from by decide, Nat.and_or_distrib_left, or_zero, and_bit, and_bit]

theorem samePath_iff (f : FileInfo) (path : Bytes) : (path == relName f) = true ↔ SamePath f path := by
  rw [beq_iff_eq]
  unfold SamePath relName
  split
  · rename_i rest hn
    rw [hn]
    constructor
    · rintro rfl; exact Or.inl rfl
    · rintro (h | ⟨h, h2⟩)
      · exact (List.cons.inj h).2.symm
      · rw [← h] at h2; exact absurd rfl h2
  · rename_i n hn
    constructor
    · rintro rfl
      refine Or.inr ⟨rfl, fun h => ?_⟩
      cases hf : f.name with
      | nil => rw [hf] at h; cases h
      | cons c rest =>
        rw [hf] at h
        cases h
        exact hn rest hf
    · rintro (h | ⟨h, _⟩)
      · exact absurd h (hn path)
      · exact h.symm

theorem skipReg_iff (m : MakeIn) (f : FileInfo) (name : Bytes) (size : Nat) :
    (m.unpatched name f.md5 = false ∧ skipReg m f name size = false) ↔ (size = f.size ∧ Steady m.colors m.unpatched f name) := by
  have b1 := and_bit f.verify 0
  have b2 := and_bit f.verify 1
  have b3 := flags_iff f.flags
  have b4 := color_iff f.color
  have b5 := inMultilibDir_iff name
  simp only [Nat.pow_zero, Nat.pow_one] at b1 b2
  unfold skipReg
  simp only [Bool.or_eq_false_iff, bne_eq_false_iff_eq, beq_eq_false_iff_ne, ne_eq, b1, b2, b3, Bool.and_eq_false_iff, Bool.not_eq_false',
    Bool.not_eq_false, b4, b5]
  constructor
  · rintro ⟨h0, ⟨⟨⟨h1, h2⟩, h3⟩, h4⟩, h5⟩
    refine ⟨h1, h2.1, h2.2.1, h2.2.2, h3, h4, fun hc hb => ?_, h0⟩
    rcases h5 with (h5 | h5) | h5
    · rw [hc] at h5; cases h5
    · rw [h5.1, h5.2] at hb; rcases hb with hb | hb <;> cases hb
    · exact h5
  · rintro ⟨h1, h⟩
    refine ⟨h.patches, ⟨⟨⟨h1, h.config, h.missingok, h.ghost⟩, h.digest⟩, h.length⟩, ?_⟩
    by_cases hc : m.colors = true
    · by_cases hb : f.color.testBit 0 = true ∨ f.color.testBit 1 = true
      · exact Or.inr (h.color hc hb)
      · refine Or.inl (Or.inr ?_)
        rw [not_or, Bool.not_eq_true, Bool.not_eq_true] at hb
        exact hb
    · exact Or.inl (Or.inl (by simpa using hc))

theorem keepFile_some (m : MakeIn) (path : Bytes) (size i : Nat) (f : FileInfo) :
    keepFile m path size = some (i, f) ↔ FirstAt m.files path i f ∧ Reliable m.colors m.unpatched f path size := by
  have hr : isReg f = true ↔ RegularMode f := by unfold isReg RegularMode; rw [beq_iff_eq]
  have hfirst : ∀ i f, FirstAt m.files path i f ↔ m.files.findIdx? (fun f => path == relName f) = some i ∧ m.files[i]? = some f := by
    intro i f
    unfold FirstAt
    rw [List.findIdx?_eq_some_iff_getElem]
    constructor
    · rintro ⟨h1, h2, h3⟩
      obtain ⟨hlt, hg⟩ := List.getElem?_eq_some_iff.mp h1
      refine ⟨⟨hlt, ?_, fun j hj => ?_⟩, h1⟩
      · rw [hg]; exact (samePath_iff f path).mpr h2
      · intro hc
        exact h3 j _ hj (List.getElem?_eq_getElem (by omega)) ((samePath_iff _ _).mp hc)
    · rintro ⟨⟨hlt, h2, h3⟩, h1⟩
      refine ⟨h1, ?_, fun j g hj hg hc => ?_⟩
      · obtain ⟨_, hg⟩ := List.getElem?_eq_some_iff.mp h1
        rw [hg] at h2
        exact (samePath_iff f path).mp h2
      · obtain ⟨_, hg⟩ := List.getElem?_eq_some_iff.mp hg
        have := h3 j hj
        rw [hg] at this
        exact this ((samePath_iff g path).mpr hc)
  rw [hfirst]
  unfold keepFile
  split
  · rename_i h; rw [h]; simp
  · rename_i j hj
    rw [hj]
    split
    · rename_i hg
      constructor
      · intro h; cases h
      · rintro ⟨⟨h1, h2⟩, _⟩
        cases h1
        rw [hg] at h2
        cases h2
    · rename_i g hg
      have key := skipReg_iff m g path size
      have hrg : isReg g = true ↔ RegularMode g := by unfold isReg RegularMode; rw [beq_iff_eq]
      have hdec : (¬ (isReg g && m.unpatched path g.md5) = true ∧ ¬ (isReg g && skipReg m g path size) = true) ↔
          Reliable m.colors m.unpatched g path size := by
        unfold Reliable
        rw [← hrg, ← key]
        cases isReg g <;> simp
      split
      · rename_i h1
        constructor
        · intro h; cases h
        · rintro ⟨⟨h2, h3⟩, h4⟩
          cases h2
          rw [hg] at h3
          cases h3
          exact absurd h1 (hdec.mpr h4).1
      · rename_i h1
        split
        · rename_i h2
          constructor
          · intro h; cases h
          · rintro ⟨⟨h3, h4⟩, h5⟩
            cases h3
            rw [hg] at h4
            cases h4
            exact absurd h2 (hdec.mpr h5).2
        · rename_i h2
          constructor
          · intro h
            cases h
            exact ⟨⟨rfl, hg⟩, hdec.mp ⟨h1, h2⟩⟩
          · rintro ⟨⟨h3, h4⟩, h5⟩
            cases h3
            rw [hg] at h4
            cases h4
            rfl

theorem picks_kept (m : MakeIn) : ∀ es, Picks m.colors m.unpatched m.files es ((kept m es).map (fun x => x.1)) := by
  intro es
  induction es with
  | nil => exact .done
  | cons e es ih =>
    rw [kept_cons]
    cases hk : keepFile m e.name e.size with
    | none =>
      refine .leave (fun i f h1 h2 => ?_) ih
      have := (keepFile_some m e.name e.size i f).mpr ⟨h1, h2⟩
      rw [hk] at this
      cases this
    | some x =>
      obtain ⟨i, f⟩ := x
      have := (keepFile_some m e.name e.size i f).mp hk
      exact .take this.1 this.2 ih

end Drpm
