import Verif.Prelink
import Verif.UtilsLemmas
import Verif.Props.Encoding
/-! Helper lemmas about the prelink detection. -/

namespace Drpm

/-- The number that a byte string denotes, least significant byte first. -/
def littleEndianValue (bs : Bytes) : Nat := bs.foldr (fun b acc => b.toNat + 256 * acc) 0

/-- The number that a field of an ELF file denotes, by the byte order of the file. -/
def elfValue (le : Bool) (bs : Bytes) : Nat := if le then littleEndianValue bs else bigEndianValue bs

theorem slice_two {b : Bytes} {i : Nat} (h : i + 2 ≤ b.length) : slice b i 2 = [b[i], b[i+1]] := by
  unfold slice
  rw [List.drop_eq_getElem_cons (by omega), List.drop_eq_getElem_cons (by omega)]
  rfl

theorem slice_four {b : Bytes} {i : Nat} (h : i + 4 ≤ b.length) :
    slice b i 4 = [b[i], b[i+1], b[i+2], b[i+3]] := by
  unfold slice
  rw [List.drop_eq_getElem_cons (by omega), List.drop_eq_getElem_cons (by omega),
    List.drop_eq_getElem_cons (by omega), List.drop_eq_getElem_cons (by omega)]
  rfl

theorem or_shift (k a b : Nat) (h : a < 2^k) : a ||| b <<< k = a + b * 2^k := by
  rw [Nat.or_comm, ← Nat.shiftLeft_add_eq_or_of_lt h, Nat.shiftLeft_eq, Nat.add_comm]

theorem elf16_ok {b : Bytes} {i : Nat} (le : Bool) (h : i + 2 ≤ b.length) :
    elf16 b i le = .ok (elfValue le (slice b i 2)) := by
  unfold elf16
  rw [rd_ok (by omega), Out.bind_ok, rd_ok (by omega), Out.bind_ok, slice_two h]
  cases le
  · simp [elfValue, parseBe16_val, bigEndianValue]
  · have := u8_lt b[i]
    simp only [elfValue, littleEndianValue, if_true, List.foldr]
    rw [or_shift 8 _ _ (by omega)]
    congr 1; omega

theorem elf32_ok {b : Bytes} {i : Nat} (le : Bool) (h : i + 4 ≤ b.length) :
    elf32 b i le = .ok (elfValue le (slice b i 4)) := by
  unfold elf32
  rw [rd_ok (by omega), Out.bind_ok, rd_ok (by omega), Out.bind_ok, rd_ok (by omega), Out.bind_ok,
    rd_ok (by omega), Out.bind_ok, slice_four h]
  have h0 := u8_lt b[i]
  have h1 := u8_lt b[i+1]
  have h2 := u8_lt b[i+2]
  cases le
  · simp only [elfValue, parseBe32_val, bigEndianValue, List.foldl]
    refine congrArg Out.ok ?_
    rw [if_neg (by decide), if_neg (by decide)]
    omega
  · simp only [elfValue, littleEndianValue, if_true, List.foldr]
    rw [or_shift 8 _ _ (by omega), or_shift 16 _ _ (by omega), or_shift 24 _ _ (by omega)]
    congr 1; omega

theorem foldl_be (m : Bytes) : ∀ a, m.foldl (fun acc b => acc * 256 + b.toNat) a =
    a * 256 ^ m.length + bigEndianValue m := by
  induction m with
  | nil => intro a; simp [bigEndianValue]
  | cons x m ih =>
    intro a
    have e : bigEndianValue (x :: m) = x.toNat * 256 ^ m.length + bigEndianValue m := by
      show m.foldl _ (0 * 256 + x.toNat) = _
      rw [ih, Nat.zero_mul, Nat.zero_add]
    rw [List.foldl_cons, ih, e, List.length_cons, Nat.pow_succ,
      Nat.add_mul, Nat.mul_assoc, Nat.mul_comm 256]
    omega

theorem bigEndianValue_append (l m : Bytes) :
    bigEndianValue (l ++ m) = bigEndianValue l * 256 ^ m.length + bigEndianValue m := by
  rw [bigEndianValue, List.foldl_append, foldl_be]
  rfl

theorem littleEndianValue_append (l m : Bytes) :
    littleEndianValue (l ++ m) = littleEndianValue l + 256 ^ l.length * littleEndianValue m := by
  induction l with
  | nil => simp [littleEndianValue]
  | cons x l ih =>
    have e : ∀ l : Bytes, littleEndianValue (x :: l) = x.toNat + 256 * littleEndianValue l := fun l => rfl
    rw [List.cons_append, e, e, ih, List.length_cons, Nat.pow_succ, Nat.mul_add, Nat.mul_comm _ 256, Nat.mul_assoc]
    omega

theorem bigEndianValue_lt (l : Bytes) : bigEndianValue l < 256 ^ l.length := by
  induction l with
  | nil => simp [bigEndianValue]
  | cons x l ih =>
    have := u8_lt x
    rw [bigEndianValue, List.foldl_cons, foldl_be, List.length_cons, Nat.pow_succ, Nat.zero_mul, Nat.zero_add]
    have : x.toNat * 256 ^ l.length ≤ 255 * 256 ^ l.length := Nat.mul_le_mul_right _ (by omega)
    omega

theorem littleEndianValue_lt (l : Bytes) : littleEndianValue l < 256 ^ l.length := by
  induction l with
  | nil => simp [littleEndianValue]
  | cons x l ih =>
    have e : littleEndianValue (x :: l) = x.toNat + 256 * littleEndianValue l := rfl
    have := u8_lt x
    rw [e, List.length_cons, Nat.pow_succ]
    omega

theorem elfValue_lt (le : Bool) (l : Bytes) : elfValue le l < 256 ^ l.length := by
  cases le
  · simpa [elfValue] using bigEndianValue_lt l
  · simpa [elfValue] using littleEndianValue_lt l

/-- What `elf64` gives for a field of the class's width. -/
def elf64Value (le is64 : Bool) (v : Nat) : Nat :=
  if is64 ∧ 2^32 ≤ v then 2^64 - 1
  else if le ∧ 2^31 ≤ v then v + (2^64 - 2^32) else v

theorem elfLow_ok {b : Bytes} {i : Nat} (le : Bool) (h : i + 4 ≤ b.length) :
    elfLow b i le = .ok (elf64Value le false (elfValue le (slice b i 4))) := by
  unfold elfLow
  rw [elf32_ok le h, Out.bind_ok]
  unfold elf64Value
  cases le <;> simp

theorem elf64_ok {b : Bytes} {i : Nat} (le is64 : Bool) (h : i + (if is64 then 8 else 4) ≤ b.length) :
    elf64 b i le is64 = .ok (elf64Value le is64 (elfValue le (slice b i (if is64 then 8 else 4)))) := by
  cases is64
  · simp only [Bool.false_eq_true, if_false] at h ⊢
    simp only [elf64, Bool.false_eq_true, if_false]
    exact elfLow_ok le h
  · simp only [if_true] at h ⊢
    simp only [elf64, if_true]
    rw [elf32_ok le (by split <;> omega), Out.bind_ok]
    have hs : slice b i 8 = slice b i 4 ++ slice b (i + 4) 4 := (slice_append_slice b i 4 4).symm
    have hl := elfValue_lt le (slice b i 4)
    have hh := elfValue_lt le (slice b (i + 4) 4)
    rw [slice_length (by omega)] at hl hh
    cases le
    · simp only [elfValue, Bool.false_eq_true, if_false] at hl hh ⊢
      have e : bigEndianValue (slice b i 8) = bigEndianValue (slice b i 4) * 2^32 + bigEndianValue (slice b (i+4) 4) := by
        rw [hs, bigEndianValue_append, slice_length (by omega)]
      by_cases hz : bigEndianValue (slice b i 4) = 0
      · rw [if_neg (by simp [hz]), elfLow_ok false (by omega)]
        simp only [elfValue, elf64Value, Bool.false_eq_true, if_false, false_and, true_and, e]
        rw [if_neg (by omega)]
        refine congrArg _ ?_
        omega
      · rw [if_pos hz]
        simp only [elf64Value, true_and, e]
        rw [if_pos (by omega)]
    · simp only [elfValue, if_true] at hl hh ⊢
      have e : littleEndianValue (slice b i 8) = littleEndianValue (slice b i 4) + 2^32 * littleEndianValue (slice b (i+4) 4) := by
        rw [hs, littleEndianValue_append, slice_length (by omega)]
      by_cases hz : littleEndianValue (slice b (i+4) 4) = 0
      · rw [if_neg (by simp [hz]), elfLow_ok true (by omega)]
        rw [hz, Nat.mul_zero, Nat.add_zero] at e
        simp only [elfValue, if_true, e]
        generalize littleEndianValue (slice b i 4) = v at *
        unfold elf64Value
        rw [if_neg (c := _ ∧ _) (by simp), if_neg (c := _ ∧ 2^32 ≤ v) (by omega)]
      · rw [if_pos hz]
        simp only [elf64Value, true_and, e]
        rw [if_pos (by omega)]

theorem preadAll_some {file : Bytes} {n off : Nat} (h : off + n ≤ file.length) (hf : file.length ≤ 0x7ffff000) :
    preadAll file n off = some (slice file off n) := by
  unfold preadAll
  rw [if_neg (by omega), if_pos (by omega)]
  rfl

theorem preadAll_none {file : Bytes} {n off : Nat} (h : file.length < off + n) (h0 : 0 < n) :
    preadAll file n off = none := by
  unfold preadAll
  split
  · rfl
  · rw [if_neg (by omega)]

/-- The search among the section names. -/
theorem undoLoop_ok (sects str : Bytes) (ssiz : Nat) (le : Bool) (hs : 4 ≤ ssiz) :
    ∀ n i, (i + n) * ssiz ≤ sects.length →
      ∃ b, undoLoop sects str ssiz le n i = .ok b ∧ (b = true ↔ ∃ k, i ≤ k ∧ k < i + n ∧
        elfValue le (slice sects (k * ssiz) 4) + 18 ≤ str.length ∧
        slice str (elfValue le (slice sects (k * ssiz) 4)) 18 = undoName) := by
  intro n
  induction n with
  | zero =>
    intro i _
    refine ⟨false, rfl, by simp, ?_⟩
    rintro ⟨k, h1, h2, _⟩
    omega
  | succ n ih =>
    intro i h
    have hi : i * ssiz + ssiz ≤ sects.length := by
      have : (i + 1) * ssiz ≤ (i + (n + 1)) * ssiz := Nat.mul_le_mul_right _ (by omega)
      rw [Nat.add_mul, Nat.one_mul] at this
      omega
    obtain ⟨b, hb, hiff⟩ := ih (i + 1) (by rw [show i + 1 + n = i + (n + 1) by omega]; exact h)
    rw [undoLoop, elf32_ok le (by omega), Out.bind_ok, hb]
    generalize hv : elfValue le (slice sects (i * ssiz) 4) = v
    by_cases h2 : v + 18 ≤ str.length ∧ slice str v 18 = undoName
    · rw [if_neg (by omega), if_pos h2]
      exact ⟨true, rfl, fun _ => ⟨i, Nat.le_refl _, by omega, by rw [hv]; exact h2⟩, fun _ => rfl⟩
    · rw [if_neg h2, ite_self]
      refine ⟨b, rfl, hiff.trans ⟨?_, ?_⟩⟩
      · rintro ⟨k, h1, h2, h3⟩
        exact ⟨k, by omega, by omega, h3⟩
      · rintro ⟨k, h1, h2', h3⟩
        refine ⟨k, ?_, by omega, h3⟩
        rcases Nat.eq_or_lt_of_le h1 with e | e
        · subst e; rw [hv] at h3; exact absurd h3 h2
        · exact e

end Drpm
