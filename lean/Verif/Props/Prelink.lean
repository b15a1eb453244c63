import Verif.PrelinkLemmas
import Verif.Props.Cpio
/-!
# C39: prelink detection
-/

namespace Drpm

/-! ## Specification: what an ELF file says about its sections (System V ABI, chapter 4) -/

/-- `e_ident[EI_CLASS]` is ELFCLASS64. -/
def elfIs64 (file : Bytes) : Bool := file[4]? == some 2

/-- `e_ident[EI_DATA]` is not ELFDATA2MSB. -/
def elfIsLe (file : Bytes) : Bool := file[5]? != some 2

/-- The number in a field of `n` bytes. -/
def elfField (file : Bytes) (pos n : Nat) : Nat := elfValue (elfIsLe file) (slice file pos n)

/-- A field whose place and width depend on the class: `a`, 4 bytes, or `b`, 8 bytes. -/
def elfWide (file : Bytes) (a b : Nat) : Nat := if elfIs64 file then elfField file b 8 else elfField file a 4

/-- The file starts with a complete ELF header. -/
def IsElf (file : Bytes) : Prop :=
  file.take 4 = [0x7F, 0x45, 0x4C, 0x46] ∧ (if elfIs64 file then 64 else 52) ≤ file.length

/-- `e_shoff`, `e_shentsize`, `e_shnum`, `e_shstrndx`. -/
def shOff (file : Bytes) : Nat := elfWide file 32 40
def shEntSize (file : Bytes) : Nat := elfField file (if elfIs64 file then 58 else 46) 2
def shNum (file : Bytes) : Nat := elfField file (if elfIs64 file then 60 else 48) 2
def shStrNdx (file : Bytes) : Nat := elfField file (if elfIs64 file then 62 else 50) 2

/-- Where the header of section `i` is. -/
def shPos (file : Bytes) (i : Nat) : Nat := shOff file + i * shEntSize file

/-- `sh_name`, `sh_type`, `sh_offset`, `sh_size` of section `i`. -/
def shName (file : Bytes) (i : Nat) : Nat := elfField file (shPos file i) 4
def shType (file : Bytes) (i : Nat) : Nat := elfField file (shPos file i + 4) 4
def shStart (file : Bytes) (i : Nat) : Nat := elfWide file (shPos file i + 16) (shPos file i + 24)
def shSize (file : Bytes) (i : Nat) : Nat := elfWide file (shPos file i + 20) (shPos file i + 32)

/-- There is a table of section headers, inside the file, with an entry for the section names. -/
def HasSections (file : Bytes) : Prop :=
  (if elfIs64 file then 64 else 40) ≤ shEntSize file ∧ shEntSize file < 32768 ∧
  shStrNdx file < shNum file ∧ shOff file + shNum file * shEntSize file ≤ file.length

/-- The section names are in a string table (type 3) with a place that fits 32 bits (all ones are
    excluded in little-endian files) and a size that fits 31 bits. -/
def NamesUsable (file : Bytes) : Prop :=
  shType file (shStrNdx file) = 3 ∧
  shStart file (shStrNdx file) < 2^32 - (if elfIsLe file then 1 else 0) ∧
  shSize file (shStrNdx file) < 2^31

/-- ".gnu.prelink_undo" and the NUL that ends it. -/
def prelinkUndo : Bytes := ".gnu.prelink_undo".toUTF8.toList ++ [0]

/-- Some section is called ".gnu.prelink_undo". -/
def HasUndoSection (file : Bytes) : Prop :=
  IsElf file ∧ HasSections file ∧
  shStart file (shStrNdx file) + shSize file (shStrNdx file) ≤ file.length ∧
  ∃ i, i < shNum file ∧ shName file i + 18 ≤ shSize file (shStrNdx file) ∧
    slice file (shStart file (shStrNdx file) + shName file i) 18 = prelinkUndo

/-! ## Proofs -/

theorem undoName_eq : undoName = prelinkUndo := by decide +kernel

theorem elf64Value_small {le is64 : Bool} {v : Nat} (h : v < 2^31) : elf64Value le is64 v = v := by
  unfold elf64Value
  rw [if_neg (by omega), if_neg (by omega)]

theorem elfValue_slice_lt (le : Bool) (b : Bytes) (i n : Nat) : elfValue le (slice b i n) < 256 ^ n := by
  refine Nat.lt_of_lt_of_le (elfValue_lt _ _) (Nat.pow_le_pow_right (by omega) ?_)
  simp only [slice, List.length_take]; omega

theorem elfWide_lt (file : Bytes) (a b : Nat) : elfWide file a b < 2^64 := by
  unfold elfWide elfField
  split
  · exact elfValue_slice_lt _ _ _ _
  · exact Nat.lt_trans (elfValue_slice_lt _ _ _ _) (by decide)

theorem elfWide_lt32 (file : Bytes) (a b : Nat) (h : elfIs64 file = false) : elfWide file a b < 2^32 := by
  unfold elfWide elfField
  rw [h]
  exact elfValue_slice_lt _ _ _ _

/-- Reading a field of the class's width from a part of the file. -/
theorem elf64_part {file part : Bytes} {base i a b : Nat} (hp : part = slice file base part.length)
    (ha : base + i = if elfIs64 file then b else a)
    (h : i + (if elfIs64 file then 8 else 4) ≤ part.length) :
    elf64 part i (elfIsLe file) (elfIs64 file) =
      .ok (elf64Value (elfIsLe file) (elfIs64 file) (elfWide file a b)) := by
  rw [elf64_ok _ _ h, hp, slice_slice _ _ _ _ _ h]
  unfold elfWide elfField
  cases h64 : elfIs64 file
  · rw [h64] at ha; simp only [Bool.false_eq_true, if_false] at ha ⊢; rw [ha]
  · rw [h64] at ha; simp only [if_true] at ha ⊢; rw [ha]

theorem elf16_part {file part : Bytes} {base i pos : Nat} (hp : part = slice file base part.length)
    (ha : base + i = pos) (h : i + 2 ≤ part.length) :
    elf16 part i (elfIsLe file) = .ok (elfField file pos 2) := by
  rw [elf16_ok _ h, hp, slice_slice _ _ _ _ _ h, ha]
  rfl

theorem elf32_part {file part : Bytes} {base i pos : Nat} (hp : part = slice file base part.length)
    (ha : base + i = pos) (h : i + 4 ≤ part.length) :
    elf32 part i (elfIsLe file) = .ok (elfField file pos 4) := by
  rw [elf32_ok _ h, hp, slice_slice _ _ _ _ _ h, ha]
  rfl

theorem names_cond {le is64 : Bool} {v z : Nat} (hv : v < 2^64) (hz : z < 2^64) (hv' : is64 = false → v < 2^32)
    (hz' : is64 = false → z < 2^32) :
    (elf64Value le is64 v = 2^64 - 1 ∨ elf64Value le is64 z % 2^32 = 2^32 - 1 ∨ 2^31 ≤ elf64Value le is64 z % 2^32) ↔
    ¬ (v < 2^32 - (if le then 1 else 0) ∧ z < 2^31) := by
  unfold elf64Value
  cases is64
  · have hv' := hv' rfl
    have hz' := hz' rfl
    cases le
    · simp only [Bool.false_eq_true, false_and, if_false]; omega
    · simp only [Bool.false_eq_true, false_and, true_and, if_false, if_true]
      by_cases h1 : 2^31 ≤ v <;> by_cases h2 : 2^31 ≤ z <;> simp only [h1, h2, if_true, if_false] <;> omega
  · by_cases h3 : 2^32 ≤ v <;> by_cases h4 : 2^32 ≤ z
    · simp only [h3, h4, and_self, if_true]; omega
    · simp only [h3, h4, and_self, and_false, if_true, if_false]
      exact ⟨fun _ h => by omega, fun _ => Or.inl trivial⟩
    · simp only [h3, h4, and_self, and_false, if_true, if_false]; omega
    · simp only [h3, h4, and_false, if_false]
      cases le
      · simp only [Bool.false_eq_true, false_and, if_false]; omega
      · simp only [true_and, if_true]
        by_cases h1 : 2^31 ≤ v <;> by_cases h2 : 2^31 ≤ z <;> simp only [h1, h2, if_true, if_false] <;> omega

/-- From the section headers on. -/
theorem undoSects_ok (file : Bytes) (hlen : file.length ≤ 0x7ffff000) (he : IsElf file) (hs : HasSections file) :
    (¬ NamesUsable file → undoSects file (slice file (shOff file) (shNum file * shEntSize file)) (elfIsLe file)
      (elfIs64 file) (shEntSize file) (shNum file) (shStrNdx file) = .ub) ∧
    (NamesUsable file → ∃ b, undoSects file (slice file (shOff file) (shNum file * shEntSize file)) (elfIsLe file)
      (elfIs64 file) (shEntSize file) (shNum file) (shStrNdx file) = .ok b ∧ (b = true ↔ HasUndoSection file)) := by
  obtain ⟨hs1, hs2, hs3, hs4⟩ := hs
  generalize hT : slice file (shOff file) (shNum file * shEntSize file) = T
  have hTl : T.length = shNum file * shEntSize file := by rw [← hT, slice_length (by omega)]
  have hTs : T = slice file (shOff file) T.length := by rw [hTl]; exact hT.symm
  have hin : ∀ i, i < shNum file → i * shEntSize file + shEntSize file ≤ T.length := by
    intro i hi
    have : (i + 1) * shEntSize file ≤ shNum file * shEntSize file := Nat.mul_le_mul_right _ (by omega)
    rw [Nat.add_mul, Nat.one_mul] at this
    omega
  have hd := hin _ hs3
  have h40 : 40 ≤ shEntSize file := by split at hs1 <;> omega
  unfold undoSects
  rw [elf32_part hTs (pos := shPos file (shStrNdx file) + 4) (by unfold shPos; omega) (by omega), Out.bind_ok]
  rw [elf64_part hTs (a := shPos file (shStrNdx file) + 16) (b := shPos file (shStrNdx file) + 24)
        (by unfold shPos; split <;> omega)
        (by cases h : elfIs64 file <;> simp only [h, if_true, Bool.false_eq_true, if_false] at hs1 ⊢ <;> omega)]
  rw [elf64_part hTs (a := shPos file (shStrNdx file) + 20) (b := shPos file (shStrNdx file) + 32)
        (by unfold shPos; split <;> omega)
        (by cases h : elfIs64 file <;> simp only [h, if_true, Bool.false_eq_true, if_false] at hs1 ⊢ <;> omega)]
  simp only [Out.bind_ok]
  rw [show elfField file (shPos file (shStrNdx file) + 4) 4 = shType file (shStrNdx file) from rfl,
    show elfWide file (shPos file (shStrNdx file) + 16) (shPos file (shStrNdx file) + 24) = shStart file (shStrNdx file) from rfl,
    show elfWide file (shPos file (shStrNdx file) + 20) (shPos file (shStrNdx file) + 32) = shSize file (shStrNdx file) from rfl]
  have hst : shStart file (shStrNdx file) < 2^64 := elfWide_lt _ _ _
  have hsz : shSize file (shStrNdx file) < 2^64 := elfWide_lt _ _ _
  have hst' : elfIs64 file = false → shStart file (shStrNdx file) < 2^32 := elfWide_lt32 _ _ _
  have hsz' : elfIs64 file = false → shSize file (shStrNdx file) < 2^32 := elfWide_lt32 _ _ _
  by_cases ht : shType file (shStrNdx file) = 3
  rotate_left
  · rw [if_pos ht]
    exact ⟨fun _ => rfl, fun h => absurd h.1 ht⟩
  rw [if_neg (by simp [ht])]
  have hcond : (elf64Value (elfIsLe file) (elfIs64 file) (shStart file (shStrNdx file)) = 2^64 - 1 ∨
      elf64Value (elfIsLe file) (elfIs64 file) (shSize file (shStrNdx file)) % 2^32 = 2^32 - 1 ∨
      2^31 ≤ elf64Value (elfIsLe file) (elfIs64 file) (shSize file (shStrNdx file)) % 2^32) ↔ ¬ NamesUsable file := by
    unfold NamesUsable
    simp only [ht, true_and]
    exact names_cond hst hsz hst' hsz'
  by_cases hu : NamesUsable file
  rotate_left
  · rw [if_pos (hcond.mpr hu)]
    exact ⟨fun _ => rfl, fun h => absurd h hu⟩
  rw [if_neg (fun h => hcond.mp h hu)]
  refine ⟨fun h => absurd hu h, fun _ => ?_⟩
  obtain ⟨_, hu1, hu2⟩ := hu
  have ez : elf64Value (elfIsLe file) (elfIs64 file) (shSize file (shStrNdx file)) % 2^32 = shSize file (shStrNdx file) := by
    rw [elf64Value_small hu2]; omega
  rw [ez]
  by_cases hfit : shStart file (shStrNdx file) + shSize file (shStrNdx file) ≤ file.length
  · rw [elf64Value_small (by omega), preadAll_some hfit hlen]
    simp only
    obtain ⟨b, hb, hiff⟩ := undoLoop_ok T (slice file (shStart file (shStrNdx file)) (shSize file (shStrNdx file)))
      (shEntSize file) (elfIsLe file) (by omega) (shNum file) 0 (by rw [Nat.zero_add]; omega)
    refine ⟨b, hb, hiff.trans ?_⟩
    have hname : ∀ k, k < shNum file → elfValue (elfIsLe file) (slice T (k * shEntSize file) 4) = shName file k := by
      intro k hk
      have := hin k hk
      rw [hTs, slice_slice _ _ _ _ _ (by omega)]
      rfl
    rw [slice_length hfit]
    constructor
    · rintro ⟨k, _, h2, h3, h4⟩
      rw [hname k (by omega)] at h3 h4
      rw [slice_slice _ _ _ _ _ h3] at h4
      exact ⟨he, ⟨hs1, hs2, hs3, hs4⟩, hfit, k, by omega, h3, by rw [h4, undoName_eq]⟩
    · rintro ⟨_, _, _, k, h2, h3, h4⟩
      refine ⟨k, by omega, by omega, ?_, ?_⟩
      · rw [hname k h2]; exact h3
      · rw [hname k h2, slice_slice _ _ _ _ _ h3, h4, undoName_eq]
  · have hno : ¬ HasUndoSection file := fun h => hfit h.2.2.1
    by_cases hz : shSize file (shStrNdx file) = 0
    · rw [hz]
      rcases hp : preadAll file 0 (elf64Value (elfIsLe file) (elfIs64 file) (shStart file (shStrNdx file))) with _ | str
      · exact ⟨false, rfl, by simp [hno]⟩
      · have hstr : str = [] := by
          unfold preadAll at hp
          split at hp
          · cases hp
          · split at hp
            · cases hp; simp
            · cases hp
        subst hstr
        obtain ⟨b, hb, hiff⟩ := undoLoop_ok T [] (shEntSize file) (elfIsLe file) (by omega) (shNum file) 0
          (by rw [Nat.zero_add]; omega)
        refine ⟨b, hb, hiff.trans ⟨?_, fun h => absurd h hno⟩⟩
        rintro ⟨k, _, _, h3, _⟩
        simp at h3
    · rw [preadAll_none (by unfold elf64Value; split <;> (try split) <;> omega) (by omega)]
      exact ⟨false, rfl, by simp [hno]⟩

/-- From the ELF header on. -/
theorem undoHeader_ok (file buf : Bytes) (hlen : file.length ≤ 0x7ffff000) (he : IsElf file)
    (hb : buf = slice file 0 buf.length) (hbl : (if elfIs64 file then 64 else 52) ≤ buf.length) :
    (HasSections file → ¬ NamesUsable file → undoHeader file buf (elfIsLe file) (elfIs64 file) = .ub) ∧
    ((HasSections file → NamesUsable file) →
      ∃ b, undoHeader file buf (elfIsLe file) (elfIs64 file) = .ok b ∧ (b = true ↔ HasUndoSection file)) := by
  have hno : ¬ HasSections file → ∀ x : Out Bool, x = .ok false →
      (HasSections file → ¬ NamesUsable file → x = .ub) ∧
      ((HasSections file → NamesUsable file) → ∃ b, x = .ok b ∧ (b = true ↔ HasUndoSection file)) := by
    intro h x hx
    exact ⟨fun h' => absurd h' h, fun _ => ⟨false, hx, by simp only [Bool.false_eq_true, false_iff]; exact fun h' => h h'.2.1⟩⟩
  unfold undoHeader
  rw [elf64_part hb (a := 32) (b := 40) (by split <;> rfl)
      (by cases h : elfIs64 file <;> simp only [h, if_true, Bool.false_eq_true, if_false] at hbl ⊢ <;> omega), Out.bind_ok]
  rw [show elfWide file 32 40 = shOff file from rfl]
  have hof : shOff file < 2^64 := elfWide_lt _ _ _
  by_cases h1 : elf64Value (elfIsLe file) (elfIs64 file) (shOff file) = 2^64 - 1
  · rw [if_pos h1]
    refine hno (fun h => ?_) _ rfl
    have := h.2.2.2
    rw [elf64Value_small (by omega)] at h1
    omega
  rw [if_neg h1, elf16_part hb (pos := if elfIs64 file then 58 else 46) (by split <;> rfl)
      (by cases h : elfIs64 file <;> simp only [h, if_true, Bool.false_eq_true, if_false] at hbl ⊢ <;> omega),
    Out.bind_ok, show elfField file (if elfIs64 file then 58 else 46) 2 = shEntSize file from rfl]
  by_cases h2 : shEntSize file < (if elfIs64 file then 64 else 40) ∨ shEntSize file ≥ 32768
  · rw [if_pos h2]
    exact hno (fun h => by obtain ⟨a, b, _⟩ := h; omega) _ rfl
  rw [if_neg h2, elf16_part hb (pos := if elfIs64 file then 60 else 48) (by split <;> rfl)
      (by cases h : elfIs64 file <;> simp only [h, if_true, Bool.false_eq_true, if_false] at hbl ⊢ <;> omega),
    Out.bind_ok, elf16_part hb (pos := if elfIs64 file then 62 else 50) (by split <;> rfl)
      (by cases h : elfIs64 file <;> simp only [h, if_true, Bool.false_eq_true, if_false] at hbl ⊢ <;> omega),
    Out.bind_ok, show elfField file (if elfIs64 file then 60 else 48) 2 = shNum file from rfl,
    show elfField file (if elfIs64 file then 62 else 50) 2 = shStrNdx file from rfl]
  by_cases h3 : shStrNdx file ≥ shNum file
  · rw [if_pos h3]
    exact hno (fun h => by obtain ⟨_, _, b, _⟩ := h; omega) _ rfl
  rw [if_neg h3]
  by_cases h4 : shOff file + shNum file * shEntSize file ≤ file.length
  · have hs : HasSections file := ⟨by omega, by omega, by omega, h4⟩
    rw [elf64Value_small (by omega), preadAll_some h4 hlen]
    simp only
    obtain ⟨u1, u2⟩ := undoSects_ok file hlen he hs
    exact ⟨fun _ => u1, fun h => u2 (h hs)⟩
  · have hpos : 0 < shNum file * shEntSize file :=
      Nat.mul_pos (by omega) (by split at h2 <;> omega)
    rw [preadAll_none (by unfold elf64Value; split <;> (try split) <;> omega) hpos]
    exact hno (fun h => h4 h.2.2.2) _ rfl

theorem isPrelinked_ok (file : Bytes) (n : Nat) (hn : 64 ≤ n ∨ file.length ≤ n) (hlen : file.length ≤ 0x7ffff000) :
    (IsElf file → HasSections file → ¬ NamesUsable file → isPrelinked file (file.take n) = .ub) ∧
    ((IsElf file → HasSections file → NamesUsable file) →
      ∃ b, isPrelinked file (file.take n) = .ok b ∧ (b = true ↔ HasUndoSection file)) := by
  have hbl : (file.take n).length = min n file.length := List.length_take
  have hno : ¬ IsElf file → ∀ x : Out Bool, x = .ok false →
      (IsElf file → HasSections file → ¬ NamesUsable file → x = .ub) ∧
      ((IsElf file → HasSections file → NamesUsable file) → ∃ b, x = .ok b ∧ (b = true ↔ HasUndoSection file)) := by
    intro h x hx
    exact ⟨fun h' => absurd h' h, fun _ => ⟨false, hx, by simp only [Bool.false_eq_true, false_iff]; exact fun h' => h h'.1⟩⟩
  unfold isPrelinked
  by_cases h1 : (file.take n).length < 0x34 ∨ (file.take n).take 4 ≠ [0x7F, 69, 76, 70]
  · rw [if_pos h1]
    refine hno (fun h => ?_) _ rfl
    obtain ⟨a, b⟩ := h
    have : 52 ≤ file.length := by split at b <;> omega
    rcases h1 with h1 | h1
    · omega
    · rw [List.take_take, show min 4 n = 4 by omega] at h1
      exact h1 a
  · rw [if_neg h1]
    have h52 : 52 ≤ (file.take n).length := by omega
    have hm : (file.take n).take 4 = [0x7F, 69, 76, 70] := Classical.byContradiction (fun h => h1 (Or.inr h))
    rw [List.take_take, show min 4 n = 4 by omega] at hm
    rw [rd_ok (by omega), Out.bind_ok, rd_ok (by omega), Out.bind_ok]
    have e4 : elfIs64 file = ((file.take n)[4] == 2) := by
      unfold elfIs64
      rw [List.getElem?_eq_getElem (by omega)]
      simp
    have e5 : elfIsLe file = ((file.take n)[5] != 2) := by
      unfold elfIsLe
      rw [List.getElem?_eq_getElem (by omega)]
      simp [bne]
    rw [← e4, ← e5]
    have e4' : ((file.take n)[4] = 2) ↔ elfIs64 file = true := by rw [e4]; simp
    by_cases h2 : (file.take n)[4] = 2 ∧ (file.take n).length < 0x40
    · rw [if_pos h2]
      refine hno (fun h => ?_) _ rfl
      have := h.2
      rw [e4'.mp h2.1] at this
      simp only [if_true] at this
      omega
    · rw [if_neg h2]
      have hfl : (if elfIs64 file then 64 else 52) ≤ (file.take n).length := by
        split
        · rename_i h; exact Nat.le_of_not_lt (fun hl => h2 ⟨e4'.mpr h, hl⟩)
        · omega
      have he : IsElf file := ⟨hm, by omega⟩
      obtain ⟨u1, u2⟩ := undoHeader_ok file (file.take n) hlen he
        (by unfold slice; rw [List.drop_zero, hbl, ← List.take_eq_take_min]) hfl
      exact ⟨fun _ => u1, fun h => u2 (h he)⟩

/-! ## C39 -/

/-- C39, for files below 2 GiB (which is where one `pread` delivers everything) from which the
    caller has read the first 64 bytes or all: if the names of the sections are in a string table,
    the detection reads only inside its buffers, frees only what it allocated, and answers yes
    exactly for ELF files with a section called .gnu.prelink_undo. Missing: the files of
    `C39_violated`. -/
theorem C39_partial (file : Bytes) (n : Nat) (hn : 64 ≤ n ∨ file.length ≤ n) (hlen : file.length ≤ 0x7ffff000)
    (h : IsElf file → HasSections file → NamesUsable file) :
    ∃ b, isPrelinked file (file.take n) = .ok b ∧ (b = true ↔ HasUndoSection file) :=
  (isPrelinked_ok file n hn hlen).2 h

/-- C39 fails for every ELF file with section headers whose name section is not a string table
    or is out of range: a pointer into the middle of a buffer is freed. -/
theorem C39_violated (file : Bytes) (n : Nat) (hn : 64 ≤ n ∨ file.length ≤ n) (hlen : file.length ≤ 0x7ffff000)
    (he : IsElf file) (hs : HasSections file) (h : ¬ NamesUsable file) : isPrelinked file (file.take n) = .ub :=
  (isPrelinked_ok file n hn hlen).1 he hs h

/-- A 32-bit ELF file, section headers at 52, one section whose header is `sect`, then `rest`. -/
def tinyElf (le : Bool) (sect rest : Bytes) : Bytes :=
  [0x7F, 0x45, 0x4C, 0x46, 1, if le then 1 else 2] ++ List.replicate 26 0 ++
  (if le then [52, 0, 0, 0] else [0, 0, 0, 52]) ++ List.replicate 10 0 ++
  (if le then [40, 0, 1, 0, 0, 0] else [0, 40, 0, 1, 0, 0]) ++ sect ++ rest

/-- A file with an undo section, in both byte orders: it meets the hypotheses and is detected. -/
def undoElf (le : Bool) : Bytes :=
  tinyElf le ((if le then [1, 0, 0, 0, 3, 0, 0, 0] else [0, 0, 0, 1, 0, 0, 0, 3]) ++ List.replicate 8 0 ++
    (if le then [92, 0, 0, 0, 19, 0, 0, 0] else [0, 0, 0, 92, 0, 0, 0, 19]) ++ List.replicate 16 0) (0 :: prelinkUndo)

example : ∀ le, IsElf (undoElf le) ∧ HasSections (undoElf le) ∧ NamesUsable (undoElf le) ∧
    isPrelinked (undoElf le) (undoElf le) = .ok true := by
  intro le
  cases le <;> refine ⟨?_, ?_, ?_, ?_⟩ <;> first | unfold IsElf; decide +kernel | unfold HasSections; decide +kernel | unfold NamesUsable; decide +kernel | decide +kernel

/-- A file with one unnamed, empty section (as `strip --strip-section-headers` or assemblers can leave behind):
    it meets the hypotheses of `C39_violated`. -/
example : IsElf (tinyElf true (List.replicate 40 0) []) ∧ HasSections (tinyElf true (List.replicate 40 0) []) ∧
    ¬ NamesUsable (tinyElf true (List.replicate 40 0) []) := by
  refine ⟨?_, ?_, ?_⟩ <;> first | unfold IsElf; decide +kernel | unfold HasSections; decide +kernel | unfold NamesUsable; decide +kernel

end Drpm
