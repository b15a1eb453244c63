import Verif.UtilsLemmas
/-!
# Properties C12, C13, C14, C42: compression codes, integers, hex strings, growing arrays
-/

namespace Drpm

/-! ## Specification -/

/-- The number that a byte string denotes, most significant byte first. -/
def bigEndianValue (bs : Bytes) : Nat := bs.foldl (fun acc b => acc * 256 + b.toNat) 0

/-- The characters `0123456789abcdef` as bytes. -/
def lowerDigits : List UInt8 := "0123456789abcdef".toList.map (fun c => UInt8.ofNat c.toNat)
/-- The characters `0123456789ABCDEF` as bytes. -/
def upperDigits : List UInt8 := "0123456789ABCDEF".toList.map (fun c => UInt8.ofNat c.toNat)

/-- Character `c` is a hexadecimal digit, of either case, of value `v`. -/
def IsHexDigit (c : UInt8) (v : Nat) : Prop := lowerDigits[v]? = some c ∨ upperDigits[v]? = some c

/-! ## C13 -/

/-- C13: the stored bytes denote the number, most significant byte first. -/
theorem C13_be32_bigEndian (n : Nat) (h : n < 2^32) :
    bigEndianValue (createBe32 n) = n ∧ (createBe32 n).length = 4 := by
  refine ⟨?_, rfl⟩
  simp only [bigEndianValue, createBe32, List.foldl, toNat_ofNat_shift]
  have : (UInt8.ofNat n).toNat = n % 256 := by simp
  rw [this]; omega

theorem C13_be64_bigEndian (n : Nat) (h : n < 2^64) :
    bigEndianValue (createBe64 n) = n ∧ (createBe64 n).length = 8 := by
  refine ⟨?_, rfl⟩
  simp only [bigEndianValue, createBe64, List.foldl, toNat_ofNat_shift]
  have : (UInt8.ofNat n).toNat = n % 256 := by simp
  rw [this]; omega

/-- C13: reading yields the big-endian value of the bytes, for 16, 32 and 64 bits. -/
theorem C13_parse16 (b0 b1 : UInt8) : parseBe16 b0 b1 = bigEndianValue [b0, b1] := by
  rw [parseBe16_val]; simp [bigEndianValue]

theorem C13_parse32 (b0 b1 b2 b3 : UInt8) :
    parseBe32 b0 b1 b2 b3 = bigEndianValue [b0, b1, b2, b3] := by
  rw [parseBe32_val]; simp [bigEndianValue]; omega

theorem C13_parse64 (b0 b1 b2 b3 b4 b5 b6 b7 : UInt8) :
    parseBe64 b0 b1 b2 b3 b4 b5 b6 b7 = bigEndianValue [b0, b1, b2, b3, b4, b5, b6, b7] := by
  rw [parseBe64_val]; simp [bigEndianValue]; omega

/-- C13: a written integer reads back unchanged, whatever follows it. -/
theorem C13_be32_roundtrip (n : Nat) (h : n < 2^32) (rest : Bytes) :
    be32At (createBe32 n ++ rest) = .ok n := be32At_createBe32 n h rest

theorem C13_be64_roundtrip (n : Nat) (h : n < 2^64) (rest : Bytes) :
    be64At (createBe64 n ++ rest) = .ok n := be64At_createBe64 n h rest

/-- C13: a byte pattern that was read is written back unchanged. -/
theorem C13_be32_unparse (b0 b1 b2 b3 : UInt8) :
    createBe32 (parseBe32 b0 b1 b2 b3) = [b0, b1, b2, b3] := by
  have h0 := u8_lt b0; have h1 := u8_lt b1; have h2 := u8_lt b2; have h3 := u8_lt b3
  rw [parseBe32_val]
  simp only [createBe32, List.cons.injEq, and_true, ← UInt8.toNat_inj, toNat_ofNat_shift,
    UInt8.toNat_ofNat']
  refine ⟨?_, ?_, ?_, ?_⟩ <;> omega

theorem C13_be64_unparse (b0 b1 b2 b3 b4 b5 b6 b7 : UInt8) :
    createBe64 (parseBe64 b0 b1 b2 b3 b4 b5 b6 b7) = [b0, b1, b2, b3, b4, b5, b6, b7] := by
  have h0 := u8_lt b0; have h1 := u8_lt b1; have h2 := u8_lt b2; have h3 := u8_lt b3
  have h4 := u8_lt b4; have h5 := u8_lt b5; have h6 := u8_lt b6; have h7 := u8_lt b7
  rw [parseBe64_val]
  simp only [createBe64, List.cons.injEq, and_true, ← UInt8.toNat_inj, toNat_ofNat_shift,
    UInt8.toNat_ofNat']
  refine ⟨?_, ?_, ?_, ?_, ?_, ?_, ?_, ?_⟩ <;> omega

example : createBe32 0xEDABEEDB = [0xED, 0xAB, 0xEE, 0xDB] := by decide
example : (0xEDABEEDB : Nat) < 2^32 := by decide

/-! ## C14 -/

/-- C14: a dumped byte string has two lower-case digits per byte and parses back, also with one
    extra trailing character (the newline of a sequence file). -/
theorem C14_roundtrip (bs : Bytes) (trail : Bytes) (h : trail.length ≤ 1) :
    parseHex (dumpHex bs ++ trail) = some bs ∧ (dumpHex bs).length = 2 * bs.length :=
  ⟨parseHex_dumpHex_append bs trail h, dumpHex_length bs⟩

theorem hexDigitVal_iff_aux : ∀ c : Fin 256, ∀ v : Fin 16,
    (hexDigitVal (UInt8.ofNat c.val) = some v.val ↔
      (lowerDigits[v.val]? = some (UInt8.ofNat c.val) ∨
       upperDigits[v.val]? = some (UInt8.ofNat c.val))) := by decide +kernel

theorem hexDigitVal_lt_aux (c : UInt8) (v : Nat) (h : hexDigitVal c = some v) : v < 16 := by
  unfold hexDigitVal at h
  split at h
  · simp only [Option.some.injEq] at h; omega
  · split at h
    · simp only [Option.some.injEq] at h; omega
    · split at h
      · simp only [Option.some.injEq] at h; omega
      · simp at h

theorem hexDigitVal_iff (c : UInt8) (v : Nat) : hexDigitVal c = some v ↔ IsHexDigit c v := by
  have hc : UInt8.ofNat c.toNat = c := by simp
  constructor
  · intro h
    have hv := hexDigitVal_lt_aux c v h
    have := (hexDigitVal_iff_aux ⟨c.toNat, u8_lt c⟩ ⟨v, hv⟩).1 (by simpa [hc] using h)
    simpa [IsHexDigit, hc] using this
  · intro h
    have hv : v < 16 := by
      apply Decidable.byContradiction
      intro hv
      have l1 : lowerDigits.length ≤ v := by
        have : lowerDigits.length = 16 := by decide
        omega
      have l2 : upperDigits.length ≤ v := by
        have : upperDigits.length = 16 := by decide
        omega
      simp [IsHexDigit, List.getElem?_eq_none l1, List.getElem?_eq_none l2] at h
    have := (hexDigitVal_iff_aux ⟨c.toNat, u8_lt c⟩ ⟨v, hv⟩).2 (by simpa [IsHexDigit, hc] using h)
    simpa [hc] using this

theorem parseHexnum_pair (c0 c1 : UInt8) (v : Nat) :
    parseHexnum [c0, c1] = some v ↔
      ∃ hi lo, IsHexDigit c0 hi ∧ IsHexDigit c1 lo ∧ v = 16 * hi + lo := by
  simp only [parseHexnum, List.foldl, ← hexDigitVal_iff]
  cases h0 : hexDigitVal c0 with
  | none => simp
  | some a =>
    cases h1 : hexDigitVal c1 with
    | none => simp
    | some b =>
      simp
      omega

theorem isHexDigit_lt {c : UInt8} {v : Nat} (h : IsHexDigit c v) : v < 16 := by
  exact hexDigitVal_lt_aux c v ((hexDigitVal_iff c v).2 h)

/-- C14: parsing accepts exactly the strings whose `2 * (length / 2)` leading characters are hex
    digits of either case, and each byte is the value of its two digits. -/
theorem C14_parse_iff (s d : Bytes) : parseHex s = some d ↔
    d.length = s.length / 2 ∧ ∀ i < s.length / 2, ∃ c0 c1 hi lo b,
      s[2 * i]? = some c0 ∧ s[2 * i + 1]? = some c1 ∧ d[i]? = some b ∧
      IsHexDigit c0 hi ∧ IsHexDigit c1 lo ∧ b.toNat = 16 * hi + lo := by
  induction s using parseHex.induct generalizing d with
  | case1 c0 c1 rest hnone =>
    rw [parseHex, hnone]
    constructor
    · nofun
    · rintro ⟨_, h⟩
      obtain ⟨c0', c1', hi, lo, b, h0, h1, _, hd0, hd1, _⟩ := h 0 (by simp)
      simp at h0 h1
      subst h0 h1
      have := (parseHexnum_pair c0 c1 (16 * hi + lo)).2 ⟨hi, lo, hd0, hd1, rfl⟩
      simp [this] at hnone
  | case2 c0 c1 rest v hv ih =>
    rw [parseHex, hv]
    obtain ⟨hi, lo, hd0, hd1, hvv⟩ := (parseHexnum_pair c0 c1 v).1 hv
    have hi16 := isHexDigit_lt hd0
    have lo16 := isHexDigit_lt hd1
    constructor
    · intro h
      simp only [Option.map_eq_some_iff] at h
      obtain ⟨d', hd', rfl⟩ := h
      obtain ⟨hl, hall⟩ := (ih d').1 hd'
      refine ⟨by simp [hl]; omega, ?_⟩
      intro i hi'
      cases i with
      | zero =>
        exact ⟨c0, c1, hi, lo, UInt8.ofNat v, by simp, by simp, by simp, hd0, hd1, by simp; omega⟩
      | succ i =>
        have := hall i (by simp at hi'; omega)
        simpa [Nat.mul_add, Nat.add_right_comm] using this
    · rintro ⟨hl, hall⟩
      cases d with
      | nil => simp at hl; omega
      | cons b d' =>
        have h0 := hall 0 (by simp)
        obtain ⟨c0', c1', hi', lo', b', e0, e1, e2, f0, f1, f2⟩ := h0
        simp at e0 e1 e2
        subst e0 e1 e2
        have : v = 16 * hi' + lo' := by
          have := (parseHexnum_pair c0 c1 (16 * hi' + lo')).2 ⟨hi', lo', f0, f1, rfl⟩
          rw [hv] at this; simpa using this
        have hb : UInt8.ofNat v = b := by
          rw [← UInt8.toNat_inj]; simp; omega
        rw [(ih d').2]
        · simp [hb]
        · refine ⟨by simp at hl; omega, ?_⟩
          intro i hi2
          have := hall (i + 1) (by simp; omega)
          simpa [Nat.mul_add, Nat.add_right_comm] using this
  | case3 s hs =>
    have hlen : s.length ≤ 1 := by
      match s, hs with
      | [], _ => simp
      | [_], _ => simp
      | a :: b :: r, hs => exact absurd rfl (hs a b r)
    have : parseHex s = some [] := by
      match s, hlen with
      | [], _ => rfl
      | [_], _ => rfl
    rw [this]
    have h0 : s.length / 2 = 0 := by omega
    simp only [h0]
    constructor
    · intro h; simp at h; subst h; simp
    · rintro ⟨h, _⟩; rw [List.length_eq_zero_iff.1 h]

/-- C14: a digest parses exactly from the text of its bytes. -/
theorem C14_md5 (s d : Bytes) : parseMd5 s = some d ↔ parseHex s = some d ∧ d.length = 16 := by
  unfold parseMd5
  cases h : parseHex s with
  | none => simp
  | some e =>
    by_cases he : e.length = 16
    · simp only [if_pos he, Option.some.injEq]
      constructor
      · rintro rfl; exact ⟨rfl, he⟩
      · rintro ⟨rfl, _⟩; rfl
    · simp only [if_neg he, Option.some.injEq]
      constructor
      · nofun
      · rintro ⟨rfl, h2⟩; exact absurd h2 he

theorem C14_sha256 (s d : Bytes) :
    parseSha256 s = some d ↔ parseHex s = some d ∧ d.length = 32 := by
  unfold parseSha256
  cases h : parseHex s with
  | none => simp
  | some e =>
    by_cases he : e.length = 32
    · simp only [if_pos he, Option.some.injEq]
      constructor
      · rintro rfl; exact ⟨rfl, he⟩
      · rintro ⟨rfl, _⟩; rfl
    · simp only [if_neg he, Option.some.injEq]
      constructor
      · nofun
      · rintro ⟨rfl, h2⟩; exact absurd h2 he

example : parseHex [0x31, 0x66, 0x38, 0x42, 0x0A] = some [0x1F, 0x8B] := by decide
example : parseHex [0x31, 0x67] = none := by decide

/-! ## C12 -/

/-- C12: a compression type and level that can be stored are read back unchanged; levels are
    stored in eight bits. -/
theorem C12_roundtrip (comp level c : Nat) (hl : level < 256) (h : encodeComp comp level = some c) :
    decodeComp c = some (comp, level) := by
  have key : ∀ lo, lo < 8 → (lo ||| (level <<< 8)) &&& 255 = lo ∧
      ((lo ||| (level <<< 8)) >>> 8) &&& 255 = level := by
    intro lo hlo
    rw [Nat.or_comm, ← Nat.shiftLeft_add_eq_or_of_lt (by omega : lo < 2^8)]
    rw [Nat.and_two_pow_sub_one_eq_mod _ 8, Nat.and_two_pow_sub_one_eq_mod _ 8,
      Nat.shiftLeft_eq, Nat.shiftRight_eq_div_pow]
    omega
  unfold encodeComp at h
  split at h <;> simp only [Option.some.injEq, reduceCtorEq] at h <;> subst h
  · have := key 0 (by omega); simp only [decodeComp, this.1, this.2]
  · have := key 1 (by omega); simp only [decodeComp, this.1, this.2]
  · have := key 2 (by omega); simp only [decodeComp, this.1, this.2]
  · have := key 5 (by omega); simp only [decodeComp, this.1, this.2]
  · have := key 6 (by omega); simp only [decodeComp, this.1, this.2]
  · have := key 7 (by omega); simp only [decodeComp, this.1, this.2]

/-- C12: encoding fails exactly for lzip and for values that are no compression type. -/
theorem C12_encode_fails_iff (comp level : Nat) :
    encodeComp comp level = none ↔ comp = Comp.lzip.code ∨ 7 ≤ comp := by
  unfold encodeComp Comp.code
  split <;> simp_all
  omega

/-- C12: decoding fails exactly if the low byte is not one of the eight codes, and it never
    reports lzip. -/
theorem C12_decode_fails_iff (c : Nat) : decodeComp c = none ↔ 8 ≤ c % 256 := by
  have h : c &&& 255 = c % 256 := Nat.and_two_pow_sub_one_eq_mod c 8
  simp only [decodeComp, h]
  split <;> simp_all
  omega

/-- The compression type that the low byte of a stored code stands for in the delta RPM format
    (gzip and bzip2 each have a second code, for the "-rsyncable" and old variants). -/
def formatCompOf : List Comp := [.none, .gzip, .bzip2, .gzip, .bzip2, .lzma, .xz, .zstd]

/-- C12: the exact meaning of a stored code: low byte the type, next byte the level. -/
theorem C12_decode_table (c : Nat) (h : c % 256 < 8) :
    ∃ t, formatCompOf[c % 256]? = some t ∧ decodeComp c = some (t.code, c / 256 % 256) := by
  have h1 : c &&& 255 = c % 256 := Nat.and_two_pow_sub_one_eq_mod c 8
  have h2 : (c >>> 8) &&& 255 = c / 256 % 256 := by
    rw [Nat.and_two_pow_sub_one_eq_mod _ 8, Nat.shiftRight_eq_div_pow]
  simp only [decodeComp, h1, h2]
  generalize c % 256 = k at h
  generalize c / 256 % 256 = l
  match k, h with
  | 0, _ | 1, _ | 2, _ | 3, _ | 4, _ | 5, _ | 6, _ | 7, _ => exact ⟨_, rfl, rfl⟩

example : (0x903 : Nat) % 256 < 8 := by decide

theorem C12_decode_range (c comp level : Nat) (h : decodeComp c = some (comp, level)) :
    level < 256 ∧ (comp = 0 ∨ comp = 1 ∨ comp = 2 ∨ comp = 3 ∨ comp = 4 ∨ comp = 6) := by
  have hl : (c >>> 8) &&& 255 < 256 := by
    rw [Nat.and_two_pow_sub_one_eq_mod _ 8]; omega
  unfold decodeComp at h
  simp only at h
  split at h <;> simp only [Option.some.injEq, Prod.mk.injEq, reduceCtorEq] at h <;>
    (obtain ⟨rfl, rfl⟩ := h; exact ⟨hl, by omega⟩)

example : encodeComp Comp.xz.code 9 = some 0x906 ∧ decodeComp 0x906 = some (4, 9) := by decide

/-! ## C42 -/

/-- The life of an array grown with `resize16`/`resize32`: before element number `count` is
    stored, `resize` is called. Gives the capacity after `n` such steps. -/
def grownCap (threshold : Nat) : Nat → Nat
  | 0 => 0
  | n + 1 => resizeCap threshold n (grownCap threshold n)

/-- C42: after calling `resize` for element number `n` there is room for that element, for every
    number of elements stored so far. -/
theorem C42_room (threshold n : Nat) (h : 0 < threshold) : n < grownCap threshold (n + 1) := by
  have key : ∀ n, grownCap threshold n = (n + threshold - 1) / threshold * threshold := by
    intro n
    induction n with
    | zero => simp [grownCap, Nat.div_eq_of_lt (by omega : threshold - 1 < threshold)]
    | succ n ih =>
      simp only [grownCap, resizeCap]
      have hdm := Nat.div_add_mod n threshold
      have hml := Nat.mod_lt n h
      split
      · rename_i hz
        have : n + 1 + threshold - 1 = n + threshold := by omega
        rw [this, Nat.add_div_right _ h, Nat.succ_mul, Nat.mul_comm]
        omega
      · rename_i hz
        rw [ih]
        have h1 : n + 1 + threshold - 1 = n + threshold := by omega
        rw [h1, Nat.add_div_right _ h]
        have : n + threshold - 1 = (n % threshold - 1) + threshold * (n / threshold + 1) := by
          rw [Nat.mul_add]; omega
        rw [this, Nat.add_mul_div_left _ _ h, Nat.div_eq_of_lt (by omega : n % threshold - 1 < threshold)]
        simp
  rw [key]
  have h1 : n + 1 + threshold - 1 = n + threshold := by omega
  rw [h1, Nat.add_div_right _ h, Nat.succ_mul, Nat.mul_comm]
  have hdm := Nat.div_add_mod n threshold
  have hml := Nat.mod_lt n h
  omega

example : grownCap 16 17 = 32 := by decide

/-- C41/C20 arithmetic: padding aligns, and is shorter than the alignment. -/
theorem C41_padding (off align : Nat) (h : 0 < align) :
    (off + padding off align) % align = 0 ∧ padding off align < align := padding_spec off align h

end Drpm
