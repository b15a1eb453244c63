import Verif.Utils
import Verif.CompCode
/-! Helper lemmas about src/drpm_utils.c and the compression codes. -/

namespace Drpm

theorem mask_or (k : Nat) (b lo : Nat) (hb : b < 256) (hlo : lo < 2 ^ k) (m : Nat)
    (hm : ∀ b < 256, m &&& (b <<< k) = b <<< k) :
    (m &&& (b <<< k)) ||| lo = b * 2 ^ k + lo := by
  rw [hm b hb, ← Nat.shiftLeft_add_eq_or_of_lt hlo, Nat.shiftLeft_eq]

theorem and_255 (b : UInt8) : 255 &&& b.toNat = b.toNat := by
  rw [Nat.and_comm, Nat.and_two_pow_sub_one_eq_mod b.toNat 8]
  have := b.toNat_lt; omega

theorem mask8 : ∀ b < 256, 0xFF00 &&& (b <<< 8) = b <<< 8 := by decide +kernel
theorem mask16 : ∀ b < 256, 0xFF0000 &&& (b <<< 16) = b <<< 16 := by decide +kernel
theorem mask24 : ∀ b < 256, 0xFF000000 &&& (b <<< 24) = b <<< 24 := by decide +kernel
theorem mask32 : ∀ b < 256, 0xFF00000000 &&& (b <<< 32) = b <<< 32 := by decide +kernel
theorem mask40 : ∀ b < 256, 0xFF0000000000 &&& (b <<< 40) = b <<< 40 := by decide +kernel
theorem mask48 : ∀ b < 256, 0xFF000000000000 &&& (b <<< 48) = b <<< 48 := by decide +kernel
theorem mask56 : ∀ b < 256, 0xFF00000000000000 &&& (b <<< 56) = b <<< 56 := by decide +kernel

theorem u8_lt (b : UInt8) : b.toNat < 256 := b.toNat_lt

theorem parseBe16_val (b0 b1 : UInt8) : parseBe16 b0 b1 = b0.toNat * 2^8 + b1.toNat := by
  unfold parseBe16
  rw [and_255]
  exact mask_or 8 _ _ (u8_lt _) (u8_lt _) _ mask8

theorem parseBe32_val (b0 b1 b2 b3 : UInt8) : parseBe32 b0 b1 b2 b3 =
    b0.toNat * 2^24 + (b1.toNat * 2^16 + (b2.toNat * 2^8 + b3.toNat)) := by
  have h1 := u8_lt b1; have h2 := u8_lt b2; have h3 := u8_lt b3
  unfold parseBe32
  rw [and_255, Nat.or_assoc, Nat.or_assoc, mask_or 8 _ _ h2 (by omega) _ mask8,
    mask_or 16 _ _ h1 (by omega) _ mask16, mask_or 24 _ _ (u8_lt _) (by omega) _ mask24]

theorem parseBe64_val (b0 b1 b2 b3 b4 b5 b6 b7 : UInt8) : parseBe64 b0 b1 b2 b3 b4 b5 b6 b7 =
    b0.toNat * 2^56 + (b1.toNat * 2^48 + (b2.toNat * 2^40 + (b3.toNat * 2^32 +
    (b4.toNat * 2^24 + (b5.toNat * 2^16 + (b6.toNat * 2^8 + b7.toNat)))))) := by
  have h1 := u8_lt b1; have h2 := u8_lt b2; have h3 := u8_lt b3
  have h4 := u8_lt b4; have h5 := u8_lt b5; have h6 := u8_lt b6; have h7 := u8_lt b7
  unfold parseBe64
  rw [and_255]
  simp only [Nat.or_assoc]
  rw [mask_or 8 _ _ h6 (by omega) _ mask8, mask_or 16 _ _ h5 (by omega) _ mask16,
    mask_or 24 _ _ h4 (by omega) _ mask24, mask_or 32 _ _ h3 (by omega) _ mask32,
    mask_or 40 _ _ h2 (by omega) _ mask40, mask_or 48 _ _ h1 (by omega) _ mask48,
    mask_or 56 _ _ (u8_lt _) (by omega) _ mask56]

theorem toNat_ofNat_shift (n k : Nat) : (UInt8.ofNat (n >>> k)).toNat = n / 2^k % 256 := by
  simp [Nat.shiftRight_eq_div_pow]

theorem createBe32_length (n : Nat) : (createBe32 n).length = 4 := rfl
theorem createBe64_length (n : Nat) : (createBe64 n).length = 8 := rfl

theorem be32At_createBe32 (n : Nat) (h : n < 2^32) (rest : Bytes) :
    be32At (createBe32 n ++ rest) = .ok n := by
  simp only [createBe32, List.cons_append, be32At, parseBe32_val, toNat_ofNat_shift]
  have : (UInt8.ofNat n).toNat = n % 256 := by simp
  rw [this]
  congr 1; omega

theorem be64At_createBe64 (n : Nat) (h : n < 2^64) (rest : Bytes) :
    be64At (createBe64 n ++ rest) = .ok n := by
  simp only [createBe64, List.cons_append, be64At, parseBe64_val, toNat_ofNat_shift]
  have : (UInt8.ofNat n).toNat = n % 256 := by simp
  rw [this]
  congr 1; omega

theorem parseBe32_lt (b0 b1 b2 b3 : UInt8) : parseBe32 b0 b1 b2 b3 < 2^32 := by
  have h0 := u8_lt b0; have h1 := u8_lt b1; have h2 := u8_lt b2; have h3 := u8_lt b3
  rw [parseBe32_val]; omega

theorem parseBe64_lt (b0 b1 b2 b3 b4 b5 b6 b7 : UInt8) :
    parseBe64 b0 b1 b2 b3 b4 b5 b6 b7 < 2^64 := by
  have h0 := u8_lt b0; have h1 := u8_lt b1; have h2 := u8_lt b2; have h3 := u8_lt b3
  have h4 := u8_lt b4; have h5 := u8_lt b5; have h6 := u8_lt b6; have h7 := u8_lt b7
  rw [parseBe64_val]; omega

theorem hexByte_length (b : UInt8) : (hexByte b).length = 2 := rfl

theorem hexByte_parse_aux : ∀ b : Fin 256,
    parseHexnum (hexByte (UInt8.ofNat b.val)) = some b.val := by decide +kernel

theorem hexByte_parse (b : UInt8) : parseHexnum (hexByte b) = some b.toNat := by
  have := hexByte_parse_aux ⟨b.toNat, u8_lt b⟩
  simpa using this

theorem dumpHex_nil : dumpHex [] = [] := rfl
theorem dumpHex_cons (b : UInt8) (bs : Bytes) : dumpHex (b :: bs) = hexByte b ++ dumpHex bs := by
  simp [dumpHex]

theorem dumpHex_length (bs : Bytes) : (dumpHex bs).length = 2 * bs.length := by
  induction bs with
  | nil => rfl
  | cons b bs ih => rw [dumpHex_cons, List.length_append, ih, hexByte_length]; simp; omega

theorem parseHex_dumpHex_append (bs : Bytes) (t : Bytes) (ht : t.length ≤ 1) :
    parseHex (dumpHex bs ++ t) = some bs := by
  induction bs with
  | nil =>
    match t, ht with
    | [], _ => rfl
    | [_], _ => rfl
  | cons b bs ih =>
    rw [dumpHex_cons, List.append_assoc]
    show parseHex (_ :: _ :: (dumpHex bs ++ t)) = _
    rw [parseHex]
    have := hexByte_parse b
    unfold hexByte at this
    rw [this]
    simp [ih]

/-- The characters `dump_hex` can produce. -/
def isLowerHex (c : UInt8) : Bool := (48 ≤ c && c ≤ 57) || (97 ≤ c && c ≤ 102)

theorem hexByte_chars_aux : ∀ b : Fin 256, ∀ c ∈ hexByte (UInt8.ofNat b.val), isLowerHex c := by
  decide +kernel

theorem dumpHex_chars (bs : Bytes) : ∀ c ∈ dumpHex bs, isLowerHex c := by
  induction bs with
  | nil => simp [dumpHex]
  | cons b bs ih =>
    intro c hc
    rw [dumpHex_cons, List.mem_append] at hc
    cases hc with
    | inl h =>
      have := hexByte_chars_aux ⟨b.toNat, u8_lt b⟩ c
      simp only [UInt8.ofNat_toNat] at this
      exact this h
    | inr h => exact ih c h

theorem padding_spec (off align : Nat) (h : 0 < align) :
    (off + padding off align) % align = 0 ∧ padding off align < align := by
  unfold padding
  have h1 := Nat.mod_lt off h
  refine ⟨?_, Nat.mod_lt _ h⟩
  by_cases hz : off % align = 0
  · rw [hz]; simp [hz]
  · rw [Nat.mod_eq_of_lt (by omega : align - off % align < align)]
    have := Nat.div_add_mod off align
    have e : off + (align - off % align) = align * (off / align + 1) := by
      rw [Nat.mul_add]; omega
    rw [e]; exact Nat.mul_mod_right _ _

end Drpm
