import Verif.FormatSpec
import Verif.UtilsLemmas
/-! Helper lemmas: recognising compression methods. -/

namespace Drpm

theorem be64At_ok (z : Bytes) (h : 8 ≤ z.length) : ∃ b0 b1 b2 b3 b4 b5 b6 b7 r,
    z = b0 :: b1 :: b2 :: b3 :: b4 :: b5 :: b6 :: b7 :: r ∧
    be64At z = .ok (parseBe64 b0 b1 b2 b3 b4 b5 b6 b7) := by
  match z, h with
  | b0 :: b1 :: b2 :: b3 :: b4 :: b5 :: b6 :: b7 :: r, _ => exact ⟨_, _, _, _, _, _, _, _, _, rfl, rfl⟩

theorem u8_eq_iff (b : UInt8) (n : Nat) (h : n < 256) : b = UInt8.ofNat n ↔ b.toNat = n := by
  constructor
  · rintro rfl
    simp [UInt8.toNat_ofNat']
    omega
  · intro h
    subst h
    simp

theorem prefix_cons_iff (a : UInt8) (p : Bytes) (b : UInt8) (q : Bytes) :
    (a :: p) <+: (b :: q) ↔ b = a ∧ p <+: q := by
  rw [List.cons_prefix_cons]
  constructor <;> rintro ⟨h1, h2⟩ <;> exact ⟨h1.symm, h2⟩

/-- Each method is recognised exactly by its magic bytes. -/
theorem detect_iff (z : Bytes) (h : 8 ≤ z.length) : ∃ m, be64At z = .ok m ∧
    ∀ c, c ≠ .none → (detectComp m = c ↔ magicBytes c <+: z) := by
  obtain ⟨b0, b1, b2, b3, b4, b5, b6, b7, r, rfl, e⟩ := be64At_ok z h
  refine ⟨_, e, ?_⟩
  have h0 := u8_lt b0
  have h1 := u8_lt b1
  have h2 := u8_lt b2
  have h3 := u8_lt b3
  have h4 := u8_lt b4
  have h5 := u8_lt b5
  have h6 := u8_lt b6
  have h7 := u8_lt b7
  have k : ∀ (b : UInt8) (n : Nat), n < 256 → (b = UInt8.ofNat n ↔ b.toNat = n) := u8_eq_iff
  have e1 := parseBe64_val b0 b1 b2 b3 b4 b5 b6 b7
  generalize parseBe64 b0 b1 b2 b3 b4 b5 b6 b7 = m at e1
  have g1 : m >>> 48 = 0x1F8B ↔ (b0.toNat = 0x1F ∧ b1.toNat = 0x8B) := by
    rw [Nat.shiftRight_eq_div_pow]; omega
  have g2 : m >>> 40 = 0x425A68 ↔ (b0.toNat = 0x42 ∧ b1.toNat = 0x5A ∧ b2.toNat = 0x68) := by
    rw [Nat.shiftRight_eq_div_pow]; omega
  have g3 : m >>> 16 = 0xFD377A585A00 ↔ (b0.toNat = 0xFD ∧ b1.toNat = 0x37 ∧ b2.toNat = 0x7A ∧ b3.toNat = 0x58 ∧ b4.toNat = 0x5A ∧ b5.toNat = 0) := by
    rw [Nat.shiftRight_eq_div_pow]; omega
  have g4 : m >>> 40 = 0x5D0000 ↔ (b0.toNat = 0x5D ∧ b1.toNat = 0 ∧ b2.toNat = 0) := by
    rw [Nat.shiftRight_eq_div_pow]; omega
  have g5 : m >>> 32 = 0x4C5A4950 ↔ (b0.toNat = 0x4C ∧ b1.toNat = 0x5A ∧ b2.toNat = 0x49 ∧ b3.toNat = 0x50) := by
    rw [Nat.shiftRight_eq_div_pow]; omega
  have g6 : m >>> 32 = 0x28B52FFD ↔ (b0.toNat = 0x28 ∧ b1.toNat = 0xB5 ∧ b2.toNat = 0x2F ∧ b3.toNat = 0xFD) := by
    rw [Nat.shiftRight_eq_div_pow]; omega
  have p1 : magicBytes .gzip <+: (b0 :: b1 :: b2 :: b3 :: b4 :: b5 :: b6 :: b7 :: r) ↔ (b0.toNat = 0x1F ∧ b1.toNat = 0x8B) := by
    simp only [magicBytes, prefix_cons_iff, List.nil_prefix, and_true]
    exact and_congr (k b0 31 (by decide)) (k b1 139 (by decide))
  have p2 : magicBytes .bzip2 <+: (b0 :: b1 :: b2 :: b3 :: b4 :: b5 :: b6 :: b7 :: r) ↔ (b0.toNat = 0x42 ∧ b1.toNat = 0x5A ∧ b2.toNat = 0x68) := by
    simp only [magicBytes, prefix_cons_iff, List.nil_prefix, and_true]
    exact and_congr (k b0 66 (by decide)) (and_congr (k b1 90 (by decide)) (k b2 104 (by decide)))
  have p3 : magicBytes .xz <+: (b0 :: b1 :: b2 :: b3 :: b4 :: b5 :: b6 :: b7 :: r) ↔ (b0.toNat = 0xFD ∧ b1.toNat = 0x37 ∧ b2.toNat = 0x7A ∧ b3.toNat = 0x58 ∧ b4.toNat = 0x5A ∧ b5.toNat = 0) := by
    simp only [magicBytes, prefix_cons_iff, List.nil_prefix, and_true]
    exact and_congr (k b0 253 (by decide)) (and_congr (k b1 55 (by decide)) (and_congr (k b2 122 (by decide)) (and_congr (k b3 88 (by decide)) (and_congr (k b4 90 (by decide)) (k b5 0 (by decide))))))
  have p4 : magicBytes .lzma <+: (b0 :: b1 :: b2 :: b3 :: b4 :: b5 :: b6 :: b7 :: r) ↔ (b0.toNat = 0x5D ∧ b1.toNat = 0 ∧ b2.toNat = 0) := by
    simp only [magicBytes, prefix_cons_iff, List.nil_prefix, and_true]
    exact and_congr (k b0 93 (by decide)) (and_congr (k b1 0 (by decide)) (k b2 0 (by decide)))
  have p5 : magicBytes .lzip <+: (b0 :: b1 :: b2 :: b3 :: b4 :: b5 :: b6 :: b7 :: r) ↔ (b0.toNat = 0x4C ∧ b1.toNat = 0x5A ∧ b2.toNat = 0x49 ∧ b3.toNat = 0x50) := by
    simp only [magicBytes, prefix_cons_iff, List.nil_prefix, and_true]
    exact and_congr (k b0 76 (by decide)) (and_congr (k b1 90 (by decide)) (and_congr (k b2 73 (by decide)) (k b3 80 (by decide))))
  have p6 : magicBytes .zstd <+: (b0 :: b1 :: b2 :: b3 :: b4 :: b5 :: b6 :: b7 :: r) ↔ (b0.toNat = 0x28 ∧ b1.toNat = 0xB5 ∧ b2.toNat = 0x2F ∧ b3.toNat = 0xFD) := by
    simp only [magicBytes, prefix_cons_iff, List.nil_prefix, and_true]
    exact and_congr (k b0 40 (by decide)) (and_congr (k b1 181 (by decide)) (and_congr (k b2 47 (by decide)) (k b3 253 (by decide))))
  clear k
  intro c hc
  unfold detectComp
  simp only [g1, g2, g3, g4, g5, g6]
  cases c with
  | none => exact absurd rfl hc
  | gzip =>
    rw [p1]
    split <;> (try split) <;> (try split) <;> (try split) <;> (try split) <;> (try split) <;> simp_all
  | bzip2 =>
    rw [p2]
    split <;> (try split) <;> (try split) <;> (try split) <;> (try split) <;> (try split) <;> simp_all
  | xz =>
    rw [p3]
    split <;> (try split) <;> (try split) <;> (try split) <;> (try split) <;> (try split) <;> simp_all
  | lzma =>
    rw [p4]
    split <;> (try split) <;> (try split) <;> (try split) <;> (try split) <;> (try split) <;> simp_all
  | lzip =>
    rw [p5]
    split <;> (try split) <;> (try split) <;> (try split) <;> (try split) <;> (try split) <;> simp_all
  | zstd =>
    rw [p6]
    split <;> (try split) <;> (try split) <;> (try split) <;> (try split) <;> (try split) <;> simp_all

theorem openStream_packed (dec : Decoder) (z : Bytes) (c : Comp) (hc : c ≠ .none)
    (h : 8 ≤ z.length) (hm : magicBytes c <+: z) : openStream dec z = .ok (c, dec c z) := by
  obtain ⟨m, e, hd⟩ := detect_iff z h
  have := (hd c hc).2 hm
  unfold openStream
  rw [if_neg (by omega), e, Out.bind_ok]
  simp only [this]

theorem openStream_plain (dec : Decoder) (z : Bytes)
    (h : 8 ≤ z.length) (hm : ∀ c, c ≠ .none → ¬ magicBytes c <+: z) :
    openStream dec z = .ok (.none, z) := by
  obtain ⟨m, e, hd⟩ := detect_iff z h
  have : detectComp m = .none := by
    by_cases hn : detectComp m = .none
    · exact hn
    · exact absurd ((hd _ hn).1 rfl) (hm _ hn)
  unfold openStream
  rw [if_neg (by omega), e, Out.bind_ok]
  simp only [this]

end Drpm
